import Verif.Model.Races
import Verif.Lemmas.Layout
import Mathlib.Tactic.Linarith
import Mathlib.Tactic.Ring
import Mathlib.Data.Nat.Sqrt

/-!
C134: the parallel loops. Two threads never meet at an element that one of them writes, except at the progress counters and in the four loops that every
thread executes in full; the results do not depend on the order in which the threads run.
-/
namespace TicTac

theorem sq_digit_inj {j j' : Nat} {m m' : Int} (h : -(j : Int) ≤ m ∧ m ≤ j) (h' : -(j' : Int) ≤ m' ∧ m' ≤ j')
    (e : ((j : Int) + 1) * (j + 1) + m - j - 1 = ((j' : Int) + 1) * (j' + 1) + m' - j' - 1) : j = j' ∧ m = m' := by
  have key : j = j' := by
    rcases lt_trichotomy j j' with hl | hl | hl
    · have : (j : Int) + 1 ≤ j' := by exact_mod_cast hl
      nlinarith
    · exact hl
    · have : (j' : Int) + 1 ≤ j := by exact_mod_cast hl
      nlinarith
  subst key
  exact ⟨rfl, by linarith⟩

/-- As a natural number, below the square of the bound. -/
theorem sq_digit_nat {j J : Nat} {m : Int} (hj : j ≤ J) (h : -(j : Int) ≤ m ∧ m ≤ j) :
    ∃ n : Nat, ((j : Int) + 1) * (j + 1) + m - j - 1 = n ∧ n < (J + 1) * (J + 1) := by
  refine ⟨(((j : Int) + 1) * (j + 1) + m - j - 1).toNat, ?_, ?_⟩
  · rw [Int.toNat_of_nonneg]; nlinarith
  · have hj' : (j : Int) ≤ J := by exact_mod_cast hj
    have : ((j : Int) + 1) * (j + 1) + m - j - 1 < ((J : Int) + 1) * (J + 1) := by nlinarith
    have h2 : (0 : Int) < ((J + 1) * (J + 1) : Nat) := by positivity
    rw [Int.toNat_lt' (by positivity)]
    push_cast; exact this

theorem cg_inj {J j1 j2 j3 k1 k2 k3 : Nat} {m1 m2 n1 n2 : Int} (h1 : j1 ≤ J) (h2 : j2 ≤ J) (h3 : j3 ≤ 2 * J) (h4 : -(j1 : Int) ≤ m1 ∧ m1 ≤ j1)
    (h5 : -(j2 : Int) ≤ m2 ∧ m2 ≤ j2) (g1 : k1 ≤ J) (g2 : k2 ≤ J) (g3 : k3 ≤ 2 * J) (g4 : -(k1 : Int) ≤ n1 ∧ n1 ≤ k1)
    (g5 : -(k2 : Int) ≤ n2 ∧ n2 ≤ k2)
    (e : (((j1 : Int) + 1) * (j1 + 1) + m1 - j1 - 1) * (J + 1) * (J + 1) * (2 * J + 1) + (((j2 : Int) + 1) * (j2 + 1) + m2 - j2 - 1) * (2 * J + 1) + j3 =
      (((k1 : Int) + 1) * (k1 + 1) + n1 - k1 - 1) * (J + 1) * (J + 1) * (2 * J + 1) + (((k2 : Int) + 1) * (k2 + 1) + n2 - k2 - 1) * (2 * J + 1) + k3) :
    j1 = k1 ∧ j2 = k2 ∧ j3 = k3 := by
  obtain ⟨a, ea, _⟩ := sq_digit_nat h1 h4
  obtain ⟨b, eb, lb⟩ := sq_digit_nat h2 h5
  obtain ⟨c, ec, _⟩ := sq_digit_nat g1 g4
  obtain ⟨d, ed, ld⟩ := sq_digit_nat g2 g5
  rw [ea, eb, ec, ed] at e
  have e' : (a * ((J + 1) * (J + 1)) + b) * (2 * J + 1) + j3 = (c * ((J + 1) * (J + 1)) + d) * (2 * J + 1) + k3 := by
    have : (((a * ((J + 1) * (J + 1)) + b) * (2 * J + 1) + j3 : Nat) : Int) = ((c * ((J + 1) * (J + 1)) + d) * (2 * J + 1) + k3 : Nat) := by
      push_cast; linarith
    exact_mod_cast this
  obtain ⟨e1, e2⟩ := radix_inj (by omega) (by omega) e'
  obtain ⟨e3, e4⟩ := radix_inj lb ld e1
  subst e3 e4
  exact ⟨(sq_digit_inj h4 g4 (by rw [ea, ec])).1, (sq_digit_inj h5 g5 (by rw [eb, ed])).1, e2⟩

theorem six_inj {n a b c d e f a' b' c' d' e' f' : Nat} (h2 : b < n) (h3 : c < n) (h4 : d < n) (h5 : e < n) (h6 : f < n) (g2 : b' < n) (g3 : c' < n)
    (g4 : d' < n) (g5 : e' < n) (g6 : f' < n)
    (h : a * n * n * n * n * n + b * n * n * n * n + c * n * n * n + d * n * n + e * n + f =
      a' * n * n * n * n * n + b' * n * n * n * n + c' * n * n * n + d' * n * n + e' * n + f') : a = a' ∧ b = b' ∧ c = c' := by
  have e1 : ∀ a b c d e f, a * n * n * n * n * n + b * n * n * n * n + c * n * n * n + d * n * n + e * n + f =
      ((((a * n + b) * n + c) * n + d) * n + e) * n + f := fun a b c d e f => by ring
  rw [e1, e1] at h
  obtain ⟨h, -⟩ := radix_inj h6 g6 h
  obtain ⟨h, -⟩ := radix_inj h5 g5 h
  obtain ⟨h, -⟩ := radix_inj h4 g4 h
  obtain ⟨h, h7⟩ := radix_inj h3 g3 h
  obtain ⟨h, h8⟩ := radix_inj h2 g2 h
  exact ⟨h, h8, h7⟩

theorem phi_inj {Np Nphi qp pp i qp' pp' i' : Nat} (h2 : pp < Np) (h3 : i < Nphi) (g2 : pp' < Np) (g3 : i' < Nphi)
    (h : (qp * Np + pp) * Nphi + i = (qp' * Np + pp') * Nphi + i') : qp = qp' :=
  (radix_inj h2 g2 (radix_inj h3 g3 h).1).1

theorem cell_inj {Np Nq qp pp q p qp' pp' q' p' : Nat} (h2 : pp < Np) (h3 : q < Nq) (h4 : p < Np) (g2 : pp' < Np) (g3 : q' < Nq) (g4 : p' < Np)
    (h : qp * (Np * Nq * Np) + pp * (Nq * Np) + q * Np + p = qp' * (Np * Nq * Np) + pp' * (Nq * Np) + q' * Np + p') : qp = qp' := by
  have e1 : ∀ a b c d, a * (Np * Nq * Np) + b * (Nq * Np) + c * Np + d = ((a * Np + b) * Nq + c) * Np + d := fun a b c d => by ring
  rw [e1, e1] at h
  exact (radix_inj h2 g2 (radix_inj h3 g3 (radix_inj h4 g4 h).1).1).1

theorem krow_inj {A Nq Np a q p a' q' p' x x' : Nat} (ha : a < A) (hq : q < Nq) (hp : p < Np) (ha' : a' < A) (hq' : q' < Nq) (hp' : p' < Np)
    (h : x * (A * Nq * Np) + (a * Nq * Np + q * Np + p) = x' * (A * Nq * Np) + (a' * Nq * Np + q' * Np + p')) : a = a' := by
  have e1 : ∀ a q p, a * Nq * Np + q * Np + p = (a * Nq + q) * Np + p := fun a q p => by ring
  have lt : ∀ {a q p}, a < A → q < Nq → p < Np → a * Nq * Np + q * Np + p < A * Nq * Np := fun ha hq hp => by
    rw [e1]; exact radix_lt (radix_lt ha hq) hp
  have h2 := (radix_inj (lt ha hq hp) (lt ha' hq' hp') h).2
  rw [e1, e1] at h2
  exact (radix_inj hq hq' (radix_inj hp hp' h2).1).1

/-- Where two threads can meet. -/
def Shared (R : Region) (a : RArr) : Prop :=
  (R = .elements ∧ a = .rowsDone) ∨ (R = .keys ∧ a = .keyVec) ∨ ((R = .sortRows ∨ R = .sortCols ∨ R = .sortVals) ∧ a = .temp)

theorem same_thread {g : RaceSize} {σ : Sched} {R : Region} {t t' : Nat} {a a' : RArr} {i i' : Int} {w w' : Bool} (h : RAcc g σ R t a i w)
    (h' : RAcc g σ R t' a' i' w') (ha : a = a') (hi : i = i') (hw : w = true ∨ w' = true) (hs : ¬ Shared R a) : t = t' := by
  cases h <;> cases h' <;> (first | (cases ha; done) | skip)
  case ovPhi.ovPhi h1 h2 h3 _ _ _ g1 g2 g3 => rw [phi_inj h2 h3 g2 g3 (Int.natCast_inj.1 hi)]
  case ovWphi.ovWphi h1 h2 h3 _ _ _ g1 g2 g3 => rw [phi_inj h2 h3 g2 g3 (Int.natCast_inj.1 hi)]
  case ovCell.ovCell h1 h2 h3 h4 _ _ _ _ g1 g2 g3 g4 => rw [cell_inj h2 h3 h4 g2 g3 g4 (Int.natCast_inj.1 hi)]
  case six.six h1 h2 h3 h4 h5 h6 _ _ _ _ _ _ g1 g2 g3 g4 g5 g6 =>
    obtain ⟨e1, e2, e3⟩ := six_inj (Nat.lt_succ_of_le h2) (Nat.lt_succ_of_le h3) (Nat.lt_succ_of_le h4) (Nat.lt_succ_of_le h5) (Nat.lt_succ_of_le h6)
      (Nat.lt_succ_of_le g2) (Nat.lt_succ_of_le g3) (Nat.lt_succ_of_le g4) (Nat.lt_succ_of_le g5) (Nat.lt_succ_of_le g6) (by exact_mod_cast hi)
    rw [e1, e2, e3]
  case cg.cg h1 h2 h3 h4 h5 _ _ _ _ _ g1 g2 g3 g4 g5 =>
    obtain ⟨e1, e2, e3⟩ := cg_inj h1 h2 h3 h4 h5 g1 g2 g3 g4 g5 hi
    rw [e1, e2, e3]
  case elVal.elVal => exact RArr.val.inj ha
  case elRow.elRow => exact RArr.row.inj ha
  case elCol.elCol => exact RArr.col.inj ha
  case elDim.elDim => exact_mod_cast hi
  case elTfc.elTfc => exact_mod_cast hi
  case elDone.elDone => exact_mod_cast hi
  case elDone.elProgress => exact absurd (Or.inl ⟨rfl, rfl⟩) hs
  case elProgress.elDone => exact absurd (Or.inl ⟨rfl, rfl⟩) hs
  case elProgress.elProgress => rfl
  case key.key => exact absurd (Or.inr (Or.inl ⟨rfl, rfl⟩)) hs
  case sortRows.sortRows => exact absurd (Or.inr (Or.inr ⟨Or.inl rfl, rfl⟩)) hs
  case sortCols.sortCols => exact absurd (Or.inr (Or.inr ⟨Or.inr (Or.inl rfl), rfl⟩)) hs
  case sortVals.sortVals => exact absurd (Or.inr (Or.inr ⟨Or.inr (Or.inr rfl), rfl⟩)) hs
  case kRow.kRow h1 h2 h3 h4 h5 _ _ _ _ _ g1 g2 g3 g4 g5 => rw [krow_inj h1 h2 h3 g1 g2 g3 (by exact_mod_cast hi)]
  case kCol.kCol h1 h2 h3 _ _ g1 g2 g3 =>
    have := (radix_inj h3 g3 (by exact_mod_cast hi)).1
    congr 2; omega
  case kR2n.kR2n h1 h2 h3 _ _ g1 g2 g3 => exact (radix_inj h3 g3 (by exact_mod_cast hi)).1
  case kN2r.kN2r h1 h2 h3 _ _ g1 g2 g3 => exact (radix_inj h3 g3 (by exact_mod_cast hi)).1
  case kCount.kCount => exact_mod_cast hi
  all_goals simp at hw

/-- Two threads of a parallel region meet at an element that one of them writes exactly: at the progress counters of the permutation matrix, if thread 0 and
another thread have rows; and in the four loops of the merging of thread files, if there are two threads and an element. -/
theorem C134_race (g : RaceSize) (σ : Sched) (R : Region) (a : RArr) :
    Race g σ R a ↔
      (R = .elements ∧ a = .rowsDone ∧ 0 < g.Np ∧ ∃ qp qp', qp < g.Nq ∧ qp' < g.Nq ∧ σ .elements [qp] = 0 ∧ σ .elements [qp'] ≠ 0 ∧
        σ .elements [qp'] < g.threads) ∨
      (((R = .keys ∧ a = .keyVec) ∨ ((R = .sortRows ∨ R = .sortCols ∨ R = .sortVals) ∧ a = .temp)) ∧ 2 ≤ g.team ∧ 0 < g.nnz) := by
  constructor
  · rintro ⟨t, t', i, w, w', ne, h, h', hw⟩
    have hs : Shared R a := by
      by_contra hs
      exact ne (same_thread h h' rfl rfl hw hs)
    have two : ∀ {t t' n : Nat}, t ≠ t' → t < n → t' < n → 2 ≤ n := fun h1 h2 h3 => by omega
    rcases hs with ⟨rfl, rfl⟩ | ⟨rfl, rfl⟩ | ⟨rfl | rfl | rfl, rfl⟩
    · left
      refine ⟨rfl, rfl, ?_⟩
      generalize hi : i = i' at h'
      cases h with
      | elDone w h1 h2 =>
        cases h' with
        | elDone w' g1 g2 => exact absurd (by exact_mod_cast hi) ne
        | elProgress g1 g2 g3 g4 =>
          refine ⟨h2, _, _, g1, h1, g3, ne, ?_⟩
          have := Int.natCast_inj.1 hi; omega
      | elProgress h1 h2 h3 h4 =>
        cases h' with
        | elDone w' g1 g2 =>
          refine ⟨h2, _, _, h1, g1, h3, ne.symm, ?_⟩
          have := Int.natCast_inj.1 hi; omega
        | elProgress g1 g2 g3 g4 => exact absurd rfl ne
    · right
      refine ⟨Or.inl ⟨rfl, rfl⟩, ?_⟩
      generalize i = i' at h'
      cases h with | key h1 h2 => cases h' with | key g1 g2 => exact ⟨two ne h1 g1, by omega⟩
    · right
      refine ⟨Or.inr ⟨Or.inl rfl, rfl⟩, ?_⟩
      generalize i = i' at h'
      cases h with | sortRows h1 h2 => cases h' with | sortRows g1 g2 => exact ⟨two ne h1 g1, by omega⟩
    · right
      refine ⟨Or.inr ⟨Or.inr (Or.inl rfl), rfl⟩, ?_⟩
      generalize i = i' at h'
      cases h with | sortCols h1 h2 => cases h' with | sortCols g1 g2 => exact ⟨two ne h1 g1, by omega⟩
    · right
      refine ⟨Or.inr ⟨Or.inr (Or.inr rfl), rfl⟩, ?_⟩
      generalize i = i' at h'
      cases h with | sortVals h1 h2 => cases h' with | sortVals g1 g2 => exact ⟨two ne h1 g1, by omega⟩
  · rintro (⟨rfl, rfl, h1, qp, qp', h2, h3, h4, h5, h6⟩ | ⟨⟨rfl, rfl⟩ | ⟨rfl | rfl | rfl, rfl⟩, h1, h2⟩)
    · exact ⟨0, σ .elements [qp'], _, false, true, fun e => h5 e.symm, .elProgress h2 h1 h4 h6, .elDone true h3 h1, Or.inr rfl⟩
    · exact ⟨0, 1, ((0 : Nat) : Int), true, true, by omega, .key (by omega) h2, .key (by omega) h2, Or.inl rfl⟩
    · exact ⟨0, 1, ((0 : Nat) : Int), true, true, by omega, .sortRows (by omega) h2, .sortRows (by omega) h2, Or.inl rfl⟩
    · exact ⟨0, 1, ((0 : Nat) : Int), true, true, by omega, .sortCols (by omega) h2, .sortCols (by omega) h2, Or.inl rfl⟩
    · exact ⟨0, 1, ((0 : Nat) : Int), true, true, by omega, .sortVals (by omega) h2, .sortVals (by omega) h2, Or.inl rfl⟩

variable {V : Type}

theorem runAsg_thread (t : Nat) (F : RLoc → Prop) : ∀ (s : List (ROp V)) (m m' : RLoc → V),
    (∀ o ∈ s, o.thread = t → F o.loc ∧ ∀ l ∈ o.reads, F l) → (∀ o ∈ s, o.thread ≠ t → ¬ F o.loc) → (∀ l, F l → m l = m' l) →
    ∀ l, F l → runAsg s m l = runAsg (s.filter fun o => o.thread = t) m' l
  | [], m, m', _, _, h, l, hl => h l hl
  | o :: s, m, m', h1, h2, h, l, hl => by
    have r1 := fun o' ho' => h1 o' (List.mem_cons_of_mem _ ho')
    have r2 := fun o' ho' => h2 o' (List.mem_cons_of_mem _ ho')
    by_cases ht : o.thread = t
    · rw [List.filter_cons_of_pos (by simpa using ht)]
      refine runAsg_thread t F s _ _ r1 r2 (fun l hl => ?_) l hl
      have hr := (h1 o (List.mem_cons_self ..) ht).2
      unfold ROp.run ROp.val
      rw [List.map_congr_left fun l hl => h l (hr l hl), h l hl]
    · rw [List.filter_cons_of_neg (by simpa using ht)]
      refine runAsg_thread t F s _ _ r1 r2 (fun l hl => ?_) l hl
      unfold ROp.run
      rw [if_neg (show ¬ l = o.loc from fun e => h2 o (List.mem_cons_self ..) ht (e ▸ hl)), h l hl]

theorem runAsg_other : ∀ (s : List (ROp V)) (m : RLoc → V) (l : RLoc), (∀ o ∈ s, o.loc ≠ l) → runAsg s m l = m l
  | [], _, _, _ => rfl
  | o :: s, m, l, h => by
    show runAsg s (o.run m) l = m l
    rw [runAsg_other s _ l fun o' ho' => h o' (List.mem_cons_of_mem _ ho')]
    unfold ROp.run
    rw [if_neg (h o (List.mem_cons_self ..)).symm]

/-- Outside the merging of thread files: what the threads compute does not depend on the order in which they run. -/
theorem C134_order (g : RaceSize) (σ : Sched) (R : Region) (hR : R ≠ .keys ∧ R ≠ .sortRows ∧ R ≠ .sortCols ∧ R ≠ .sortVals) (s s' : List (ROp V))
    (hc : ∀ o ∈ s, Conforms g σ R o) (hs : ∀ t, s.filter (fun o => o.thread = t) = s'.filter fun o => o.thread = t) (m : RLoc → V) :
    runAsg s m = runAsg s' m := by
  have mem : ∀ o, o ∈ s ↔ o ∈ s' := fun o => by
    have : o ∈ s.filter (fun o' => o'.thread = o.thread) ↔ o ∈ s'.filter fun o' => o'.thread = o.thread := by rw [hs]
    simpa using this
  have nc : ∀ o ∈ s, ∀ o' ∈ s, o.thread ≠ o'.thread → o.loc ≠ o'.loc ∧ o.loc ∉ o'.reads := by
    intro o ho o' ho' ne
    have sh : ∀ l : RLoc, (l.1 = .rowsDone → l.2 = o'.thread) → o.loc = l → R = .elements → l.1 = .rowsDone → False := fun l hl e hR' h2 => by
      have h3 := (hc o ho).1
      rw [e, hl h2] at h3
      subst hR'
      rw [h2] at h3
      generalize hi : (o'.thread : Int) = i at h3
      generalize ht : o.thread = t at h3
      cases h3 with
      | elDone _ _ _ => exact ne (ht.trans (Int.natCast_inj.1 hi).symm)
    have gen : ∀ (l : RLoc) (w : Bool), RAcc g σ R o'.thread l.1 l.2 w → (l.1 = .rowsDone → l.2 = o'.thread) → o.loc ≠ l := fun l w hl hd e => by
      refine ne (same_thread (hc o ho).1 hl (by rw [e]) (by rw [e]) (Or.inl rfl) fun hsh => ?_)
      rw [e] at hsh
      rcases hsh with ⟨h1, h2⟩ | ⟨h1, _⟩ | ⟨h1 | h1 | h1, _⟩
      · exact sh l hd e h1 h2
      · exact hR.1 h1
      · exact hR.2.1 h1
      · exact hR.2.2.1 h1
      · exact hR.2.2.2 h1
    refine ⟨gen o'.loc true (hc o' ho').1 fun h2 => ?_, fun hm => gen _ false ((hc o' ho').2 _ hm).1 ((hc o' ho').2 _ hm).2 rfl⟩
    have h3 := (hc o' ho').1
    rw [h2] at h3
    generalize o'.loc.2 = i at h3 ⊢
    generalize o'.thread = t at h3 ⊢
    cases h3 with
    | elDone _ _ _ => rfl
  funext l
  by_cases hl : ∃ o ∈ s, o.loc = l
  · obtain ⟨o, ho, rfl⟩ := hl
    let F : RLoc → Prop := fun l => ∃ o' ∈ s, o'.thread = o.thread ∧ (l = o'.loc ∨ l ∈ o'.reads)
    have f1 : ∀ o' ∈ s, o'.thread = o.thread → F o'.loc ∧ ∀ l ∈ o'.reads, F l := fun o' ho' e =>
      ⟨⟨o', ho', e, Or.inl rfl⟩, fun l hl => ⟨o', ho', e, Or.inr hl⟩⟩
    have f2 : ∀ o' ∈ s, o'.thread ≠ o.thread → ¬ F o'.loc := by
      rintro o' ho' ne ⟨o2, h1, h2, h3⟩
      have := nc o' ho' o2 h1 (by rw [h2]; exact ne)
      rcases h3 with h3 | h3
      · exact this.1 h3
      · exact this.2 h3
    have fl : F o.loc := ⟨o, ho, rfl, Or.inl rfl⟩
    rw [runAsg_thread o.thread F s m m f1 f2 (fun _ _ => rfl) _ fl, hs,
      ← runAsg_thread o.thread F s' m m (fun o' ho' => f1 o' ((mem o').2 ho')) (fun o' ho' => f2 o' ((mem o').2 ho')) (fun _ _ => rfl) _ fl]
  · rw [runAsg_other s m l fun o ho e => hl ⟨o, ho, e⟩, runAsg_other s' m l fun o ho e => hl ⟨o, (mem o).2 ho, e⟩]

theorem merge_access {g : RaceSize} {σ : Sched} {R : Region} (hR : R = .keys ∨ R = .sortRows ∨ R = .sortCols ∨ R = .sortVals) {t : Nat} {a : RArr} {i : Int}
    {w : Bool} (h : RAcc g σ R t a i w) : (w = true ∧ a ≠ .table) ∨ (w = false ∧ a = .table) := by
  rcases hR with rfl | rfl | rfl | rfl <;> cases h <;> simp

/-- The loops that every thread executes in full: each element has the value of its iteration, whatever the order of the assignments. -/
theorem C134_merge (g : RaceSize) (σ : Sched) (R : Region) (hR : R = .keys ∨ R = .sortRows ∨ R = .sortCols ∨ R = .sortVals) (s : List (ROp V))
    (hc : ∀ o ∈ s, Conforms g σ R o) (hs : ∀ o ∈ s, ∀ o' ∈ s, o.loc = o'.loc → o.reads = o'.reads ∧ o.f = o'.f) (m : RLoc → V) (o : ROp V) (ho : o ∈ s) :
    runAsg s m o.loc = o.val m := by
  have key : ∀ (s : List (ROp V)) (m1 : RLoc → V), (∀ l : RLoc, l.1 = .table → m1 l = m l) → (∀ o ∈ s, Conforms g σ R o) →
      (∀ o ∈ s, ∀ o' ∈ s, o.loc = o'.loc → o.reads = o'.reads ∧ o.f = o'.f) → ∀ o ∈ s, runAsg s m1 o.loc = o.val m := by
    intro s
    induction s with
    | nil => intro _ _ _ _ o ho; cases ho
    | cons a s ih =>
      intro m1 hm hc hs o ho
      have hr : ∀ o' ∈ a :: s, o'.val m1 = o'.val m := fun o' ho' => by
        unfold ROp.val
        congr 1
        refine List.map_congr_left fun l hl => hm l ?_
        rcases merge_access hR ((hc o' ho').2 l hl).1 with h | h
        · cases h.1
        · exact h.2
      have hm' : ∀ l : RLoc, l.1 = .table → a.run m1 l = m l := fun l hl => by
        unfold ROp.run
        rw [if_neg, hm l hl]
        rintro rfl
        rcases merge_access hR (hc a (List.mem_cons_self ..)).1 with h | h
        · exact h.2 hl
        · cases h.1
      have ih' := ih (a.run m1) hm' (fun o ho => hc o (List.mem_cons_of_mem _ ho)) fun o ho o' ho' => hs o (List.mem_cons_of_mem _ ho) o' (List.mem_cons_of_mem _ ho')
      show runAsg s (a.run m1) o.loc = o.val m
      by_cases hl : ∃ o' ∈ s, o'.loc = o.loc
      · obtain ⟨o', h1, h2⟩ := hl
        rw [← h2, ih' o' h1]
        have := hs o' (List.mem_cons_of_mem _ h1) o ho h2
        unfold ROp.val
        rw [this.1, this.2]
      · rw [runAsg_other s _ _ fun o' h1 h2 => hl ⟨o', h1, h2⟩]
        have e : o = a := by
          rcases List.mem_cons.1 ho with h | h
          · exact h
          · exact absurd ⟨o, h, rfl⟩ hl
        subst e
        unfold ROp.run
        rw [if_pos rfl, hr o ho]
  exact key s m (fun _ _ => rfl) hc hs o ho

/-! ### Files written at once -/

theorem bufEvents_small {buffer n : Nat} (h : n < buffer) : ∀ e ∈ bufEvents buffer n, e = .elem := by
  intro e he
  obtain ⟨k, hk, h2⟩ := List.mem_flatMap.1 he
  have hk := List.mem_range.1 hk
  rw [if_neg (by rw [Nat.mod_eq_of_lt (by omega)]; omega)] at h2
  simpa using h2

theorem count_elems {l : List HEv} (h : ∀ e ∈ l, e = .elem) (x : HEv) (hx : x ≠ .elem) : l.count x = 0 :=
  List.count_eq_zero.2 fun h1 => hx (h x h1)

theorem writing_mem {l : List HEv} (h : Writing l) : ∃ e ∈ l, e ≠ .elem := by
  by_contra hc
  push Not at hc
  refine h ?_
  rw [count_elems hc _ (by decide), count_elems hc _ (by decide)]

theorem bufEvents_split {buffer n : Nat} (h0 : 0 < buffer) (h : buffer ≤ n) : ∃ p r, bufEvents buffer n = p ++ r ∧ Writing p := by
  obtain ⟨b, rfl⟩ : ∃ b, buffer = b + 1 := ⟨buffer - 1, by omega⟩
  obtain ⟨c, rfl⟩ : ∃ c, n = b + (1 + c) := ⟨n - (b + 1), by omega⟩
  refine ⟨bufEvents (b + 1) b ++ [.elem, .enter], .leave :: ((List.range c).map fun x => b + (1 + x)).flatMap fun k => .elem :: if (k + 1) % (b + 1) = 0 then [.enter, .leave] else [], ?_, ?_⟩
  · unfold bufEvents
    rw [List.range_add, List.range_add, List.flatMap_append]
    simp [Nat.add_assoc]
  · have hs := bufEvents_small (buffer := b + 1) (n := b) (by omega)
    unfold Writing
    rw [List.count_append, List.count_append, count_elems hs _ (by decide), count_elems hs _ (by decide)]
    decide

theorem tag_filter (u v : Nat) (l : List HEv) : ((l.map fun e => (u, e)).filter fun e => e.1 = v).map (·.2) = if u = v then l else [] := by
  by_cases h : u = v
  · rw [if_pos h, List.filter_eq_self.2 (by simp [h])]; simp
  · rw [if_neg h, List.filter_eq_nil_iff.2 (by simp [h])]; rfl

theorem others_filter (ev : Nat → List HEv) (v : Nat) : ∀ L : List Nat, L.Nodup →
    ((L.flatMap fun u => (ev u).map fun e => (u, e)).filter fun e => e.1 = v).map (·.2) = if v ∈ L then ev v else []
  | [], _ => by simp
  | u :: L, h => by
    rw [List.flatMap_cons, List.filter_append, List.map_append, tag_filter, others_filter ev v L (List.nodup_cons.1 h).2]
    by_cases hu : u = v
    · subst hu; simp [(List.nodup_cons.1 h).1]
    · simp [hu, Ne.symm hu]

/-- Two threads can be writing files at the same moment, with nothing that keeps them apart, exactly if two threads fill a buffer. -/
theorem C134_files (buffer threads : Nat) (n : Nat → Nat) (h0 : 0 < buffer) :
    (∃ s, Interleaves threads (fun t => bufEvents buffer (n t)) s ∧ TwoWriting s) ↔
      ∃ t t', t ≠ t' ∧ t < threads ∧ t' < threads ∧ buffer ≤ n t ∧ buffer ≤ n t' := by
  constructor
  · rintro ⟨s, hs, a, b, rfl, t, t', ne, h1, h2⟩
    have key : ∀ t, Writing ((a.filter fun e => e.1 = t).map (·.2)) → t < threads ∧ buffer ≤ n t := fun t h => by
      obtain ⟨e, he, hne⟩ := writing_mem h
      have hm : e ∈ ((a ++ b).filter fun e => e.1 = t).map (·.2) := by
        rw [List.filter_append, List.map_append]; exact List.mem_append_left _ he
      rw [hs t] at hm
      split_ifs at hm with ht
      · refine ⟨ht, ?_⟩
        by_contra hb
        exact hne (bufEvents_small (by omega) e hm)
      · cases hm
    exact ⟨t, t', ne, (key t h1).1, (key t' h2).1, (key t h1).2, (key t' h2).2⟩
  · rintro ⟨t, t', ne, ht, ht', h1, h2⟩
    obtain ⟨p, r, e1, w1⟩ := bufEvents_split h0 h1
    obtain ⟨p', r', e2, w2⟩ := bufEvents_split h0 h2
    let tag (u : Nat) (l : List HEv) : List (Nat × HEv) := l.map fun e => (u, e)
    let L := (List.range threads).filter fun u => u ≠ t ∧ u ≠ t'
    refine ⟨(tag t p ++ tag t' p') ++ (tag t r ++ tag t' r' ++ L.flatMap fun u => tag u (bufEvents buffer (n u))), fun v => ?_, _, _, rfl, t, t', ne, ?_, ?_⟩
    · have ho := others_filter (fun t => bufEvents buffer (n t)) v L (List.nodup_range.filter _)
      simp only [List.filter_append, List.map_append, tag, tag_filter] at ho ⊢
      rw [ho]
      by_cases hv : v = t
      · subst hv
        simp [L, ht, Ne.symm ne, e1]
      · by_cases hv' : v = t'
        · subst hv'
          simp [L, ht', ne, e2]
        · simp [L, hv, hv', Ne.symm hv, Ne.symm hv']
    · simp only [List.filter_append, List.map_append, tag, tag_filter]
      simpa [Ne.symm ne] using w1
    · simp only [List.filter_append, List.map_append, tag, tag_filter]
      simpa [ne] using w2

/-- Two threads with 25 and 40 elements and buffers of 10, and with buffers of 30. -/
theorem C134_files_example : (∃ s, Interleaves 2 (fun t => bufEvents 10 (if t = 0 then 25 else 40)) s ∧ TwoWriting s) ∧
    ¬ ∃ s, Interleaves 2 (fun t => bufEvents 30 (if t = 0 then 25 else 40)) s ∧ TwoWriting s := by
  constructor
  · exact (C134_files 10 2 (fun t => if t = 0 then 25 else 40) (by decide)).2 ⟨0, 1, by decide, by decide, by decide, by decide, by decide⟩
  · intro h
    obtain ⟨t, t', ne, h1, h2, h3, h4⟩ := (C134_files 30 2 (fun t => if t = 0 then 25 else 40) (by decide)).1 h
    split_ifs at h3 h4 <;> omega

/-! ### Examples -/

def raceEx : RaceSize := { Np := 2, Nq := 4, Nphi := 3, Nalpha := 2, j6 := 3, jcg := 2, buffer := 10, threads := 2, team := 2, nnz := 5, nE := 3, nD := 1, colStart := 4, colEnd := 8 }

/-- Thread 0 the first two rows, thread 1 the others. -/
def schedEx : Sched := fun R l => match R, l with
  | .elements, [q] => if q < 2 then 0 else 1
  | .columns, [c] => c % 2
  | _, _ => 0

theorem C134_race_example : Race raceEx schedEx .elements .rowsDone ∧ ¬ Race raceEx schedEx .columns .cpvcCols ∧ Race raceEx schedEx .keys .keyVec := by
  refine ⟨(C134_race ..).2 (Or.inl ⟨rfl, rfl, by decide, 0, 2, by decide, by decide, rfl, by decide, by decide⟩), fun h => ?_,
    (C134_race ..).2 (Or.inr ⟨Or.inl ⟨rfl, rfl⟩, by decide, by decide⟩)⟩
  rcases (C134_race ..).1 h with ⟨h1, _⟩ | ⟨⟨h1, _⟩ | ⟨h1 | h1 | h1, _⟩, _⟩ <;> cases h1

/-- Columns 4 and 5 by two threads: each sums its own element into another one, in two orders. -/
theorem C134_order_example (m : RLoc → Nat) :
    let a : ROp Nat := ⟨0, (.cpvcCols, 0), [(.cpvcCols, 1)], fun l => l.sum + 1⟩
    let b : ROp Nat := ⟨1, (.cpvcCols, 16), [(.cpvcCols, 17)], fun l => l.sum + 2⟩
    runAsg [a, b, a] m = runAsg [b, a, a] m := by
  intro a b
  have c0 : ∀ r < 16, ∀ w, RAcc raceEx schedEx .columns 0 .cpvcCols (r : Nat) w := fun r hr w => by
    have h : RAcc raceEx schedEx .columns (schedEx .columns [4]) .cpvcCols ((4 - raceEx.colStart) * raceEx.D + r : Nat) w := .kCol w (by decide) (by decide) hr
    have e1 : (4 - raceEx.colStart) * raceEx.D + r = r := by simp [raceEx]
    rw [e1] at h; exact h
  have c1 : ∀ r < 16, ∀ w, RAcc raceEx schedEx .columns 1 .cpvcCols ((16 + r : Nat) : Int) w := fun r hr w => by
    have h : RAcc raceEx schedEx .columns (schedEx .columns [5]) .cpvcCols ((5 - raceEx.colStart) * raceEx.D + r : Nat) w := .kCol w (by decide) (by decide) hr
    have e1 : (5 - raceEx.colStart) * raceEx.D + r = 16 + r := by simp [raceEx, RaceSize.D]
    rw [e1] at h; exact h
  have ha : Conforms raceEx schedEx .columns a := ⟨c0 0 (by decide) true, fun l hl => by
    simp only [a, List.mem_singleton] at hl; subst hl; exact ⟨c0 1 (by decide) false, fun h => by cases h⟩⟩
  have hb : Conforms raceEx schedEx .columns b := ⟨c1 0 (by decide) true, fun l hl => by
    simp only [b, List.mem_singleton] at hl; subst hl; exact ⟨c1 1 (by decide) false, fun h => by cases h⟩⟩
  refine C134_order raceEx schedEx .columns (by decide) _ _ (fun o ho => ?_) (fun t => ?_) m
  · simp only [List.mem_cons, List.not_mem_nil, or_false] at ho
    rcases ho with rfl | rfl | rfl <;> assumption
  · by_cases h0 : 0 = t
    · subst h0; simp [a, b]
    · by_cases h1 : 1 = t
      · subst h1; simp [a, b]
      · simp [a, b, h0, h1]

end TicTac
