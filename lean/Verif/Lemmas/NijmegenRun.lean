import Verif.Spec.NijmegenRun
import Verif.Lemmas.NijmegenNear
import Verif.Props.NijmegenSml
/-! One evaluation of the Nijmegen potential with the memory of `SEX`. -/
noncomputable section
namespace TicTac
open Polynomial Spec Set MeasureTheory

theorem TabOk.mono {m : SexMem} {j j' : Nat} {ρ : ℝ} (h : TabOk m j ρ) (hj : j' ≤ j) : TabOk m j' ρ :=
  ⟨fun i h1 h2 => h.tab i h1 (h2.trans (by unfold tabLen; split_ifs <;> omega))⟩

theorem reg_small {c : SexCall} (hc : c.Regular) : c.y ≠ 1e20 := by
  intro h
  have h1 := hc.yx
  have h2 := hc.x1
  rw [h] at h1
  have : (1e20 : ℝ) * (1 + 1) ≤ 1e20 * (c.x + 1) := mul_le_mul_of_nonneg_left (by linarith) (by norm_num)
  norm_num at this
  linarith

/-- A call whose tables were made for up to two waves fewer. -/
theorem call_step {ce1 : ℝ → ℝ} (hce : ∀ t, 0 < t → |ce1 t - Real.exp t * ei1 t| ≤ 1e-12) {c : SexCall} (hc : c.Regular) {m : SexMem} {L : Nat} (hm : c.y = m.yh → TabOk m L 1e-7)
    (h1 : L ≤ c.j) (h2 : c.j ≤ L + 2) (h3 : 1 ≤ c.j) (eln ern : Nat → ℝ) :
    ∃ m' l r, sexn ce1 m c.x c.y c.a c.j c.kom eln ern = some (m', l, r) ∧ m'.yh = c.y ∧ TabOk m' L 1e-7 ∧
      (∀ n < c.j, |r (n + 1) - sexR c n| ≤ 3 ^ n * 1.3e-7 * sexSize c) ∧
      (c.kom = 1 → 5 < c.x → ∀ n ≤ c.j, |l (n + 1) - sexL c n| ≤ 3 ^ n * 6.7e-6 * sexSize c) ∧
      (c.kom = 1 → c.x ≤ 5 → ∀ n ≤ c.j, |l (n + 1) - sexL c n| ≤ 15 ^ n * 3.3e-8 * sexSize c) := by
  obtain ⟨f1, f2, f3, f4, f5⟩ := reg_facts hc
  have hsz : sexSize c = Real.exp (c.y - (c.y * c.x - c.a * c.a)) := by unfold sexSize; congr 1; ring
  have hz : 0 < sexSize c := Real.exp_pos _
  have tabs : ∃ m', (if (|c.y * c.x - c.a * c.a - m.xyhh| < 1e-10 * (c.y * c.x - c.a * c.a) ∧ c.y = m.yh) ∧ ¬(5 < c.x ∧ m.xh ≤ 5) then some m else
        sexFill m c.x c.y c.a (Real.exp (c.y - (c.y * c.x - c.a * c.a)) / 2) (Real.exp (-c.y - (c.y * c.x - c.a * c.a)) / 2) (Real.exp (c.a * c.a)) c.j) = some m' ∧
      (∀ i, 1 ≤ i → i ≤ (if 5 < c.x then c.j + 20 else c.j) → |m'.tn i - tMom c.y (c.y * c.x - c.a * c.a) (i - 1)| ≤ 1.3e-7 * sexSize c) ∧ m'.yh = c.y ∧ TabOk { m' with xh := c.x } L 1e-7 := by
    rw [hsz]
    by_cases hk : (|c.y * c.x - c.a * c.a - m.xyhh| < 1e-10 * (c.y * c.x - c.a * c.a) ∧ c.y = m.yh) ∧ ¬(5 < c.x ∧ m.xh ≤ 5)
    · rw [if_pos hk]
      obtain ⟨⟨k1, k2⟩, k3⟩ := hk
      have ht := hm k2
      have hl : tabLen c.x L ≤ tabLen m.xh L := by
        unfold tabLen
        by_cases h5 : 5 < c.x
        · rw [if_pos h5, if_pos (by by_contra h; exact k3 ⟨h5, not_lt.1 h⟩)]
        · rw [if_neg h5]; split_ifs <;> omega
      refine ⟨m, rfl, ?_, k2.symm, ⟨fun i i1 i2 => ht.tab i i1 (i2.trans hl)⟩⟩
      intro i i1 i2
      refine (kept_tables hc (ρ := 1e-7) (by norm_num) (ht.tab i i1 ((i2.trans ?_).trans hl)) k1 k2).trans (le_of_eq (by norm_num))
      unfold tabLen
      split_ifs <;> omega
    · rw [if_neg hk]
      obtain ⟨m', e1, e2, e3, e4⟩ := sexFill_spec hc (ρ := 1e-7) (by norm_num) (start_ok hc) m
      refine ⟨m', e1, ?_, e3, ⟨?_⟩⟩
      · intro i i1 i2
        refine (e4 i i1 (i2.trans ?_)).trans (mul_le_mul_of_nonneg_right (by norm_num) (Real.exp_pos _).le)
        unfold tabLen
        split_ifs <;> omega
      · intro i i1 i2
        have := e4 i i1 (i2.trans (show tabLen c.x L ≤ tabLen c.x c.j by unfold tabLen; split_ifs <;> omega))
        change |m'.tn i - tMom m'.yh m'.xyhh (i - 1)| ≤ _ * Real.exp (m'.yh - m'.xyhh)
        rw [e2, e3]
        exact this
  obtain ⟨m', t1, t2, t3, t4⟩ := tabs
  have hl2 : c.j ≤ (if 5 < c.x then c.j + 20 else c.j) := by split_ifs <;> omega
  obtain ⟨v1, v2, v3⟩ := call_values hc (m := m') hce le_rfl (by omega) t2
  have b1 : ∀ n : Nat, (3 : ℝ) ^ n * (1.3e-7 * sexSize c) ≤ 3 ^ n * 1.3e-7 * sexSize c := fun n => le_of_eq (by ring)
  have b2 : ∀ n : Nat, (3 : ℝ) ^ n * (7e-12 * sexSize c + 51 * (1.3e-7 * sexSize c)) ≤ 3 ^ n * 6.7e-6 * sexSize c := fun n => by
    have := mul_pos (pow_pos (show (0 : ℝ) < 3 by norm_num) n) hz
    linarith
  have b3 : ∀ n : Nat, (15 : ℝ) ^ n * (1e-12 * sexSize c + 1.3e-7 * sexSize c / 4) ≤ 15 ^ n * 3.3e-8 * sexSize c := fun n => by
    have := mul_pos (pow_pos (show (0 : ℝ) < 15 by norm_num) n) hz
    linarith
  unfold sexn
  dsimp only
  rw [if_neg f1, f2, f3, f4, t1]
  dsimp only [Option.bind]
  rcases hc.kom with hk | hk
  · rw [if_neg (by omega)]
    by_cases h5 : 5 < c.x
    · simp only [if_pos h5]
      obtain ⟨um, u1, u2⟩ := v2 hk h5
      rw [u1]
      refine ⟨_, _, _, rfl, t3, t4, ?_, ?_, fun _ h => absurd h5 (not_lt.2 h)⟩
      · intro n hn; rw [if_pos ⟨by omega, by omega⟩, Nat.add_sub_cancel]; exact (v1 n (by omega)).trans (b1 n)
      · intro _ _ n hn
        rw [if_pos ⟨by omega, by omega⟩, Nat.add_sub_cancel]
        exact (u2 n hn).trans (b2 n)
    · simp only [if_neg h5]
      refine ⟨_, _, _, rfl, t3, t4, ?_, fun _ h => absurd h h5, ?_⟩
      · intro n hn; rw [if_pos ⟨by omega, by omega⟩, Nat.add_sub_cancel]; exact (v1 n (by omega)).trans (b1 n)
      · intro _ _ n hn
        rw [if_pos ⟨by omega, by omega⟩, Nat.add_sub_cancel]
        exact (v3 hk h5 n hn).trans (b3 n)
  · rw [if_pos hk]
    refine ⟨_, _, _, rfl, t3, t4, ?_, fun h => absurd h (by omega), fun h => absurd h (by omega)⟩
    intro n hn; rw [if_pos ⟨by omega, by omega⟩, Nat.add_sub_cancel]; exact (v1 n (by omega)).trans (b1 n)

/-- What one call of an evaluation may be. -/
structure StepOk (J : Nat) (ys : List ℝ) (yd : ℝ) (c : SexCall) : Prop where
  kind : (1e-3 < c.y ∧ c.Regular) ∨ (c.y ≤ 1e-3 ∧ c.Small ∧ (c.kom = 1 → c.a ≠ 0))
  len : (c.y ∈ ys ∧ J + 2 ≤ c.j ∧ c.j ≤ J + 4) ∨ (c.y = yd ∧ c.j = J + 4)

/-- What the tables must be good for during an evaluation. -/
def EvInv (J : Nat) (ys : List ℝ) (yd : ℝ) (m : SexMem) : Prop := (∀ y ∈ ys, y = m.yh → TabOk m (J + 2) 1e-7) ∧ (yd = m.yh → TabOk m (J + 4) 1e-7)

theorem runEx_good {ce1 : ℝ → ℝ} (hce : ∀ t, 0 < t → |ce1 t - Real.exp t * ei1 t| ≤ 1e-12) {fuel : Nat} (hf : 5 ≤ fuel) {J : Nat} {ys : List ℝ} {yd : ℝ} (hy : yd ∉ ys) :
    ∀ (es : List NijExchange), (∀ e ∈ es, StepOk J ys yd e.call) → ∀ (junk : Nat → (Nat → ℝ) × (Nat → ℝ)) (m : SexAll) (v : PotMom), EvInv J ys yd m.sexn →
      ∃ (m' : SexAll) (arr : List ((Nat → ℝ) × (Nat → ℝ))), runEx ce1 fuel es junk m v = some (m', ((es.zip arr).map fun t => t.1.add t.2.1 t.2.2).foldl PotMom.add v) ∧ arr.length = es.length ∧
        (∀ t ∈ es.zip arr, CallNear t.1.call t.2.1 t.2.2) ∧ EvInv J ys yd m'.sexn ∧ ((∀ e ∈ es, e.call.y ≤ 1e-3) → m'.sexn = m.sexn) ∧
        (∀ e, es.getLast? = some e → 1e-3 < e.call.y → m'.sexn.yh = e.call.y) := by
  intro es
  induction es with
  | nil => intro _ junk m v inv; exact ⟨m, [], rfl, rfl, by simp, inv, fun _ => rfl, by simp⟩
  | cons e es ih =>
    intro hall junk m v inv
    have he := hall e (by simp)
    have step : ∃ m1 l r, sexTop ce1 fuel m e.call.x e.call.y e.call.a e.call.j e.call.kom (junk 0).1 (junk 0).2 = some (m1, l, r) ∧ CallNear e.call l r ∧ EvInv J ys yd m1.sexn ∧
        (e.call.y ≤ 1e-3 → m1.sexn = m.sexn) ∧ (1e-3 < e.call.y → m1.sexn.yh = e.call.y) := by
      rcases he.kind with ⟨k1, k2⟩ | ⟨k1, k2, k3⟩
      · have top : ∀ m1 l r, sexn ce1 m.sexn e.call.x e.call.y e.call.a e.call.j e.call.kom (junk 0).1 (junk 0).2 = some (m1, l, r) →
            sexTop ce1 fuel m e.call.x e.call.y e.call.a e.call.j e.call.kom (junk 0).1 (junk 0).2 = some ({ m with sexn := m1 }, l, r) := by
          intro m1 l r h
          unfold sexTop
          rw [if_neg (not_le.2 k1), if_pos k2.x1, h]
          rfl
        rcases he.len with ⟨l1, l2, l3⟩ | ⟨l1, l2⟩
        · obtain ⟨m1, l, r, q1, q2, q3, q4, q5, q6⟩ := call_step hce k2 (m := m.sexn) (L := J + 2) (fun h => inv.1 _ l1 h) l2 (by omega) (by omega) (junk 0).1 (junk 0).2
          refine ⟨_, l, r, top _ _ _ q1, ⟨fun _ => q4, fun _ => q5, fun _ => q6, fun h => absurd k1 (not_lt.2 h), fun h => absurd k1 (not_lt.2 h), fun h => absurd k1 (not_lt.2 h)⟩,
            ⟨fun _ _ _ => q3, fun h => ?_⟩, fun h => absurd k1 (not_lt.2 h), fun _ => q2⟩
          exact absurd (by rw [h.trans q2]; exact l1) hy
        · obtain ⟨m1, l, r, q1, q2, q3, q4, q5, q6⟩ := call_step hce k2 (m := m.sexn) (L := J + 4) (fun h => inv.2 (l1.symm.trans h)) (by omega) (by omega) (by omega) (junk 0).1 (junk 0).2
          refine ⟨_, l, r, top _ _ _ q1, ⟨fun _ => q4, fun _ => q5, fun _ => q6, fun h => absurd k1 (not_lt.2 h), fun h => absurd k1 (not_lt.2 h), fun h => absurd k1 (not_lt.2 h)⟩,
            ⟨fun _ _ _ => q3.mono (by omega), fun _ => q3⟩, fun h => absurd k1 (not_lt.2 h), fun _ => q2⟩
      · obtain ⟨m1, l, r, q1, q2, q3, q4, q5, q6, -⟩ := C112_small k2 hf ce1 m (junk 0).1 (junk 0).2
        refine ⟨m1, l, r, q1, ⟨fun h => absurd k1 (not_le.2 h), fun h => absurd k1 (not_le.2 h), fun h => absurd k1 (not_le.2 h), fun _ hk => q3 (k3 hk), fun _ => q5, fun _ => q6⟩,
          by rw [q2]; exact inv, fun _ => q2, fun h => absurd k1 (not_le.2 h)⟩
    obtain ⟨m1, l, r, s1, s2, s3, s4, s5⟩ := step
    obtain ⟨m', arr, i1, i2, i3, i4, i5, i6⟩ := ih (fun d hd => hall d (List.mem_cons_of_mem _ hd)) (fun k => junk (k + 1)) m1 (v.add (e.add l r)) s3
    refine ⟨m', (l, r) :: arr, ?_, by rw [List.length_cons, List.length_cons, i2], ?_, i4, ?_, ?_⟩
    · rw [runEx, s1]
      exact i1
    · intro t ht
      rw [List.zip_cons_cons] at ht
      rcases List.mem_cons.1 ht with rfl | ht
      · exact s2
      · exact i3 t ht
    · intro h
      rw [i5 fun d hd => h d (List.mem_cons_of_mem _ hd), s4 (h e (by simp))]
    · intro d hd hy
      cases es with
      | nil =>
        simp only [List.getLast?_singleton, Option.some.injEq] at hd
        subst hd
        have : m' = m1 := by
          simp only [runEx, Option.some.injEq, Prod.mk.injEq] at i1
          exact i1.1.symm
        rw [this]
        exact s5 hy
      | cons b es =>
        rw [List.getLast?_cons_cons] at hd
        exact i6 d hd hy

/-- More about the masses and cutoffs. -/
def NijPars.Range2 (p : NijPars) : Prop := 169 ≤ p.ampom ∧ p.ama2d = p.ampom ∧ 2 * p.ampom < p.alamp ∧ 2 * p.ampom < p.alamv ∧ 2 * p.ampom < p.alams
instance (p : NijPars) : Decidable p.Range2 := by unfold NijPars.Range2; infer_instance

theorem nijTable_range2 (p : PhName) (s : Int) : (nijPars (nijTable p s)).Range2 := by
  have ii : ∀ (c : Prop) [Decidable c] (a b : List ℚ), (nijPars a).Range2 → (nijPars b).Range2 → (nijPars (if c then a else b)).Range2 := by
    intro c _ a b ha hb
    by_cases h : c
    · rwa [if_pos h]
    · rwa [if_neg h]
  unfold nijTable
  refine ii _ _ _ (ii _ _ _ ?_ ?_) (ii _ _ _ ?_ (ii _ _ _ ?_ (ii _ _ _ ?_ (ii _ _ _ ?_ (ii _ _ _ ?_ (ii _ _ _ ?_ (ii _ _ _ ?_ (ii _ _ _ ?_ (ii _ _ _ ?_ (ii _ _ _ ?_ (ii _ _ _ ?_
    (ii _ _ _ ?_ (ii _ _ _ ?_ ?_)))))))))))))
  all_goals decide +kernel

/-- The exchanges an evaluation is made of. -/
inductive ExKind (N : NijNum) (e : NijEval) : NijExchange → Prop
  | ps (m : ℝ) (c : NijCoef) (h1 : 100 ≤ m) (h2 : m ≤ 1200) (h3 : c.xq = 0 ∧ c.yt = 0 ∧ c.yls = 0 ∧ c.zs = 0 ∧ c.zc = 0) : ExKind N e (yukEx N e.p.j e.qi e.qf e.pars.alamp m (e.p.j + 2) c)
  | vec (lam : ℚ) (hl : lam = e.pars.alamv ∨ lam = e.pars.alams) (m : ℝ) (c : NijCoef) (h1 : 100 ≤ m) (h2 : m ≤ 1200) : ExKind N e (yukEx N e.p.j e.qi e.qf lam m (e.p.j + 4) c)
  | dif (c : NijCoef) : ExKind N e (difEx N e.p.j e.qi e.qf (e.pars.ampom * e.pars.ampom) (e.p.j + 4) c)

theorem all_append {α : Type} {P : α → Prop} {a b : List α} (ha : ∀ x ∈ a, P x) (hb : ∀ x ∈ b, P x) : ∀ x ∈ a ++ b, P x := by
  intro x hx
  rcases List.mem_append.1 hx with h | h
  · exact ha x h
  · exact hb x h

theorem all_ite {α : Type} {P : α → Prop} (c : Prop) [Decidable c] {a : List α} (ha : ∀ x ∈ a, P x) : ∀ x ∈ (if c then a else []), P x := by
  intro x hx
  split_ifs at hx
  · exact ha x hx
  · simp at hx

theorem exchanges_kind (N : NijNum) (e : NijEval) : ∀ x ∈ e.exchanges N, ExKind N e x := by
  obtain ⟨c1, c2, c3, c4, c5, c6, c7⟩ := nijTable_range e.p (nijIsign e.typ)
  obtain ⟨r1, r2, -⟩ := nijTable_range2 e.p (nijIsign e.typ)
  have c4 : (100 : ℝ) ≤ e.pars.ame1 ∧ (e.pars.ame1 : ℝ) ≤ 1200 := by exact_mod_cast c4
  have c5 : (100 : ℝ) ≤ e.pars.ame2 ∧ (e.pars.ame2 : ℝ) ≤ 1200 := by exact_mod_cast c5
  have r2 : e.pars.ama2d = e.pars.ampom := r2
  have hw : (waveOf e.p).j = e.p.j := rfl
  have ps : ∀ (m f : ℝ), 100 ≤ m ∧ m ≤ 1200 → ExKind N e (yukEx N e.p.j e.qi e.qf e.pars.alamp m (e.p.j + 2) (coefPs e.qi e.qf f)) :=
    fun m f h => .ps m _ h.1 h.2 ⟨rfl, rfl, rfl, rfl, rfl⟩
  have ve : ∀ (m : ℝ) (c : NijCoef), 100 ≤ m ∧ m ≤ 1200 → ExKind N e (yukEx N e.p.j e.qi e.qf e.pars.alamv m (e.p.j + 4) c) := fun m c h => .vec _ (Or.inl rfl) m c h.1 h.2
  have sc : ∀ (m : ℝ) (c : NijCoef), 100 ≤ m ∧ m ≤ 1200 → ExKind N e (yukEx N e.p.j e.qi e.qf e.pars.alams m (e.p.j + 4) c) := fun m c h => .vec _ (Or.inr rfl) m c h.1 h.2
  have di2 : ∀ (c : NijCoef), ExKind N e (difEx N e.p.j e.qi e.qf (e.pars.ama2d * e.pars.ama2d) (e.p.j + 4) c) := fun c => by rw [r2]; exact .dif c
  unfold NijEval.exchanges
  dsimp only
  rw [hw]
  change ∀ x ∈ nijPs N e.p.j e.qi e.qf e.pars _ _ e.typ ++ nijVec N e.p.j e.qi e.qf e.pars _ _ e.typ ++ nijSc N e.p.j e.qi e.qf e.pars _ _ e.typ ++ nijDif N e.p.j e.qi e.qf e.pars _ _ e.typ, _
  refine all_append (all_append (all_append (all_append ?_ (all_ite _ ?_)) (all_append ?_ (all_ite _ ?_))) (all_append ?_ (all_ite _ ?_))) (all_append ?_ (all_ite _ ?_))
  all_goals simp only [List.forall_mem_cons, List.not_mem_nil, false_imp_iff, implies_true, and_true]
  · exact ⟨ps _ _ (by norm_num [nijAmpi]), ps _ _ (by norm_num [nijAmeta]), ps _ _ (by norm_num [nijAmetp])⟩
  · exact ps _ _ (charged_range _ (by norm_num [nijAmpic]))
  · exact ⟨ve _ _ (by norm_num [nijAmr1]), ve _ _ (by norm_num [nijAmr2]), ve _ _ (by norm_num [nijAmom]), ve _ _ (by norm_num [nijAmfi])⟩
  · exact ⟨ve _ _ (charged_range _ (by norm_num [nijAmrc1])), ve _ _ (charged_range _ (by norm_num [nijAmrc2]))⟩
  · exact ⟨sc _ _ (by norm_num [nijAma0]), sc _ _ c4, sc _ _ c5, sc _ _ (by norm_num [nijAmf0])⟩
  · exact sc _ _ (charged_range _ (by norm_num [nijAma0c]))
  · exact ⟨.dif _, di2 _⟩
  · exact di2 _

theorem yuk_kind {qi qf lam m : ℝ} (h1 : 0 < qi) (h2 : 0 < qf) (h3 : qi + qf ≤ 3300) (hl : 500 ≤ lam ∧ lam ≤ 1000) (hm : 100 ≤ m ∧ m ≤ 1200) (N : NijNum) (J j : Nat) (hj : j ≤ 8) (c : NijCoef) :
    (1e-3 < (yukEx N J qi qf lam m j c).call.y ∧ (yukEx N J qi qf lam m j c).call.Regular) ∨
    ((yukEx N J qi qf lam m j c).call.y ≤ 1e-3 ∧ (yukEx N J qi qf lam m j c).call.Small ∧ ((yukEx N J qi qf lam m j c).call.kom = 1 → (yukEx N J qi qf lam m j c).call.a ≠ 0)) := by
  have q0 : 0 < qi * qf := mul_pos h1 h2
  have l0 : 0 < lam := by linarith
  have l1 : 250000 ≤ lam * lam := by nlinarith
  have l2 : lam * lam ≤ 1000000 := by nlinarith
  have m1 : 10000 ≤ m * m := by nlinarith
  have m2 : m * m ≤ 1440000 := by nlinarith
  have hs : (qi + qf) ^ 2 ≤ 3300 ^ 2 := pow_le_pow_left₀ (by linarith) h3 2
  have hx : 0.5 * (qi * qi + qf * qf) / (qi * qf) + 0.5 * (m * m) / (qi * qf) = 1 + (0.5 * (qi - qf) ^ 2 + 0.5 * (m * m)) / (qi * qf) := by field_simp; ring
  have ha : m / lam ≠ 0 := (div_pos (by linarith) l0).ne'
  have hyx : 2 * (qi * qf) / (lam * lam) * (0.5 * (qi * qi + qf * qf) / (qi * qf) + 0.5 * (m * m) / (qi * qf)) = (qi * qi + qf * qf + m * m) / (lam * lam) := by field_simp; ring
  have pos : 0 < (0.5 * (qi - qf) ^ 2 + 0.5 * (m * m)) / (qi * qf) := div_pos (by positivity) q0
  have p2 := mul_pos h1 h1
  have p3 := mul_pos h2 h2
  rcases lt_or_ge 1e-3 (2 * (qi * qf) / (lam * lam)) with h | h
  · refine Or.inl ⟨h, ⟨?_, fun _ => ?_, h, ?_, ?_, hj, Or.inl rfl⟩⟩
    · change 1 ≤ 0.5 * (qi * qi + qf * qf) / (qi * qf) + 0.5 * (m * m) / (qi * qf)
      rw [hx]; linarith
    · change 1 < 0.5 * (qi * qi + qf * qf) / (qi * qf) + 0.5 * (m * m) / (qi * qf)
      rw [hx]; linarith
    · change 2 * (qi * qf) / (lam * lam) * (0.5 * (qi * qi + qf * qf) / (qi * qf) + 0.5 * (m * m) / (qi * qf) + 1) < 100
      rw [mul_add, hyx, mul_one, ← add_div, div_lt_iff₀ (by linarith)]
      nlinarith
    · change (m / lam) ^ 2 ≤ 60
      rw [div_pow, div_le_iff₀ (by positivity)]
      nlinarith
  · refine Or.inr ⟨h, ⟨?_, fun _ => ?_, ?_, h, ?_, ?_⟩, fun _ => ha⟩
    · change 1 ≤ 0.5 * (qi * qi + qf * qf) / (qi * qf) + 0.5 * (m * m) / (qi * qf)
      rw [hx]; linarith
    · change 2 ≤ 0.5 * (qi * qi + qf * qf) / (qi * qf) + 0.5 * (m * m) / (qi * qf)
      have hq : qi * qf ≤ 500 := by
        rw [div_le_iff₀ (by linarith)] at h
        norm_num at h
        linarith
      have : 1 ≤ (0.5 * (qi - qf) ^ 2 + 0.5 * (m * m)) / (qi * qf) := by
        rw [le_div_iff₀ q0]
        nlinarith [sq_nonneg (qi - qf)]
      rw [hx]; linarith
    · exact div_pos (by linarith) (by linarith)
    · change 2 * (qi * qf) / (lam * lam) * (0.5 * (qi * qi + qf * qf) / (qi * qf) + 0.5 * (m * m) / (qi * qf)) < 100
      rw [hyx, div_lt_iff₀ (by linarith)]
      nlinarith
    · change j ≤ 11
      omega

theorem dif_kind {qi qf m : ℝ} (h1 : 0 < qi) (h2 : 0 < qf) (h3 : qi + qf ≤ 3300) (hm : 169 ≤ m) (N : NijNum) (J j : Nat) (hj : j ≤ 8) (c : NijCoef) :
    (1e-3 < (difEx N J qi qf (m * m) j c).call.y ∧ (difEx N J qi qf (m * m) j c).call.Regular) ∨
    ((difEx N J qi qf (m * m) j c).call.y ≤ 1e-3 ∧ (difEx N J qi qf (m * m) j c).call.Small ∧ ((difEx N J qi qf (m * m) j c).call.kom = 1 → (difEx N J qi qf (m * m) j c).call.a ≠ 0)) := by
  have q0 : 0 < qi * qf := mul_pos h1 h2
  have m1 : 28561 ≤ m * m := by nlinarith
  have hs : (qi + qf) ^ 2 ≤ 3300 ^ 2 := pow_le_pow_left₀ (by linarith) h3 2
  have hx : 1 ≤ 0.5 * (qi * qi + qf * qf) / (qi * qf) := by
    rw [le_div_iff₀ q0]
    nlinarith [sq_nonneg (qi - qf)]
  have hyx : 0.5 * (qi * qf) / (m * m) * (0.5 * (qi * qi + qf * qf) / (qi * qf)) = 0.25 * (qi * qi + qf * qf) / (m * m) := by field_simp; ring
  have p2 := mul_pos h1 h1
  have p3 := mul_pos h2 h2
  rcases lt_or_ge 1e-3 (0.5 * (qi * qf) / (m * m)) with h | h
  · refine Or.inl ⟨h, ⟨hx, fun h => absurd h (by decide : ¬ (2 : Nat) = 1), h, ?_, ?_, hj, Or.inr rfl⟩⟩
    · change 0.5 * (qi * qf) / (m * m) * (0.5 * (qi * qi + qf * qf) / (qi * qf) + 1) < 100
      rw [mul_add, hyx, mul_one, ← add_div, div_lt_iff₀ (by linarith)]
      nlinarith
    · change (0 : ℝ) ^ 2 ≤ 60
      norm_num
  · refine Or.inr ⟨h, ⟨hx, fun h => absurd rfl h, ?_, h, ?_, ?_⟩, fun h => absurd h (by decide : ¬ (2 : Nat) = 1)⟩
    · exact div_pos (by linarith) (by linarith)
    · change 0.5 * (qi * qf) / (m * m) * (0.5 * (qi * qi + qf * qf) / (qi * qf)) < 100
      rw [hyx, div_lt_iff₀ (by linarith)]
      nlinarith
    · change j ≤ 11
      omega

/-- The three values of `y` with a cutoff. -/
def NijEval.ys (e : NijEval) : List ℝ := [e.yCut e.pars.alamp, e.yCut e.pars.alamv, e.yCut e.pars.alams]

theorem ys_lt {e : NijEval} (h1 : 0 < e.qi) (h2 : 0 < e.qf) : ∀ y ∈ e.ys, y < e.yDif := by
  obtain ⟨r1, -, r3, r4, r5⟩ := nijTable_range2 e.p (nijIsign e.typ)
  have q0 := mul_pos h1 h2
  have key : ∀ lam : ℚ, 2 * e.pars.ampom < lam → e.yCut lam < e.yDif := by
    intro lam hl
    have m0 : (169 : ℝ) ≤ e.pars.ampom := by exact_mod_cast r1
    have hl : 2 * (e.pars.ampom : ℝ) < lam := by exact_mod_cast hl
    unfold NijEval.yCut NijEval.yDif
    generalize (e.pars.ampom : ℝ) = M at *
    generalize (lam : ℝ) = L at *
    rw [div_lt_div_iff₀ (by nlinarith) (by nlinarith)]
    have : 4 * (M * M) < L * L := by nlinarith
    nlinarith
  intro y hy
  simp only [NijEval.ys, List.mem_cons, List.not_mem_nil, or_false] at hy
  rcases hy with rfl | rfl | rfl
  · exact key _ r3
  · exact key _ r4
  · exact key _ r5

theorem evalCalls_ok (N : NijNum) {e : NijEval} (he : e.Covered) : ∀ x ∈ e.exchanges N, StepOk e.p.j e.ys e.yDif x.call := by
  obtain ⟨c1, c2, c3, -⟩ := nijTable_range e.p (nijIsign e.typ)
  obtain ⟨r1, -⟩ := nijTable_range2 e.p (nijIsign e.typ)
  have c1 : (500 : ℝ) ≤ e.pars.alamp ∧ (e.pars.alamp : ℝ) ≤ 1000 := by exact_mod_cast c1
  have c2 : (500 : ℝ) ≤ e.pars.alamv ∧ (e.pars.alamv : ℝ) ≤ 1000 := by exact_mod_cast c2
  have c3 : (500 : ℝ) ≤ e.pars.alams ∧ (e.pars.alams : ℝ) ≤ 1000 := by exact_mod_cast c3
  have r1 : (169 : ℝ) ≤ e.pars.ampom := by exact_mod_cast r1
  have hj := he.j
  intro x hx
  cases exchanges_kind N e x hx with
  | ps m c h1 h2 h3 =>
    exact ⟨yuk_kind he.qi he.qf he.sum c1 ⟨h1, h2⟩ N _ _ (by omega) c, Or.inl ⟨List.mem_cons_self .., le_rfl, by change e.p.j + 2 ≤ e.p.j + 4; omega⟩⟩
  | vec lam hl m c h1 h2 =>
    have cl : (500 : ℝ) ≤ lam ∧ (lam : ℝ) ≤ 1000 := by rcases hl with rfl | rfl; exacts [c2, c3]
    refine ⟨yuk_kind he.qi he.qf he.sum cl ⟨h1, h2⟩ N _ _ (by omega) c, Or.inl ⟨?_, by change e.p.j + 2 ≤ e.p.j + 4; omega, le_rfl⟩⟩
    change e.yCut lam ∈ e.ys
    rcases hl with rfl | rfl <;> simp [NijEval.ys]
  | dif c => exact ⟨dif_kind he.qi he.qf he.sum r1 N _ _ (by omega) c, Or.inr ⟨rfl, rfl⟩⟩

theorem exchanges_last (N : NijNum) (e : NijEval) : ∃ x, (e.exchanges N).getLast? = some x ∧ x.call.y = e.yDif := by
  obtain ⟨-, r2, -⟩ := nijTable_range2 e.p (nijIsign e.typ)
  have r2 : e.pars.ama2d = e.pars.ampom := r2
  unfold NijEval.exchanges
  dsimp only
  change ∃ x, (_ ++ nijDif N _ e.qi e.qf e.pars _ _ e.typ).getLast? = some x ∧ _
  unfold nijDif
  by_cases ht : e.typ = .pn
  · simp only [if_pos ht]
    refine ⟨_, by rw [List.getLast?_append, List.getLast?_append, List.getLast?_singleton]; rfl, ?_⟩
    change 0.5 * (e.qi * e.qf) / (e.pars.ama2d * e.pars.ama2d : ℝ) = _
    rw [r2]; rfl
  · simp only [if_neg ht, List.append_nil]
    refine ⟨_, by rw [List.getLast?_append, List.getLast?_cons_cons, List.getLast?_singleton]; rfl, ?_⟩
    change 0.5 * (e.qi * e.qf) / (e.pars.ama2d * e.pars.ama2d : ℝ) = _
    rw [r2]; rfl

/-- What is left in the tables after a history of evaluations. -/
def HistInv (h : List NijEval) (m : SexMem) : Prop := ((∀ d ∈ h, d.yDif ≤ 1e-3) ∧ m.yh = 1e20) ∨
  ∃ newer d older, h = newer ++ d :: older ∧ (∀ b ∈ newer, b.yDif ≤ 1e-3) ∧ 1e-3 < d.yDif ∧ m.yh = d.yDif ∧ TabOk m (d.p.j + 4) 1e-7

/-- One evaluation after a history. -/
theorem eval_step {N : NijNum} (hce : ∀ t, 0 < t → |N.ce1 t - Real.exp t * ei1 t| ≤ 1e-12) {fuel : Nat} (hf : 5 ≤ fuel) {h : List NijEval} {e : NijEval} (he : e.Covered) (hs : NijSteady (e :: h)) {m : SexAll}
    (inv : HistInv h m.sexn) (junk : Nat → (Nat → ℝ) × (Nat → ℝ)) :
    ∃ (m' : SexAll) (arr : List ((Nat → ℝ) × (Nat → ℝ))), vmomRun N fuel junk m e = some (m', (((e.exchanges N).zip arr).map fun t => t.1.add t.2.1 t.2.2).foldl PotMom.add PotMom.zero) ∧
      arr.length = (e.exchanges N).length ∧ (∀ t ∈ (e.exchanges N).zip arr, CallNear t.1.call t.2.1 t.2.2) ∧ HistInv (e :: h) m'.sexn := by
  have hlt := ys_lt he.qi he.qf
  have hall := evalCalls_ok N he
  have big : ∀ x ∈ e.exchanges N, x.call.y ≠ 1e20 := by
    intro x hx
    rcases (hall x hx).kind with ⟨-, k⟩ | ⟨k, -⟩
    · exact reg_small k
    · intro h; rw [h] at k; norm_num at k
  obtain ⟨xl, xl1, xl2⟩ := exchanges_last N e
  have xlm := List.mem_of_getLast? xl1
  have ysm : ∀ y ∈ e.ys, y ≠ 1e20 := by
    intro y hy h
    have h1 := hlt y hy
    have h2 : e.yDif < 1e20 := by
      rw [← xl2]
      rcases (hall xl xlm).kind with ⟨-, k⟩ | ⟨k, -⟩
      · have := k.yx; have := k.x1; have := k.y1
        have : xl.call.y < 100 := by nlinarith
        exact this.trans (by norm_num)
      · exact k.trans_lt (by norm_num)
    linarith
  have ev : EvInv e.p.j e.ys e.yDif m.sexn := by
    rcases inv with ⟨-, i2⟩ | ⟨newer, d, older, i1, i2, i3, i4, i5⟩
    · exact ⟨fun y hy h => absurd (h.trans i2) (ysm y hy), fun h => absurd (xl2.trans (h.trans i2)) (big xl xlm)⟩
    · rcases hs.1 newer d older i1 i2 i3 with hj | ⟨n1, n2, n3, n4⟩
      · exact ⟨fun _ _ _ => i5.mono (by omega), fun _ => i5.mono (by omega)⟩
      · refine ⟨fun y hy h => ?_, fun h => absurd (h.trans i4) n4⟩
        exfalso
        have h := h.trans i4
        simp only [NijEval.ys, List.mem_cons, List.not_mem_nil, or_false] at hy
        rcases hy with rfl | rfl | rfl
        exacts [n1 h, n2 h, n3 h]
  obtain ⟨m', arr, g1, g2, g3, g4, g5, g6⟩ := runEx_good hce hf (fun h => lt_irrefl _ (hlt _ h)) (e.exchanges N) hall junk m PotMom.zero ev
  refine ⟨m', arr, g1, g2, g3, ?_⟩
  rcases lt_or_ge 1e-3 e.yDif with hy | hy
  · have hk := (g6 xl xl1 (by rw [xl2]; exact hy)).trans xl2
    exact Or.inr ⟨[], e, h, rfl, by simp, hy, hk, g4.2 hk.symm⟩
  · have hsame : m'.sexn = m.sexn := g5 fun x hx => by
      rcases (hall x hx).len with ⟨l, -⟩ | ⟨l, -⟩
      · exact (hlt _ l).le.trans hy
      · rw [l]; exact hy
    rw [hsame]
    rcases inv with ⟨i1, i2⟩ | ⟨newer, d, older, i1, i2, i3, i4, i5⟩
    · exact Or.inl ⟨by simpa using ⟨hy, i1⟩, i2⟩
    · exact Or.inr ⟨e :: newer, d, older, by rw [i1]; rfl, by simpa using ⟨hy, i2⟩, i3, i4, i5⟩

theorem reach_hist {N : NijNum} (hce : ∀ t, 0 < t → |N.ce1 t - Real.exp t * ei1 t| ≤ 1e-12) {fuel : Nat} (hf : 5 ≤ fuel) {h : List NijEval} {m : SexAll} (hr : NijReach N fuel h m) :
    (∀ e ∈ h, e.Covered) → NijSteady h → HistInv h m.sexn := by
  induction hr with
  | start tn => intro _ _; exact Or.inl ⟨by simp, rfl⟩
  | @eval h m m' e junk v hr q ih =>
    intro hc hs
    obtain ⟨m2, arr, g1, -, -, g4⟩ := eval_step hce hf (hc e (by simp)) hs (ih (fun d hd => hc d (List.mem_cons_of_mem _ hd)) hs.2) junk
    rw [q] at g1
    simp only [Option.some.injEq, Prod.mk.injEq] at g1
    rw [g1.1]
    exact g4

end TicTac
end
