import Verif.Spec.PWStates
import Mathlib.Data.List.Nodup
import Mathlib.Data.List.Flatten
import Mathlib.Tactic.Linarith
namespace TicTac
open Spec

theorem mem_forRange {lo hi step x : Int} (hs : 0 < step) :
    x ∈ forRange lo hi step ↔ lo ≤ x ∧ x ≤ hi ∧ (x - lo) % step = 0 := by
  unfold forRange
  rw [List.mem_map]
  constructor
  · rintro ⟨k, hk, rfl⟩
    rw [List.mem_range] at hk
    have h1 : (k : Int) ≤ (hi - lo) / step := by omega
    have h2 : (k : Int) * step ≤ hi - lo := (Int.le_ediv_iff_mul_le hs).1 h1
    refine ⟨?_, ?_, ?_⟩
    · have := Int.mul_nonneg (Int.le_of_lt hs) (Int.natCast_nonneg k); omega
    · rw [Int.mul_comm] at h2; omega
    · have : lo + step * (k : Int) - lo = step * k := by omega
      rw [this]; exact Int.mul_emod_right _ _
  · rintro ⟨h1, h2, h3⟩
    have hd := Int.mul_ediv_add_emod (x - lo) step
    rw [h3] at hd
    have hq : 0 ≤ (x - lo) / step := Int.ediv_nonneg (by omega) (Int.le_of_lt hs)
    have hle : (x - lo) / step ≤ (hi - lo) / step := Int.ediv_le_ediv hs (by omega)
    refine ⟨((x - lo) / step).toNat, ?_, ?_⟩
    · rw [List.mem_range]; omega
    · rw [Int.toNat_of_nonneg hq]; omega

theorem mem_forRange_one {lo hi x : Int} : x ∈ forRange lo hi 1 ↔ lo ≤ x ∧ x ≤ hi := by
  rw [mem_forRange (by omega)]; omega

theorem mem_forRange_two {lo hi x : Int} : x ∈ forRange lo hi 2 ↔ lo ≤ x ∧ x ≤ hi ∧ (x - lo) % 2 = 0 :=
  mem_forRange (by omega)

theorem nodup_forRange {lo hi step : Int} (hs : 0 < step) : (forRange lo hi step).Nodup := by
  unfold forRange
  refine List.Nodup.map ?_ List.nodup_range
  intro a b h
  have h' : step * (a : Int) = step * (b : Int) := by simpa using h
  have := Int.eq_of_mul_eq_mul_left (by omega) h'
  omega

theorem nodup_flatMap_key {α β : Type*} {l : List α} {f : α → List β} (key : β → α)
    (hl : l.Nodup) (hf : ∀ x ∈ l, (f x).Nodup) (hk : ∀ x ∈ l, ∀ y ∈ f x, key y = x) :
    (l.flatMap f).Nodup := by
  rw [List.nodup_flatMap]
  refine ⟨hf, ?_⟩
  refine List.Pairwise.imp_of_mem ?_ hl
  intro a b ha hb hab
  rw [Function.onFun, List.disjoint_left]
  intro y hy1 hy2
  exact hab ((hk a ha y hy1).symm.trans (hk b hb y hy2))

theorem mem_loopL1 {twoJ3 rem twoT3 J S L T twoj : Int} {s : PWState} :
    s ∈ loopL1 twoJ3 rem twoT3 J S L T twoj ↔
      (((twoj - 1).natAbs / 2 : Int) ≤ s.l ∧ s.l ≤ (twoj + 1) / 2) ∧ (L + s.l) % 2 = rem ∧
      ¬ (twoT3 = 3 ∧ ¬ (S = 0 ∧ L = 0 ∧ J = 0)) ∧
      s.L = L ∧ s.S = S ∧ s.J = J ∧ s.T = T ∧ s.twoj = twoj ∧ s.twoJ3 = twoJ3 ∧ s.twoT3 = twoT3 ∧
      s.P = 1 - 2 * rem := by
  unfold loopL1
  simp only [List.mem_flatMap, mem_forRange_one]
  constructor
  · rintro ⟨l, hl, hs⟩
    split at hs
    · split at hs
      · simp at hs
      · rename_i h1 h2
        simp only [List.mem_singleton] at hs
        subst hs
        exact ⟨hl, h1, h2, rfl, rfl, rfl, rfl, rfl, rfl, rfl, rfl⟩
    · simp at hs
  · rintro ⟨hl, h1, h2, h3⟩
    refine ⟨s.l, hl, ?_⟩
    rw [if_pos h1, if_neg h2]
    obtain ⟨a1, a2, a3, a4, a5, a6, a7, a8⟩ := h3
    cases s
    simp_all

theorem mem_loopT {twoJ3 rem twoT3 J S L : Int} {s : PWState} :
    s ∈ loopT twoJ3 rem twoT3 J S L ↔
      ((((twoT3 - 1).natAbs / 2 : Int)) ≤ s.T ∧ s.T ≤ (if (twoT3 + 1) / 2 > 1 then 1 else (twoT3 + 1) / 2)) ∧
      (L + S + s.T) % 2 ≠ 0 ∧
      (((twoJ3 - 2 * J).natAbs : Int) ≤ s.twoj ∧ s.twoj ≤ twoJ3 + 2 * J ∧
        (s.twoj - ((twoJ3 - 2 * J).natAbs : Int)) % 2 = 0) ∧
      (((s.twoj - 1).natAbs / 2 : Int) ≤ s.l ∧ s.l ≤ (s.twoj + 1) / 2) ∧ (L + s.l) % 2 = rem ∧
      ¬ (twoT3 = 3 ∧ ¬ (S = 0 ∧ L = 0 ∧ J = 0)) ∧
      s.L = L ∧ s.S = S ∧ s.J = J ∧ s.twoJ3 = twoJ3 ∧ s.twoT3 = twoT3 ∧ s.P = 1 - 2 * rem := by
  unfold loopT
  simp only [List.mem_flatMap, mem_forRange_one]
  constructor
  · rintro ⟨T, hT, hs⟩
    split at hs
    · rename_i hp
      simp only [List.mem_flatMap, mem_forRange_two, mem_loopL1] at hs
      obtain ⟨tj, htj, h1, h2, h3, a1, a2, a3, a4, a5, a6, a7, a8⟩ := hs
      subst a4 a5
      exact ⟨hT, hp, htj, h1, h2, h3, a1, a2, a3, a6, a7, a8⟩
    · simp at hs
  · rintro ⟨hT, hp, htj, h1, h2, h3, a1, a2, a3, a6, a7, a8⟩
    refine ⟨s.T, hT, ?_⟩
    rw [if_pos hp]
    simp only [List.mem_flatMap, mem_forRange_two, mem_loopL1]
    exact ⟨s.twoj, htj, h1, h2, h3, a1, a2, a3, trivial, rfl, a6, a7, a8⟩

/-- What the loop nest admits, in the code's own terms. -/
theorem mem_channelStates {p : PWParams} {twoJ3 rem : Int} {s : PWState} :
    s ∈ channelStates p twoJ3 rem ↔
      (1 ≤ s.twoT3 ∧ s.twoT3 ≤ twoT3max p ∧ (s.twoT3 - 1) % 2 = 0) ∧
      (0 ≤ s.J ∧ s.J ≤ p.J2max) ∧ (0 ≤ s.S ∧ s.S ≤ 1) ∧
      (((s.J - s.S).natAbs : Int) ≤ s.L ∧ s.L ≤ s.J + s.S) ∧
      ((((s.twoT3 - 1).natAbs / 2 : Int)) ≤ s.T ∧
        s.T ≤ (if (s.twoT3 + 1) / 2 > 1 then 1 else (s.twoT3 + 1) / 2)) ∧
      (s.L + s.S + s.T) % 2 ≠ 0 ∧
      (((twoJ3 - 2 * s.J).natAbs : Int) ≤ s.twoj ∧ s.twoj ≤ twoJ3 + 2 * s.J ∧
        (s.twoj - ((twoJ3 - 2 * s.J).natAbs : Int)) % 2 = 0) ∧
      (((s.twoj - 1).natAbs / 2 : Int) ≤ s.l ∧ s.l ≤ (s.twoj + 1) / 2) ∧ (s.L + s.l) % 2 = rem ∧
      ¬ (s.twoT3 = 3 ∧ ¬ (s.S = 0 ∧ s.L = 0 ∧ s.J = 0)) ∧
      s.twoJ3 = twoJ3 ∧ s.P = 1 - 2 * rem := by
  unfold channelStates
  simp only [List.mem_flatMap, mem_forRange_one, mem_forRange_two, mem_loopT]
  constructor
  · rintro ⟨t, ht, J, hJ, S, hS, L, hL, h1, h2, h3, h4, h5, h6, a1, a2, a3, a4, a5, a6⟩
    subst a1 a2 a3 a5
    exact ⟨ht, hJ, hS, hL, h1, h2, h3, h4, h5, h6, a4, a6⟩
  · rintro ⟨ht, hJ, hS, hL, h1, h2, h3, h4, h5, h6, a4, a6⟩
    exact ⟨_, ht, _, hJ, _, hS, _, hL, h1, h2, h3, h4, h5, h6, rfl, rfl, rfl, a4, rfl, a6⟩

theorem mem_channelLoop {p : PWParams} {c : Int × Int} :
    c ∈ channelLoop p ↔ (1 ≤ c.1 ∧ c.1 ≤ p.twoJ3max ∧ (c.1 - 1) % 2 = 0) ∧ (0 ≤ c.2 ∧ c.2 ≤ 1) := by
  unfold channelLoop
  simp only [List.mem_flatMap, List.mem_map, mem_forRange_one, mem_forRange_two]
  constructor
  · rintro ⟨a, ha, b, hb, rfl⟩; exact ⟨ha, hb⟩
  · rintro ⟨ha, hb⟩; exact ⟨_, ha, _, hb, rfl⟩

theorem nodup_loopL1 {twoJ3 rem twoT3 J S L T twoj : Int} : (loopL1 twoJ3 rem twoT3 J S L T twoj).Nodup := by
  unfold loopL1
  refine nodup_flatMap_key PWState.l (nodup_forRange (by omega)) ?_ ?_
  · intro x _; split <;> (try split) <;> simp
  · intro x _ y hy
    split at hy
    · split at hy
      · simp at hy
      · simp only [List.mem_singleton] at hy; subst hy; rfl
    · simp at hy

theorem nodup_loopT {twoJ3 rem twoT3 J S L : Int} : (loopT twoJ3 rem twoT3 J S L).Nodup := by
  unfold loopT
  refine nodup_flatMap_key PWState.T (nodup_forRange (by omega)) ?_ ?_
  · intro x _
    split
    · refine nodup_flatMap_key PWState.twoj (nodup_forRange (by omega)) (fun _ _ => nodup_loopL1) ?_
      intro x _ y hy
      rw [mem_loopL1] at hy
      exact hy.2.2.2.2.2.2.2.1
    · simp
  · intro x _ y hy
    split at hy
    · simp only [List.mem_flatMap, mem_loopL1] at hy
      obtain ⟨_, _, hy⟩ := hy
      exact hy.2.2.2.2.2.2.1
    · simp at hy

theorem nodup_channelStates (p : PWParams) (twoJ3 rem : Int) : (channelStates p twoJ3 rem).Nodup := by
  unfold channelStates
  refine nodup_flatMap_key PWState.twoT3 (nodup_forRange (by omega)) ?_ ?_
  · intro t _
    refine nodup_flatMap_key PWState.J (nodup_forRange (by omega)) ?_ ?_
    · intro J _
      refine nodup_flatMap_key PWState.S (nodup_forRange (by omega)) ?_ ?_
      · intro S _
        refine nodup_flatMap_key PWState.L (nodup_forRange (by omega)) (fun _ _ => nodup_loopT) ?_
        intro x _ y hy
        rw [mem_loopT] at hy
        exact hy.2.2.2.2.2.2.1
      · intro x _ y hy
        simp only [List.mem_flatMap, mem_loopT] at hy
        obtain ⟨_, _, hy⟩ := hy
        exact hy.2.2.2.2.2.2.2.1
    · intro x _ y hy
      simp only [List.mem_flatMap, mem_loopT] at hy
      obtain ⟨_, _, _, _, hy⟩ := hy
      exact hy.2.2.2.2.2.2.2.2.1
  · intro x _ y hy
    simp only [List.mem_flatMap, mem_loopT] at hy
    obtain ⟨_, _, _, _, _, _, hy⟩ := hy
    exact hy.2.2.2.2.2.2.2.2.2.2.1

theorem nodup_channelLoop (p : PWParams) : (channelLoop p).Nodup := by
  unfold channelLoop
  refine nodup_flatMap_key Prod.fst (nodup_forRange (by omega)) ?_ ?_
  · intro x _
    refine List.Nodup.map ?_ (nodup_forRange (by omega))
    intro a b h; simpa using h
  · intro x _ y hy
    simp only [List.mem_map] at hy
    obtain ⟨_, _, rfl⟩ := hy; rfl

/-- The fold just concatenates the channel blocks. -/
theorem pwLoop_states_aux (p : PWParams) (cs : List (Int × Int)) (a : PWAcc) :
    (cs.foldl (pwStep p) a).states = a.states ++ cs.flatMap (fun c => channelStates p c.1 c.2) := by
  induction cs generalizing a with
  | nil => simp
  | cons c cs ih => rw [List.foldl_cons, ih]; simp [pwStep, List.append_assoc]

theorem pwLoop_states (p : PWParams) :
    (pwLoop p).states = (channelLoop p).flatMap (fun c => channelStates p c.1 c.2) := by
  unfold pwLoop; rw [pwLoop_states_aux]; simp

theorem constructPW_states {p : PWParams} {w : PWSpace} (h : constructPW p = some w) :
    w.states = (channelLoop p).flatMap (fun c => channelStates p c.1 c.2) := by
  unfold constructPW at h
  split at h
  · simp at h
  · simp only [Option.some.injEq] at h
    subst h
    exact pwLoop_states p

theorem channelStates_ne_nil {p : PWParams} {c : Int × Int} (hp : 0 ≤ p.J2max) (hc : c ∈ channelLoop p) :
    channelStates p c.1 c.2 ≠ [] := by
  rw [mem_channelLoop] at hc
  -- the 1S0 pair always exists; pick the spectator wave with the right parity
  obtain ⟨l, hl, hl2⟩ : ∃ l : Int, (l = (c.1 - 1) / 2 ∨ l = (c.1 + 1) / 2) ∧ l % 2 = c.2 := by
    by_cases h : ((c.1 - 1) / 2) % 2 = c.2
    · exact ⟨_, Or.inl rfl, h⟩
    · exact ⟨_, Or.inr rfl, by omega⟩
  have : ({ L := 0, S := 0, J := 0, T := 1, l := l, twoj := c.1, twoJ3 := c.1, twoT3 := 1,
            P := 1 - 2 * c.2 } : PWState) ∈ channelStates p c.1 c.2 := by
    rw [mem_channelStates]
    dsimp only [twoT3max]
    refine ⟨?_, ?_, ?_, ?_, ?_, ?_, ?_, ?_, ?_, ?_, rfl, rfl⟩
    · split <;> omega
    all_goals omega
  exact List.ne_nil_of_mem this

end TicTac
