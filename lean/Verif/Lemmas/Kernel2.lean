import Verif.Lemmas.Kernel
/-! The lifted two-body operators multiply like the channel matrices. -/
noncomputable section
namespace TicTac
open Spec
open Classical

theorem IsChannel.allowed {p : PWParams} {twoJ3 P : Int} {states : List PWState} (h : IsChannel p twoJ3 P states) {s : PWState} (hs : s ∈ states) :
    Allowed p.J2max p.twoJ3max p.isoBreak s := ((h.2 s).1 hs).1

/-- Number of members of a two-nucleon channel. -/
def members (b : Bool) : Nat := if b then 2 else 1

theorem chnDim_members (N : Nat) (b : Bool) : chnDim N b = N * members b := by unfold chnDim members; cases b <;> simp [Nat.mul_comm]

/-- Two connected states with the same place in the doublet are equal. -/
theorem connected_unique {p : PWParams} {twoJ3 P : Int} {x a a' : PWState} (ha : Allowed p.J2max p.twoJ3max p.isoBreak a)
    (ha' : Allowed p.J2max p.twoJ3max p.isoBreak a') (h1 : a.twoJ3 = twoJ3 ∧ a.P = P) (h2 : a'.twoJ3 = twoJ3 ∧ a'.P = P)
    (c : PairConnected x a) (c' : PairConnected x a') (hs : secNum a = secNum a') : a = a' := by
  have sm : ∀ y : PWState, Allowed p.J2max p.twoJ3max p.isoBreak y → (y.J ≠ 0 → (SecondMember y ↔ y.J < y.L)) ∧ (y.J = 0 → (SecondMember y ↔ y.twoT3 = 3)) ∧
      (y.J ≠ 0 → y.twoT3 = 1) ∧ (y.twoT3 = 1 ∨ y.twoT3 = 3) := by
    intro y hy
    have iy := hy.2.2.2.2.2.2.2.2.2.2.2
    clear * - iy
    unfold SecondMember
    refine ⟨fun _ => ?_, fun _ => ?_, fun _ => ?_, ?_⟩ <;> omega
  have hiff : SecondMember a ↔ SecondMember a' := by
    unfold secNum at hs
    by_cases g : SecondMember a <;> by_cases g' : SecondMember a' <;> simp [g, g'] at hs ⊢
  obtain ⟨⟨s1, s2, s3⟩, s4, s5⟩ := c
  obtain ⟨⟨t1, t2, t3⟩, t4, t5⟩ := c'
  have hJ : a.J = a'.J := by omega
  have hL : a.L = a'.L := by
    by_cases h0 : a.J = 0
    · have := ha.facts.Llo; have := ha.facts.Lhi; have := ha.facts.Llo'
      have := ha'.facts.Llo; have := ha'.facts.Lhi; have := ha'.facts.Llo'
      clear * - s1 t1 hJ h0 this s3 t3 ha ha' this
      have := ha.facts.Llo; have := ha.facts.Lhi; have := ha.facts.Llo'
      have := ha'.facts.Llo; have := ha'.facts.Lhi; have := ha'.facts.Llo'
      clear ha ha'
      omega
    · have e1 := (sm a ha).1 h0
      have e2 := (sm a' ha').1 (hJ ▸ h0)
      rw [e1, e2] at hiff
      clear * - s2 s3 t2 t3 hiff hJ
      omega
  have hT3 : a.twoT3 = a'.twoT3 := by
    obtain ⟨_, u2, u3, u4⟩ := sm a ha
    obtain ⟨_, v2, v3, v4⟩ := sm a' ha'
    by_cases h0 : a.J = 0
    · rw [u2 h0, v2 (hJ ▸ h0)] at hiff
      clear * - hiff u4 v4
      omega
    · rw [u3 h0, v3 (hJ ▸ h0)]
  have hT : a.T = a'.T := by
    have q1 := ha.facts.pauli; have q2 := ha'.facts.pauli; have q3 := ha.facts.T01; have q4 := ha'.facts.T01
    clear * - q1 q2 q3 q4 hL s1 t1
    omega
  cases a; cases a'
  simp only [PWState.mk.injEq] at *
  exact ⟨hL, s1.symm.trans t1, hJ, hT, s4.symm.trans t4, s5.symm.trans t5, h1.1.trans h2.1.symm, hT3, h1.2.trans h2.2.symm⟩

/-- Every place of the doublet is taken. -/
theorem connected_exists {p : PWParams} (ht : p.tensor = true) {x : PWState} (hx : Allowed p.J2max p.twoJ3max p.isoBreak x) {b : Bool} {n : Int}
    (hslot : slotOf p x = some (b, n)) (s : Nat) (hs : s < members b) :
    ∃ a, Allowed p.J2max p.twoJ3max p.isoBreak a ∧ a.twoJ3 = x.twoJ3 ∧ a.P = x.P ∧ PairConnected x a ∧ secNum a = s := by
  have hf := hx.facts
  obtain ⟨aS, aT, aJ, a1, a2, a3, a4⟩ := hf
  rw [slotOf_tensor ht hx.facts] at hslot
  have ix := hx.2.2.2.2.2.2.2.2.2.2.2
  have hlow : ∀ a : PWState, ¬ SecondMember a → secNum a = 0 := fun a h => by unfold secNum; rw [if_neg h]
  have hhigh : ∀ a : PWState, SecondMember a → secNum a = 1 := fun a h => by unfold secNum; rw [if_pos h]
  by_cases hL : x.L ≠ x.J ∧ x.J ≠ 0
  · rw [if_pos hL] at hslot
    cases hslot
    have hs' : s = 0 ∨ s = 1 := by unfold members at hs; simp at hs; omega
    have h3 : x.twoT3 = 1 := by omega
    have hal : ∀ L', (L' = x.J - 1 ∨ L' = x.J + 1) → Allowed p.J2max p.twoJ3max p.isoBreak {x with L := L'} := by
      intro L' hL'
      unfold Allowed Couples at hx ⊢
      obtain ⟨q1, q2, q3, q4, q5, q6, q7, q8, q9, q10, q11, q12⟩ := hx
      refine ⟨q1, q2, ?_, q4, q5, q6, ?_, ?_, q9, q10, q11, Or.inl h3⟩
      · dsimp only; clear * - aS aJ a1 a2 a3 hL hL'; omega
      · dsimp only; clear * - q7 aS aJ a1 a2 a3 hL hL'; omega
      · dsimp only
        rw [q8]
        have : (x.L + x.l) % 2 = 0 ↔ (L' + x.l) % 2 = 0 := by clear * - aS aJ a1 a2 a3 hL hL'; omega
        simp only [this]
    rcases hs' with rfl | rfl
    · refine ⟨{x with L := x.J - 1}, hal _ (Or.inl rfl), rfl, rfl, ?_, hlow _ ?_⟩
      · exact ⟨⟨rfl, rfl, Or.inr ⟨rfl, by omega, by omega, by omega, Or.inl rfl⟩⟩, rfl, rfl⟩
      · unfold SecondMember; dsimp only; omega
    · refine ⟨{x with L := x.J + 1}, hal _ (Or.inr rfl), rfl, rfl, ?_, hhigh _ ?_⟩
      · exact ⟨⟨rfl, rfl, Or.inr ⟨rfl, by omega, by omega, by omega, Or.inr rfl⟩⟩, rfl, rfl⟩
      · unfold SecondMember; dsimp only; omega
  · rw [if_neg hL] at hslot
    by_cases hT : p.isoBreak = true ∧ x.S = 0 ∧ x.J = 0
    · rw [if_pos hT] at hslot
      cases hslot
      have hs' : s = 0 ∨ s = 1 := by unfold members at hs; simp at hs; omega
      have hal : ∀ t, (t = 1 ∨ t = 3) → Allowed p.J2max p.twoJ3max p.isoBreak {x with twoT3 := t} := by
        intro t ht'
        unfold Allowed Couples at hx ⊢
        obtain ⟨q1, q2, q3, q4, q5, q6, q7, q8, q9, q10, q11, q12⟩ := hx
        refine ⟨q1, q2, q3, q4, q5, ?_, q7, q8, q9, q10, q11, ?_⟩
        · dsimp only; omega
        · rcases ht' with rfl | rfl
          · exact Or.inl rfl
          · refine Or.inr ⟨hT.1, rfl, ?_, hT.2.1, hT.2.2⟩
            dsimp only; omega
      rcases hs' with rfl | rfl
      · refine ⟨{x with twoT3 := 1}, hal _ (Or.inl rfl), rfl, rfl, ?_, hlow _ ?_⟩
        · unfold PairConnected SameInteraction; dsimp only; omega
        · unfold SecondMember; dsimp only; omega
      · refine ⟨{x with twoT3 := 3}, hal _ (Or.inr rfl), rfl, rfl, ?_, hhigh _ ?_⟩
        · unfold PairConnected SameInteraction; dsimp only; omega
        · unfold SecondMember; dsimp only; omega
    · rw [if_neg hT] at hslot
      cases hslot
      have hs' : s = 0 := by unfold members at hs; simp at hs; omega
      subst hs'
      refine ⟨x, hx, rfl, rfl, ?_, hlow _ ?_⟩
      · unfold PairConnected SameInteraction; omega
      · unfold SecondMember
        rcases ix with ix | ix
        · omega
        · exact absurd ⟨ix.1, ix.2.2.2.1, ix.2.2.2.2⟩ hT

/-- Summing over the states connected to `x` and their bins is summing over the rows of the channel matrix. -/
theorem sum_connected {p : PWParams} (ht : p.tensor = true) {twoJ3 P : Int} {states : List PWState} (h : IsChannel p twoJ3 P states)
    (x : PWState) (hx : x ∈ states) {b : Bool} {n : Int} (hslot : slotOf p x = some (b, n)) (N : Nat) (F : Nat → ℝ) :
    (∑ a : Fin states.length, if PairConnected x (states.get a) then ∑ t : Fin N, F (chanPos N (states.get a) t) else 0) =
      ∑ k ∈ Finset.range (chnDim N b), F k := by
  rw [← Finset.sum_filter]
  have hX := (h.2 x).1 hx
  have e1 : ∑ k ∈ Finset.range (chnDim N b), F k = ∑ s ∈ Finset.range (members b), ∑ t : Fin N, F (N * s + t) := by
    rw [chnDim_members]
    have e : ∀ s, ∑ t : Fin N, F (N * s + t) = ∑ t ∈ Finset.range N, F (N * s + t) := fun s => (Finset.sum_range fun t => F (N * s + t)).symm
    simp only [e]
    generalize members b = m
    induction m with
    | zero => simp
    | succ m ih => rw [Nat.mul_succ, Finset.sum_range_add, ih, Finset.sum_range_succ]
  rw [e1]
  refine Finset.sum_bij (fun a _ => secNum (states.get a)) ?_ ?_ ?_ ?_
  · intro a ha
    rw [Finset.mem_filter] at ha
    rw [Finset.mem_range]
    obtain ⟨b', n', g1, _, g3, _⟩ := kernelPtr_eq ht (IsChannel.allowed h hx) (IsChannel.allowed h (List.get_mem states a))
    rw [hslot] at g1; cases g1
    unfold members secNum
    by_cases g : SecondMember (states.get a)
    · rw [if_pos g, if_pos (g3 ha.2 g)]; omega
    · rw [if_neg g]; split <;> omega
  · intro a ha a' ha' he
    rw [Finset.mem_filter] at ha ha'
    have := connected_unique (IsChannel.allowed h (List.get_mem states a)) (IsChannel.allowed h (List.get_mem states a'))
      ((h.2 _).1 (List.get_mem states a)).2 ((h.2 _).1 (List.get_mem states a')).2 ha.2 ha'.2 he
    exact (List.nodup_iff_injective_get.1 h.1) this
  · intro s hs
    obtain ⟨a, q1, q2, q3, q4, q5⟩ := connected_exists ht hX.1 hslot s (Finset.mem_range.1 hs)
    have hm : a ∈ states := (h.2 a).2 ⟨q1, q2.trans hX.2.1, q3.trans hX.2.2⟩
    obtain ⟨k, hk⟩ := List.get_of_mem hm
    exact ⟨k, Finset.mem_filter.2 ⟨Finset.mem_univ _, by rw [hk]; exact q4⟩, by rw [hk]; exact q5⟩
  · intro a ha
    refine Finset.sum_congr rfl fun t _ => ?_
    rw [chanPos_eq]

end TicTac
end
