import Verif.Model.Kernel
import Verif.Spec.Kernel
import Verif.Lemmas.Channels2N
import Verif.Lemmas.Tables
import Verif.Lemmas.Sparse
import Verif.Lemmas.Layout
import Mathlib.Algebra.BigOperators.Fin
import Mathlib.Algebra.BigOperators.Ring.Finset
import Mathlib.Tactic.Ring
import Mathlib.Tactic.Linarith
/-! Lemmas for the kernel. -/
noncomputable section
namespace TicTac
open Spec

theorem transposeFlat_eq (dim : Nat) (f : Nat → ℝ) (r c : Nat) (hr : r < dim) (hc : c < dim) : transposeFlat dim f (c * dim + r) = f (r * dim + c) := by
  unfold transposeFlat
  apply writeAll_eq
  · exact List.mem_flatMap.2 ⟨r, List.mem_range.2 hr, List.mem_map.2 ⟨c, List.mem_range.2 hc, rfl⟩⟩
  · intro w hw h
    obtain ⟨r', hr', hw⟩ := List.mem_flatMap.1 hw
    obtain ⟨c', hc', rfl⟩ := List.mem_map.1 hw
    obtain ⟨rfl, rfl⟩ := radix_inj (List.mem_range.1 hr') hr h
    rfl

theorem restructure_eq (N : Nat) (f : Nat → ℝ) (cb rb col row : Nat) (h1 : cb < 2) (h2 : rb < 2) (h3 : col < N) (h4 : row < N) :
    restructure N f ((2 * cb + rb) * N * N + (col * N + row)) = f ((N * cb + col) * (2 * N) + (N * rb + row)) := by
  unfold restructure
  apply writeAll_eq
  · refine List.mem_flatMap.2 ⟨cb, List.mem_range.2 h1, List.mem_flatMap.2 ⟨rb, List.mem_range.2 h2, List.mem_flatMap.2 ⟨col, List.mem_range.2 h3,
      List.mem_map.2 ⟨row, List.mem_range.2 h4, ?_⟩⟩⟩⟩
    apply Prod.ext
    · show cb * 2 * N * N + rb * N * N + (col * N + row) = _
      ring
    · show f _ = f _
      congr 1; ring
  · intro w hw h
    obtain ⟨cb', g1, hw⟩ := List.mem_flatMap.1 hw
    obtain ⟨rb', g2, hw⟩ := List.mem_flatMap.1 hw
    obtain ⟨col', g3, hw⟩ := List.mem_flatMap.1 hw
    obtain ⟨row', g4, rfl⟩ := List.mem_map.1 hw
    rw [List.mem_range] at g1 g2 g3 g4
    have h' : (2 * cb' + rb') * (N * N) + (col' * N + row') = (2 * cb + rb) * (N * N) + (col * N + row) := by
      have : cb' * 2 * N * N + rb' * N * N + (col' * N + row') = (2 * cb + rb) * N * N + (col * N + row) := h
      calc _ = cb' * 2 * N * N + rb' * N * N + (col' * N + row') := by ring
        _ = _ := by rw [this]; ring
    obtain ⟨e1, e2⟩ := radix_inj (radix_lt g3 g4) (radix_lt h3 h4) h'
    obtain ⟨e3, e4⟩ := radix_inj g4 h4 e2
    have e5 : cb' = cb := by omega
    have e6 : rb' = rb := by omega
    subst e3 e4 e5 e6
    show f _ = f _
    congr 1; ring

/-- 1 for the second member of a doublet. -/
def secNum (s : PWState) : Nat := open Classical in if SecondMember s then 1 else 0

theorem chanPos_eq (N : Nat) (s : PWState) (i : Nat) : chanPos N s i = N * secNum s + i := by
  unfold chanPos secNum
  split <;> simp

theorem secNum_lt (s : PWState) : secNum s < 2 := by unfold secNum; split <;> omega

/-- The buffers made from a channel matrix `f`. -/
def storeBlocks (N : Nat) (b : Bool) (f : Nat → ℝ) : Nat → ℝ :=
  if b then restructure N (transposeFlat (2 * N) f) else transposeFlat N f

theorem storeBlocks_eq (N : Nat) (b : Bool) (f : Nat → ℝ) (r c : PWState) (hr : SecondMember r → b = true) (hc : SecondMember c → b = true)
    (i j : Nat) (hi : i < N) (hj : j < N) :
    storeBlocks N b f ((if b then 2 * secNum r + secNum c else 0) * N * N + (i * N + j)) = f (chanPos N c j * chnDim N b + chanPos N r i) := by
  unfold storeBlocks chnDim
  cases b
  · have h1 : ¬ SecondMember r := fun h => by simpa using hr h
    have h2 : ¬ SecondMember c := fun h => by simpa using hc h
    unfold chanPos
    simp only [Bool.false_eq_true, if_false, h1, h2, Nat.zero_mul, Nat.zero_add]
    exact transposeFlat_eq N f j i hj hi
  · simp only [if_true]
    rw [restructure_eq N _ _ _ _ _ (secNum_lt r) (secNum_lt c) hi hj, transposeFlat_eq, chanPos_eq, chanPos_eq]
    · have := secNum_lt c
      nlinarith [Nat.mul_le_mul_left N (show secNum c ≤ 1 by omega)]
    · have := secNum_lt r
      nlinarith [Nat.mul_le_mul_left N (show secNum r ≤ 1 by omega)]

theorem pairConnected_symm {a b : PWState} (h : PairConnected a b) : PairConnected b a := by
  unfold PairConnected SameInteraction at *
  simp only [true_and] at *
  omega

theorem unique2NIdx_eq {p : PWParams} (ht : p.tensor = true) (r : PWState) (k : Bool) :
    unique2NIdx p r.L r.S r.J r.T k = some (if k then (if p.isoBreak then (if r.S = 0 ∧ r.J = 0 ∧ r.L = 0 ∧ r.T = 1 then 0 else r.J) else r.J - 1)
      else (if p.isoBreak then 2 * r.J + r.S - 1 else 2 * r.J + r.S)) := by
  unfold unique2NIdx
  have e : ((((r.S == 0) && r.J == 0) && r.L == 0) && r.T == 1) = true ↔ (r.S = 0 ∧ r.J = 0 ∧ r.L = 0 ∧ r.T = 1) := by
    simp only [Bool.and_eq_true, beq_iff_eq]; tauto
  by_cases h1 : r.S = 0 ∧ r.J = 0 ∧ r.L = 0 ∧ r.T = 1
  · have := e.2 h1
    cases k <;> cases p.isoBreak <;> simp [ht, h1, this]
  · have : ¬ _ := fun h => h1 (e.1 h)
    cases k <;> cases p.isoBreak <;> simp_all [and_assoc]

/-- The pointer of a pair of basis states. -/
theorem kernelPtr_eq {p : PWParams} (ht : p.tensor = true) {r c : PWState} (hr : Allowed p.J2max p.twoJ3max p.isoBreak r)
    (hc : Allowed p.J2max p.twoJ3max p.isoBreak c) :
    open Classical in
    ∃ b n, slotOf p r = some (b, n) ∧ (SecondMember r → b = true) ∧ (PairConnected r c → SecondMember c → b = true) ∧
      kernelPtr p r c = some (if PairConnected r c then some (b, n, if b then 2 * secNum r + secNum c else 0) else none) := by
  classical
  have fr := hr.facts
  have fc := hc.facts
  have ir := hr.2.2.2.2.2.2.2.2.2.2.2
  have ic := hc.2.2.2.2.2.2.2.2.2.2.2
  obtain ⟨rS, rT, rJ, r1, r2, r3, r4⟩ := fr
  obtain ⟨cS, cT, cJ, c1, c2, c3, c4⟩ := fc
  have hpair : kernelPair p r c = true ↔ PairConnected r c := by
    unfold kernelPair potPairOK PairConnected SameInteraction
    simp only [ht, Bool.true_and, Bool.and_eq_true, beq_iff_eq, Bool.or_eq_true, decide_eq_true_eq, true_and]
    constructor <;> intro h <;> omega
  have hslot : slotOf p r = pairSlot p r r := (pairSlot_eq_slotOf ht hr.facts hr.facts rfl rfl rfl).symm
  rw [slotOf_tensor ht hr.facts]
  unfold kernelPtr
  by_cases hp : PairConnected r c
  · have hk := hpair.2 hp
    rw [if_pos hk]
    have hp' := hp
    have hvL : pairViaL p r c = true ↔ (r.L ≠ r.J ∧ r.J ≠ 0) := by
      unfold pairViaL
      unfold PairConnected SameInteraction at hp
      simp only [ht, Bool.true_and, Bool.or_eq_true, bne_iff_ne, Bool.and_eq_true, beq_iff_eq, true_and] at hp ⊢
      constructor <;> intro h <;> omega
    have hvT : coupledViaT p r = true ↔ (p.isoBreak = true ∧ r.S = 0 ∧ r.J = 0) := by
      unfold coupledViaT is1S0
      simp only [Bool.and_eq_true, beq_iff_eq]
      constructor
      · rintro ⟨⟨⟨a, b⟩, c⟩, d⟩; exact ⟨d, a, b⟩
      · rintro ⟨d, a, b⟩; exact ⟨⟨⟨a, b⟩, by omega⟩, d⟩
    have huc := fun k => unique2NIdx_eq ht r k
    unfold PairConnected SameInteraction at hp
    simp only [true_and] at hp
    by_cases hL : r.L ≠ r.J ∧ r.J ≠ 0
    · have h1 := hvL.2 hL
      have h2 : ¬ coupledViaT p r = true := fun h => by have := (hvT.1 h).2.2; omega
      rw [if_pos hL, if_neg (show ¬ (pairViaL p r c = true ∧ coupledViaT p r = true) from fun h => h2 h.2), if_pos (Or.inl h1), huc true]
      have hS1 : ¬ (r.S = 0 ∧ r.J = 0 ∧ r.L = 0 ∧ r.T = 1) := by omega
      simp only [if_true, if_neg hS1]
      refine ⟨true, _, rfl, fun _ => rfl, fun _ _ => rfl, ?_⟩
      rw [if_pos hp']
      simp only [h1, h2, true_and, Bool.false_eq_true, false_and, or_false, if_true]
      have sr : secNum r = if r.J < r.L then 1 else 0 := by
        unfold secNum SecondMember
        have : r.twoT3 ≠ 3 := by omega
        simp only [this, or_false]
        by_cases h : r.J < r.L
        · rw [if_pos ⟨h, hL.2⟩, if_pos h]
        · rw [if_neg (fun hx => h hx.1), if_neg h]
      have sc : secNum c = if c.J < c.L then 1 else 0 := by
        unfold secNum SecondMember
        have : c.twoT3 ≠ 3 := by omega
        simp only [this, or_false]
        by_cases h : c.J < c.L
        · rw [if_pos ⟨h, by omega⟩, if_pos h]
        · rw [if_neg (fun hx => h hx.1), if_neg h]
      rw [sr, sc]
      by_cases g1 : r.L < c.L
      · rw [if_pos g1, if_neg (show ¬ r.J < r.L by omega), if_pos (show c.J < c.L by omega)]
      · rw [if_neg g1]
        by_cases g2 : r.L > c.L
        · rw [if_pos g2, if_pos (show r.J < r.L by omega), if_neg (show ¬ c.J < c.L by omega)]
        · rw [if_neg g2]
          by_cases g3 : r.L < c.J
          · rw [if_pos g3, if_neg (show ¬ r.J < r.L by omega), if_neg (show ¬ c.J < c.L by omega)]
          · rw [if_neg g3, if_pos (show r.L > c.J by omega), if_pos (show r.J < r.L by omega), if_pos (show c.J < c.L by omega)]
    · have h1 : ¬ pairViaL p r c = true := fun h => hL (hvL.1 h)
      rw [if_neg hL, if_neg (show ¬ (pairViaL p r c = true ∧ coupledViaT p r = true) from fun h => h1 h.1)]
      by_cases hT : p.isoBreak = true ∧ r.S = 0 ∧ r.J = 0
      · have h2 := hvT.2 hT
        rw [if_pos hT, if_pos (Or.inr h2), huc true]
        have hS1 : (r.S = 0 ∧ r.J = 0 ∧ r.L = 0 ∧ r.T = 1) := by omega
        simp only [if_true, if_pos hS1, hT.1]
        refine ⟨true, _, rfl, fun _ => rfl, fun _ _ => rfl, ?_⟩
        rw [if_pos hp']
        simp only [h1, h2, true_and, Bool.false_eq_true, false_and, false_or, if_true]
        have sr : secNum r = if r.twoT3 = 3 then 1 else 0 := by
          unfold secNum SecondMember
          have : ¬ (r.J < r.L ∧ r.J ≠ 0) := by omega
          simp only [this, false_or]
        have sc : secNum c = if c.twoT3 = 3 then 1 else 0 := by
          unfold secNum SecondMember
          have : ¬ (c.J < c.L ∧ c.J ≠ 0) := by omega
          simp only [this, false_or]
        have rr : r.twoT3 = 1 ∨ r.twoT3 = 3 := by omega
        have cc : c.twoT3 = 1 ∨ c.twoT3 = 3 := by omega
        rw [sr, sc]
        rcases rr with rr | rr <;> rcases cc with cc | cc <;> simp [rr, cc]
      · have h2 : ¬ coupledViaT p r = true := fun h => hT (hvT.1 h)
        rw [if_neg hT, if_neg (show ¬ (pairViaL p r c = true ∨ coupledViaT p r = true) from fun h => h.elim h1 h2), huc false]
        have hns : ∀ x : PWState, (x.L = x.J ∨ x.J = 0) → (x.twoT3 = 1) → ¬ SecondMember x := by
          intro x hx hx'; unfold SecondMember; omega
        have ht3 : ∀ x : PWState, x.S = r.S → x.J = r.J → (x.twoT3 = 1 ∨ p.isoBreak = true ∧ x.twoT3 = 3 ∧ x.L = 0 ∧ x.S = 0 ∧ x.J = 0) → x.twoT3 = 1 := by
          intro x e1 e2 hx
          rcases hx with hx | hx
          · exact hx
          · exact absurd ⟨hx.1, by omega, by omega⟩ hT
        have nr := hns r (by omega) (ht3 r rfl rfl ir)
        have nc := hns c (by omega) (ht3 c hp.1.1.symm hp.1.2.1.symm ic)
        refine ⟨false, _, rfl, fun h => absurd h nr, fun _ h => absurd h nc, ?_⟩
        rw [if_pos hp']
        simp
  · have hk : ¬ kernelPair p r c = true := fun h => hp (hpair.1 h)
    rw [if_neg hk]
    have hsec : SecondMember r → (r.L ≠ r.J ∧ r.J ≠ 0) ∨ (p.isoBreak = true ∧ r.S = 0 ∧ r.J = 0) := by
      unfold SecondMember
      intro h
      rcases h with h | h
      · exact Or.inl ⟨by omega, h.2⟩
      · rcases ir with ir | ir
        · omega
        · exact Or.inr ⟨ir.1, ir.2.2.2.1, ir.2.2.2.2⟩
    by_cases hL : r.L ≠ r.J ∧ r.J ≠ 0
    · rw [if_pos hL]; exact ⟨true, _, rfl, fun _ => rfl, fun _ _ => rfl, by rw [if_neg hp]⟩
    · rw [if_neg hL]
      by_cases hT : p.isoBreak = true ∧ r.S = 0 ∧ r.J = 0
      · rw [if_pos hT]; exact ⟨true, _, rfl, fun _ => rfl, fun _ _ => rfl, by rw [if_neg hp]⟩
      · rw [if_neg hT]; exact ⟨false, _, rfl, fun h => ((hsec h).elim (fun x => hL x) (fun x => hT x)).elim, fun h => absurd h hp, by rw [if_neg hp]⟩


theorem addAll_eq (f : Nat → ℝ) (ws : List (Nat × ℝ)) (k : Nat) : addAll f ws k = f k + (ws.map fun w => if w.1 = k then w.2 else 0).sum := by
  unfold addAll
  induction ws generalizing f with
  | nil => simp
  | cons w ws ih =>
    rw [List.foldl_cons, ih, List.map_cons, List.sum_cons]
    by_cases h : w.1 = k
    · subst h; rw [Function.update_self, if_pos rfl]; ring
    · rw [Function.update_of_ne (Ne.symm h), if_neg h]; ring

theorem flatMap_map_sum {α : Type} (l : List α) (g : α → List (Nat × ℝ)) (h : Nat × ℝ → ℝ) :
    ((l.flatMap g).map h).sum = (l.map fun a => ((g a).map h).sum).sum := by
  induction l with
  | nil => rfl
  | cons a l ih => simp only [List.flatMap_cons, List.map_append, List.sum_append, ih, List.map_cons, List.sum_cons]

theorem range_map_sum (n : Nat) (g : Nat → ℝ) : ((List.range n).map g).sum = ∑ i ∈ Finset.range n, g i := by
  induction n with
  | zero => rfl
  | succ n ih => rw [List.range_succ, List.map_append, List.sum_append, ih, Finset.sum_range_succ]; simp

/-- A pointer table is defined for every basis and contains the block that belongs to the pair. -/
theorem kernelTab_eq {p : PWParams} (ht : p.tensor = true) (N : Nat) (sub : Bool → Int → Nat → ℝ) {states : List PWState}
    (hs : ∀ s ∈ states, Allowed p.J2max p.twoJ3max p.isoBreak s) :
    open Classical in
    ∃ tab, kernelTab p N sub states = some tab ∧ ∀ (r c : Fin states.length), ∃ b n, slotOf p (states.get r) = some (b, n) ∧
      (SecondMember (states.get r) → b = true) ∧ (PairConnected (states.get r) (states.get c) → SecondMember (states.get c) → b = true) ∧
      tab r c = if PairConnected (states.get r) (states.get c) then
        some fun i => sub b n ((if b then 2 * secNum (states.get r) + secNum (states.get c) else 0) * N * N + i) else none := by
  classical
  unfold kernelTab
  rw [if_neg]
  · refine ⟨_, rfl, fun r c => ?_⟩
    obtain ⟨b, n, h1, h2, h3, h4⟩ := kernelPtr_eq ht (hs _ (List.get_mem states r)) (hs _ (List.get_mem states c))
    refine ⟨b, n, h1, h2, h3, ?_⟩
    have e1 : states[(r : Nat)]? = some (states.get r) := by simp
    have e2 : states[(c : Nat)]? = some (states.get c) := by simp
    simp only [e1, e2]
    rw [h4]
    by_cases h : PairConnected (states.get r) (states.get c)
    · rw [if_pos h, if_pos h]
    · rw [if_neg h, if_neg h]
  · rintro ⟨r, hr, c, hc, h⟩
    obtain ⟨b, n, _, _, _, h4⟩ := kernelPtr_eq ht (hs r hr) (hs c hc)
    rw [h] at h4; cases h4

theorem slot_range {p : PWParams} (ht : p.tensor = true) {s : PWState} (hs : Allowed p.J2max p.twoJ3max p.isoBreak s) {b : Bool} {n : Int}
    (h : slotOf p s = some (b, n)) : 0 ≤ n ∧ n < (if b then numCoup p else numUnco p) := by
  have hf := hs.facts
  have hJ : s.J ≤ p.J2max := hs.2.2.2.2.2.2.2.2.1
  obtain ⟨hS, _, hJ0, h1, h2, h3, h4⟩ := hf
  rw [slotOf_tensor ht hs.facts] at h
  unfold numCoup numUnco
  simp only [ht, if_true]
  by_cases hL : s.L ≠ s.J ∧ s.J ≠ 0
  · rw [if_pos hL] at h
    cases h
    cases p.isoBreak <;> simp <;> omega
  · rw [if_neg hL] at h
    by_cases hT : p.isoBreak = true ∧ s.S = 0 ∧ s.J = 0
    · rw [if_pos hT] at h
      cases h
      simp [hT.1]; omega
    · rw [if_neg hT] at h
      cases h
      cases hb : p.isoBreak <;> simp [hb] at hT ⊢ <;> omega

theorem slot_connected {p : PWParams} (ht : p.tensor = true) {a b : PWState} (ha : Allowed p.J2max p.twoJ3max p.isoBreak a)
    (hb : Allowed p.J2max p.twoJ3max p.isoBreak b) (h : PairConnected a b) : slotOf p a = slotOf p b := by
  obtain ⟨h, -, -⟩ := h
  rw [slotOf_tensor ht ha.facts, slotOf_tensor ht hb.facts]
  obtain ⟨aS, aT, aJ, a1, a2, a3, a4⟩ := ha.facts
  obtain ⟨bS, bT, bJ, b1, b2, b3, b4⟩ := hb.facts
  unfold SameInteraction at h
  have e1 : (a.L ≠ a.J ∧ a.J ≠ 0) ↔ (b.L ≠ b.J ∧ b.J ≠ 0) := by omega
  rw [h.1, h.2.1] at *
  simp only [e1]

end TicTac
end
