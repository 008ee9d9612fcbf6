import Verif.Lemmas.Kernel2
/-! Kernel columns and rows as entries of the matrix product. -/
noncomputable section
namespace TicTac
open Spec
open Classical

theorem pairConnected_trans {a b c : PWState} (h : PairConnected a b) (h' : PairConnected b c) : PairConnected a c := by
  unfold PairConnected SameInteraction at *
  simp only [true_and] at *
  omega

theorem channelMatrix_congr {p : PWParams} {N : Nat} {X : Bool → Int → ℝ} {a b : PWState} (h : slotOf p a = slotOf p b) (r c : Nat) :
    channelMatrix p N X a r c = channelMatrix p N X b r c := by
  unfold channelMatrix; rw [h]

section
variable {p : PWParams} (ht : p.tensor = true) {twoJ3 P : Int} {states : List PWState} (h : IsChannel p twoJ3 P states) {Nq Np : Nat}
include ht h

theorem twoBody_mul (V C : Bool → Int → ℝ) (x y : Idx states.length Nq Np) {b : Bool} {n : Int} (hslot : slotOf p (states.get y.1) = some (b, n)) :
    (twoBody p states Nq Np V * twoBody p states Nq Np C) x y =
      if x.2.1 = y.2.1 ∧ PairConnected (states.get x.1) (states.get y.1) then
        ∑ k ∈ Finset.range (chnDim Np b), channelMatrix p Np V (states.get y.1) (chanPos Np (states.get x.1) x.2.2) k *
          channelMatrix p Np C (states.get y.1) k (chanPos Np (states.get y.1) y.2.2)
      else 0 := by
  rw [Matrix.mul_apply, Fintype.sum_prod_type]
  simp only [Fintype.sum_prod_type]
  have hal : ∀ a, Allowed p.J2max p.twoJ3max p.isoBreak (states.get a) := fun a => IsChannel.allowed h (List.get_mem states a)
  by_cases hc : x.2.1 = y.2.1 ∧ PairConnected (states.get x.1) (states.get y.1)
  · rw [if_pos hc]
    obtain ⟨hq, hc⟩ := hc
    have hsx : slotOf p (states.get x.1) = some (b, n) := by rw [slot_connected ht (hal _) (hal _) hc, hslot]
    rw [← sum_connected ht h (states.get x.1) (List.get_mem states _) hsx Np]
    refine Finset.sum_congr rfl fun a _ => ?_
    rw [Finset.sum_eq_single x.2.1]
    · unfold twoBody
      dsimp only
      by_cases ha : PairConnected (states.get x.1) (states.get a)
      · rw [if_pos ha]
        refine Finset.sum_congr rfl fun t _ => ?_
        rw [if_pos ⟨rfl, ha⟩, if_pos ⟨hq, pairConnected_trans (pairConnected_symm ha) hc⟩]
        rw [channelMatrix_congr (slot_connected ht (hal _) (hal _) hc),
          channelMatrix_congr (slot_connected ht (hal _) (hal _) (pairConnected_trans (pairConnected_symm ha) hc))]
      · rw [if_neg ha]
        refine Finset.sum_eq_zero fun t _ => ?_
        rw [if_neg (fun hh => ha hh.2), zero_mul]
    · intro q _ hq'
      refine Finset.sum_eq_zero fun t _ => ?_
      unfold twoBody
      dsimp only
      rw [if_neg (fun hh => hq' hh.1.symm), zero_mul]
    · intro hh; exact absurd (Finset.mem_univ _) hh
  · rw [if_neg hc]
    refine Finset.sum_eq_zero fun a _ => Finset.sum_eq_zero fun q _ => Finset.sum_eq_zero fun t _ => ?_
    unfold twoBody
    dsimp only
    by_cases h1 : x.2.1 = q ∧ PairConnected (states.get x.1) (states.get a)
    · rw [if_neg (fun h2 : q = y.2.1 ∧ PairConnected (states.get a) (states.get y.1) => hc ⟨h1.1.trans h2.1, pairConnected_trans h1.2 h2.2⟩), mul_zero]
    · rw [if_neg h1, zero_mul]

/-- Reading through a pointer that may be NULL (skipped by the loops). -/
def rdPtr (t : Option (Nat → ℝ)) (k : Nat) : ℝ := match t with | none => 0 | some f => f k

theorem ct_read (C : Bool → Int → ℝ) (junk : Bool → Int → Nat → ℝ) :
    ∃ CT, kernelTab p Np (channelsOnly p (ctSub Np C) junk) states = some CT ∧
      ∀ (r i : Fin states.length) (q : Fin Nq) (pr pi : Fin Np), rdPtr (CT r i) (pr * Np + pi) = twoBody p states Nq Np C (i, q, pi) (r, q, pr) := by
  have hal : ∀ a ∈ states, Allowed p.J2max p.twoJ3max p.isoBreak a := fun a ha => IsChannel.allowed h ha
  obtain ⟨CT, h1, h2⟩ := kernelTab_eq ht Np (channelsOnly p (ctSub Np C) junk) hal
  refine ⟨CT, h1, fun r i q pr pi => ?_⟩
  obtain ⟨b, n, s1, s2, s3, s4⟩ := h2 r i
  rw [s4]
  unfold twoBody
  dsimp only
  by_cases hc : PairConnected (states.get r) (states.get i)
  · rw [if_pos hc, if_pos (show q = q ∧ PairConnected (states.get i) (states.get r) from ⟨rfl, pairConnected_symm hc⟩)]
    show channelsOnly p (ctSub Np C) junk b n _ = _
    unfold channelsOnly
    rw [if_pos (slot_range ht (hal _ (List.get_mem states r)) s1)]
    have : ctSub Np C b n = storeBlocks Np b (chanSub Np C b n) := by
      unfold ctSub storeBlocks; cases b <;> simp
    rw [this, storeBlocks_eq Np b _ _ _ s2 (s3 hc) _ _ pr.2 pi.2,
      channelMatrix_congr (slot_connected ht (hal _ (List.get_mem states i)) (hal _ (List.get_mem states r)) (pairConnected_symm hc))]
    unfold channelMatrix chanSub
    rw [s1]
  · rw [if_neg hc, if_neg (fun hh => hc (pairConnected_symm hh.2))]
    rfl

theorem chanPos_lt {s : PWState} {b : Bool} (hb : SecondMember s → b = true) (i : Fin Np) : chanPos Np s i < chnDim Np b := by
  unfold chanPos chnDim
  have := i.2
  by_cases g : SecondMember s
  · rw [if_pos g, hb g, if_pos rfl]; omega
  · rw [if_neg g]; split <;> omega

theorem vc_read (V C : Bool → Int → ℝ) (junk : Bool → Int → Nat → ℝ) :
    ∃ VC, kernelTab p Np (channelsOnly p (vcSub Np V C) junk) states = some VC ∧
      ∀ (c j : Fin states.length) (q : Fin Nq) (pc pj : Fin Np), rdPtr (VC c j) (pc * Np + pj) =
        (twoBody p states Nq Np V * twoBody p states Nq Np C) (j, q, pj) (c, q, pc) := by
  have hal : ∀ a ∈ states, Allowed p.J2max p.twoJ3max p.isoBreak a := fun a ha => IsChannel.allowed h ha
  obtain ⟨VC, h1, h2⟩ := kernelTab_eq ht Np (channelsOnly p (vcSub Np V C) junk) hal
  refine ⟨VC, h1, fun c j q pc pj => ?_⟩
  obtain ⟨b, n, s1, s2, s3, s4⟩ := h2 c j
  rw [s4, twoBody_mul ht h V C _ _ s1]
  dsimp only
  by_cases hc : PairConnected (states.get c) (states.get j)
  · rw [if_pos hc, if_pos (show q = q ∧ PairConnected (states.get j) (states.get c) from ⟨rfl, pairConnected_symm hc⟩)]
    show channelsOnly p (vcSub Np V C) junk b n _ = _
    unfold channelsOnly
    rw [if_pos (slot_range ht (hal _ (List.get_mem states c)) s1)]
    have : vcSub Np V C b n = storeBlocks Np b (dotMM (chnDim Np b) (chanSub Np V b n) (chanSub Np C b n)) := by
      unfold vcSub storeBlocks chnDim; cases b <;> simp
    rw [this, storeBlocks_eq Np b _ _ _ s2 (s3 hc) _ _ pc.2 pj.2]
    unfold dotMM
    have hlt := chanPos_lt ht h (Np := Np) (b := b) (s := states.get c) s2 pc
    rw [radix_div hlt, radix_mod hlt]
    refine Finset.sum_congr rfl fun k _ => ?_
    unfold channelMatrix chanSub
    rw [s1]
  · rw [if_neg hc, if_neg (fun hh => hc (pairConnected_symm hh.2))]
    rfl

end

theorem flat_inj {n Nq Np : Nat} {x y : Idx n Nq Np} (h : flat x = flat y) : x = y := by
  obtain ⟨a, q, i⟩ := x
  obtain ⟨a', q', i'⟩ := y
  unfold flat at h
  dsimp only at h
  have e : ∀ (a q i : Nat), a * Nq * Np + q * Np + i = (a * Nq + q) * Np + i := fun a q i => by ring
  rw [e, e] at h
  obtain ⟨h1, h2⟩ := radix_inj i.2 i'.2 h
  obtain ⟨h3, h4⟩ := radix_inj q.2 q'.2 h1
  simp only [Prod.mk.injEq, Fin.ext_iff]
  exact ⟨h3, h4, h2⟩

theorem flat_lt {n Nq Np : Nat} (x : Idx n Nq Np) : flat x < n * Nq * Np := by
  unfold flat
  have := radix_lt (radix_lt x.1.2 x.2.1.2) x.2.2.2
  calc _ = (x.1 * Nq + x.2.1) * Np + x.2.2 := by ring
    _ < _ := this

/-- Sum over a slice of the sparse array that belongs to one column. -/
theorem slice_sum (out P123 : List (Entry ℝ)) (hp : out.Perm P123) (hs : (out.map (·.col)).Pairwise (· ≤ ·)) {n Nq Np : Nat} (x y : Idx n Nq Np) (v : ℝ) :
    (((((out.drop (csPtr (out.map (·.col)) (flat y))).take (csPtr (out.map (·.col)) (flat y + 1) - csPtr (out.map (·.col)) (flat y))).map
      fun e => ((e.row, 2 * e.val * v) : Nat × ℝ)).map fun w => if w.1 = flat x then w.2 else 0).sum) = 2 * (sparseMatrix n Nq Np P123 x y * v) := by
  rw [csPtr_slice (·.col) out hs]
  unfold sparseMatrix
  have hp' : ((P123.filter fun e => decide (e.row = flat x ∧ e.col = flat y)).map (·.val)).sum =
      ((out.filter fun e => decide (e.row = flat x ∧ e.col = flat y)).map (·.val)).sum :=
    ((hp.symm.filter _).map _).sum_eq
  rw [hp']
  clear hp' hp hs
  induction out with
  | nil => simp
  | cons e l ih =>
    by_cases hc : e.col = flat y
    · rw [List.filter_cons_of_pos (by simpa using hc), List.map_cons, List.map_cons, List.sum_cons, ih]
      by_cases hr : e.row = flat x
      · rw [List.filter_cons_of_pos (by simpa using ⟨hr, hc⟩), if_pos hr, List.map_cons, List.sum_cons]
        ring
      · rw [List.filter_cons_of_neg (by simp [hr]), if_neg hr]
        ring
    · rw [List.filter_cons_of_neg (by simpa using hc), ih, List.filter_cons_of_neg (by simp [hc])]

theorem map_sum_congr {α : Type} {l : List α} {f g : α → ℝ} (h : ∀ a ∈ l, f a = g a) : (l.map f).sum = (l.map g).sum := by
  rw [List.map_congr_left h]

/-- `calculate_PVC_col` computes a column of `2 P (V C)`. -/
theorem pvcCol_eq {n Nq Np : Nat} (VC : PtrTab) (M : Matrix (Idx n Nq Np) (Idx n Nq Np) ℝ)
    (hM : ∀ (c j : Fin n) (q : Fin Nq) (pc pj : Fin Np), rdPtr (VC c j) (pc * Np + pj) = M (j, q, pj) (c, q, pc))
    (hM0 : ∀ x y, x.2.1 ≠ y.2.1 → M x y = 0)
    (out P123 : List (Entry ℝ)) (hp : out.Perm P123) (hs : (out.map (·.col)).Pairwise (· ≤ ·)) (f : Nat → ℝ) (y x : Idx n Nq Np) :
    pvcCol n Nq Np VC out (csPtr (out.map (·.col))) f y.1 y.2.2 y.2.1 (flat x) = f (flat x) + 2 * (sparseMatrix n Nq Np P123 * M) x y := by
  unfold pvcCol
  rw [addAll_eq, flatMap_map_sum, range_map_sum, Finset.sum_range, Matrix.mul_apply, Fintype.sum_prod_type, Finset.mul_sum]
  congr 1
  refine Finset.sum_congr rfl fun aj _ => ?_
  rw [Fintype.sum_prod_type, Finset.sum_eq_single y.2.1]
  · have hM' := fun pj => hM y.1 aj y.2.1 y.2.2 pj
    unfold rdPtr at hM'
    cases hv : VC y.1 aj with
    | none =>
      rw [hv] at hM'
      dsimp only at hM'
      rw [Finset.sum_eq_zero]
      · simp
      · intro pj _
        have e0 : M (aj, y.2.1, pj) y = 0 := (hM' pj).symm
        rw [e0, mul_zero]
    | some sub =>
      rw [hv] at hM'
      dsimp only at hM'
      rw [flatMap_map_sum, range_map_sum, Finset.sum_range, Finset.mul_sum]
      refine Finset.sum_congr rfl fun pj _ => ?_
      dsimp only
      have e : (aj : Nat) * Np * Nq + y.2.1 * Np + pj = flat (n := n) (aj, y.2.1, pj) := by unfold flat; dsimp only; ring
      rw [e, slice_sum out P123 hp hs x (aj, y.2.1, pj), hM' pj]
  · intro q _ hq
    refine Finset.sum_eq_zero fun t _ => ?_
    rw [hM0 _ _ (by simpa using hq), mul_zero]
  · intro hh; exact absurd (Finset.mem_univ _) hh

end TicTac
end
