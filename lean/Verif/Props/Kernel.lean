import Verif.Lemmas.Kernel3
import Verif.Props.Sparse
import Verif.Props.PWStates
import Verif.Props.Channels2N
/-! The Faddeev kernel: C43. -/
noncomputable section
namespace TicTac
open Spec
open Classical

/-- The arguments `solve_faddeev_equations` passes on for one 3N channel: pointer tables made from the channel matrices `V`, `C`
(the buffers contain `junk` outside the channels that were filled), the stored `P123` sorted column-major and in CSC format. -/
structure KernelInput (p : PWParams) (states : List PWState) (Nq Np : Nat) (V C : Bool → Int → ℝ) (P123 : List (Entry ℝ)) (CT VC : PtrTab)
    (out : List (Entry ℝ)) : Prop where
  ct : ∃ junk, kernelTab p Np (channelsOnly p (ctSub Np C) junk) states = some CT
  vc : ∃ junk, kernelTab p Np (channelsOnly p (vcSub Np V C) junk) states = some VC
  sorted : ColMajorSorted (states.length * Nq * Np) P123 out
  bounds : ∀ e ∈ P123, e.row < states.length * Nq * Np ∧ e.col < states.length * Nq * Np

/-- C43: setting up the tables never ends in `raise_error`. -/
theorem C43_tables_exist {p : PWParams} (ht : p.tensor = true) {twoJ3 P : Int} {states : List PWState} (h : IsChannel p twoJ3 P states) (Np : Nat)
    (V C : Bool → Int → ℝ) (junk : Bool → Int → Nat → ℝ) :
    (∃ CT, kernelTab p Np (channelsOnly p (ctSub Np C) junk) states = some CT) ∧
    (∃ VC, kernelTab p Np (channelsOnly p (vcSub Np V C) junk) states = some VC) := by
  obtain ⟨CT, h1, _⟩ := ct_read ht h (Nq := 0) (Np := Np) C junk
  obtain ⟨VC, h2, _⟩ := vc_read ht h (Nq := 0) (Np := Np) V C junk
  exact ⟨⟨CT, h1⟩, ⟨VC, h2⟩⟩

theorem pvc_of_input {p : PWParams} (ht : p.tensor = true) {twoJ3 P : Int} {states : List PWState} (h : IsChannel p twoJ3 P states) {Nq Np : Nat}
    {V C : Bool → Int → ℝ} {P123 out : List (Entry ℝ)} {CT VC : PtrTab} (hin : KernelInput p states Nq Np V C P123 CT VC out) (f : Nat → ℝ)
    (x y : Idx states.length Nq Np) :
    pvcCol states.length Nq Np VC out (csPtr (out.map (·.col))) f y.1 y.2.2 y.2.1 (flat x) =
      f (flat x) + 2 * (sparseMatrix states.length Nq Np P123 * (twoBody p states Nq Np V * twoBody p states Nq Np C)) x y := by
  obtain ⟨junk, hvc⟩ := hin.vc
  obtain ⟨VC', h1, h2⟩ := vc_read ht h (Nq := Nq) (Np := Np) V C junk
  rw [hvc] at h1; cases h1
  refine pvcCol_eq VC _ h2 ?_ out P123 hin.sorted.perm (colSorted_cols hin.sorted hin.bounds) f y x
  intro x y hq
  obtain ⟨b, n, s1, _⟩ := kernelPtr_eq ht (IsChannel.allowed h (List.get_mem states y.1)) (IsChannel.allowed h (List.get_mem states y.1))
  rw [twoBody_mul ht h V C _ _ s1, if_neg (fun hh => hq hh.1)]

/-- C43: `calculate_PVC_col` adds column `y` of `2 P123 V C`. -/
theorem C43_pvc_column {p : PWParams} (ht : p.tensor = true) {twoJ3 P : Int} {states : List PWState} (h : IsChannel p twoJ3 P states) {Nq Np : Nat}
    {V C : Bool → Int → ℝ} {P123 out : List (Entry ℝ)} {CT VC : PtrTab} (hin : KernelInput p states Nq Np V C P123 CT VC out) (f : Nat → ℝ)
    (x y : Idx states.length Nq Np) :
    pvcCol states.length Nq Np VC out (csPtr (out.map (·.col))) f y.1 y.2.2 y.2.1 (flat x) =
      f (flat x) + ((2 : ℝ) • (sparseMatrix states.length Nq Np P123 * (twoBody p states Nq Np V * twoBody p states Nq Np C))) x y := by
  rw [pvc_of_input ht h hin]; rfl

theorem kernelMatrix_eq (p : PWParams) (states : List PWState) (Nq Np : Nat) (V C : Bool → Int → ℝ) (P123 : List (Entry ℝ)) (x y : Idx states.length Nq Np) :
    kernelMatrix p states Nq Np V C P123 x y = ∑ z, twoBody p states Nq Np C z x *
      (2 * (sparseMatrix states.length Nq Np P123 * (twoBody p states Nq Np V * twoBody p states Nq Np C)) z y) := by
  unfold kernelMatrix
  rw [Matrix.smul_apply, Matrix.mul_assoc, Matrix.mul_apply, smul_eq_mul, Finset.mul_sum]
  refine Finset.sum_congr rfl fun z _ => ?_
  rw [Matrix.transpose_apply]; ring

theorem twoBody_q (p : PWParams) (states : List PWState) (Nq Np : Nat) (X : Bool → Int → ℝ) (x y : Idx states.length Nq Np) (hq : x.2.1 ≠ y.2.1) :
    twoBody p states Nq Np X x y = 0 := by
  unfold twoBody; rw [if_neg (fun hh => hq hh.1)]

/-- C43: `calculate_CPVC_col` adds column `y` of the kernel `Cᵀ P V C`. -/
theorem C43_kernel_column {p : PWParams} (ht : p.tensor = true) {twoJ3 P : Int} {states : List PWState} (h : IsChannel p twoJ3 P states) {Nq Np : Nat}
    {V C : Bool → Int → ℝ} {P123 out : List (Entry ℝ)} {CT VC : PtrTab} (hin : KernelInput p states Nq Np V C P123 CT VC out) (f : Nat → ℝ)
    (x y : Idx states.length Nq Np) :
    cpvcCol states.length Nq Np CT VC out (csPtr (out.map (·.col))) f y.1 y.2.2 y.2.1 (flat x) =
      f (flat x) + kernelMatrix p states Nq Np V C P123 x y := by
  obtain ⟨junk, hct⟩ := hin.ct
  obtain ⟨CT', h1, h2⟩ := ct_read ht h (Nq := Nq) (Np := Np) C junk
  rw [hct] at h1; cases h1
  have hpvc : ∀ z : Idx states.length Nq Np, pvcCol states.length Nq Np VC out (csPtr (out.map (·.col))) (fun _ => 0) y.1 y.2.2 y.2.1 (flat z) =
      2 * (sparseMatrix states.length Nq Np P123 * (twoBody p states Nq Np V * twoBody p states Nq Np C)) z y := fun z => by
    rw [pvc_of_input ht h hin]; simp
  rw [kernelMatrix_eq]
  unfold cpvcCol
  dsimp only
  rw [addAll_eq, flatMap_map_sum, range_map_sum, Finset.sum_range]
  congr 1
  rw [Finset.sum_eq_single x.1]
  · rw [flatMap_map_sum, range_map_sum, Finset.sum_range, Fintype.sum_prod_type]
    refine Finset.sum_congr rfl fun ai _ => ?_
    have h2' := fun q pr pi => h2 x.1 ai q pr pi
    rw [Fintype.sum_prod_type, Finset.sum_eq_single x.2.1]
    · unfold rdPtr at h2'
      cases hv : CT x.1 ai with
      | none =>
        rw [hv] at h2'
        dsimp only at h2' ⊢
        rw [Finset.sum_eq_zero]
        · simp
        · intro pi _
          have e0 : twoBody p states Nq Np C (ai, x.2.1, pi) x = 0 := (h2' x.2.1 x.2.2 pi).symm
          rw [e0, zero_mul]
      | some sub =>
        rw [hv] at h2'
        dsimp only at h2' ⊢
        rw [flatMap_map_sum, range_map_sum, Finset.sum_range, Finset.sum_eq_single x.2.1]
        · rw [flatMap_map_sum, range_map_sum, Finset.sum_range]
          refine Finset.sum_congr rfl fun pi _ => ?_
          have e : (ai : Nat) * Nq * Np + ((x.2.1 : Nat) * Np + pi) = flat (n := states.length) (ai, x.2.1, pi) := by unfold flat; dsimp only; ring
          rw [e, hpvc]
          generalize 2 * (sparseMatrix states.length Nq Np P123 * (twoBody p states Nq Np V * twoBody p states Nq Np C)) (ai, x.2.1, pi) y = v
          by_cases hv0 : v = 0
          · rw [if_pos hv0, hv0, mul_zero]; rfl
          · rw [if_neg hv0, List.map_map, range_map_sum, Finset.sum_range, Finset.sum_eq_single x.2.2]
            · have ef : (x.1 : Nat) * Nq * Np + x.2.1 * Np + x.2.2 = flat x := rfl
              rw [Function.comp_apply]
              dsimp only
              rw [if_pos ef, h2' x.2.1 x.2.2 pi, mul_comm]
            · intro pr _ hpr
              rw [Function.comp_apply]
              dsimp only
              rw [if_neg]
              intro hh
              have := flat_inj (x := (x.1, x.2.1, pr)) (y := x) hh
              exact hpr (by rw [← this])
            · intro hh; exact absurd (Finset.mem_univ _) hh
        · intro qr _ hqr
          rw [flatMap_map_sum, range_map_sum, Finset.sum_range]
          refine Finset.sum_eq_zero fun pi _ => ?_
          split
          · rfl
          · rw [List.map_map, range_map_sum, Finset.sum_range]
            refine Finset.sum_eq_zero fun pr _ => ?_
            rw [Function.comp_apply]
            dsimp only
            rw [if_neg]
            intro hh
            have := flat_inj (x := (x.1, qr, pr)) (y := x) hh
            exact hqr (by rw [← this])
        · intro hh; exact absurd (Finset.mem_univ _) hh
    · intro q _ hq
      refine Finset.sum_eq_zero fun t _ => ?_
      rw [twoBody_q _ _ _ _ _ _ _ (by simpa using hq), zero_mul]
    · intro hh; exact absurd (Finset.mem_univ _) hh
  · intro ar _ har
    rw [flatMap_map_sum, range_map_sum, Finset.sum_range]
    refine Finset.sum_eq_zero fun ai _ => ?_
    cases CT ar ai with
    | none => simp
    | some sub =>
      dsimp only
      rw [flatMap_map_sum, range_map_sum, Finset.sum_range]
      refine Finset.sum_eq_zero fun qr _ => ?_
      rw [flatMap_map_sum, range_map_sum, Finset.sum_range]
      refine Finset.sum_eq_zero fun pi _ => ?_
      split
      · rfl
      · rw [List.map_map, range_map_sum, Finset.sum_range]
        refine Finset.sum_eq_zero fun pr _ => ?_
        rw [Function.comp_apply]
        dsimp only
        rw [if_neg]
        intro hh
        have := flat_inj (x := (ar, qr, pr)) (y := x) hh
        exact har (by rw [← this])
  · intro hh; exact absurd (Finset.mem_univ _) hh

theorem foldl_add_sum {α : Type} (l : List α) (g : α → ℝ) (s : ℝ) : l.foldl (fun s a => s + g a) s = s + (l.map g).sum := by
  induction l generalizing s with
  | nil => simp
  | cons a l ih => rw [List.foldl_cons, ih, List.map_cons, List.sum_cons]; ring

theorem rowInner_eq (n Nq Np : Nat) (CT : PtrTab) (pvc : Nat → ℝ) (ar qr : Nat) :
    rowInner n Nq Np CT pvc ar qr = ∑ ai : Fin n, ∑ pi : Fin Np, rdPtr (CT ar ai) pi * pvc (ai * Nq * Np + qr * Np + pi) := by
  unfold rowInner
  have : (fun s ai => match CT ar ai with
    | none => s
    | some sub => (List.range Np).foldl (fun s pi => s + sub (0 * Np + pi) * pvc (ai * Nq * Np + qr * Np + pi)) s) =
      fun (s : ℝ) (ai : Nat) => s + ∑ pi : Fin Np, rdPtr (CT ar ai) pi * pvc (ai * Nq * Np + qr * Np + pi) := by
    funext s ai
    unfold rdPtr
    cases CT ar ai with
    | none => simp
    | some sub =>
      dsimp only
      rw [foldl_add_sum, range_map_sum, Finset.sum_range]
      simp only [Nat.zero_mul, Nat.zero_add]
  refine Eq.trans (congrArg (fun g => List.foldl g 0 (List.range n)) this) ?_
  rw [foldl_add_sum, range_map_sum, Finset.sum_range, zero_add]

/-- C43: `calculate_all_CPVC_rows` stores the kernel rows of the deuteron states at the requested q bins (p bin 0, the bound state),
whatever the order in which the threads process the columns. -/
theorem C43_kernel_rows {p : PWParams} (ht : p.tensor = true) {twoJ3 P : Int} {states : List PWState} (h : IsChannel p twoJ3 P states) {Nq Np : Nat}
    (hNp : 0 < Np) {V C : Bool → Int → ℝ} {P123 out : List (Entry ℝ)} {CT VC : PtrTab} (hin : KernelInput p states Nq Np V C P123 CT VC out)
    (qidx : List (Fin Nq)) (deut : List (Fin states.length)) (sched : List Nat) (hsched : sched.Perm (List.range states.length)) (f : Nat → ℝ)
    (i : Fin deut.length) (j : Fin qidx.length) (y : Idx states.length Nq Np) :
    allRows states.length Nq Np CT VC out (csPtr (out.map (·.col))) (qidx.map (·.val)) (deut.map (·.val)) sched f
        ((i * qidx.length + j) * (states.length * Nq * Np) + flat y) =
      kernelMatrix p states Nq Np V C P123 (deut.get i, qidx.get j, ⟨0, hNp⟩) y := by
  obtain ⟨junk, hct⟩ := hin.ct
  obtain ⟨CT', h1, h2⟩ := ct_read ht h (Nq := Nq) (Np := Np) C junk
  rw [hct] at h1; cases h1
  have hval : ∀ (a : Fin states.length) (q : Fin Nq) (y : Idx states.length Nq Np),
      rowInner states.length Nq Np CT (pvcCol states.length Nq Np VC out (csPtr (out.map (·.col))) (fun _ => 0) y.1 y.2.2 y.2.1) a q =
        kernelMatrix p states Nq Np V C P123 (a, q, ⟨0, hNp⟩) y := by
    intro a q y
    rw [rowInner_eq, kernelMatrix_eq, Fintype.sum_prod_type]
    refine Finset.sum_congr rfl fun ai _ => ?_
    rw [Fintype.sum_prod_type, Finset.sum_eq_single q]
    · refine Finset.sum_congr rfl fun pi _ => ?_
      have e : (ai : Nat) * Nq * Np + (q : Nat) * Np + pi = flat (n := states.length) (ai, q, pi) := rfl
      rw [e, pvc_of_input ht h hin, zero_add]
      have := h2 a ai q ⟨0, hNp⟩ pi
      simp only [Nat.zero_mul, Nat.zero_add] at this
      rw [this]
    · intro q' _ hq
      refine Finset.sum_eq_zero fun t _ => ?_
      rw [twoBody_q _ _ _ _ _ _ _ (by simpa using hq), zero_mul]
    · intro hh; exact absurd (Finset.mem_univ _) hh
  unfold allRows
  have hlen : (qidx.map (·.val)).length = qidx.length := by simp
  apply writeAll_eq
  · refine List.mem_flatMap.2 ⟨y.1, hsched.mem_iff.2 (List.mem_range.2 y.1.2), ?_⟩
    unfold rowWrites
    refine List.mem_flatMap.2 ⟨y.2.1, List.mem_range.2 y.2.1.2, List.mem_flatMap.2 ⟨y.2.2, List.mem_range.2 y.2.2.2, ?_⟩⟩
    dsimp only
    refine List.mem_flatMap.2 ⟨((deut.get i).val, i), ?_, List.mem_map.2 ⟨((qidx.get j).val, j), ?_, ?_⟩⟩
    · rw [List.mk_mem_zipIdx_iff_getElem?]; simp
    · rw [List.mk_mem_zipIdx_iff_getElem?]; simp
    · rw [hlen]
      apply Prod.ext
      · rfl
      · exact hval _ _ _
  · intro w hw he
    obtain ⟨ac, hac, hw⟩ := List.mem_flatMap.1 hw
    unfold rowWrites at hw
    obtain ⟨qc, hqc, hw⟩ := List.mem_flatMap.1 hw
    obtain ⟨pc, hpc, hw⟩ := List.mem_flatMap.1 hw
    dsimp only at hw
    obtain ⟨⟨d, i'⟩, hd, hw⟩ := List.mem_flatMap.1 hw
    obtain ⟨⟨q, j'⟩, hq, rfl⟩ := List.mem_map.1 hw
    rw [hlen] at he
    dsimp only at he ⊢
    rw [List.mk_mem_zipIdx_iff_getElem?, List.getElem?_map] at hd hq
    have hac' := List.mem_range.1 (hsched.mem_iff.1 hac)
    have hqc' := List.mem_range.1 hqc
    have hpc' := List.mem_range.1 hpc
    have hfl : ac * Nq * Np + qc * Np + pc = flat (n := states.length) (⟨ac, hac'⟩, ⟨qc, hqc'⟩, ⟨pc, hpc'⟩) := rfl
    rw [hfl] at he
    obtain ⟨e1, e2⟩ := radix_inj (flat_lt _) (flat_lt _) he
    have e2' := flat_inj e2
    obtain ⟨d', hd', rfl⟩ := Option.map_eq_some_iff.1 hd
    obtain ⟨q', hq', rfl⟩ := Option.map_eq_some_iff.1 hq
    obtain ⟨hjl, hje⟩ := List.getElem?_eq_some_iff.1 hq'
    obtain ⟨hil, hie⟩ := List.getElem?_eq_some_iff.1 hd'
    obtain ⟨e3, e4⟩ := radix_inj hjl j.2 e1
    have := hval d' q' (⟨ac, hac'⟩, ⟨qc, hqc'⟩, ⟨pc, hpc'⟩)
    dsimp only at this
    rw [this, e2']
    have f1 : d' = deut.get i := by rw [← hie]; simp [e3]
    have f2 : q' = qidx.get j := by rw [← hje]; simp [e4]
    rw [f1, f2]

/-- C43: the channels the program loops over satisfy the hypothesis `IsChannel`. -/
theorem C43_program_channels (p : PWParams) (hv : ValidTruncation p) (w : PWSpace) (hw : constructPW p = some w) (c lo hi : Nat) (hc : c < w.nChn)
    (hlo : w.chnIdx[c]? = some lo) (hhi : w.chnIdx[c + 1]? = some hi) :
    IsChannel p (2 * ((c / 2 : Nat) : Int) + 1) (if c % 2 = 0 then 1 else -1) ((w.states.drop lo).take (hi - lo)) := by
  obtain ⟨w', hw', hb⟩ := C01_basis_exact p hv
  rw [hw] at hw'; cases hw'
  have hn := C02_no_duplicates p w hw
  obtain ⟨_, _, _, _, _, h3⟩ := C03_channels_contiguous p hv w hw
  have h3 := h3 c lo hi hc hlo hhi
  refine ⟨(hn.sublist (List.drop_sublist _ _)).sublist (List.take_sublist _ _), fun s => ?_⟩
  constructor
  · intro hs
    obtain ⟨k, hk, rfl⟩ := List.mem_iff_getElem.1 hs
    have hk' : k < hi - lo ∧ lo + k < w.states.length := by
      rw [List.length_take, List.length_drop] at hk
      omega
    have e : ((w.states.drop lo).take (hi - lo))[k] = w.states[lo + k]'hk'.2 := by simp
    rw [e]
    refine ⟨(hb _).1 (List.getElem_mem _), (h3 (lo + k) _ (List.getElem?_eq_getElem hk'.2)).1 ⟨by omega, by omega⟩⟩
  · rintro ⟨ha, hJP⟩
    obtain ⟨k, hk, rfl⟩ := List.mem_iff_getElem.1 ((hb s).2 ha)
    have := (h3 k _ (List.getElem?_eq_getElem hk)).2 hJP
    refine List.mem_iff_getElem.2 ⟨k - lo, ?_, ?_⟩
    · rw [List.length_take, List.length_drop]; omega
    · simp only [List.getElem_take, List.getElem_drop]
      congr 1
      omega

-- the hypotheses are met: the first channel (1/2+) of a truncation with tensor force has states and inputs
example : ∃ w, constructPW { J2max := 1, twoJ3max := 1, isoBreak := true } = some w ∧ w.chnIdx[0]? = some 0 ∧ ∃ hi, w.chnIdx[1]? = some hi ∧ 5 < hi :=
  ⟨_, rfl, rfl, _, rfl, by decide⟩
example (p : PWParams) (ht : p.tensor = true) {twoJ3 P : Int} {states : List PWState} (h : IsChannel p twoJ3 P states) (hlen : 0 < states.length)
    (V C : Bool → Int → ℝ) (v : ℝ) :
    ∃ CT VC out, KernelInput p states 1 2 V C [⟨1, 0, v⟩, ⟨0, 1, v⟩] CT VC out := by
  obtain ⟨⟨CT, h1⟩, ⟨VC, h2⟩⟩ := C43_tables_exist ht h 2 V C (fun _ _ _ => 0)
  obtain ⟨out, ho⟩ := exists_isSortedBy (fun e : Entry ℝ => e.col * (states.length * 1 * 2) + e.row) [⟨1, 0, v⟩, ⟨0, 1, v⟩]
  refine ⟨CT, VC, out, ⟨_, h1⟩, ⟨_, h2⟩, ho, ?_⟩
  intro e he
  simp only [List.mem_cons, List.not_mem_nil, or_false] at he
  rcases he with rfl | rfl <;> dsimp only <;> omega

end TicTac
end
