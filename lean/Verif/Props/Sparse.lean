import Verif.Lemmas.Sparse
import Mathlib.Tactic.IntervalCases
import Mathlib.Algebra.BigOperators.Group.List.Lemmas
/-!
Properties C15, C16, C19, C21, C65.
-/
namespace TicTac
open Spec

/-! ### C15: schedule independence -/

/-- One complete calculation of a channel's P123: any work sharing over any number `T` of threads, any interleaving, any
buffer size, any leftovers on disk, then the merge (with any admissible result of `std::sort`). -/
structure P123Run {V : Type} [DecidableEq V] [Zero V] (c : P123Cfg V) (out : List (Entry V)) where
  T : Nat
  B : Nat
  disk : Nat → Nat → Option (List (Entry V))
  assign : Nat → List Nat
  trace : List (Nat × Entry V)
  sharing : IsWorkSharing c.Nq T assign
  interleaving : IsInterleaving T (fun t => (assign t).flatMap (rowElems c)) trace
  result : MergeResult c.dim T (p123Finish T (p123Exec B (p123Init disk) trace)).tfc
    (p123Finish T (p123Exec B (p123Init disk) trace)).file out

theorem readAll_perm {V : Type} [DecidableEq V] [Zero V] (c : P123Cfg V) (T B : Nat)
    (disk : Nat → Nat → Option (List (Entry V))) (assign : Nat → List Nat) (trace : List (Nat × Entry V))
    (hs : IsWorkSharing c.Nq T assign) (hi : IsInterleaving T (fun t => (assign t).flatMap (rowElems c)) trace) :
    (p123ReadAll T (p123Finish T (p123Exec B (p123Init disk) trace)).tfc
      (p123Finish T (p123Exec B (p123Init disk) trace)).file).Perm ((List.range c.Nq).flatMap (rowElems c)) := by
  rw [readAll_finish T B disk _ trace hi, ← List.flatMap_assoc]
  exact List.Perm.flatMap_right _ hs

theorem mergeChecks_of_lt {V : Type} (dim : Nat) (l : List (Entry V)) (h : ∀ e ∈ l, e.row < dim ∧ e.col < dim) :
    mergeChecks dim l = true := by
  unfold mergeChecks
  rw [List.all_eq_true]
  intro e he
  obtain ⟨h1, h2⟩ := h e he
  have := radix_lt h1 h2
  simp; omega

theorem sparseForm_of_perm {V : Type} [DecidableEq V] [Zero V] (c : P123Cfg V) (l out : List (Entry V))
    (hp : l.Perm ((List.range c.Nq).flatMap (rowElems c)))
    (h : IsSortedBy (fun e => e.row * c.dim + e.col) l out) : IsSparseForm c.dim (p123Matrix c) out := by
  refine ⟨?_, ?_⟩
  · refine sorted_strict h ?_ ?_
    · rintro ⟨r, k, v⟩ he
      exact ((mem_allElems c r k v).1 (hp.mem_iff.1 he)).2.1
    · exact (hp.pairwise_iff (fun {a b} (hab : (a.row, a.col) ≠ (b.row, b.col)) => Ne.symm hab)).2 (allElems_distinct c)
  · intro r k v
    rw [h.perm.mem_iff, hp.mem_iff, mem_allElems]

/-- **C15.** The result of calculating P123 is the row-major sparse form of the permutation matrix – the same list of
elements for every number of threads, distribution of the iterations, interleaving, buffer size and stale files. -/
theorem C15_result_is_matrix {V : Type} [DecidableEq V] [Zero V] (c : P123Cfg V) (out : List (Entry V))
    (run : P123Run c out) : IsSparseForm c.dim (p123Matrix c) out :=
  sparseForm_of_perm c _ out (readAll_perm c run.T run.B run.disk run.assign run.trace run.sharing run.interleaving)
    run.result.2

/-- **C15.** Two runs of any schedules give identical arrays. -/
theorem C15_schedule_independent {V : Type} [DecidableEq V] [Zero V] (c : P123Cfg V) (out₁ out₂ : List (Entry V))
    (run₁ : P123Run c out₁) (run₂ : P123Run c out₂) : out₁ = out₂ :=
  sparseForm_unique (C15_result_is_matrix c out₁ run₁) (C15_result_is_matrix c out₂ run₂)

/-- **C15.** No schedule ends in an error: the merge's checks pass and a result exists. -/
theorem C15_no_error {V : Type} [DecidableEq V] [Zero V] (c : P123Cfg V) (T B : Nat)
    (disk : Nat → Nat → Option (List (Entry V))) (assign : Nat → List Nat) (trace : List (Nat × Entry V))
    (hs : IsWorkSharing c.Nq T assign) (hi : IsInterleaving T (fun t => (assign t).flatMap (rowElems c)) trace) :
    ∃ out, MergeResult c.dim T (p123Finish T (p123Exec B (p123Init disk) trace)).tfc
      (p123Finish T (p123Exec B (p123Init disk) trace)).file out := by
  obtain ⟨out, ho⟩ := exists_isSortedBy (fun e : Entry V => e.row * c.dim + e.col)
    (p123ReadAll T (p123Finish T (p123Exec B (p123Init disk) trace)).tfc
      (p123Finish T (p123Exec B (p123Init disk) trace)).file)
  refine ⟨out, mergeChecks_of_lt _ _ ?_, ho⟩
  rintro ⟨r, k, v⟩ he
  have := (mem_allElems c r k v).1 ((readAll_perm c T B disk assign trace hs hi).mem_iff.1 he)
  exact ⟨this.1, this.2.1⟩

/-- A configuration with two q bins, one p bin, one state and non-zero elements. -/
def exCfg : P123Cfg Int := ⟨1, 2, 1, fun i => i != 1, fun _ qp _ _ q _ => qp + 2 * q + 1⟩

/-- Non-vacuity: two threads taking the rows in opposite order, with buffer size 1 and a stale file on disk. -/
example : ∃ out, Nonempty (P123Run exCfg out) ∧ out.length = 3 := by
  have hs : IsWorkSharing exCfg.Nq 2 (fun t => if t = 0 then [1] else [0]) := by
    unfold IsWorkSharing; decide
  have hi : IsInterleaving 2 (fun t => ((if t = 0 then [1] else [0] : List Nat)).flatMap (rowElems exCfg))
      [(1, ⟨0, 0, 1⟩), (0, ⟨1, 0, 2⟩), (0, ⟨1, 1, 4⟩)] := by
    refine ⟨by decide, ?_⟩
    intro t ht
    interval_cases t <;> decide
  obtain ⟨out, ho⟩ := C15_no_error exCfg 2 1 (fun _ _ => some [⟨0, 0, 7⟩]) _ _ hs hi
  refine ⟨out, ⟨⟨2, 1, _, _, _, hs, hi, ho⟩⟩, ?_⟩
  have := (readAll_perm exCfg 2 1 (fun _ _ => some [⟨0, 0, 7⟩]) _ _ hs hi).length_eq
  rw [ho.2.perm.length_eq, this]
  decide

/-! ### C65: thread buffers -/

/-- **C65.** Whatever the trace of stores, the buffer of a thread is never full when an element is written to it: the
write position is inside the allocated `B` elements. -/
theorem C65_buffer_in_range {V : Type} (B : Nat) (hB : 1 ≤ B) (disk : Nat → Nat → Option (List (Entry V)))
    (done : List (Nat × Entry V)) (t : Nat) : ((p123Exec B (p123Init disk) done).buf t).length < B :=
  exec_buf_lt B hB _ (fun _ => by simp [p123Init]; omega) done t

/-- **C65.** Nothing is lost or duplicated on the way: after any prefix of the work, the files and the buffer of a
thread hold exactly the elements it has produced, in order. -/
theorem C65_nothing_lost {V : Type} (B : Nat) (disk : Nat → Nat → Option (List (Entry V)))
    (done : List (Nat × Entry V)) (t : Nat) :
    ((List.range ((p123Exec B (p123Init disk) done).tfc t)).flatMap
      fun k => ((p123Exec B (p123Init disk) done).file t k).getD []) ++ (p123Exec B (p123Init disk) done).buf t =
      (done.filter (·.1 = t)).map (·.2) := by
  have := exec_collected B (p123Init disk) done t
  unfold collected at this
  rw [this]
  simp [p123Init]

/-! ### C16: recovery -/

/-- **C16 (false of the code).** For every channel with dense dimension up to 5792, recovery reads no file at all,
whatever the thread files contain: the recovered matrix is empty. -/
theorem C16_recovery_reads_nothing {V : Type} (c : P123Cfg V) (T : Nat) (hT : 1 ≤ T) (hdim : c.dim ≤ 5792)
    (file : Nat → Nat → Option (List (Entry V))) (out : List (Entry V)) (h : RecoveryResult c T file out) : out = [] := by
  have hnnz : ∀ cells counter : Nat, ((cells - counter) * (c.dim * c.dim) + cells) / cells ≤ c.dim * c.dim + 1 := by
    intro cells counter
    apply Nat.div_le_of_le_mul
    have : (cells - counter) * (c.dim * c.dim) ≤ cells * (c.dim * c.dim) := Nat.mul_le_mul_right _ (Nat.sub_le _ _)
    rw [Nat.mul_add, Nat.mul_one]
    omega
  have hz : recoveryTFC (overlapFalseCount c) (c.Nq * c.Nq * c.Np * c.Np) c.dim T = 0 := by
    unfold recoveryTFC
    simp only
    apply Nat.div_eq_of_lt
    have h1 := hnnz (c.Nq * c.Nq * c.Np * c.Np) (overlapFalseCount c)
    have h2 : c.dim * c.dim ≤ 5792 * 5792 := Nat.mul_le_mul hdim hdim
    have h3 : 2 ^ 30 * 1 ≤ 2 ^ 30 * T := Nat.mul_le_mul_left _ hT
    generalize (((c.Nq * c.Nq * c.Np * c.Np - overlapFalseCount c) * (c.dim * c.dim) + c.Nq * c.Nq * c.Np * c.Np) /
      (c.Nq * c.Nq * c.Np * c.Np)) = n at h1 ⊢
    omega
  unfold RecoveryResult at h
  rw [hz] at h
  have hr : p123ReadAll T (fun _ => 0) file = [] := by
    unfold p123ReadAll
    simp
  have := h.2.perm
  rw [hr] at this
  exact this.eq_nil

/-- C16, sufficient condition (exact form: `C16_exactly`): recovery of the files of a completed calculation gives that calculation's matrix whenever the
estimated number of files is at least the number each thread wrote and no other files of that name are on disk. -/
theorem C16_recovery_enough {V : Type} [DecidableEq V] [Zero V] (c : P123Cfg V) (T B : Nat)
    (disk : Nat → Nat → Option (List (Entry V))) (assign : Nat → List Nat) (trace : List (Nat × Entry V))
    (hs : IsWorkSharing c.Nq T assign) (hi : IsInterleaving T (fun t => (assign t).flatMap (rowElems c)) trace)
    (hcount : ∀ t < T, (p123Finish T (p123Exec B (p123Init disk) trace)).tfc t ≤
      recoveryTFC (overlapFalseCount c) (c.Nq * c.Nq * c.Np * c.Np) c.dim T)
    (hclean : ∀ t < T, ∀ k, (p123Finish T (p123Exec B (p123Init disk) trace)).tfc t ≤ k →
      (p123Finish T (p123Exec B (p123Init disk) trace)).file t k = none)
    (out : List (Entry V)) (h : RecoveryResult c T (p123Finish T (p123Exec B (p123Init disk) trace)).file out) :
    IsSparseForm c.dim (p123Matrix c) out := by
  refine sparseForm_of_perm c _ out ?_ h.2
  refine List.Perm.trans (List.Perm.of_eq ?_) (readAll_perm c T B disk assign trace hs hi)
  unfold p123ReadAll
  rw [List.flatMap_def, List.flatMap_def]
  congr 1
  apply List.map_congr_left
  intro t ht
  rw [List.mem_range] at ht
  obtain ⟨d, hd⟩ := Nat.exists_eq_add_of_le (hcount t ht)
  rw [hd, List.range_add, List.flatMap_append]
  conv_rhs => rw [← List.append_nil (List.flatMap _ _)]
  congr 1
  rw [List.flatMap_map, List.flatMap_eq_nil_iff]
  intro k _
  rw [hclean t ht _ (Nat.le_add_right _ _)]
  rfl

/-- The hypotheses on the estimate are met by large channels: 40 000 × 40 000, half of the cells overlapping, 4 threads. -/
example : recoveryTFC 500 1000 40000 4 = 5 := by decide

/-! ### C19: sorting and compressed formats -/

/-- **C19.** Sorting to row-major or column-major order keeps exactly the entries (each as often as before), hence the
matrix, and produces the announced order. -/
theorem C19_sort_preserves {V : Type} [AddCommMonoid V] (dim : Nat) (entries outR outC : List (Entry V))
    (hR : RowMajorSorted dim entries outR) (hC : ColMajorSorted dim entries outC)
    (hb : ∀ e ∈ entries, e.row < dim ∧ e.col < dim) :
    outR.Perm entries ∧ outC.Perm entries ∧ (∀ r k, matOf outR r k = matOf entries r k ∧ matOf outC r k = matOf entries r k) ∧
    outR.Pairwise (fun e f => e.row < f.row ∨ (e.row = f.row ∧ e.col ≤ f.col)) ∧
    outC.Pairwise (fun e f => e.col < f.col ∨ (e.col = f.col ∧ e.row ≤ f.row)) := by
  have hm : ∀ {l₁ l₂ : List (Entry V)}, l₁.Perm l₂ → ∀ r k, matOf l₁ r k = matOf l₂ r k := by
    intro l₁ l₂ h r k
    unfold matOf
    exact ((h.filter _).map _).sum_eq
  have key : ∀ a b a' b' : Nat, b' < dim → b < dim → a * dim + b ≤ a' * dim + b' → a < a' ∨ (a = a' ∧ b ≤ b') := by
    intro a b a' b' h1 h2 h3
    rcases Nat.lt_trichotomy a a' with h | h | h
    · exact Or.inl h
    · subst h; exact Or.inr ⟨rfl, by omega⟩
    · have h4 : (a' + 1) * dim ≤ a * dim := Nat.mul_le_mul_right _ h
      have h5 : (a' + 1) * dim = a' * dim + dim := by ring
      omega
  refine ⟨hR.perm, hC.perm, fun r k => ⟨hm hR.perm r k, hm hC.perm r k⟩, ?_, ?_⟩
  · refine (List.Pairwise.and_mem.1 hR.pairwise).imp ?_
    rintro e f ⟨he, hf, h⟩
    exact key _ _ _ _ (hb f (hR.perm.mem_iff.1 hf)).2 (hb e (hR.perm.mem_iff.1 he)).2 h
  · refine (List.Pairwise.and_mem.1 hC.pairwise).imp ?_
    rintro e f ⟨he, hf, h⟩
    exact key _ _ _ _ (hb f (hC.perm.mem_iff.1 hf)).1 (hb e (hC.perm.mem_iff.1 he)).1 h

theorem colSorted_cols {V : Type} {dim : Nat} {entries out : List (Entry V)} (h : ColMajorSorted dim entries out)
    (hb : ∀ e ∈ entries, e.row < dim ∧ e.col < dim) : (out.map (·.col)).Pairwise (· ≤ ·) := by
  rw [List.pairwise_map]
  refine (List.Pairwise.and_mem.1 h.pairwise).imp ?_
  rintro e f ⟨he, hf, hle⟩
  by_contra hlt
  have h1 := (hb e (h.perm.mem_iff.1 he)).1
  have h2 := (hb f (h.perm.mem_iff.1 hf)).1
  have h4 : (f.col + 1) * dim ≤ e.col * dim := Nat.mul_le_mul_right _ (by omega)
  have h5 : (f.col + 1) * dim = f.col * dim + dim := by ring
  omega

/-- **C19.** From row-major COO to CSC (as done before solving): the slice between pointers `k` and `k+1` of the
re-sorted arrays holds exactly the entries of column `k`, and the last pointer is the number of entries. -/
theorem C19_csc_columns {V : Type} (dim : Nat) (entries out : List (Entry V)) (h : ColMajorSorted dim entries out)
    (hb : ∀ e ∈ entries, e.row < dim ∧ e.col < dim) :
    csPtr (out.map (·.col)) 0 = 0 ∧ csPtr (out.map (·.col)) dim = entries.length ∧
    ∀ k, csPtr (out.map (·.col)) k ≤ csPtr (out.map (·.col)) (k + 1) ∧
      ((out.drop (csPtr (out.map (·.col)) k)).take (csPtr (out.map (·.col)) (k + 1) - csPtr (out.map (·.col)) k)).Perm
        (entries.filter (fun e => e.col = k)) := by
  have hs := colSorted_cols h hb
  refine ⟨rfl, ?_, fun k => ⟨?_, ?_⟩⟩
  · rw [csPtr_eq _ hs, ← h.perm.length_eq]
    rw [List.filter_eq_self.2, List.length_map]
    intro k hk
    obtain ⟨e, he, rfl⟩ := List.mem_map.1 hk
    simpa using (hb e (h.perm.mem_iff.1 he)).2
  · rw [csPtr]; omega
  · rw [csPtr_slice (·.col) out hs k]
    exact h.perm.filter _

/-- **C19.** The same for CSR of a row-major matrix (the rows are already sorted): slice `r` holds exactly the entries
of row `r`, in their order. -/
theorem C19_csr_rows {V : Type} (dim : Nat) (entries : List (Entry V))
    (hs : (entries.map (·.row)).Pairwise (· ≤ ·)) (hb : ∀ e ∈ entries, e.row < dim) :
    csPtr (entries.map (·.row)) dim = entries.length ∧
    ∀ r, (entries.drop (csPtr (entries.map (·.row)) r)).take
        (csPtr (entries.map (·.row)) (r + 1) - csPtr (entries.map (·.row)) r) = entries.filter (fun e => e.row = r) := by
  refine ⟨?_, fun r => csPtr_slice (·.row) entries hs r⟩
  rw [csPtr_eq _ hs, List.filter_eq_self.2, List.length_map]
  intro k hk
  obtain ⟨e, he, rfl⟩ := List.mem_map.1 hk
  simpa using hb e he

example : ∃ out, ColMajorSorted 2 [⟨0, 1, (5 : Int)⟩, ⟨1, 0, 6⟩, ⟨1, 1, 7⟩] out ∧
    out.map (·.col) = [0, 1, 1] ∧ csPtr (out.map (·.col)) 1 = 1 ∧ csPtr (out.map (·.col)) 2 = 3 := by
  refine ⟨[⟨1, 0, 6⟩, ⟨0, 1, 5⟩, ⟨1, 1, 7⟩], ⟨[1, 0, 2], ⟨by decide, by decide⟩, by decide⟩, by decide, by decide, by decide⟩

/-! ### C21: dense conversions -/

/-- **C21 (dense to COO).** The conversion lists exactly the non-zero elements, in row-major order. -/
theorem C21_dense_to_coo {V : Type} [DecidableEq V] [Zero V] (n : Nat) (m : Nat → V) :
    IsSparseForm n (fun r k => m (r * n + k)) (denseToCoo n m) := by
  refine ⟨?_, ?_⟩
  · unfold denseToCoo
    rw [List.pairwise_flatMap]
    constructor
    · intro i _
      rw [List.pairwise_flatMap]
      constructor
      · intro j _; split_ifs <;> simp
      · refine List.pairwise_lt_range.imp ?_
        intro j j' hjj x hx y hy
        split_ifs at hx hy <;> simp at hx hy
        subst hx; subst hy
        exact Or.inr ⟨rfl, hjj⟩
    · refine List.pairwise_lt_range.imp ?_
      intro i i' hii x hx y hy
      rw [List.mem_flatMap] at hx hy
      obtain ⟨j, _, hx⟩ := hx
      obtain ⟨j', _, hy⟩ := hy
      split_ifs at hx hy <;> simp at hx hy
      subst hx; subst hy
      exact Or.inl hii
  · intro r k v
    unfold denseToCoo
    simp only [List.mem_flatMap, List.mem_range]
    constructor
    · rintro ⟨i, hi, j, hj, h⟩
      split_ifs at h with h0 <;> simp at h
      obtain ⟨rfl, rfl, rfl⟩ := h
      exact ⟨hi, hj, rfl, h0⟩
    · rintro ⟨hr, hk, rfl, hne⟩
      refine ⟨r, hr, k, hk, ?_⟩
      rw [if_pos hne]; simp

theorem zeroSlots_ptr {V : Type} (n : Nat) (hn : 1 ≤ n) (s : DenseMem V) :
    ((List.range n).foldl zeroSlot s).ptr = none := by
  have h : ∀ (l : List Nat) (s : DenseMem V), s.ptr = none → (l.foldl zeroSlot s).ptr = none := by
    intro l
    induction l with
    | nil => intro s hs; exact hs
    | cons i l ih =>
      intro s hs
      rw [List.foldl_cons]
      apply ih
      unfold zeroSlot
      split_ifs
      · rfl
      · exact hs
  obtain ⟨k, rfl⟩ := Nat.exists_eq_add_of_le hn
  rw [List.range_add, List.foldl_append]
  apply h
  rfl

theorem zeroSlots_wrote {V : Type} (n : Nat) (hn : 2 ≤ n) (s : DenseMem V) :
    ((List.range n).foldl zeroSlot s).wroteOutside = true := by
  have h : ∀ (l : List Nat) (s : DenseMem V), s.wroteOutside = true → (l.foldl zeroSlot s).wroteOutside = true := by
    intro l
    induction l with
    | nil => intro s hs; exact hs
    | cons i l ih =>
      intro s hs
      rw [List.foldl_cons]
      apply ih
      unfold zeroSlot
      split_ifs
      · exact hs
      · rfl
  obtain ⟨k, rfl⟩ := Nat.exists_eq_add_of_le hn
  rw [List.range_add, List.foldl_append]
  apply h
  rfl

/-- **C21 (false of the code, COO to dense).** For every non-empty matrix dimension the conversion never returns a dense
matrix: it dereferences a null pointer when there is an element, and otherwise hands back a null pointer; from dimension 2
on it also writes outside the caller's pointer. -/
theorem C21_coo_to_dense_fails {V : Type} (n : Nat) (hn : 1 ≤ n) (junk : Nat → V) (entries : List (Entry V)) :
    (entries ≠ [] → cooToDense n junk entries = none) ∧
    (entries = [] → ∃ s, cooToDense n junk entries = some s ∧ s.ptr = none ∧ (2 ≤ n → s.wroteOutside = true)) := by
  constructor
  · intro hne
    cases entries with
    | nil => exact absurd rfl hne
    | cons e es =>
      unfold cooToDense
      simp only [List.foldlM_cons]
      rw [zeroSlots_ptr n hn]
      rfl
  · rintro rfl
    exact ⟨_, rfl, zeroSlots_ptr n hn _, fun h2 => zeroSlots_wrote n h2 _⟩

example : cooToDense 2 (fun _ => (0 : Int)) [⟨0, 1, 3⟩] = none ∧ denseToCoo 2 (fun i => (i : Int)) = [⟨0, 1, 1⟩, ⟨1, 0, 2⟩, ⟨1, 1, 3⟩] :=
  ⟨(C21_coo_to_dense_fails 2 (by omega) _ _).1 (by simp), by decide⟩

end TicTac
