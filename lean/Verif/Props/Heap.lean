import Verif.Lemmas.HeapSound
import Verif.Spec.Heap
import Mathlib.Algebra.BigOperators.Group.Finset.Basic

/-!
C133: the calculation frees no array twice and uses none that is not alive; the arrays that are left when it ends.
-/
namespace TicTac
open Spec

def allPtrs : List Ptr := [.deuteron_idx_arrays, .deuteron_num_array, .L_2N, .S_2N, .J_2N, .T_2N, .L_1N, .two_J_1N, .two_J_3N, .two_T_3N, .P_3N,
  .chn_3N_idx, .p_WP, .q_WP, .p_array, .wp_array, .q_array, .wq_array, .fp, .fq, .norm_p, .norm_q, .P123_val, .P123_row, .P123_col, .P123_csc, .x_array,
  .wx_array, .phi_array, .wphi_array, .overlap, .max_TFC, .P123_dense, .sixJ, .atilde, .clebsch, .sin_phi, .cos_phi, .plm1, .plm2, .plm3, .prefac_L,
  .prefac_l, .val_omp, .row_omp, .col_omp, .dim_omp, .val_omp_i, .row_omp_i, .col_omp_i, .mem_doubles, .mem_ints, .sub_val, .sub_row, .sub_col, .sort_idx,
  .sort_val, .row_CM, .col_CM, .val_CM, .V_unco, .V_coup, .e_unco, .e_coup, .C_unco, .C_coup, .G, .U, .U_BU, .done_unco, .done_coup, .check_unco,
  .check_coup, .H_unco, .H_coup, .H0_unco, .H0_coup, .Eq_bound, .Tlab_bound, .q_mid, .Eq_mid, .Tlab_mid, .energies, .T_lab, .q_com, .E_com, .q_com_idx,
  .BU_idx, .alphapq_bound, .alphapq, .deuteron_idx, .CT_ptr, .VC_ptr, .CT_unco, .CT_coup, .VC_unco, .VC_coup, .VC_temp, .transpose_temp, .a_coeff, .a_BU,
  .neumann, .comments, .re_row, .im_row, .re_prev, .im_prev, .re_comp, .im_comp, .re_prod, .im_prod, .row_index, .pade, .pade_idx, .pade_conv, .pade_BU,
  .pade_BU_idx, .pade_BU_conv, .cols, .col_omp_CPVC, .r2n_omp, .n2r_omp, .times, .PVC_col, .Lmat, .Rmat, .dcol, .dr2n, .dn2r]

theorem mem_allPtrs (x : Ptr) : x ∈ allPtrs := by cases x <;> decide +kernel

theorem nodup_allPtrs : allPtrs.Nodup := by decide +kernel

/-- The numbers whose products add up to `unfreed`. -/
def unfreedTerms (φ : Flag → Bool) (x : Ptr) : List (List Cnt) :=
  let per (b : Bool) (l : List Cnt) : List (List Cnt) := if b then [l] else []
  match x with
  | .L_2N | .S_2N | .J_2N | .T_2N | .L_1N | .two_J_1N | .two_J_3N | .two_T_3N | .P_3N | .chn_3N_idx | .deuteron_idx_arrays | .deuteron_num_array => [[.one]]
  | .p_WP | .q_WP | .p_array | .q_array | .fp | .fq | .norm_p | .norm_q => [[.one]]
  | .wp_array | .wq_array => per (!φ .midpoint_approx) [.one]
  | .x_array | .wx_array | .phi_array | .wphi_array | .overlap | .max_TFC => per (φ .calculate_P123) [.worked, .one]
  | .P123_csc => per (φ .solve_faddeev) [.worked, .one]
  | .done_unco | .done_coup | .Eq_bound | .Tlab_bound | .q_mid | .Eq_mid | .Tlab_mid | .energies | .T_lab | .q_com | .E_com | .q_com_idx =>
    per (φ .solve_faddeev) [.worked, .sets, .one]
  | .CT_ptr | .CT_unco | .CT_coup | .VC_ptr | .VC_unco | .VC_coup => per (φ .solve_faddeev) [.worked, .sets, .one]
  | .deuteron_idx => per (φ .solve_faddeev) [.worked, .sets, .channels, .one]
  | .BU_idx | .alphapq | .U_BU => per (φ .breakup && φ .solve_faddeev) [.worked, .sets, .one]
  | .comments | .row_index => per (!φ .dense && φ .solve_faddeev) [.worked, .sets, .one]
  | _ => []

def hLeaks (r : HSt × List HLeak) : List HLeak := (r.1.own.map fun e => (e.2.1, [e.2.2])) ++ r.2

def leakTerms (k : List HLeak) (x : Ptr) : List (List Cnt) := (k.filter fun l => l.1 = x).map (·.2)

def tableOk (φ : Flag → Bool) : Bool := match hCheck φ hMain ⟨[], []⟩ with
  | none => false
  | some r => allPtrs.all fun x => leakTerms (hLeaks r) x == unfreedTerms φ x

theorem table_ok : ∀ a b c d e f : Bool, tableOk (allFlags a b c d e f) = true := by decide +kernel

theorem flags_eq (φ : Flag → Bool) : φ = allFlags (φ .midpoint_approx) (φ .calculate_P123) (φ .recovery) (φ .solve_faddeev) (φ .breakup) (φ .dense) := by
  funext f; cases f <;> rfl

theorem check_main (φ : Flag → Bool) : ∃ r, hCheck φ hMain ⟨[], []⟩ = some r ∧ ∀ x, leakTerms (hLeaks r) x = unfreedTerms φ x := by
  have h : tableOk φ = true := by rw [flags_eq φ]; exact table_ok _ _ _ _ _ _
  unfold tableOk at h
  split at h
  · cases h
  · rename_i r hr
    refine ⟨r, hr, fun x => ?_⟩
    have := List.all_eq_true.1 h x (mem_allPtrs x)
    exact eq_of_beq this

theorem lostVal_terms (ν : HeapEnv) (x : Ptr) : ∀ k : List HLeak, lostVal ν k x = ((leakTerms k x).map fun l => (l.map ν.cnt).prod).sum
  | [] => rfl
  | l :: k => by
    have e : lostVal ν (l :: k) x = leakVal ν l x + lostVal ν k x := by simp [lostVal]
    rw [e, lostVal_terms ν x k]
    unfold leakVal leakTerms
    by_cases h : l.1 = x
    · rw [if_pos h, List.filter_cons_of_pos (by simpa using h)]; simp
    · rw [if_neg h, List.filter_cons_of_neg (by simpa using h)]; simp

theorem unfreed_terms (ν : HeapEnv) (x : Ptr) : ((unfreedTerms ν.flag x).map fun l => (l.map ν.cnt).prod).sum = unfreed ν x := by
  have h1 := ν.one
  cases x <;> simp only [unfreedTerms, unfreed] <;>
    (first | rfl | (simp [h1]; done) | (cases ν.flag .midpoint_approx <;> simp [h1]; done) | (cases ν.flag .calculate_P123 <;> simp [h1]; done) |
      (cases ν.flag .solve_faddeev <;> simp [h1, Nat.mul_assoc]; done) | (cases ν.flag .solve_faddeev <;> cases ν.flag .breakup <;> simp [h1]; done) |
      (cases ν.flag .solve_faddeev <;> cases ν.flag .dense <;> simp [h1]; done))

theorem emptyMem_rel (ν : HeapEnv) : HRel ν ⟨[], []⟩ (fun _ => 0) emptyMem :=
  ⟨List.nodup_nil, List.nodup_nil, fun _ h => absurd h List.not_mem_nil, fun _ h => absurd h List.not_mem_nil, ⟨[], List.Perm.refl _, fun _ => rfl⟩,
    fun _ h => absurd h List.not_mem_nil⟩

theorem run_main (ν : HeapEnv) (r : Except Fault Mem) (h : Outcome ν hMain emptyMem r) : ∃ m, r = .ok m ∧ (m.live.map (·.1)).Nodup ∧
    ∀ x, (m.live.map (·.2)).count x = unfreed ν x := by
  obtain ⟨c, hc, ht⟩ := check_main ν.flag
  obtain ⟨m, rfl, hm⟩ := check_sound ν hMain ⟨[], []⟩ c.1 c.2 hc _ _ _ (emptyMem_rel ν) h
  refine ⟨m, rfl, hm.distinct, fun x => ?_⟩
  obtain ⟨lk, h1, h2⟩ := hm.split
  rw [(h1.map _).count_eq x, List.map_append, List.count_append, h2 x, count_blocks ν m x _ fun e he => (hm.held e he).2]
  rw [← unfreed_terms, ← ht x, ← lostVal_terms, hLeaks, lostVal_append]
  omega

/-- Whatever the options, and whatever the numbers of threads, channels, parameter sets and iterations: no array is freed twice, nothing is freed
that was not allocated, and every array is alive when it is used. -/
theorem C133_safe (ν : HeapEnv) (r : Except Fault Mem) (h : Outcome ν hMain emptyMem r) : ∃ m, r = .ok m := by
  obtain ⟨m, h1, _⟩ := run_main ν r h
  exact ⟨m, h1⟩

/-- Nor in a run that an error ends somewhere. -/
theorem C133_stopped (ν : HeapEnv) (r : Except Fault Mem) (h : Stopped ν hMain emptyMem r) : ∃ m, r = .ok m := by
  obtain ⟨c, hc, _⟩ := check_main ν.flag
  exact stopped_sound ν hMain ⟨[], []⟩ c.1 c.2 hc _ _ r (emptyMem_rel ν) h

/-- The arrays left at the end of the run. -/
theorem C133_remaining (ν : HeapEnv) (m : Mem) (h : Outcome ν hMain emptyMem (.ok m)) (x : Ptr) : (m.live.map (·.2)).count x = unfreed ν x := by
  obtain ⟨m', h1, _, h2⟩ := run_main ν _ h
  cases h1
  exact h2 x

/-- The terms of all names together. -/
def growthTerms (φ : Flag → Bool) : List (List Cnt) :=
  List.replicate (if φ .midpoint_approx then 20 else 22) [.one] ++ (List.replicate (if φ .calculate_P123 then 6 else 0) [.worked, .one] ++
    if φ .solve_faddeev then [[.worked, .one], [.worked, .sets, .channels, .one]] ++
      List.replicate (18 + (if φ .breakup then 3 else 0) + if φ .dense then 0 else 2) [.worked, .sets, .one] else [])

theorem growth_perm' : ∀ a b c d e f : Bool, ((allPtrs.flatMap (unfreedTerms (allFlags a b c d e f))).isPerm (growthTerms (allFlags a b c d e f))) = true := by
  decide +kernel

theorem growth_perm (φ : Flag → Bool) : (allPtrs.flatMap (unfreedTerms φ)).Perm (growthTerms φ) := by
  rw [flags_eq φ]; exact List.isPerm_iff.1 (growth_perm' _ _ _ _ _ _)

theorem sum_terms (ν : HeapEnv) : ∀ l : List Ptr,
    (l.map (unfreed ν)).sum = ((l.flatMap (unfreedTerms ν.flag)).map fun t => (t.map ν.cnt).prod).sum
  | [] => rfl
  | x :: l => by rw [List.map_cons, List.sum_cons, List.flatMap_cons, List.map_append, List.sum_append, unfreed_terms, sum_terms ν l]

/-- Their number grows with the channels and the parameter sets. -/
theorem C133_growth (ν : HeapEnv) (m : Mem) (h : Outcome ν hMain emptyMem (.ok m)) :
    m.live.length = (if ν.flag .midpoint_approx then 20 else 22) + ν.cnt .worked * ((if ν.flag .calculate_P123 then 6 else 0) +
      if ν.flag .solve_faddeev then 1 + ν.cnt .sets * (18 + ν.cnt .channels + (if ν.flag .breakup then 3 else 0) + if ν.flag .dense then 0 else 2) else 0) := by
  have h1 : (m.live.map (·.2)).length = (allPtrs.map fun x => (m.live.map (·.2)).count x).sum := by
    rw [← List.sum_toFinset_count_eq_length, ← List.sum_toFinset _ nodup_allPtrs]
    refine Finset.sum_subset (fun x _ => List.mem_toFinset.2 (mem_allPtrs x)) fun x _ hx => ?_
    exact List.count_eq_zero.2 fun h2 => hx (List.mem_toFinset.2 h2)
  rw [List.length_map] at h1
  rw [h1, List.map_congr_left fun x _ => C133_remaining ν m h x]
  have h2 := sum_terms ν allPtrs
  rw [((growth_perm ν.flag).map _).sum_eq] at h2
  refine h2.trans ?_
  have h3 := ν.one
  simp only [growthTerms, List.map_append, List.sum_append, List.map_replicate, List.sum_replicate]
  cases ν.flag .solve_faddeev <;> simp [h3] <;> split_ifs <;> ring

/-- From every heap a program has an outcome, also with no iteration of the loops of unknown length. -/
theorem outcome_exists (ν : HeapEnv) : ∀ (p : HProg) (m : Mem), ∃ r, Outcome ν p m r
  | .op o, m => ⟨_, rfl⟩
  | .skip, m => ⟨_, rfl⟩
  | .seq p q, m => by
    obtain ⟨r1, h1⟩ := outcome_exists ν p m
    cases r1 with
    | error e => exact ⟨.error e, _, h1, rfl⟩
    | ok m' =>
      obtain ⟨r2, h2⟩ := outcome_exists ν q m'
      exact ⟨r2, _, h1, h2⟩
  | .rep n p, m => by
    show ∃ r, HIter (Outcome ν p) (ν.cnt n) m r
    generalize ν.cnt n = k
    induction k generalizing m with
    | zero => exact ⟨_, rfl⟩
    | succ k ih =>
      obtain ⟨r1, h1⟩ := outcome_exists ν p m
      cases r1 with
      | error e => exact ⟨.error e, _, h1, rfl⟩
      | ok m' =>
        obtain ⟨r2, h2⟩ := ih m'
        exact ⟨r2, _, h1, h2⟩
  | .star p, m => ⟨.ok m, 0, rfl⟩
  | .ite f p q, m => by
    obtain ⟨r1, h1⟩ := outcome_exists ν p m
    obtain ⟨r2, h2⟩ := outcome_exists ν q m
    simp only [Outcome]
    split_ifs
    · exact ⟨r1, h1⟩
    · exact ⟨r2, h2⟩

/-- Every run of main.cpp has an end. -/
theorem C133_exists (ν : HeapEnv) : ∃ m, Outcome ν hMain emptyMem (.ok m) := by
  obtain ⟨r, h⟩ := outcome_exists ν hMain emptyMem
  obtain ⟨m, rfl⟩ := C133_safe ν r h
  exact ⟨m, h⟩

def heapExample : HeapEnv where
  flag := allFlags false true false true true false
  cnt := fun c => match c with | .one => 1 | .threads => 4 | .channels => 8 | .worked => 8 | .sets => 10
  one := rfl

/-- Ten parameter sets, eight channels, breakup: 2558 arrays left. -/
theorem C133_example : ∃ m, Outcome heapExample hMain emptyMem (.ok m) ∧ m.live.length = 2558 := by
  obtain ⟨m, h⟩ := C133_exists heapExample
  exact ⟨m, h, by rw [C133_growth heapExample m h]; rfl⟩

/-- A run can end after the first array has been allocated. -/
theorem C133_stopped_example (ν : HeapEnv) : ∃ m, Stopped ν hMain emptyMem (.ok m) ∧ m.live = [(0, .L_2N)] := by
  refine ⟨{ ptr := fun y => if y = .L_2N then .addr [0] else .junk, live := [(0, .L_2N)], next := 1 }, ?_, rfl⟩
  refine Or.inl (Or.inl (Or.inl (Or.inr ?_)))
  simp [hstep, emptyMem, ν.one]

/-- The meaning tells wrong programs: a second `delete []`, a use after the first, a `delete []` of a variable that is not set, and of one that
is assigned from another that was freed. -/
theorem C133_faults (ν : HeapEnv) : Outcome ν (hall [news [.G], dels [.G, .G]]) emptyMem (.error .badFree) ∧
    Outcome ν (hall [news [.G], dels [.G], uses [.G]]) emptyMem (.error .badUse) ∧ Outcome ν (dels [.G]) emptyMem (.error .badFree) ∧
    Outcome ν (hall [news [.G], .op (.move .U .G), dels [.U, .G]]) emptyMem (.error .badFree) := by
  refine ⟨?_, ?_, ?_, ?_⟩ <;>
    simp [hall, news, dels, uses, Outcome, hstep, emptyMem, setPtr, ν.one, freeAll, freeOne]

end TicTac
