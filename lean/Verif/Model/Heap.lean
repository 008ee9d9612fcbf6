/-! Arrays on the heap: every `new []` and `delete []` of a run of main.cpp, and the uses of the arrays as arguments.  Arrays inside the
interactions, HDF5, GSL and LAPACK, containers of the standard library, and code switched off in the source (`keep_CPVC_in_mem`,
`use_dense_format`, column tests) are not included.  A run that `raise_error` ends performs an initial
part of the operations (`Stopped`). -/
namespace TicTac

/-- Pointer variables, by the name in the source, and arrays, by the variable they were first assigned to. -/
inductive Ptr where
  -- main.cpp:130-131
  | deuteron_idx_arrays | deuteron_num_array
  -- make_pw_symm_states.cpp:259-268
  | L_2N | S_2N | J_2N | T_2N | L_1N | two_J_1N | two_J_3N | two_T_3N | P_3N | chn_3N_idx
  -- make_wp_states.cpp:139-204
  | p_WP | q_WP | p_array | wp_array | q_array | wq_array | fp | fq | norm_p | norm_q
  -- main.cpp:206-239
  | P123_val | P123_row | P123_col | P123_csc
  -- make_permutation_matrix.cpp:1330-1337, 1169, 1181
  | x_array | wx_array | phi_array | wphi_array | overlap | max_TFC | P123_dense
  -- make_permutation_matrix.cpp:414-645, 669-670
  | sixJ | atilde | clebsch | sin_phi | cos_phi | plm1 | plm2 | plm3 | prefac_L | prefac_l
  | val_omp | row_omp | col_omp | dim_omp | val_omp_i | row_omp_i | col_omp_i | mem_doubles | mem_ints
  -- make_permutation_matrix.cpp:1025-1027, 1106, 1131
  | sub_val | sub_row | sub_col | sort_idx | sort_val
  -- matrix_routines.cpp:304-320
  | row_CM | col_CM | val_CM
  -- main.cpp:307-330, 387, 412-418
  | V_unco | V_coup | e_unco | e_coup | C_unco | C_coup | G | U | U_BU
  -- make_potential_matrix.cpp:99-100
  | done_unco | done_coup
  -- make_swp_states.cpp:269-311, 191-199
  | check_unco | check_coup | H_unco | H_coup | H0_unco | H0_coup | Eq_bound | Tlab_bound | q_mid | Eq_mid | Tlab_mid
  -- run_organizer.cpp:54, 87-112, 140-144, 334, 370
  | energies | T_lab | q_com | E_com | q_com_idx | BU_idx | alphapq_bound | alphapq | deuteron_idx
  -- solve_faddeev.cpp:1482-1493, 1616-1617, 1755, 1812-1813; matrix_routines.cpp:104
  | CT_ptr | VC_ptr | CT_unco | CT_coup | VC_unco | VC_coup | VC_temp | transpose_temp
  -- solve_faddeev.cpp:488-571, 936, 64, 202
  | a_coeff | a_BU | neumann | comments | re_row | im_row | re_prev | im_prev | re_comp | im_comp | re_prod | im_prod | row_index
  | pade | pade_idx | pade_conv | pade_BU | pade_BU_idx | pade_BU_conv | cols | col_omp_CPVC | r2n_omp | n2r_omp | times | PVC_col
  -- solve_faddeev.cpp:327-332
  | Lmat | Rmat | dcol | dr2n | dn2r
deriving DecidableEq

/-- Numbers of iterations that are the same throughout a run: threads of the permutation matrix, 3N channels, 3N channels worked on, parameter sets. -/
inductive Cnt where
  | one | threads | channels | worked | sets
deriving DecidableEq

/-- Options that decide what is allocated. -/
inductive Flag where
  | midpoint_approx | calculate_P123 | recovery | solve_faddeev | breakup | dense
deriving DecidableEq

/-- The options and numbers of a run. -/
structure HeapEnv where
  flag : Flag → Bool
  cnt : Cnt → Nat
  one : cnt .one = 1

/-- `new x n`: `n` arrays, one for each entry of the pointer table `x` (an ordinary pointer is a table of one).  `del x n`: `delete []` of the first `n`
entries.  `use`: the array is handed to code that reads or writes it.  `move x y`: `x = y`.  `drop x`: the variable goes out of scope, or is not
looked at again before it is assigned. -/
inductive HOp where
  | new (x : Ptr) (n : Cnt) | del (x : Ptr) (n : Cnt) | null (x : Ptr) | use (x : Ptr) | move (x y : Ptr) | drop (x : Ptr)

/-- Programs of heap operations.  `star`: any number of iterations. -/
inductive HProg where
  | op (o : HOp) | skip | seq (p q : HProg) | rep (n : Cnt) (p : HProg) | star (p : HProg) | ite (f : Flag) (p q : HProg)

/-! ### Meaning -/

/-- Value of a pointer variable: not set, null, or the addresses of the arrays. -/
inductive PVal where
  | junk | null | addr (as : List Nat)

/-- The heap: arrays not yet freed with the variable they were allocated for, and the next fresh address. -/
structure Mem where
  ptr : Ptr → PVal
  live : List (Nat × Ptr)
  next : Nat

inductive Fault where
  | badFree | badUse

def setPtr (m : Mem) (x : Ptr) (v : PVal) : Mem := { m with ptr := fun y => if y = x then v else m.ptr y }

/-- `delete []` of one address. -/
def freeOne (live : List (Nat × Ptr)) (a : Nat) : Except Fault (List (Nat × Ptr)) :=
  if a ∈ live.map (·.1) then .ok (live.filter fun b => b.1 ≠ a) else .error .badFree

/-- One after the other. -/
def freeAll : List (Nat × Ptr) → List Nat → Except Fault (List (Nat × Ptr))
  | live, [] => .ok live
  | live, a :: as => match freeOne live a with
    | .error e => .error e
    | .ok l => freeAll l as

def hstep (ν : HeapEnv) (o : HOp) (m : Mem) : Except Fault Mem :=
  match o with
  | .new x n =>
    let as := (List.range (ν.cnt n)).map (m.next + ·)
    .ok { ptr := fun y => if y = x then .addr as else m.ptr y, live := m.live ++ as.map fun a => (a, x), next := m.next + ν.cnt n }
  | .del x n =>
    match m.ptr x with
    | .junk => .error .badFree
    | .null => if ν.cnt n = 1 then .ok m else .error .badFree
    | .addr as =>
      if ν.cnt n ≤ as.length then
        match freeAll m.live (as.take (ν.cnt n)) with
        | .error e => .error e
        | .ok l => .ok { m with live := l }
      else .error .badFree
  | .null x => .ok (setPtr m x .null)
  | .use x =>
    match m.ptr x with
    | .addr as => if ∀ a ∈ as, a ∈ m.live.map (·.1) then .ok m else .error .badUse
    | _ => .error .badUse
  | .move x y => .ok (setPtr m x (m.ptr y))
  | .drop x => .ok (setPtr m x .junk)

/-- `n` iterations; an error ends them. -/
def HIter (R : Mem → Except Fault Mem → Prop) : Nat → Mem → Except Fault Mem → Prop
  | 0, m, r => r = .ok m
  | n + 1, m, r => ∃ r1, R m r1 ∧ match r1 with
    | .error e => r = .error e
    | .ok m' => HIter R n m' r

/-- The possible outcomes of a program. -/
def Outcome (ν : HeapEnv) : HProg → Mem → Except Fault Mem → Prop
  | .op o, m, r => r = hstep ν o m
  | .skip, m, r => r = .ok m
  | .seq p q, m, r => ∃ r1, Outcome ν p m r1 ∧ match r1 with
    | .error e => r = .error e
    | .ok m' => Outcome ν q m' r
  | .rep n p, m, r => HIter (Outcome ν p) (ν.cnt n) m r
  | .star p, m, r => ∃ n, HIter (Outcome ν p) n m r
  | .ite f p q, m, r => if ν.flag f then Outcome ν p m r else Outcome ν q m r

/-- The possible results of an initial part of a program: the process can be ended by `raise_error` between any two operations. -/
def Stopped (ν : HeapEnv) : HProg → Mem → Except Fault Mem → Prop
  | .op o, m, r => r = .ok m ∨ r = hstep ν o m
  | .skip, m, r => r = .ok m
  | .seq p q, m, r => Stopped ν p m r ∨ ∃ m', Outcome ν p m (.ok m') ∧ Stopped ν q m' r
  | .rep n p, m, r => r = .ok m ∨ ∃ k < ν.cnt n, ∃ m', HIter (Outcome ν p) k m (.ok m') ∧ Stopped ν p m' r
  | .star p, m, r => r = .ok m ∨ ∃ k m', HIter (Outcome ν p) k m (.ok m') ∧ Stopped ν p m' r
  | .ite f p q, m, r => if ν.flag f then Stopped ν p m r else Stopped ν q m r

/-- Before `main`. -/
def emptyMem : Mem := { ptr := fun _ => .junk, live := [], next := 0 }

/-! ### The program -/

def hall : List HProg → HProg
  | [] => .skip
  | p :: l => .seq p (hall l)
def news (l : List Ptr) : HProg := hall (l.map fun x => .op (.new x .one))
def dels (l : List Ptr) : HProg := hall (l.map fun x => .op (.del x .one))
def nulls (l : List Ptr) : HProg := hall (l.map fun x => .op (.null x))
def uses (l : List Ptr) : HProg := hall (l.map fun x => .op (.use x))
def drops (l : List Ptr) : HProg := hall (l.map fun x => .op (.drop x))

/-- main.cpp:126-133 with make_pw_symm_states.cpp:259-268 and make_wp_states.cpp:139-211. -/
def hSetup : HProg := hall [
  news [.L_2N, .S_2N, .J_2N, .T_2N, .L_1N, .two_J_1N, .two_J_3N, .two_T_3N, .P_3N, .chn_3N_idx],
  news [.deuteron_idx_arrays, .deuteron_num_array],
  news [.p_WP], uses [.p_WP], news [.q_WP], uses [.q_WP],
  .ite .midpoint_approx (hall [news [.p_array], uses [.p_array, .p_WP], news [.q_array], uses [.q_array, .q_WP]])
    (hall [news [.p_array, .wp_array], uses [.p_WP, .p_array, .wp_array], news [.q_array, .wq_array], uses [.q_WP, .q_array, .wq_array]]),
  news [.fp], uses [.fp, .p_array], news [.fq], uses [.fq, .q_array], news [.norm_p], uses [.norm_p, .p_WP], news [.norm_q], uses [.norm_q, .q_WP]]

/-- `calculate_permutation_elements_for_3N_channel`, make_permutation_matrix.cpp:324-943. -/
def hElements : HProg := hall [
  news [.sixJ], uses [.sixJ], news [.atilde], uses [.atilde, .sixJ], news [.clebsch], uses [.clebsch],
  news [.sin_phi, .cos_phi], uses [.phi_array, .sin_phi, .cos_phi],
  news [.plm1, .plm2, .plm3], uses [.x_array, .plm1, .plm2, .plm3], news [.prefac_L, .prefac_l], uses [.prefac_L, .prefac_l],
  news [.val_omp, .row_omp, .col_omp, .dim_omp],
  .op (.new .val_omp_i .threads), .op (.new .row_omp_i .threads), .op (.new .col_omp_i .threads), uses [.dim_omp, .max_TFC],
  nulls [.mem_doubles, .mem_ints], dels [.mem_doubles, .mem_ints],
  -- the parallel calculation, 697-886
  .star (uses [.overlap, .sin_phi, .cos_phi, .wx_array, .wphi_array, .plm1, .plm2, .plm3, .prefac_L, .prefac_l, .clebsch, .atilde, .val_omp, .row_omp, .col_omp,
    .dim_omp, .val_omp_i, .row_omp_i, .col_omp_i, .max_TFC]),
  dels [.atilde, .sixJ, .clebsch, .prefac_L, .prefac_l, .plm1, .plm2, .plm3, .sin_phi, .cos_phi],
  uses [.max_TFC, .dim_omp, .val_omp_i, .row_omp_i, .col_omp_i],
  .op (.del .val_omp_i .threads), .op (.del .row_omp_i .threads), .op (.del .col_omp_i .threads),
  dels [.val_omp, .row_omp, .col_omp, .dim_omp],
  drops [.sixJ, .atilde, .clebsch, .sin_phi, .cos_phi, .plm1, .plm2, .plm3, .prefac_L, .prefac_l, .val_omp, .row_omp, .col_omp, .dim_omp, .val_omp_i,
    .row_omp_i, .col_omp_i, .mem_doubles, .mem_ints]]

/-- `read_and_merge_thread_files_to_single_array`, make_permutation_matrix.cpp:945-1142; one iteration per thread file found. -/
def hMerge : HProg := hall [
  uses [.max_TFC], news [.P123_val, .P123_row, .P123_col],
  .star (hall [nulls [.sub_val, .sub_row, .sub_col], news [.sub_row, .sub_col, .sub_val], uses [.sub_row, .sub_col, .sub_val, .P123_val, .P123_row, .P123_col],
    dels [.sub_val, .sub_row, .sub_col], drops [.sub_val, .sub_row, .sub_col]]),
  uses [.P123_row, .P123_col], news [.sort_idx], uses [.sort_idx, .P123_row, .P123_col], dels [.sort_idx], news [.sort_val], uses [.sort_val, .P123_val],
  dels [.sort_val], drops [.sort_idx, .sort_val]]

/-- `fill_P123_arrays`, make_permutation_matrix.cpp:1297-1390 with 1144-1295. -/
def hFill : HProg :=
  .ite .calculate_P123
    (hall [news [.x_array, .wx_array], uses [.x_array, .wx_array], news [.phi_array, .wphi_array, .overlap],
      uses [.overlap, .x_array, .phi_array, .wphi_array, .p_WP, .q_WP], news [.max_TFC], nulls [.P123_dense],
      .ite .recovery (uses [.overlap, .max_TFC]) hElements, hMerge, dels [.P123_dense], drops [.P123_dense, .max_TFC],
      uses [.P123_val, .P123_row, .P123_col], drops [.x_array, .wx_array, .phi_array, .wphi_array, .overlap]])
    (.ite .solve_faddeev (news [.P123_row, .P123_col, .P123_val]) .skip)

/-- `unsorted_sparse_to_coo_col_major_sorter`, matrix_routines.cpp:287-326. -/
def hSorter : HProg := hall [
  uses [.P123_col, .P123_row],
  news [.row_CM], uses [.row_CM, .P123_row], dels [.P123_row], .op (.move .P123_row .row_CM),
  news [.col_CM], uses [.col_CM, .P123_col], dels [.P123_col], .op (.move .P123_col .col_CM),
  news [.val_CM], uses [.val_CM, .P123_val], dels [.P123_val], .op (.move .P123_val .val_CM), drops [.row_CM, .col_CM, .val_CM]]

/-- make_potential_matrix.cpp:49-429. -/
def hPotential : HProg := hall [
  news [.done_unco, .done_coup], uses [.done_unco, .done_coup, .L_2N, .S_2N, .J_2N, .T_2N, .two_T_3N, .p_WP, .p_array, .norm_p, .fp, .V_unco, .V_coup],
  .ite .midpoint_approx .skip (uses [.wp_array]), drops [.done_unco, .done_coup]]

/-- make_swp_states.cpp:221-471 with 185-219. -/
def hSwp : HProg := hall [
  news [.check_unco, .check_coup], uses [.check_unco, .check_coup, .e_unco, .e_coup], news [.H_unco, .H_coup], uses [.H_unco, .H_coup],
  news [.H0_unco, .H0_coup], uses [.H0_unco, .H0_coup, .p_WP],
  uses [.check_unco, .check_coup, .L_2N, .S_2N, .J_2N, .T_2N, .V_unco, .V_coup, .H_unco, .H_coup, .C_unco, .C_coup, .e_unco, .e_coup],
  dels [.check_unco, .check_coup, .H_unco, .H_coup, .H0_unco, .H0_coup], drops [.check_unco, .check_coup, .H_unco, .H_coup, .H0_unco, .H0_coup],
  news [.Eq_bound, .Tlab_bound], uses [.Eq_bound, .Tlab_bound, .q_WP], news [.q_mid, .Eq_mid, .Tlab_mid], uses [.q_mid, .Eq_mid, .Tlab_mid, .q_WP],
  drops [.Eq_bound, .Tlab_bound, .q_mid, .Eq_mid, .Tlab_mid]]

/-- `find_on_shell_bins` and `find_deuteron_channels`, run_organizer.cpp:4-378.  The pointers in the table of deuteron states are not followed further. -/
def hOnShell : HProg := hall [
  nulls [.energies], news [.energies], uses [.energies, .q_WP], news [.T_lab], uses [.T_lab], news [.q_com, .E_com], uses [.T_lab, .q_com, .E_com],
  news [.q_com_idx], uses [.q_com_idx, .q_com, .q_WP],
  .ite .breakup (hall [news [.BU_idx], uses [.BU_idx], news [.alphapq_bound], uses [.alphapq_bound, .BU_idx, .e_unco, .e_coup, .q_WP, .E_com], news [.alphapq],
    uses [.alphapq], dels [.alphapq_bound], drops [.alphapq_bound]]) .skip,
  drops [.energies],
  .rep .channels (hall [uses [.L_2N, .S_2N, .J_2N, .T_2N, .chn_3N_idx], news [.deuteron_idx], uses [.deuteron_idx, .deuteron_idx_arrays, .deuteron_num_array],
    drops [.deuteron_idx]])]

def hTranspose : HProg := hall [news [.transpose_temp], uses [.transpose_temp], dels [.transpose_temp], drops [.transpose_temp]]

/-- solve_faddeev.cpp:1482-1503 with 1588-1927: the tables of blocks. -/
def hTables : HProg := hall [
  news [.CT_ptr], news [.CT_unco, .CT_coup], .star (hall [uses [.C_unco, .CT_unco], hTranspose]), .star (hall [uses [.C_coup, .CT_coup], hTranspose]), uses [.CT_ptr],
  drops [.CT_unco, .CT_coup],
  news [.VC_ptr], news [.VC_unco, .VC_coup], .star (hall [uses [.V_unco, .C_unco, .VC_unco], hTranspose]),
  .star (hall [uses [.V_coup, .C_coup, .VC_coup], hTranspose, news [.VC_temp], uses [.VC_temp, .VC_coup], dels [.VC_temp], drops [.VC_temp]]), uses [.VC_ptr],
  drops [.VC_unco, .VC_coup]]

/-- One column of the kernel, solve_faddeev.cpp:50-181 with 4-48. -/
def hColumn : HProg := hall [
  news [.PVC_col], uses [.PVC_col, .VC_ptr, .CT_ptr, .P123_val, .P123_row, .P123_csc], dels [.PVC_col], drops [.PVC_col]]

/-- `pade_method_solve`, solve_faddeev.cpp:440-1444. -/
def hPade : HProg := hall [
  news [.a_coeff], nulls [.a_BU], news [.neumann, .comments, .re_row, .im_row, .re_prev, .im_prev, .re_comp, .im_comp, .re_prod, .im_prod],
  uses [.re_row, .im_row, .re_prev, .im_prev, .re_comp, .im_comp, .re_prod, .im_prod], news [.row_index, .pade, .pade_idx, .pade_conv],
  nulls [.pade_BU, .pade_BU_idx, .pade_BU_conv], news [.cols, .col_omp_CPVC, .r2n_omp, .n2r_omp], uses [.pade_conv],
  .ite .breakup (hall [news [.a_BU, .pade_BU, .pade_BU_idx, .pade_BU_conv], uses [.pade_BU_conv]]) .skip,
  -- 798, 183-269: one array for all rows
  hall [news [.PVC_col], uses [.re_prev, .PVC_col, .VC_ptr, .CT_ptr, .P123_val, .P123_row, .P123_csc], dels [.PVC_col], drops [.PVC_col]],
  uses [.q_com_idx, .re_prev, .im_prev, .a_coeff, .neumann, .comments],
  .ite .breakup (uses [.BU_idx, .alphapq, .a_BU]) .skip,
  -- 911-1366: the approximants; each column has its own array in each thread, the threads do not share them
  .star (hall [news [.times],
    .star (hall [uses [.pade_conv, .row_index, .G, .re_prev, .im_prev, .re_comp, .im_comp, .re_prod, .im_prod, .cols],
      .star (hall [uses [.cols, .r2n_omp, .n2r_omp, .times], hColumn]), uses [.re_row, .im_row, .re_prev, .im_prev, .a_coeff, .neumann],
      .ite .breakup (uses [.BU_idx, .alphapq, .a_BU, .pade_BU_conv]) .skip]),
    dels [.times], drops [.times], uses [.pade, .a_coeff, .pade_idx, .pade_conv],
    .ite .breakup (uses [.pade_BU, .a_BU, .pade_BU_idx, .pade_BU_conv, .BU_idx]) .skip]),
  uses [.U, .pade, .pade_idx, .q_com_idx], .ite .breakup (uses [.U_BU, .pade_BU, .pade_BU_idx, .BU_idx, .alphapq]) .skip,
  dels [.a_coeff, .a_BU, .neumann, .cols, .col_omp_CPVC, .r2n_omp, .n2r_omp, .re_row, .im_row, .re_prev, .im_prev, .re_comp, .im_comp, .re_prod, .im_prod, .pade,
    .pade_idx, .pade_conv, .pade_BU, .pade_BU_idx, .pade_BU_conv],
  drops [.a_coeff, .a_BU, .neumann, .comments, .cols, .col_omp_CPVC, .r2n_omp, .n2r_omp, .re_row, .im_row, .re_prev, .im_prev, .re_comp, .im_comp, .re_prod, .im_prod,
    .row_index, .pade, .pade_idx, .pade_conv, .pade_BU, .pade_BU_idx, .pade_BU_conv]]

/-- `faddeev_dense_solver`, solve_faddeev.cpp:305-438. -/
def hDense : HProg := hall [
  news [.Lmat, .Rmat, .dcol, .dr2n, .dn2r], .star (hall [uses [.Lmat, .Rmat, .G], .star (hall [uses [.dcol, .dr2n, .dn2r], hColumn]), uses [.U, .q_com_idx]]),
  dels [.Lmat, .Rmat, .dcol, .dr2n, .dn2r], drops [.Lmat, .Rmat, .dcol, .dr2n, .dn2r]]

/-- One parameter set, main.cpp:259-486. -/
def hParamSet : HProg := hall [
  news [.V_unco, .V_coup], hPotential, news [.e_unco, .e_coup, .C_unco, .C_coup], hSwp, hOnShell,
  news [.G], .star (uses [.E_com, .G, .e_unco, .e_coup, .q_WP]), news [.U], nulls [.U_BU], .ite .breakup (news [.U_BU]) .skip,
  hTables, .ite .dense hDense hPade, drops [.CT_ptr, .VC_ptr],
  uses [.U, .T_lab, .E_com, .q_com_idx], .ite .breakup (uses [.U_BU, .BU_idx, .alphapq, .e_unco, .e_coup, .q_WP]) .skip,
  dels [.V_unco, .V_coup, .e_unco, .e_coup, .C_unco, .C_coup, .G, .U],
  drops [.V_unco, .V_coup, .e_unco, .e_coup, .C_unco, .C_coup, .G, .U, .U_BU, .BU_idx, .alphapq, .T_lab, .q_com, .E_com, .q_com_idx]]

/-- One 3N channel, main.cpp:177-492. -/
def hChannel : HProg := hall [
  uses [.chn_3N_idx, .two_J_3N, .P_3N], nulls [.P123_val, .P123_row, .P123_col], hFill,
  .ite .solve_faddeev (hall [hSorter, news [.P123_csc], uses [.P123_col, .P123_csc], .rep .sets hParamSet, drops [.P123_csc]]) .skip,
  dels [.P123_val, .P123_row, .P123_col], drops [.P123_val, .P123_row, .P123_col]]

/-- main.cpp from the construction of the states to the end. -/
def hMain : HProg := .seq hSetup (.rep .worked hChannel)

end TicTac
