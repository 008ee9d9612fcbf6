import Verif.Model.Heap

/-! The arrays of a run that are never freed, by name. -/
namespace TicTac.Spec
open TicTac

/-- How many arrays of each name there are when the program ends. -/
def unfreed (ν : HeapEnv) (x : Ptr) : Nat :=
  let channel := ν.cnt .worked
  let set := if ν.flag .solve_faddeev then ν.cnt .worked * ν.cnt .sets else 0
  match x with
  -- the states and the grids: once
  | .L_2N | .S_2N | .J_2N | .T_2N | .L_1N | .two_J_1N | .two_J_3N | .two_T_3N | .P_3N | .chn_3N_idx | .deuteron_idx_arrays | .deuteron_num_array => 1
  | .p_WP | .q_WP | .p_array | .q_array | .fp | .fq | .norm_p | .norm_q => 1
  | .wp_array | .wq_array => if ν.flag .midpoint_approx then 0 else 1
  -- the quadrature of the permutation matrix: once a channel
  | .x_array | .wx_array | .phi_array | .wphi_array | .overlap | .max_TFC => if ν.flag .calculate_P123 then channel else 0
  | .P123_csc => if ν.flag .solve_faddeev then channel else 0
  -- the tables of the kernel, of the kinematics and of the interaction: once a channel and parameter set
  | .done_unco | .done_coup | .Eq_bound | .Tlab_bound | .q_mid | .Eq_mid | .Tlab_mid | .energies | .T_lab | .q_com | .E_com | .q_com_idx => set
  | .CT_ptr | .CT_unco | .CT_coup | .VC_ptr | .VC_unco | .VC_coup => set
  | .deuteron_idx => set * ν.cnt .channels
  | .BU_idx | .alphapq | .U_BU => if ν.flag .breakup then set else 0
  | .comments | .row_index => if ν.flag .dense then 0 else set
  | _ => 0

end TicTac.Spec
