import Verif.Spec.Sizes
import Verif.Model.Permutation
/-!
32-bit `int` arithmetic: the size and index expressions of the program that are evaluated in `int`, as syntax, with their exact value and the
value a two's-complement machine computes.  The other models use exact integers.
-/
namespace TicTac
open Spec

/-- C++ expressions over `int` that occur in sizes and indices: constants and variables, `+`, `-`, `*` and division by two. -/
inductive IExp
  | v (n : Nat)
  | add (a b : IExp)
  | sub (a b : IExp)
  | mul (a b : IExp)
  | half (a : IExp)

namespace IExp
instance : Add IExp := ⟨add⟩
instance : Sub IExp := ⟨sub⟩
instance : Mul IExp := ⟨mul⟩

/-- Value in exact arithmetic (`/` truncates). -/
def exact : IExp → Int
  | v n => n
  | add a b => exact a + exact b
  | sub a b => exact a - exact b
  | mul a b => exact a * exact b
  | half a => (exact a).tdiv 2

/-- Value on a machine with 32-bit two's-complement `int` (signed overflow is undefined in C++; wrapping is what compilers generate here). -/
def wrapped : IExp → Int
  | v n => Int.bmod n (2 ^ 32)
  | add a b => Int.bmod (wrapped a + wrapped b) (2 ^ 32)
  | sub a b => Int.bmod (wrapped a - wrapped b) (2 ^ 32)
  | mul a b => Int.bmod (wrapped a * wrapped b) (2 ^ 32)
  | half a => Int.bmod ((wrapped a).tdiv 2) (2 ^ 32)

/-- No signed overflow (hence no undefined behaviour) in the evaluation: every subexpression is in the range of `int`. -/
def NoOverflow : IExp → Prop
  | v n => ((n : Int) < 2 ^ 31)
  | add a b => NoOverflow a ∧ NoOverflow b ∧ -2 ^ 31 ≤ exact a + exact b ∧ exact a + exact b < 2 ^ 31
  | sub a b => NoOverflow a ∧ NoOverflow b ∧ -2 ^ 31 ≤ exact a - exact b ∧ exact a - exact b < 2 ^ 31
  | mul a b => NoOverflow a ∧ NoOverflow b ∧ -2 ^ 31 ≤ exact a * exact b ∧ exact a * exact b < 2 ^ 31
  | half a => NoOverflow a

end IExp
open IExp

/-- Packed index of `construct_full_hamiltonian`, make_swp_states.cpp:54 and 63. -/
def packedExp (m r c : IExp) : IExp := half (m * (m - v 1)) - half ((m - r) * (m - r - v 1)) + c

/-- The size and index expressions evaluated in 32-bit `int` (or converted to `int`) in a calculation with sizes `s`; loop variables range
over the loops they occur in.  Expressions with a `size_t` operand are 64-bit and not listed (unless the result is stored in an `int`). -/
inductive Computed (s : Sizes) : IExp → Prop
  /-- `pq_WP_overlap_array`, make_permutation_matrix.cpp:1337 -/
  | overlap : Computed s (v s.Nq * v s.Nq * v s.Np * v s.Np)
  /-- `sin_phi_array`, `cos_phi_array`, make_permutation_matrix.cpp:516-518 -/
  | sinPhi : Computed s (v s.Nq * v s.Np * v s.Nphi)
  /-- `P123_dense_dim`, make_permutation_matrix.cpp:616 -/
  | denseP : Computed s (v s.Np * v s.Nq * v s.Na)
  /-- `dense_dim`, main.cpp:229, make_permutation_matrix.cpp:963 -/
  | denseMain : Computed s (v s.Na * v s.Nq * v s.Np)
  /-- `dense_dim`, main.cpp:386, make_permutation_matrix.cpp:1177 -/
  | denseG : Computed s (v s.Na * v s.Np * v s.Nq)
  /-- `G_idx`, make_resolvent.cpp:201; the same value, stored as `int`, is the row or column of a P123 entry,
  make_permutation_matrix.cpp:818-819 -/
  | gIdx (a q p : Nat) (ha : a < s.Na) (hq : q < s.Nq) (hp : p < s.Np) : Computed s (v a * v s.Nq * v s.Np + v q * v s.Np + v p)
  /-- `Gtilde_subarray_size`, make_permutation_matrix.cpp:111, 653 -/
  | gtilde : Computed s (v s.Nphi * v s.Nx)
  /-- `Atilde_N`, make_permutation_matrix.cpp:444 -/
  | atilde : Computed s (v s.Na * v s.Na * (v s.Lmax + v 1))
  /-- index into `Atilde_store`, make_permutation_matrix.cpp:458 -/
  | atildeIdx (a a' L : Nat) (ha : a < s.Na) (ha' : a' < s.Na) (hL : L ≤ s.Lmax) :
      Computed s (v a * v s.Na * (v s.Lmax + v 1) + v a' * (v s.Lmax + v 1) + v L)
  /-- `SixJ_size`, make_permutation_matrix.cpp:409 -/
  | sixj : Computed s ((v (2 * s.lmax) + v 1) * (v (2 * s.lmax) + v 1) * (v (2 * s.lmax) + v 1) * (v (2 * s.lmax) + v 1)
      * (v (2 * s.lmax) + v 1) * (v (2 * s.lmax) + v 1))
  /-- `ClebschGordan_size`, make_permutation_matrix.cpp:473 -/
  | cg : Computed s ((v (2 * s.lmax) + v 1) * (v (2 * s.lmax) + v 1) * (v (2 * s.lmax) + v 1) * (v (2 * s.lmax) + v 1)
      * (v 2 * v (2 * s.lmax) + v 1))
  /-- `V_unco_array_size`, main.cpp:296, 300 -/
  | vUnco : Computed s (v s.Np * v s.Np * v s.unco)
  /-- `V_coup_array_size`, main.cpp:297 -/
  | vCoup : Computed s (v s.Np * v s.Np * v 4 * v s.coup)
  /-- `idx_V_WP_uncoupled`, make_potential_matrix.cpp:262 -/
  | vUncoIdx (c i j : Nat) (hc : c < s.unco) (hi : i < s.Np) (hj : j < s.Np) :
      Computed s (v c * v s.Np * v s.Np + v i * v s.Np + v j)
  /-- `idx_V_WP_upper_left`, make_potential_matrix.cpp:255 -/
  | vUL (c i j : Nat) (hc : c < s.coup) (hi : i < s.Np) (hj : j < s.Np) :
      Computed s (v c * v 4 * v s.Np * v s.Np + v i * v 2 * v s.Np + v j)
  /-- `idx_V_WP_upper_right`, make_potential_matrix.cpp:256 -/
  | vUR (c i j : Nat) (hc : c < s.coup) (hi : i < s.Np) (hj : j < s.Np) :
      Computed s (v c * v 4 * v s.Np * v s.Np + v i * v 2 * v s.Np + v j + v s.Np)
  /-- `idx_V_WP_lower_left`, make_potential_matrix.cpp:257 -/
  | vLL (c i j : Nat) (hc : c < s.coup) (hi : i < s.Np) (hj : j < s.Np) :
      Computed s (v c * v 4 * v s.Np * v s.Np + (v i + v s.Np) * v 2 * v s.Np + v j)
  /-- `idx_V_WP_lower_right`, make_potential_matrix.cpp:258 -/
  | vLR (c i j : Nat) (hc : c < s.coup) (hi : i < s.Np) (hj : j < s.Np) :
      Computed s (v c * v 4 * v s.Np * v s.Np + (v i + v s.Np) * v 2 * v s.Np + v j + v s.Np)
  /-- `e_SWP_unco_array`, main.cpp:324, make_swp_states.cpp:281 -/
  | eUnco : Computed s ((v s.Np + v 1) * v s.unco)
  /-- `e_SWP_coup_array`, main.cpp:325, make_swp_states.cpp:282 -/
  | eCoup : Computed s (v 2 * (v s.Np + v 1) * v s.coup)
  /-- offset in `e_SWP_unco_array`, make_resolvent.cpp:155, run_organizer.cpp:202, disk_io_routines.cpp:540, make_swp_states.cpp:410 -/
  | eUncoIdx (c : Nat) (hc : c < s.unco) : Computed s (v c * (v s.Np + v 1))
  /-- offset of the second half of a coupled channel in `e_SWP_coup_array`, make_resolvent.cpp:138, run_organizer.cpp:185,
  disk_io_routines.cpp:523 (the first half, make_resolvent.cpp:135, is a subexpression) -/
  | eCoupIdx (c : Nat) (hc : c < s.coup) : Computed s (v c * v 2 * (v s.Np + v 1) + v s.Np + v 1)
  /-- `H_unco_array_size`, make_swp_states.cpp:294 -/
  | hUnco : Computed s (half (v s.Np * (v s.Np + v 1)) * v s.unco)
  /-- `H_coup_array_size`, make_swp_states.cpp:295 -/
  | hCoup : Computed s (half (v 2 * v s.Np * (v 2 * v s.Np + v 1)) * v s.coup)
  /-- offset in `H_WP_unco_array`, make_swp_states.cpp:407 (`mat_dim = Np_WP`) -/
  | hUncoIdx (c : Nat) (hc : c < s.unco) : Computed s (half (v c * v s.Np * (v s.Np + v 1)))
  /-- offset in `H_WP_coup_array`, make_swp_states.cpp:386 (`mat_dim = 2*Np_WP`) -/
  | hCoupIdx (c : Nat) (hc : c < s.coup) : Computed s (half (v c * (v 2 * v s.Np) * (v 2 * v s.Np + v 1)))
  /-- offset in `V_WP_unco_array` and `C_WP_unco_array`, make_swp_states.cpp:408-409 -/
  | matUnco (c : Nat) (hc : c < s.unco) : Computed s (v c * v s.Np * v s.Np)
  /-- offset in `V_WP_coup_array` and `C_WP_coup_array`, make_swp_states.cpp:387-388 -/
  | matCoup (c : Nat) (hc : c < s.coup) : Computed s (v c * (v 2 * v s.Np) * (v 2 * v s.Np))
  /-- packed index of an uncoupled Hamiltonian, make_swp_states.cpp:54, 63 -/
  | packUnco (r c : Nat) (hc : c < s.Np) (hr : r ≤ c) : Computed s (packedExp (v s.Np) (v r) (v c))
  /-- packed index of a coupled Hamiltonian, make_swp_states.cpp:54, 63 -/
  | packCoup (r c : Nat) (hc : c < 2 * s.Np) (hr : r ≤ c) : Computed s (packedExp (v 2 * v s.Np) (v r) (v c))
  /-- `buffer_array_vecs`, make_swp_states.cpp:91 -/
  | buffer : Computed s (v 4 * v s.Np * v s.Np)
  /-- indices of the eigenvector reordering, make_swp_states.cpp:100-101 -/
  | reorder (j i : Nat) (hj : j < 2 * s.Np) (hi : i < s.Np) : Computed s (v j * v 2 * v s.Np + v i + v s.Np)
  | reorder' (j i : Nat) (hj : j < 2 * s.Np) (hi : i < s.Np) : Computed s (v j * v 2 * v s.Np + v 2 * v i + v 1)
  /-- `alphapq_boundaries`, run_organizer.cpp:144, 323 -/
  | alphapq : Computed s (v 4 * v s.Na * v s.Np * v s.Nq)
  /-- index into `alphapq_boundaries`, run_organizer.cpp:217-221 -/
  | alphapqIdx (a q p k : Nat) (ha : a < s.Na) (hq : q < s.Nq) (hp : p < s.Np) (hk : k < 4) :
      Computed s (v 4 * (v a * v s.Np * v s.Nq + v q * v s.Np + v p) + v k)
  /-- number of quadrature points, make_wp_states.cpp:133-134 -/
  | pMesh : Computed s (v s.pPer * v s.Np)
  | qMesh : Computed s (v s.qPer * v s.Nq)
  /-- index into the quadrature meshes, make_wp_states.cpp:88, 107, make_potential_matrix.cpp:333-354 -/
  | pMeshIdx (b i : Nat) (hb : b < s.Np) (hi : i < s.pPer) : Computed s (v b * v s.pPer + v i)
  | qMeshIdx (b i : Nat) (hb : b < s.Nq) (hi : i < s.qPer) : Computed s (v b * v s.qPer + v i)
  /-- `key_alpha`, disk_io_routines.cpp:419, 550 -/
  | keyAlpha (a a' : Nat) (ha : a < s.Na) (ha' : a' < s.Na) : Computed s (v a * v s.Na + v a')
  /-- `key_row_idx`, disk_io_routines.cpp:420, 551 -/
  | keyRow (b a' : Nat) (hb : b < s.bu) (ha' : a' < s.Na) : Computed s (v b * v s.Na + v a')

/-- `new bool [n]` for an `int` `n`, make_permutation_matrix.cpp:1337: a negative size throws (`none`), otherwise that many elements. -/
def allocate (n : Int) : Option Nat := if n < 0 then none else some n.toNat

/-- What happens to the overlap table: the allocation throws, or it has `cap` elements. -/
def overlapCapacity (Nq Np : Nat) : Option Nat := allocate (v Nq * v Nq * v Np * v Np).wrapped

end TicTac
