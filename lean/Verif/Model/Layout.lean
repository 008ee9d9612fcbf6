/-!
Flat array layouts: the index expressions scattered through the code, with the decoders the code uses.
`size_t`/`int` are modelled by `Nat` (or `Int` where an intermediate value can be negative), without overflow
(32-bit overflow is treated in `Sizes`, C118, and for the 6j table in `Tables`, C59).
-/
namespace TicTac

/-- `(alpha, q, p)` index of all vectors/rows/columns: make_permutation_matrix.cpp:818-819, make_resolvent.cpp:201,
solve_faddeev.cpp:28, 158, 419-420. -/
def idxAQP (Nq Np a q p : Nat) : Nat := a * Nq * Np + q * Np + p

/-- Decoder used by the kernel columns: solve_faddeev.cpp:635-637 and 1047-1049. -/
def decAQP (Nq Np i : Nat) : Nat × Nat × Nat := (i / (Np * Nq), (i % (Np * Nq)) / Np, i % Np)

/-- Overlap-table index, make_permutation_matrix.cpp:241-247 and 794-800. -/
def idxOverlap (Np Nq qp pp q p : Nat) : Nat := qp * (Np * Nq * Np) + pp * (Nq * Np) + q * Np + p

/-- Index in the phi meshes, make_permutation_matrix.cpp:179, 563-564. -/
def idxPhi (Np Nphi qp pp phi : Nat) : Nat := (qp * Np + pp) * Nphi + phi

/-- Index of the prestored Legendre sub-arrays, make_permutation_matrix.cpp:585-586. -/
def idxPlm (Np Nphi Nx qp pp phi x : Nat) : Nat := qp * Np * Nphi * Nx + pp * Nphi * Nx + phi * Nx + x

/-- Index of the elastic U elements: solve_faddeev.cpp:424, 824, 1242; disk_io_routines.cpp:893, 961. -/
def idxU (nd nq dr dc q : Nat) : Nat := dr * nd * nq + dc * nq + q

/-- Packed upper-triangle index, make_swp_states.cpp:53, 62 (C integer division; both numerators are even). -/
def idxPacked (n r c : Nat) : Int :=
  (n : Int) * ((n : Int) - 1) / 2 - ((n : Int) - r) * ((n : Int) - r - 1) / 2 + c

/-- Uncoupled potential matrix index, make_potential_matrix.cpp:262. -/
def idxVunco (Np chn r c : Nat) : Nat := chn * Np * Np + r * Np + c

/-- Coupled potential matrix index for block row/column `br, bc ∈ {0,1}`, make_potential_matrix.cpp:255-258. -/
def idxVcoup (Np chn br bc r c : Nat) : Nat := chn * 4 * Np * Np + (r + br * Np) * 2 * Np + (c + bc * Np)

/-- Prestored Atilde index, make_permutation_matrix.cpp:458. -/
def idxAtilde (dim Lmax a a' L : Nat) : Nat := a * dim * (Lmax + 1) + a' * (Lmax + 1) + L

end TicTac
