import Mathlib.Analysis.SpecialFunctions.Pow.Real
import Mathlib.Analysis.SpecialFunctions.Trigonometric.Arctan
/-!
Permutation of Jacobi momenta and the wave-packet permutation-matrix element, in exact real arithmetic
(C `double` is idealised as ℝ; rounding is not modelled).
-/
noncomputable section
namespace TicTac

/-- `pi1_tilde`, auxiliary.cpp:453-456. -/
def pi1Tilde (p q x : ℝ) : ℝ := Real.sqrt (0.25 * p * p + 9.0 / 16.0 * q * q + 0.75 * p * q * x)

/-- `pi2_tilde`, auxiliary.cpp:459-462. -/
def pi2Tilde (p q x : ℝ) : ℝ := Real.sqrt (p * p + 0.25 * q * q - p * q * x)

/-- Unclamped cosines, auxiliary.cpp:904-905, 977-978; make_permutation_matrix.cpp:567-568. -/
def cosTheta1Raw (p q x : ℝ) : ℝ := -(0.5 * p + 0.75 * q * x) / pi1Tilde p q x
def cosTheta2Raw (p q x : ℝ) : ℝ := (p - 0.5 * q * x) / pi2Tilde p q x

/-- The "prevent numerical error" clamp, auxiliary.cpp:908-920; make_permutation_matrix.cpp:571-583. -/
def clampCos (c : ℝ) : ℝ := if c > 1 then 1 else if c < -1 then -1 else c

/-- `costheta1`, `costheta2` as passed to the Legendre functions. -/
def cosTheta1 (p q x : ℝ) : ℝ := clampCos (cosTheta1Raw p q x)
def cosTheta2 (p q x : ℝ) : ℝ := clampCos (cosTheta2Raw p q x)

/-- A momentum cell: boundaries of a p bin and a q bin. -/
structure Cell where
  pl : ℝ
  pu : ℝ
  ql : ℝ
  qu : ℝ

/-- Lower end of the k interval, auxiliary.cpp:714, 717 (`max_element` of the array). -/
def kMin (ket bra : Cell) (s c z1 z2 : ℝ) : ℝ :=
  max (max (max (bra.pl / s) (bra.ql / c)) (ket.pl / z1)) (ket.ql / z2)

/-- Upper end of the k interval, auxiliary.cpp:715, 718. -/
def kMax (ket bra : Cell) (s c z1 z2 : ℝ) : ℝ :=
  min (min (min (bra.pu / s) (bra.qu / c)) (ket.pu / z1)) (ket.qu / z2)

/-- One quadrature-point contribution, auxiliary.cpp:699-736. `s,c` are the stored sine and cosine of phi. -/
def p123Term (ket bra : Cell) (G : ℝ) (x wx s c wphi : ℝ) : ℝ :=
  let z1 := pi1Tilde s c x
  let z2 := pi2Tilde s c x
  let kmin := kMin ket bra s c z1 z2
  let kmax := kMax ket bra s c z1 z2
  if kmin > kmax then 0
  else wx * wphi * c * s * G * (kmax * kmax - kmin * kmin) / (2 * z1 * z2)

/-- `p_normalization` and `q_normalization`, make_wp_states.cpp:3-15. -/
def wpNorm (lo hi : ℝ) : ℝ := Real.sqrt (hi - lo)

/-- `calculate_P123_element_in_WP_basis_mod`, auxiliary.cpp:658-746.  `xs` are the x quadrature points and weights,
`phis` the (sin, cos, weight) triples of the cell's phi mesh; `G phi_idx x_idx` the prestored geometric function.
The index arithmetic `phi_idx*Nx + x_idx` is covered by the layout theorems. -/
def p123Element (ket bra : Cell) (G : Nat → Nat → ℝ) (xs : List (ℝ × ℝ)) (phis : List (ℝ × ℝ × ℝ)) : ℝ :=
  ((xs.zipIdx.map fun xi => (phis.zipIdx.map fun fi =>
      p123Term ket bra (G fi.2 xi.2) xi.1.1 xi.1.2 fi.1.1 fi.1.2.1 fi.1.2.2).sum).sum)
    / (wpNorm ket.ql ket.qu * wpNorm ket.pl ket.pu * wpNorm bra.ql bra.qu * wpNorm bra.pl bra.pu)

/-- `atan(a/b)` for `a ≥ 0, b ≥ 0` with IEEE division: `b = 0` gives infinity and pi/2 (for `a > 0`);
make_permutation_matrix.cpp:175-176. -/
def atanDiv (a b : ℝ) : ℝ := if b = 0 then Real.pi / 2 else Real.arctan (a / b)

/-- phi range of a bra cell, make_permutation_matrix.cpp:175-176. -/
def phiLower (bra : Cell) : ℝ := atanDiv bra.pl bra.qu
def phiUpper (bra : Cell) : ℝ := atanDiv bra.pu bra.ql

/-- The innermost test for one (phi, x) point of `calculate_WP_overlap`, make_permutation_matrix.cpp:199-223. -/
def overlapPoint (ket bra : Cell) (s c x : ℝ) : Prop :=
  let kmin := max (bra.pl / s) (bra.ql / c)
  let kmax := min (bra.pu / s) (bra.qu / c)
  kmin < kmax ∧
    let z1 := pi1Tilde s c x
    let z2 := pi2Tilde s c x
    let hl := max (ket.pl / z1) (ket.ql / z2)
    let hu := min (ket.pu / z1) (ket.qu / z2)
    hl < hu ∧ max kmin hl < min kmax hu

/-- `calculate_WP_overlap` for one pair of cells (the `if (true)` branch), make_permutation_matrix.cpp:175-247:
true iff the phi range is non-empty and some quadrature point passes the tests (the `break`s only stop early). -/
def wpOverlap (ket bra : Cell) (xs : List (ℝ × ℝ)) (phis : List (ℝ × ℝ × ℝ)) : Prop :=
  phiLower bra < phiUpper bra ∧ ∃ f ∈ phis, ∃ x ∈ xs, overlapPoint ket bra f.1 f.2.1 x.1

open Classical in
/-- The element that is stored for a pair of cells: computed only if the overlap table says so,
make_permutation_matrix.cpp:801-830. -/
def p123Stored (ket bra : Cell) (G : Nat → Nat → ℝ) (xs : List (ℝ × ℝ)) (phis : List (ℝ × ℝ × ℝ)) : ℝ :=
  if wpOverlap ket bra xs phis then p123Element ket bra G xs phis else 0

end TicTac
end
