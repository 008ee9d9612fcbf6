import Mathlib.Data.Complex.Basic
import Mathlib.LinearAlgebra.Matrix.Determinant.Basic
/-! Model of `determinant` (matrix_routines.cpp:82-101), `solve_MM` (matrix_routines.cpp:72-80) and `pade_approximant`
(solve_faddeev.cpp:271-300).  `std::complex<double>` is ℂ; a quotient with denominator 0 (NaN or infinity in the program) is `none`. -/
noncomputable section
namespace TicTac

/-- Row `i` of the matrix is interchanged with row `ipiv i`, for `i = 0, 1, …` (LAPACK's meaning of `ipiv`, shifted to base 0). -/
def applySwaps {N : Nat} (ipiv : Fin N → Fin N) (A : Matrix (Fin N) (Fin N) ℂ) : Matrix (Fin N) (Fin N) ℂ :=
  (List.finRange N).foldl (fun M i => M.submatrix (Equiv.swap i (ipiv i)) id) A

/-- Unit lower triangular factor stored below the diagonal of a factorised matrix. -/
def lowerOf {N : Nat} (LU : Matrix (Fin N) (Fin N) ℂ) : Matrix (Fin N) (Fin N) ℂ := fun i j => if i = j then 1 else if j < i then LU i j else 0

/-- Upper triangular factor stored on and above the diagonal. -/
def upperOf {N : Nat} (LU : Matrix (Fin N) (Fin N) ℂ) : Matrix (Fin N) (Fin N) ℂ := fun i j => if i ≤ j then LU i j else 0

/-- Contract of `LAPACKE_zgetrf` (trusted): `A` is overwritten by `LU`, and the row-interchanged matrix is the product of the factors. -/
def Getrf {N : Nat} (A LU : Matrix (Fin N) (Fin N) ℂ) (ipiv : Fin N → Fin N) : Prop :=
  applySwaps ipiv A = lowerOf LU * upperOf LU

/-- `determinant` after the factorisation, matrix_routines.cpp:89-100 (`ipiv[i] != i+1` in LAPACK's base-1 numbering). -/
def detRoutine {N : Nat} (LU : Matrix (Fin N) (Fin N) ℂ) (ipiv : Fin N → Fin N) : ℂ :=
  (List.finRange N).foldl (fun p i => if ipiv i ≠ i then p * -(LU i i) else p * LU i i) 1

/-- `P_array`, solve_faddeev.cpp:277-291. Index `N-M+1+row+col` in `size_t` arithmetic (no wrap when `M ≤ N+1`; the program calls it
with `N = M`). -/
def padeP (a : Nat → ℂ) (N M : Nat) (z : ℂ) : Matrix (Fin (M + 1)) (Fin (M + 1)) ℂ := fun r c =>
  if (r : Nat) < M then a (N + 1 + r + c - M)
  else (List.range' (M - c) (N + 1 - (M - c))).foldl (fun s j => s + a (j - (M - c)) * z ^ j) 0

/-- `Q_array`, solve_faddeev.cpp:277-287. -/
def padeQ (a : Nat → ℂ) (N M : Nat) (z : ℂ) : Matrix (Fin (M + 1)) (Fin (M + 1)) ℂ := fun r c =>
  if (r : Nat) < M then a (N + 1 + r + c - M) else z ^ (M - c)

/-- `pade_approximant`, solve_faddeev.cpp:271-300. The two calls of `determinant` are replaced by the determinant (justified by
C76_determinant). -/
def padeApproximant (a : Nat → ℂ) (N M : Nat) (z : ℂ) : Option ℂ :=
  if (padeQ a N M z).det = 0 then none else some ((padeP a N M z).det / (padeQ a N M z).det)

end TicTac
end
