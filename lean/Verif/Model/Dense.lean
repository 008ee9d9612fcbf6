import Verif.Model.PadeSolve
/-! Model of `faddeev_dense_solver` (solve_faddeev.cpp:305-430), `solve_MM` (matrix_routines.cpp:72-80) and the choice of solver in
`solve_faddeev_equations` (solve_faddeev.cpp:1543-1581).  The text dumps of A, L, U are left out. -/
noncomputable section
namespace TicTac

/-- The columns in loop order (q, alpha, p), solve_faddeev.cpp:346-349: column number and quantum numbers. -/
def denseColumns (c : PadeCfg) : List (Nat × Nat × Nat × Nat) :=
  (List.range c.Nq).flatMap fun q => (List.range c.Nalpha).flatMap fun a => (List.range c.Np).map fun p => (a * c.Np * c.Nq + q * c.Np + p, a, p, q)

/-- `CPVC_col_array` of a column, solve_faddeev.cpp:351-370. -/
def denseColumn (c : PadeCfg) (k : Nat × Nat × Nat × Nat) : Nat → ℝ :=
  cpvcCol c.Nalpha c.Nq c.Np c.CT c.VC c.ents c.ptr (fun _ => 0) k.2.1 k.2.2.1 k.2.2.2

/-- `L_array` for energy `j`, solve_faddeev.cpp:337-388. -/
def denseL (c : PadeCfg) (j : Nat) : Nat → ℂ :=
  (denseColumns c).foldl (fun L k =>
    let L := writeAll L ((List.range c.D).map fun r => (r * c.D + k.1, -(denseColumn c k r : ℂ) * c.G (j * c.D + k.1)))
    Function.update L (k.1 * c.D + k.1) (L (k.1 * c.D + k.1) + 1)) (fun _ => 0)

/-- `R_array`, solve_faddeev.cpp:337-386. -/
def denseR (c : PadeCfg) : Nat → ℂ :=
  (denseColumns c).foldl (fun R k => writeAll R ((List.range c.D).map fun r => (r * c.D + k.1, (denseColumn c k r : ℂ)))) (fun _ => 0)

/-- A row-major array as a matrix. -/
def matOf (D : Nat) (f : Nat → ℂ) : Matrix (Fin D) (Fin D) ℂ := fun i j => f (i * D + j)

/-- Contract of `LAPACKE_zgetrs` with `trans = 'N'` (trusted): for factors without a zero pivot it overwrites `B` with the solution `X`
of `L U X = P B`. -/
def Getrs {N : Nat} (LU : Matrix (Fin N) (Fin N) ℂ) (ipiv : Fin N → Fin N) (B X : Matrix (Fin N) (Fin N) ℂ) : Prop :=
  (∀ i, LU i i ≠ 0) → lowerOf LU * upperOf LU * X = applySwaps ipiv B

/-- `solve_MM`, matrix_routines.cpp:72-80: `B` is overwritten by `X`; return codes are not looked at. -/
def SolveMM {N : Nat} (A B X : Matrix (Fin N) (Fin N) ℂ) : Prop := ∃ LU ipiv, Getrf A LU ipiv ∧ Getrs LU ipiv B X

/-- `U_array` after `faddeev_dense_solver`. -/
def DenseSolve (c : PadeCfg) (U : Nat → ℂ) : Prop :=
  ∀ j < c.nq, ∃ X : Nat → ℂ, SolveMM (matOf c.D (denseL c j)) (matOf c.D (denseR c)) (matOf c.D X) ∧
    ∀ dr < c.nd, ∀ dc < c.nd, U (dr * c.nd * c.nq + dc * c.nq + j) =
      X ((c.deut.getD dr 0 * c.Nq * c.Np + c.qidx.getD j 0 * c.Np + 0) * c.D + (c.deut.getD dc 0 * c.Nq * c.Np + c.qidx.getD j 0 * c.Np + 0))

/-- `solve_faddeev_equations` for already built tables: the arrays `U_array` and `U_BU_array` afterwards.  The direct solver is not given
the breakup array, which `main` allocated with `new cdouble[]`, i.e. zeros (main.cpp:416-419). -/
def SolveFaddeev (c : PadeCfg) (dense : Bool) (sched : List Nat) (junk : PadeJunk) (U UBU : Nat → Option ℂ) : Prop :=
  if dense then (∃ U', DenseSolve c U' ∧ U = fun i => some (U' i)) ∧ UBU = fun _ => some 0
  else ∃ s, padeSolve c sched junk = some s ∧ U = padeU s ∧ UBU = padeUBU s

end TicTac
end
