import Verif.Model.Numeric
/-! Model of `chp_setup_gauleg_mesh`, CPP/Interactions/chp/chiral-twobody-potentials.f90 ("F" below), the quadrature routine of the
chiral potentials.  `REAL(8)` is ℝ, `chp_pi%val` is π. -/
noncomputable section
namespace TicTac

/-- `DO WHILE (ABS(z-z1) > EPS)`, F:219-230, at most `fuel` passes; state `(z, z1, pp)`.  The recursion, `pp` and the Newton step
(F:220-229) are those of `gauss`, hence the same definitions. -/
def meshWhile (n : Nat) (eps : ℝ) : Nat → ℝ × ℝ × ℝ → Option (ℝ × ℝ × ℝ)
  | fuel, (z, z1, pp) =>
    open Classical in
    if |z - z1| > eps then
      match fuel with
      | 0 => none
      | f + 1 => meshWhile n eps f (gaussNewton n z, z, gaussPP n z)
    else some (z, z1, pp)

/-- The loop `DO i=1,m`, F:216-235, without the stores: `z1` is set to zero and `z` to the start value for each `i` (F:217-218), while `pp`
keeps the value of the previous `i`.  Result: the final `(z, pp)` of each `i`. -/
def meshLoops (n : Nat) (eps : ℝ) (fuel : Nat) : List Nat → ℝ → Option (List (ℝ × ℝ))
  | [], _ => some []
  | i :: is, pp =>
    (meshWhile n eps fuel (gaussStart n i, 0, pp)).bind fun s =>
      (meshLoops n eps fuel is s.2.2).map fun r => (s.1, s.2.2) :: r

/-- The stores of `x`, F:231-232, on an array that held `x0`: index `i-1` here is `i` there. -/
def meshNodes (n : Nat) (xm xl : ℝ) (t : Nat → ℝ) (x0 : Nat → ℝ) : Nat → ℝ :=
  (List.range ((n + 1) / 2)).foldl (fun x k =>
    Function.update (Function.update x k (xm - xl * t (k + 1))) (n - (k + 1)) (xm + xl * t (k + 1))) x0

/-- The stores of `w`, F:233-234. -/
def meshWeights (n : Nat) (w : Nat → ℝ) (w0 : Nat → ℝ) : Nat → ℝ :=
  (List.range ((n + 1) / 2)).foldl (fun x k => Function.update (Function.update x k (w (k + 1))) (n - (k + 1)) (w (k + 1))) w0

/-- `chp_setup_gauleg_mesh`, F:187-243, for `n` points on `[x1, x2]` with tolerance `eps`; `pp0`, `x0`, `w0` are what the uninitialised
variables `pp`, `x`, `w` held.  `none`: the `STOP` of F:203-205, or a loop that has not ended after `fuel` passes.  The third component
`xxw` of a mesh point is not modelled. -/
def meshFill (n : Nat) (eps : ℝ) (fuel : Nat) (x1 x2 pp0 : ℝ) (x0 w0 : Nat → ℝ) : Option (List (ℝ × ℝ)) :=
  open Classical in
  if n = 0 ∨ x1 > x2 then none
  else (meshLoops n eps fuel ((List.range ((n + 1) / 2)).map (· + 1)) pp0).map fun s =>
    let t : Nat → ℝ := fun i => (s.getD (i - 1) (0, 0)).1
    let pp : Nat → ℝ := fun i => (s.getD (i - 1) (0, 0)).2
    let xm : ℝ := 0.5 * (x2 + x1)
    let xl : ℝ := 0.5 * (x2 - x1)
    (List.range n).map fun k =>
      (meshNodes n xm xl t x0 k, meshWeights n (fun i => 2 * xl / ((1 - t i * t i) * pp i * pp i)) w0 k)

end TicTac
