import Mathlib.Analysis.SpecialFunctions.Pow.Real
import Mathlib.Analysis.SpecialFunctions.Trigonometric.Deriv
/-!
Real-number formulas: kinematics, momentum grids, quadrature maps, Legendre recursion, free Hamiltonian.
C `double` is idealised as ℝ (no rounding); `const floatType` constants are exact decimals.
-/
noncomputable section
namespace TicTac

/-- constants.h:19-22. -/
def Mp : ℝ := 938.272
def Mn : ℝ := 939.565
def MN : ℝ := 0.5 * (Mp + Mn)
def mu23 : ℝ := Mp * Mn / (Mn + Mp)

/-- `deuteron_mass`, kinetic_conversion.cpp:5-7. -/
def deuteronMass (Eb : ℝ) : ℝ := Mn + Mp + Eb

/-- `mu1`, kinetic_conversion.cpp:10-13. -/
def mu1 (Eb : ℝ) : ℝ := Mn * deuteronMass Eb / (Mn + deuteronMass Eb)

/-- `mu1_free`, kinetic_conversion.cpp:16-19. -/
def mu1Free : ℝ := Mn * (Mp + Mn) / (Mn + (Mp + Mn))

/-- `com_momentum_to_lab_energy`, kinetic_conversion.cpp:22-30. -/
def comMomentumToLabEnergy (q Eb : ℝ) : ℝ :=
  let Md := deuteronMass Eb
  let b := 2 * (Mp - q * q / Md)
  let c := -q * q * (Mp + Md) * (Mp + Md) / (Md * Md)
  0.5 * (-b + Real.sqrt (b * b - 4 * c))

/-- `lab_energy_to_com_momentum`, kinetic_conversion.cpp:33-36. -/
def labEnergyToComMomentum (T Eb : ℝ) : ℝ :=
  let Md := deuteronMass Eb
  Real.sqrt (Md * Md * T * (T + 2 * Mp) / ((Mp + Md) * (Mp + Md) + 2 * T * Md))

/-- `com_energy_to_com_q_momentum`, kinetic_conversion.cpp:39-41. -/
def comEnergyToComQ (E : ℝ) : ℝ := Real.sqrt (4 * E * MN / 3)

/-- `com_q_momentum_to_com_energy`, kinetic_conversion.cpp:44-46. -/
def comQToComEnergy (q : ℝ) : ℝ := 3 * q * q / (4 * MN)

/-- `com_energy_to_com_p_momentum`, kinetic_conversion.cpp:49-51. -/
def comEnergyToComP (E : ℝ) : ℝ := Real.sqrt (2 * E * mu23)

/-- `com_p_momentum_to_com_energy`, kinetic_conversion.cpp:52-54. -/
def comPToComEnergy (p : ℝ) : ℝ := p * p / (2 * mu23)

/-- Loop body value of `make_chebyshev_distribution`, make_wp_states.cpp:34-36. -/
def chebValue (N : Nat) (scale t : ℝ) (i : Nat) : ℝ :=
  scale * (Real.tan ((2 * (i : ℝ) - 1) * Real.pi / (4 * N))) ^ t

/-- `make_chebyshev_distribution`, make_wp_states.cpp:26-43: the array after the call, `init` being its (uninitialised)
contents before: the loop `i = 1..N` and the final store at 0. -/
def chebArray (N : Nat) (scale t : ℝ) (init : Nat → ℝ) : Nat → ℝ :=
  Function.update ((List.range N).foldl (fun arr k => Function.update arr (k + 1) (chebValue N scale t (k + 1))) init) 0 0

/-- `updateRange_a_b`, gauss_legendre.cpp:89-93 (double version). -/
def mapNode (a b x : ℝ) : ℝ := 0.5 * (b - a) * x + 0.5 * (b + a)
def mapWeight (a b w : ℝ) : ℝ := 0.5 * (b - a) * w

/-- `updateRange_a_b` on the arrays of one bin, gauss_legendre.cpp:89-93. -/
def binRule (a b : ℝ) (rule : List (ℝ × ℝ)) : List (ℝ × ℝ) := rule.map fun xw => (mapNode a b xw.1, mapWeight a b xw.2)

/-- `make_p_bin_quadrature_grids` / `make_q_bin_quadrature_grids`, make_wp_states.cpp:76-113: for every bin, `Nper` times
over: `gauss` overwrites the bin's storage with the rule on (-1,1), then `updateRange_a_b` maps it in place.
`stale` is what the storage held before. -/
def binQuadrature (N Nper : Nat) (bounds : Nat → ℝ) (rule : List (ℝ × ℝ)) (stale : Nat → List (ℝ × ℝ)) : List (ℝ × ℝ) :=
  (List.range N).flatMap fun b =>
    (List.range Nper).foldl (fun _old _ => binRule (bounds b) (bounds (b + 1)) rule) (stale b)

/-- bin midpoints, make_wp_states.cpp:150-162. -/
def binMidpoint (a b : ℝ) : ℝ := 0.5 * (a + b)

/-- `construct_free_hamiltonian`, make_swp_states.cpp:28-42. -/
def freeH (p1 p2 : ℝ) : ℝ := (p2 * p2 + p2 * p1 + p1 * p1) / (6 * mu23)

/-- One pass of the recurrence loop, legendre.cpp:49-56: state `(Pprev, Pcurr)`. -/
def legStep (x : ℝ) (s : ℝ × ℝ) (c : Nat) : ℝ × ℝ := (s.2, ((2 * c + 1) * x * s.2 - c * s.1) / (c + 1))

/-- `LegendrePolynomial::findRoot` (double), legendre.cpp:35-61, for `d ≥ 0` (negative `d` throws). -/
def findRoot (d : Nat) (x : ℝ) : ℝ :=
  if d = 0 then 1 else if d = 1 then x
  else ((List.range (d - 1)).foldl (fun s k => legStep x s (k + 1)) (1, x)).2

/-- `LegendrePolynomial::findRoots` (double), legendre.cpp:90-113: the stored lists `roots_d[0..L]` for the nodes `z`. -/
def findRoots (L : Nat) (z : List ℝ) : List (List ℝ) :=
  ((List.range (L - 1)).foldl (fun (rs : List (List ℝ)) k =>
      let l : Nat := k + 1
      rs ++ [(List.range z.length).map fun i =>
        ((2 * (l : ℝ) + 1) * z.getD i 0 * (rs.getD l []).getD i 0 - l * (rs.getD (l - 1) []).getD i 0) / (l + 1)])
    [List.replicate z.length 1, z])

/-- Inner loop of `gauss`, gauss_legendre.cpp:47-51: `(p1, p2)` after the loop. -/
def gaussLoop (N : Nat) (t : ℝ) : ℝ × ℝ :=
  (List.range N).foldl (fun (s : ℝ × ℝ) k =>
    let j : ℝ := ((k + 1 : Nat) : ℝ)
    (((2 * j - 1) * t * s.1 - (j - 1) * s.2) / j, s.1)) (1, 0)

/-- `pp` of `gauss`, gauss_legendre.cpp:52. -/
def gaussPP (N : Nat) (t : ℝ) : ℝ := N * (t * (gaussLoop N t).1 - (gaussLoop N t).2) / (t * t - 1)

/-- One Newton step, gauss_legendre.cpp:53-54. -/
def gaussNewton (N : Nat) (t : ℝ) : ℝ := t - (gaussLoop N t).1 / gaussPP N t

/-- Start value, gauss_legendre.cpp:41. -/
def gaussStart (N i : Nat) : ℝ := Real.cos (Real.pi * ((i : ℝ) - 0.25) / ((N : ℝ) + 0.5))

/-- The `while` loop of `gauss`, gauss_legendre.cpp:45-55, run for at most `fuel` passes; state `(t, t1, pp)`;
`none` if it has not stopped by then. -/
def gaussWhile (N : Nat) (eps : ℝ) : Nat → ℝ × ℝ × ℝ → Option (ℝ × ℝ × ℝ)
  | fuel, (t, t1, pp) =>
    open Classical in
    if |t - t1| ≥ eps then
      match fuel with
      | 0 => none
      | f + 1 => gaussWhile N eps f (gaussNewton N t, t, gaussPP N t)
    else some (t, t1, pp)

/-- Stored weight, gauss_legendre.cpp:60. -/
def gaussW (t pp : ℝ) : ℝ := 2 / ((1 - t * t) * pp * pp)

/-- The loop for one `i`, gauss_legendre.cpp:40-55: `(t, t1, pp)` on exit. -/
def gaussRun (N : Nat) (eps : ℝ) (fuel i : Nat) : Option (ℝ × ℝ × ℝ) := gaussWhile N eps fuel (gaussStart N i, 1, 0)

/-- Stores of `gauss`, gauss_legendre.cpp:40-62: for `i = 1..(N+1)/2`, `x[i-1] = -t_i`, then `x[N-i] = t_i`, and both
weights; `t`, `w` give the final iterate and weight for each `i`. -/
def gaussNodes (N : Nat) (t : Nat → ℝ) (init : Nat → ℝ) : Nat → ℝ :=
  (List.range ((N + 1) / 2)).foldl (fun x k => Function.update (Function.update x k (-(t (k + 1)))) (N - (k + 1)) (t (k + 1))) init
def gaussWeights (N : Nat) (w : Nat → ℝ) (init : Nat → ℝ) : Nat → ℝ :=
  (List.range ((N + 1) / 2)).foldl (fun x k => Function.update (Function.update x k (w (k + 1))) (N - (k + 1)) (w (k + 1))) init

/-- The rule `gauss` leaves in the arrays, for final iterates `t i` and derivatives `pp i`. -/
def gaussRule (N : Nat) (t pp : Nat → ℝ) (x0 w0 : Nat → ℝ) : List (ℝ × ℝ) :=
  (List.range N).map fun k => (gaussNodes N t x0 k, gaussWeights N (fun i => gaussW (t i) (pp i)) w0 k)

end TicTac
end
