import Verif.Model.Channels2N
import Verif.Model.Tables
import Mathlib.Data.Real.Sqrt
import Mathlib.Algebra.BigOperators.Pi
/-!
Model of `calculate_potential_matrices_array_in_WP_basis` (CPP/make_potential_matrix.cpp:50-430), which fills the
wave-packet potential matrices of every two-nucleon channel, and of the component re-ordering done by the wrappers of
the external potentials.  `double` is idealised as ℝ; `none` stands for the program stopping through `raise_error`.
-/
noncomputable section
namespace TicTac

/-- `double V_array[6]`. -/
abbrev Six := Fin 6 → ℝ

/-- `extract_potential_element_from_array`, make_potential_matrix.cpp:4-48. -/
def extractPot (L Lp J S : Int) (coupled : Bool) (V : Six) : Option ℝ :=
  if J < |S - L| ∨ J > S + L ∨ J < |S - Lp| ∨ J > S + Lp then none
  else
    let sgn : ℝ := -1
    some (
      if coupled then
        if L = Lp ∧ L < J then V 2
        else if L = Lp ∧ L > J then V 5
        else if L < Lp then sgn * V 4
        else sgn * V 3
      else
        if L = J + 1 then V 5
        else if L = J - 1 then V 2
        else if S = 0 then V 0
        else if S = 1 ∧ L = J then V 1
        else 0)

/-- `potential_model::V(i, j, qi, qo, coupled, S, J, T, Tz, Varray)`; the mesh indices `i, j` are ignored by every
model (chiral_twobody.cpp:173 only uses them in a branch guarded by `&& false`). -/
abbrev PotModel := (qi qo : ℝ) → (coupled : Bool) → (S J T Tz : Int) → Six

/-- What the routine reads from the wave-packet state space (make_potential_matrix.cpp:66-72) and the integration mode
(`run_parameters.midpoint_approx`). -/
structure PotGrid where
  Np : Nat
  Nper : Nat
  mid : Bool
  pWP : Nat → ℝ
  p : Nat → ℝ
  wp : Nat → ℝ
  fp : Nat → ℝ
  norm : Nat → ℝ

/-- `coupled_model`, make_potential_matrix.cpp:172-174. -/
def coupledModel (r c : PWState) : Bool := r.L != c.L || (r.L == c.L && r.L != r.J)

/-- The average of the interactions, make_potential_matrix.cpp:296-298, 366-368. -/
def isoAverage (nn np : Six) : Six := fun k => (2 / 3) * nn k + (1 / 3) * np k

/-- The 1S0 isospin block in the code's own ordering, make_potential_matrix.cpp:313-316, 383-386. Components 0 and 1
keep the previous (possibly uninitialised) content of `V_IS_elements`. -/
def isoBlock (junk : Six) (nn np : ℝ) : Six := fun k =>
  if k = 2 then (2 / 3) * nn + (1 / 3) * np
  else if k = 3 then (Real.sqrt 2 / 3) * (nn - np)
  else if k = 4 then (Real.sqrt 2 / 3) * (nn - np)
  else if k = 5 then (1 / 3) * nn + (2 / 3) * np
  else junk k

/-- `V_IS_elements` for one pair of momenta.  `mid = true`: make_potential_matrix.cpp:289-321 (chosen by the isoscalar
type only).  `mid = false`: make_potential_matrix.cpp:359-390.  `Tz_nn = -1`, `Tz_np = 0` (:79-80). -/
def isoElements (p : PWParams) (mid : Bool) (ty : Nat) (r c : PWState) (V : PotModel) (junk : Six) (pin pout : ℝ) :
    Option Six :=
  let nn := V pin pout (coupledModel r c) r.S r.J r.T (-1)
  let np := V pin pout (coupledModel r c) r.S r.J r.T 0
  let block : Option Six := do
    let a ← extractPot r.L c.L r.J r.S false nn
    let b ← extractPot r.L c.L r.J r.S false np
    return isoBlock junk a b
  if mid then
    if ty = 0 then some np
    else if ty = 1 then some (isoAverage nn np)
    else if ty = 2 ∨ ty = 3 then block
    else none
  else
    if coupledViaT p r = false ∧ ty = 0 then some np
    else if coupledViaT p r = false ∧ ty = 1 then some (isoAverage nn np)
    else if coupledViaT p r = true then block
    else none

/-- `V_WP_elements` of one pair of bins, make_potential_matrix.cpp:266-397.  `junk` is the stale content of the
uninitialised local array at each integration point. -/
def wpElements (p : PWParams) (g : PotGrid) (ty : Nat) (r c : PWState) (V : PotModel) (junk : Nat → Nat → Six)
    (i j : Nat) : Option Six :=
  if g.mid then do
    let pin := g.p j
    let pout := g.p i
    let dc := g.pWP (j + 1) - g.pWP j
    let dr := g.pWP (i + 1) - g.pWP i
    let e ← isoElements p true ty r c V (junk i j) pin pout
    return 0 + fun k => pin * pout * g.fp j * g.fp i * dr * dc * e k / (g.norm i * g.norm j)
  else
    (List.range g.Nper).foldlM (fun acc a =>
      (List.range g.Nper).foldlM (fun acc b => do
        let pout := g.p (i * g.Nper + a)
        let pin := g.p (j * g.Nper + b)
        let wr := g.fp (i * g.Nper + a) * g.wp (i * g.Nper + a) * pout
        let wc := g.fp (j * g.Nper + b) * g.wp (j * g.Nper + b) * pin
        let e ← isoElements p false ty r c V (junk (i * g.Nper + a) (j * g.Nper + b)) pin pout
        return acc + fun k => wr * wc * e k / (g.norm i * g.norm j)) acc) 0

/-- Address of a stored element: channel slot, block row and column, bin row and column.  The flat index is
`idxVunco`/`idxVcoup` of `Layout` (injectivity: `C20`). -/
abbrev PotKey := Slot × Nat × Nat × Nat × Nat

/-- The stores for one pair of bins, make_potential_matrix.cpp:400-423. -/
def binWrites (p : PWParams) (g : PotGrid) (ty : Nat) (V : PotModel) (junk : Nat → Nat → Six) (job : Job)
    (ij : Nat × Nat) : Option (List (PotKey × ℝ)) := do
  let r := job.r
  let c := job.c
  let e ← wpElements p g ty r c V junk ij.1 ij.2
  let viaL := pairViaL p r c
  let viaT := coupledViaT p r
  let coupled := viaL || viaT
  if coupled then
    if viaL then
      let a ← extractPot (r.J - 1) (r.J - 1) r.J r.S coupled e
      let b ← extractPot (r.J - 1) (r.J + 1) r.J r.S coupled e
      let d ← extractPot (r.J + 1) (r.J - 1) r.J r.S coupled e
      let f ← extractPot (r.J + 1) (r.J + 1) r.J r.S coupled e
      return [((job.slot, 0, 0, ij.1, ij.2), a), ((job.slot, 0, 1, ij.1, ij.2), b),
        ((job.slot, 1, 0, ij.1, ij.2), d), ((job.slot, 1, 1, ij.1, ij.2), f)]
    else
      return [((job.slot, 0, 0, ij.1, ij.2), e 2), ((job.slot, 0, 1, ij.1, ij.2), e 3),
        ((job.slot, 1, 0, ij.1, ij.2), e 4), ((job.slot, 1, 1, ij.1, ij.2), e 5)]
  else
    let a ← extractPot r.L c.L r.J r.S coupled e
    return [((job.slot, 0, 0, ij.1, ij.2), a)]

/-- The loop over bins, make_potential_matrix.cpp:243-248. -/
def binPairs (n : Nat) : List (Nat × Nat) := (List.range n).flatMap fun i => (List.range n).map fun j => (i, j)

/-- All stores of one channel (make_potential_matrix.cpp:138-158 for the type, :243-425 for the loops). -/
def jobWrites (p : PWParams) (g : PotGrid) (V : PotModel) (junk : Nat → Nat → Six) (job : Job) :
    Option (List (PotKey × ℝ)) := do
  let ty ← isoscalarType job.r job.c
  let ws ← (binPairs g.Np).mapM (binWrites p g ty V junk job)
  return ws.flatten

/-- Contents of the potential arrays after `calculate_potential_matrices_array_in_WP_basis`. -/
def potMatrices (p : PWParams) (g : PotGrid) (V : PotModel) (junk : Job → Nat → Nat → Six) (init : PotKey → ℝ)
    (states : List PWState) : Option (PotKey → ℝ) := do
  let jobs ← potJobs p states
  let ws ← jobs.mapM fun job => jobWrites p g V (junk job) job
  return writeAll init ws.flatten

/-- Block row/column of a state in its channel's matrix: where the readers of the coupled matrices look
(solve_faddeev.cpp:1894-1906, 1719-1731: `L_2N` below/above `J_2N`, or `two_T_3N` 1/3). -/
def blockOf (p : PWParams) (s : PWState) : Nat :=
  if coupledViaL p s then (if s.L > s.J then 1 else 0)
  else if coupledViaT p s then (if s.twoT3 = 3 then 1 else 0)
  else 0

/-- The re-ordering of components in the wrappers of the external potentials: nijmegen.cpp:34-39,
chiral_twobody.cpp:212-217, chiral_N2LOopt.cpp:37-42, chiral_Idaho_N3LO.cpp (same lines). -/
def reorderExternal (t : Six) : Six := fun k =>
  if k = 0 then t 0 else if k = 1 then t 1 else if k = 2 then t 3 else if k = 3 then t 5 else if k = 4 then t 4
  else t 2

/-- Isospin projection handed to the external routines (`Tz_reverse`), nijmegen.cpp:30, chiral_N2LOopt.cpp:32. -/
def tzReverse (Tz : Int) : Int := -Tz

end TicTac
end
