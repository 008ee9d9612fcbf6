import Verif.Model.Numeric
import Verif.Model.Channels2N
import Verif.Model.Layout
import Verif.Model.Tables
import Verif.Model.Swp
import Mathlib.Analysis.SpecialFunctions.Log.Basic
import Mathlib.Data.Complex.Basic
/-! Model of make_resolvent.cpp.  `double` is ℝ, `cdouble` is ℂ; `std::log` of 0 (−∞ in C) is 0 in Lean, so theorems that
evaluate a logarithm assume that the energy is not on a bin edge. -/
noncomputable section
namespace TicTac

open Classical in
/-- `heaviside_step_function`, make_resolvent.cpp:4-11. -/
def heaviside (v : ℝ) : ℝ := if v < 0 then 0 else 1

/-- Energy of the spectator at momentum `q`, make_resolvent.cpp:21-22, 48-49. -/
def spectatorE (Eb q : ℝ) : ℝ := q * q / (2 * mu1 Eb)

/-- `resolvent_bound_continuum`, make_resolvent.cpp:14-36. -/
def resolventBC (E Eb qU qL : ℝ) : ℂ :=
  let EL := spectatorE Eb qL
  let EU := spectatorE Eb qU
  let Dq := EU - EL
  ⟨Real.log |(EL + Eb - E) / (EU + Eb - E)| / Dq,
   (heaviside (EU + Eb - E) - heaviside (EL + Eb - E)) * (-Real.pi) / Dq⟩

/-- Body of `resolvent_continuum_continuum` after the conversion of momenta to energies, make_resolvent.cpp:51-79. -/
def resolventCCcore (E qEU qEL pEU pEL : ℝ) : ℂ :=
  let Ep := 0.5 * (pEL + pEU)
  let Eq := 0.5 * (qEL + qEU)
  let Dq := qEU - qEL
  let Dp := pEU - pEL
  let DM := 0.5 * (Dp - Dq)
  let DP := 0.5 * (Dp + Dq)
  let D := Ep + Eq - E
  ⟨((D + DM) * Real.log |D + DM| + (D - DM) * Real.log |D - DM| - (D + DP) * Real.log |D + DP|
      - (D - DP) * Real.log |D - DP|) / (Dp * Dq),
   ((D + DM) * heaviside (D + DM) + (D - DM) * heaviside (D - DM) - (D + DP) * heaviside (D + DP)
      - (D - DP) * heaviside (D - DP)) * Real.pi / (Dp * Dq)⟩

/-- `resolvent_continuum_continuum`, make_resolvent.cpp:39-80. -/
def resolventCC (E Eb qU qL eU eL : ℝ) : ℂ := resolventCCcore E (spectatorE Eb qU) (spectatorE Eb qL) eU eL

/-- Pointer arithmetic for the boundaries of a state's own channel and block, make_resolvent.cpp:118-156: which array
(`true` = coupled) and start index; `none` = `raise_error`. -/
def ePtr (p : PWParams) (N : Nat) (s : PWState) : Option (Bool × Int) :=
  if coupledViaL p s = true ∧ coupledViaT p s = true then none
  else if coupledViaL p s = true then
    (unique2NIdx p s.L s.S s.J s.T true).map fun i =>
      (true, i * (2 * (N + 1) : Nat) + if s.L < s.J then 0 else ((N + 1 : Nat) : Int))
  else if coupledViaT p s = true then
    (unique2NIdx p s.L s.S s.J s.T true).map fun i =>
      (true, i * (2 * (N + 1) : Nat) + if s.twoT3 = 1 then 0 else ((N + 1 : Nat) : Int))
  else (unique2NIdx p s.L s.S s.J s.T false).map fun i => (false, i * (N + 1 : Nat))

open Classical in
/-- Value computed for one cell, make_resolvent.cpp:169-202. -/
def resolventCell (E eL eU qL qU : ℝ) : ℂ :=
  let Eb := if eL < 0 then eL else 0
  let R := if eL < 0 then resolventBC E Eb qU qL else 0
  let Q := if eL < 0 then 0 else resolventCC E Eb qU qL eU eL
  R + Q

/-- The writes for one state, make_resolvent.cpp:161-209. -/
def resolventWrites (Np Nq : Nat) (q : Nat → ℝ) (e : Bool → Int → ℝ) (E : ℝ) (a : Nat) (ptr : Bool × Int) : List (Nat × ℂ) :=
  (List.range Np).flatMap fun ip => (List.range Nq).map fun iq =>
    (idxAQP Nq Np a iq ip, resolventCell E (e ptr.1 (ptr.2 + ip)) (e ptr.1 (ptr.2 + ip + 1)) (q iq) (q (iq + 1)))

/-- `calculate_resolvent_array_in_SWP_basis`, make_resolvent.cpp:82-211. -/
def resolventArray (p : PWParams) (Np Nq : Nat) (q : Nat → ℝ) (e : Bool → Int → ℝ) (E : ℝ) (states : List PWState)
    (G0 : Nat → ℂ) : Option (Nat → ℂ) :=
  (states.zipIdx.mapM fun sa => (ePtr p Np sa.1).map (resolventWrites Np Nq q e E sa.2)).map fun ws => writeAll G0 ws.flatten

end TicTac
end
