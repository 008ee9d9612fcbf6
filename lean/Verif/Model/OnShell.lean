import Verif.Model.Numeric
import Verif.Model.RunParams
import Verif.Model.Resolvent
/-! Model of run_organizer.cpp: on-shell energies, their q-bins, breakup cells (`find_deuteron_channels` is in Model/PWStates). -/
noncomputable section
namespace TicTac

/-- Midpoint energy of a q bin, run_organizer.cpp:45-47, 91-93. -/
def midE (q : Nat → ℝ) (Eb : ℝ) (i : Nat) : ℝ :=
  0.5 * (0.5 * (q (i + 1) * q (i + 1)) / mu1 Eb + 0.5 * (q i * q i) / mu1 Eb)

/-- Midpoint lab energy, run_organizer.cpp:48-49, 94-96. -/
def midT (q : Nat → ℝ) (Eb : ℝ) (i : Nat) : ℝ := comMomentumToLabEnergy (comEnergyToComQ (midE q Eb i)) Eb

open Classical in
/-- `midpoint_idx_vector`, run_organizer.cpp:57-69 (the inner loop sets a flag; `false` beyond its length). -/
def midMark (Nq : Nat) (q : Nat → ℝ) (Eb : ℝ) (inputs : List ℝ) (i : Nat) : Bool :=
  decide (i < Nq - 1) && inputs.any fun T => decide (midT q Eb i ≤ T) && decide (T ≤ midT q Eb (i + 1))

/-- `bin_idx_vector`, run_organizer.cpp:72-78. -/
def binMark (Nq : Nat) (mark : Nat → Bool) : Nat → Bool :=
  (List.range (Nq - 1)).foldl (fun b i => if mark i then Function.update (Function.update b i true) (i + 1) true else b) (fun _ => false)

/-- `q_WP_idx_vec`, run_organizer.cpp:80-84. -/
def onShellBins (Nq : Nat) (q : Nat → ℝ) (Eb : ℝ) (inputs : List ℝ) : List Nat :=
  (List.range Nq).filter (binMark Nq (midMark Nq q Eb inputs))

/-- The `solution_configuration` fields set for elastic scattering. -/
structure OnShell where
  Tlab : List ℝ
  qcom : List ℝ
  Ecom : List ℝ
  qIdx : List Nat

open Classical in
/-- Search for the q bin of one on-shell momentum, run_organizer.cpp:116-130. -/
def findQBin (Nq : Nat) (q : Nat → ℝ) (qc : ℝ) : Except Stop Nat :=
  match (List.range Nq).find? fun i => decide (q i < qc) && decide (qc < q (i + 1)) with
  | some i => .ok i
  | none => .error .raiseError

/-- `find_on_shell_bins`, elastic part, run_organizer.cpp:4-132 (`Nq ≥ 1`; the C code loops over `size_t` with bound
`Nq_WP-1`). -/
def findOnShell (Nq : Nat) (q : Nat → ℝ) (Eb : ℝ) (inputs : List ℝ) : Except Stop OnShell := do
  let bins := onShellBins Nq q Eb inputs
  let Tlab := bins.map (midT q Eb)
  let qcom := Tlab.map fun T => labEnergyToComMomentum T Eb
  let Ecom := qcom.map comQToComEnergy
  let qIdx ← qcom.mapM (findQBin Nq q)
  pure ⟨Tlab, qcom, Ecom, qIdx⟩

/-- Neighbours `(q, p)` in a 2×2 square whose p indices are `p0, p0+1` and q indices `q0, q0+1`, without the cell itself;
order of the loops at run_organizer.cpp:266-276 etc. -/
def squareNeighbours (a iq ip p0 q0 : Int) : List (Int × Int × Int) :=
  ([p0, p0 + 1].flatMap fun pi => [q0, q0 + 1].map fun qj => (a, qj, pi)).filter fun t => t.2.2 != ip || t.2.1 != iq

open Classical in
/-- Indices `(alpha, q, p)` recorded for one cell, run_organizer.cpp:224-317. -/
def breakupCell (E Eql Equ Epl Epu : ℝ) (a iq ip : Int) : List (Int × Int × Int) :=
  if Epl + Eql ≤ E ∧ E ≤ Epu + Equ ∧ 0 ≤ Epl ∧ 0 ≤ Epu then
    let Ep := 0.5 * (Epu + Epl)
    let Eq := 0.5 * (Equ + Eql)
    (a, iq, ip) ::
      if Eq + Ep ≤ E ∧ E ≤ Epu + Equ then squareNeighbours a iq ip ip iq
      else if Eq + Epl ≤ E ∧ E ≤ Ep + Equ then squareNeighbours a iq ip (ip - 1) iq
      else if Epl + Eql ≤ E ∧ E ≤ Eq + Ep then squareNeighbours a iq ip (ip - 1) (iq - 1)
      else if Eql + Ep ≤ E ∧ E ≤ Epu + Eq then squareNeighbours a iq ip ip (iq - 1)
      else []
  else []

/-- Spectator energy with the free reduced mass, run_organizer.cpp:209-210. -/
def freeSpectatorE (q : ℝ) : ℝ := 0.5 * (q * q) / mu1Free

/-- All cells of one state, run_organizer.cpp:207-319. -/
def breakupState (Np Nq : Nat) (q : Nat → ℝ) (e : Bool → Int → ℝ) (E : ℝ) (a : Nat) (ptr : Bool × Int) : List (Int × Int × Int) :=
  (List.range Nq).flatMap fun (iq : Nat) => (List.range Np).flatMap fun (ip : Nat) =>
    breakupCell E (freeSpectatorE (q iq)) (freeSpectatorE (q (iq + 1))) (e ptr.1 (ptr.2 + ip)) (e ptr.1 (ptr.2 + ip + 1)) a iq ip

open Classical in
/-- One on-shell energy, run_organizer.cpp:145-332: the cells recorded, nothing below the breakup threshold, `raise_error`
when no cell qualifies. -/
def breakupEnergy (p : PWParams) (Np Nq : Nat) (q : Nat → ℝ) (e : Bool → Int → ℝ) (Eb : ℝ) (states : List PWState) (Ecom : ℝ) :
    Except Stop (List (Int × Int × Int)) :=
  if Ecom + Eb < 0 then .ok []
  else match states.zipIdx.mapM fun sa => (ePtr p Np sa.1).map (breakupState Np Nq q e Ecom sa.2) with
    | none => .error .raiseError
    | some ls => if ls.flatten.isEmpty then .error .raiseError else .ok ls.flatten

/-- The index vector and the offsets `q_com_BU_idx_array`, run_organizer.cpp:136-339. -/
def findBreakup (p : PWParams) (Np Nq : Nat) (q : Nat → ℝ) (e : Bool → Int → ℝ) (Eb : ℝ) (states : List PWState) (Ecom : List ℝ) :
    Except Stop (List (Int × Int × Int) × List Nat) :=
  Ecom.foldlM (fun s E => do
    let l ← breakupEnergy p Np Nq q e Eb states E
    pure (s.1 ++ l, s.2 ++ [(s.1 ++ l).length])) ([], [0])

end TicTac
end
