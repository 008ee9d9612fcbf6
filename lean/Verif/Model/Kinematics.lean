import Verif.Model.OnShell
import Verif.Model.Record
/-! The kinematics table written with the scattering wave packets: CPP/make_swp_states.cpp:185-217 (`store_swp_kinematics`, called at 470) and
CPP/disk_io_routines.cpp:231-313 (`store_q_WP_kinematics_txt`).  Values in exact real arithmetic; text of arbitrary doubles. -/
noncomputable section
namespace TicTac

/-- Row of the first table: momentum, c.m. energy, lab energy of a bin boundary; make_swp_states.cpp:193-196. -/
def edgeRow (q : Nat → ℝ) (Eb : ℝ) (i : Nat) : ℝ × ℝ × ℝ := (q i, comQToComEnergy (q i), comMomentumToLabEnergy (q i) Eb)

/-- Row of the second table, make_swp_states.cpp:200-207. -/
def midRow (q : Nat → ℝ) (Eb : ℝ) (i : Nat) : ℝ × ℝ × ℝ :=
  let lo := 0.5 * (q i * q i) / mu1 Eb
  let up := 0.5 * (q (i + 1) * q (i + 1)) / mu1 Eb
  let E := 0.5 * (up + lo)
  (comEnergyToComQ E, E, comMomentumToLabEnergy (comEnergyToComQ E) Eb)

/-- Same double without its sign. -/
def Dbl.unsigned : Dbl → Dbl
  | .fin _ m e => .fin false m e
  | .inf _ => .inf false
  | .nan _ => .nan false

/-- Sign bit. -/
def Dbl.signBit : Dbl → Bool
  | .fin n _ _ => n
  | .inf n => n
  | .nan n => n

/-- `out << std::showpos << std::scientific << setprecision(prec) << x`: a sign always, then the digits (`printf("%+.*e")`). -/
def ShowposText (prec : Nat) (x : Dbl) (s : Str) : Prop := ∃ t, Prints prec x.unsigned t ∧ s = (if x.signBit then '-' else '+') :: t

/-- `std::setw(10) << " " << x`, disk_io_routines.cpp:274-276, 300-302. -/
def KinField (x : Dbl) (s : Str) : Prop := ∃ t, ShowposText 8 x t ∧ s = setw 10 [' '] ++ t

/-- One row; the index is unsigned, so `showpos` does not give it a sign, and has width 7 (length of "q [MeV]");
disk_io_routines.cpp:262-277, 288-303. -/
def KinRow (i : Nat) (x : Dbl × Dbl × Dbl) (s : Str) : Prop :=
  ∃ a b c, KinField x.1 a ∧ KinField x.2.1 b ∧ KinField x.2.2 c ∧ s = setw 7 (Nat.toDigits 10 i) ++ a ++ b ++ c

/-- Column headings, disk_io_routines.cpp:255-258, 284-287. -/
def kinHeader : Str :=
  "# Index".toList ++ setw (10 + 15 - 7) [' '] ++ "q [MeV]".toList ++ setw (10 + 15 - 9) [' '] ++ "Ecm [MeV]".toList ++
    setw (10 + 15 - 10) [' '] ++ "Tlab [MeV]".toList

/-- The file, disk_io_routines.cpp:240-309 (`std::endl` at the end gives an empty line). -/
def KinFile (N : Nat) (edge mid : Nat → Dbl × Dbl × Dbl) (s : Str) : Prop :=
  ∃ l1 l2 : List Str, List.Forall₂ (fun i l => KinRow i (edge i) l) (List.range (N + 1)) l1 ∧
    List.Forall₂ (fun i l => KinRow i (mid i) l) (List.range N) l2 ∧
    s = linesText (["# First table of numbers are bin boundaries. ".toList,
      "# Second table of numbers are bin mid-points for energy WPs.".toList,
      "# This means Ecm in the 2nd table is the mid-point of the corresponding Ecm boundaries.".toList,
      "# ".toList, "# BOUNDARIES: ".toList, "# ".toList, kinHeader] ++ l1 ++
      ["# ".toList, "# BIN MID-POINTS: ".toList, "# ".toList, kinHeader] ++ l2 ++ [[]])

/-- Name of the file, make_swp_states.cpp:209. -/
def kinPath (outputFolder : Str) (N : Nat) : Str :=
  outputFolder ++ "/".toList ++ "q_kinematics_Nq_".toList ++ Nat.toDigits 10 N ++ ".txt".toList

end TicTac
end
