import Verif.Model.Main
import Mathlib.Data.Real.Basic
/-! Text of the numbers in the output tables: CPP/disk_io_routines.cpp:4-12 (`to_string_with_precision_and_sign`), 654-703 (breakup
table), 832-911 (elastic table).  A C `double` is a sign, a mantissa and an exponent, or infinite, or not a number.  The conversion done by
`operator<<` is not code of the project: it enters as the contract `Prints` (correct rounding, any choice between two nearest decimals). -/
noncomputable section
namespace TicTac

/-- IEEE double: `fin neg m e` is `± m * 2^e`. -/
inductive Dbl
  | fin (neg : Bool) (m : Nat) (e : Int)
  | inf (neg : Bool)
  | nan (neg : Bool)
deriving DecidableEq

/-- The representable doubles, each in one way: 53 bits, least exponent for subnormal numbers. -/
def Dbl.OK : Dbl → Prop
  | .fin _ m e => m < 2 ^ 53 ∧ -1074 ≤ e ∧ e ≤ 971 ∧ (2 ^ 52 ≤ m ∨ e = -1074)
  | _ => True

/-- Decimal digits of a number, at least `w` of them. -/
def padDigits (w n : Nat) : Str := List.replicate (w - (Nat.toDigits 10 n).length) '0' ++ Nat.toDigits 10 n

/-- `d.ddd…e±dd`: `N` has one digit before and `prec` after the point; at least two digits of exponent. -/
def sciText (prec : Nat) (neg : Bool) (N : Nat) (E : Int) : Str :=
  let d := padDigits (prec + 1) N
  (if neg then ['-'] else []) ++ d.take 1 ++ ['.'] ++ d.drop 1 ++ ['e'] ++ [if E < 0 then '-' else '+'] ++ padDigits 2 E.natAbs

/-- Rounding of a positive number to `prec + 1` decimal digits: `N * 10^(E - prec)` is within half a unit of the last digit. -/
def SciRound (prec : Nat) (v : ℝ) (N : Nat) (E : Int) : Prop :=
  10 ^ prec ≤ N ∧ N < 10 ^ (prec + 1) ∧ |v - N * (10 : ℝ) ^ (E - prec)| ≤ (10 : ℝ) ^ (E - prec) / 2

/-- Contract of `out << std::scientific << x` with precision `prec` (libstdc++): the text of `x`. -/
def Prints (prec : Nat) : Dbl → Str → Prop
  | .fin neg m e, s => if m = 0 then s = sciText prec neg 0 0 else ∃ N E, SciRound prec (m * (2 : ℝ) ^ e) N E ∧ s = sciText prec neg N E
  | .inf neg, s => s = (if neg then ['-'] else []) ++ "inf".toList
  | .nan neg, s => s = (if neg then ['-'] else []) ++ "nan".toList

/-- `a_value>=0` (IEEE: minus zero is `>= 0`, not-a-number is not), disk_io_routines.cpp:6. -/
def Dbl.geZero : Dbl → Bool
  | .fin neg m _ => !neg || m == 0
  | .inf neg => !neg
  | .nan _ => false

/-- `to_string_with_precision_and_sign`, disk_io_routines.cpp:4-12. -/
def SignedText (prec : Nat) (x : Dbl) (s : Str) : Prop := ∃ t, Prints prec x t ∧ s = (if x.geZero then ['+'] else []) ++ t

/-- `U_string`, disk_io_routines.cpp:685-687, 897-899. -/
def ComplexText (re im : Dbl) (s : Str) : Prop := ∃ a b, SignedText 16 re a ∧ SignedText 16 im b ∧ s = a ++ b ++ ['j']

/-- `std::right << std::setw(w)`. -/
def setw (w : Nat) (s : Str) : Str := List.replicate (w - s.length) ' ' ++ s

/-- An entry of a table row: a real (width 24), an index (width 10), a complex number (width 50). -/
inductive Field
  | real (x : Dbl)
  | index (n : Nat)
  | cplx (re im : Dbl)

/-- Text of one entry: disk_io_routines.cpp:680-690 (breakup), 883-902 (elastic). -/
def FieldText : Field → Str → Prop
  | .real x, s => ∃ t, Prints 16 x t ∧ s = setw 24 t
  | .index n, s => s = setw 10 (Nat.toDigits 10 n)
  | .cplx re im, s => ∃ t, ComplexText re im t ∧ s = setw 50 t

/-- Text of a list of entries. -/
def FieldsText : List Field → Str → Prop
  | [], s => s = []
  | f :: fs, s => ∃ a b, FieldText f a ∧ FieldsText fs b ∧ s = a ++ b

/-- A row of a table, without the end of line: disk_io_routines.cpp:676-693, 882-904. -/
def RowText (fs : List Field) (s : Str) : Prop := ∃ t, FieldsText fs t ∧ s = ' ' :: t

/-- Entries of the elastic row of energy number `q`: disk_io_routines.cpp:875-904. `qWP` is the bin index. -/
def elasticFields (T E : Dbl) (qWP : Nat) (U : Nat → Dbl × Dbl) (nd nq q : Nat) : List Field :=
  [.real T, .real E, .index qWP] ++ (uRow U nd nq q).map fun u => .cplx u.1 u.2

/-- Kind and value of an entry of the breakup table: column headed "real" prints the real part only, disk_io_routines.cpp:679-690. -/
def breakupFields (row : List (Bool × Dbl × Dbl)) : List Field := row.map fun c => if c.1 then .real c.2.1 else .cplx c.2.1 c.2.2

/-- `store_q_WP_boundaries_csv`, disk_io_routines.cpp:314-339: `std::fixed << std::showpos << setprecision(8)`: the number of
hundred-millionths nearest to the value; `FixedRound` relates a value to that number. -/
def FixedRound (prec : Nat) (v : ℝ) (N : Int) : Prop := |v - N / (10 : ℝ) ^ prec| ≤ 1 / (10 : ℝ) ^ prec / 2

/-- Text of a number in fixed format with sign; `neg` is the sign bit. -/
def fixedText (prec : Nat) (neg : Bool) (N : Nat) : Str :=
  let d := padDigits (prec + 1) N
  [if neg then '-' else '+'] ++ d.take (d.length - prec) ++ ['.'] ++ d.drop (d.length - prec)

/-- A line of the boundary file, for a finite double. -/
def BoundaryLine (neg : Bool) (m : Nat) (e : Int) (s : Str) : Prop :=
  ∃ N : Nat, FixedRound 8 (m * (2 : ℝ) ^ e) N ∧ s = fixedText 8 neg N

end TicTac
end
