import Verif.Model.Format
/-! Reading the tables back: a reader for decimal numbers and Python-style complex numbers. -/
noncomputable section
namespace TicTac.Spec

/-- Value of a finite double. -/
def dblValue (neg : Bool) (m : Nat) (e : Int) : ℝ := (if neg then -1 else 1) * (m * (2 : ℝ) ^ e)

/-- The decimal number `d` determines the finite double `x`: every other value of a double is farther away. -/
def Determines (d : ℝ) : Dbl → Prop
  | .fin neg m e => ∀ neg' m' e', (Dbl.fin neg' m' e').OK → dblValue neg' m' e' ≠ dblValue neg m e →
      |d - dblValue neg m e| < |d - dblValue neg' m' e'|
  | _ => False

def isDig (c : Char) : Bool := '0' ≤ c && c ≤ '9'

/-- Value of a string of digits. -/
def digitsNum (s : Str) : Nat := s.foldl (fun a c => 10 * a + (c.toNat - '0'.toNat)) 0

/-- Optional sign: (is it a minus, rest). -/
def optSign : Str → Bool × Str
  | '+' :: s => (false, s)
  | '-' :: s => (true, s)
  | s => (false, s)

def sg (b : Bool) : ℝ := if b then -1 else 1
def sgi (b : Bool) : Int := if b then -1 else 1

/-- The rest of a text that begins with `c`. -/
def expect (c : Char) : Str → Option Str
  | x :: s => if x = c then some s else none
  | [] => none

/-- Reads `[±]ddd.ddde[±]dd` from the front of a text; `none` if there is no such number. -/
def readNum (s : Str) : Option (ℝ × Str) :=
  let s1 := (optSign s).2
  let a := s1.takeWhile isDig
  match expect '.' (s1.dropWhile isDig) with
  | none => none
  | some s3 =>
    let b := s3.takeWhile isDig
    match expect 'e' (s3.dropWhile isDig) with
    | none => none
    | some s5 =>
      let s6 := (optSign s5).2
      let c := s6.takeWhile isDig
      if a = [] ∨ c = [] then none
      else some (sg (optSign s).1 * digitsNum (a ++ b) * (10 : ℝ) ^ (sgi (optSign s5).1 * digitsNum c - b.length), s6.dropWhile isDig)

/-- A whole text that is a number. -/
def readReal (s : Str) : Option ℝ := match readNum s with
  | some (x, []) => some x
  | _ => none

/-- Reads `a±bj`. -/
def readComplex (s : Str) : Option (ℝ × ℝ) := match readNum s with
  | some (x, c :: s') => if c = '+' ∨ c = '-' then
      match readNum (c :: s') with
      | some (y, ['j']) => some (x, y)
      | _ => none
    else none
  | _ => none

/-- Reads `[±]ddd.ddd`. -/
def readFixed (s : Str) : Option ℝ :=
  let s1 := (optSign s).2
  match expect '.' (s1.dropWhile isDig) with
  | none => none
  | some s3 => if s1.takeWhile isDig ≠ [] ∧ s3.all isDig = true
      then some (sg (optSign s).1 * digitsNum (s1.takeWhile isDig ++ s3) / 10 ^ s3.length) else none

/-- The words of a line, separated by blanks. -/
def words (s : Str) : List Str := (s.splitOn ' ').filter (· ≠ [])

/-- Word `w` read back gives entry `f`: numbers are determined to the last bit. -/
def ReadsBack (w : Str) : Field → Prop
  | .real x => ∃ d, readReal w = some d ∧ Determines d x
  | .index n => w ≠ [] ∧ w.all isDig = true ∧ digitsNum w = n
  | .cplx re im => ∃ d d', readComplex w = some (d, d') ∧ Determines d re ∧ Determines d' im

end TicTac.Spec
end
