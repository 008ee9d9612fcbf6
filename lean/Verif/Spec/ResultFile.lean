import Verif.Model.ResultFile
import Verif.Spec.Kinematics
/-! Reading a result file: the labelled lines of its head and its rows of numbers. -/
noncomputable section
namespace TicTac.Spec

/-- The words that follow column 15 of the first line `# label: …`. -/
def headEntry (label s : Str) : Option (List Str) :=
  ((textLines s).find? fun l => ("# ".toList ++ label ++ [':']).isPrefixOf l).map fun l => words (l.drop 15)

/-- The channel as it is written: `J` as a fraction and the sign of the parity. -/
def channelText (twoJ : Nat) (P : Int) : Str := Nat.toDigits 10 twoJ ++ "/2".toList ++ [if P = 1 then '+' else '-']

/-- The word is the decimal number `n`. -/
def IsNumber (w : Str) (n : Nat) : Prop := w ≠ [] ∧ w.all isDig = true ∧ digitsNum w = n

/-- A row that explains the name of an amplitude: name `Urc`, the numbers `r` and `c`, quantum numbers `l`, `2j` of state `r` and of state `c`. -/
def Explains (d : ElasticData) (r c : Nat) (ws : List Str) : Prop :=
  ∃ a b l1 j1 l2 j2, ws = [('U' :: a) ++ b, a, b, l1, j1, l2, j2] ∧ IsNumber a r ∧ IsNumber b c ∧ IsNumber l1 (d.l r) ∧ IsNumber j1 (d.twoj r) ∧
    IsNumber l2 (d.l c) ∧ IsNumber j2 (d.twoj c)

/-- A row of results of energy number `q`: lab energy, centre-of-mass energy, bin, and after them the amplitude between states `r` and `c` as word
number `nd r + c`; numbers to the last bit. -/
def Results (d : ElasticData) (q : Nat) (ws : List Str) : Prop :=
  ws.length = 3 + d.nd * d.nd ∧ (∃ w, ws[0]? = some w ∧ ReadsBack w (.real (d.T q))) ∧ (∃ w, ws[1]? = some w ∧ ReadsBack w (.real (d.E q))) ∧
    (∃ w, ws[2]? = some w ∧ IsNumber w (d.bin q)) ∧
    ∀ r < d.nd, ∀ c < d.nd, ∃ w, ws[3 + (r * d.nd + c)]? = some w ∧
      ReadsBack w (.cplx (d.U (r * d.nd * d.nq + c * d.nq + q)).1 (d.U (r * d.nd * d.nq + c * d.nq + q)).2)

/-- What a column of the breakup table shows: a complex column both parts, a real column the real part. -/
def shownCell (comp : Bool) (v : Dbl × Dbl) : Field := if comp then .cplx v.1 v.2 else .real v.1

/-- The words of a line show a row of the breakup table, column by column. -/
def ExplainsBreakup (heads : List (Bool × Str)) (r : List (Dbl × Dbl)) (ws : List Str) : Prop :=
  ws.length = heads.length ∧ ∀ (j : Nat) c v, heads[j]? = some c → r[j]? = some v → ∃ w, ws[j]? = some w ∧ ReadsBack w (shownCell c.1 v)

end TicTac.Spec
end
