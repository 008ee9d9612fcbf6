import Verif.Model.Heap
import Mathlib.Data.List.Perm.Basic
import Mathlib.Data.List.Nodup
import Mathlib.Algebra.BigOperators.Group.List.Basic
import Mathlib.Tactic.Ring

/-! A checker of heap programs: which variable holds which arrays, which are null, and what is lost. -/
namespace TicTac

/-- Holder, name of the array, number of arrays; variables known to be null. -/
structure HSt where
  own : List (Ptr × Ptr × Cnt)
  nulls : List Ptr
deriving DecidableEq

/-- A lost block: name of the arrays, and the numbers whose product is their number. -/
abbrev HLeak := Ptr × List Cnt

def hForget (s : HSt) (x : Ptr) : HSt := { own := s.own.filter fun e => e.1 ≠ x, nulls := s.nulls.filter fun y => y ≠ x }
def hLost (s : HSt) (x : Ptr) : List HLeak := (s.own.filter fun e => e.1 = x).map fun e => (e.2.1, [e.2.2])

def hRename (x y : Ptr) (e : Ptr × Ptr × Cnt) : Ptr × Ptr × Cnt := if e.1 = y then (x, e.2) else e

def hCheckOp : HOp → HSt → Option (HSt × List HLeak)
  | .new x n, s => some ({ own := (x, x, n) :: (hForget s x).own, nulls := (hForget s x).nulls }, hLost s x)
  | .del x n, s =>
    if (∃ e ∈ s.own, e.1 = x ∧ e.2.2 = n) then some ({ own := s.own.filter fun e => e.1 ≠ x, nulls := s.nulls }, [])
    else if x ∈ s.nulls ∧ n = .one then some (s, []) else none
  | .null x, s => some ({ own := (hForget s x).own, nulls := x :: (hForget s x).nulls }, hLost s x)
  | .use x, s => if ∃ e ∈ s.own, e.1 = x then some (s, []) else none
  | .move x y, s =>
    if (∀ e ∈ s.own, e.1 ≠ x) ∧ (∃ e ∈ s.own, e.1 = y) then some ({ own := s.own.map (hRename x y), nulls := s.nulls.filter fun z => z ≠ x }, []) else none
  | .drop x, s => some (hForget s x, hLost s x)

def hCheck (φ : Flag → Bool) : HProg → HSt → Option (HSt × List HLeak)
  | .op o, s => hCheckOp o s
  | .skip, s => some (s, [])
  | .seq p q, s => match hCheck φ p s with
    | none => none
    | some r => match hCheck φ q r.1 with
      | none => none
      | some r' => some (r'.1, r.2 ++ r'.2)
  | .rep n p, s => match hCheck φ p s with
    | none => none
    | some r => if r.1 = s then some (s, r.2.map fun l => (l.1, n :: l.2)) else none
  | .star p, s => match hCheck φ p s with
    | none => none
    | some r => if r.1 = s ∧ r.2 = [] then some (s, []) else none
  | .ite f p q, s => if φ f then hCheck φ p s else hCheck φ q s

def allFlags (a b c d e f : Bool) : Flag → Bool
  | .midpoint_approx => a | .calculate_P123 => b | .recovery => c | .solve_faddeev => d | .breakup => e | .dense => f

end TicTac
