/-!
Model of `CPP/make_pw_symm_states.cpp` (construction of the three-nucleon partial-wave basis) and of
`find_deuteron_channels` in `CPP/run_organizer.cpp`.

C `int` is modelled by `Int` (no overflow).  All operands of `/` and `%` below are non-negative in the code,
so Lean's and C's division agree.
-/
namespace TicTac

/-- Loop counter values of `for (int i = lo; i < hi + 1; i += step)`, for `step > 0`
(the loops of make_pw_symm_states.cpp:122-166).  Closed form: `lo, lo+step, …` up to `hi`. -/
def forRange (lo hi step : Int) : List Int :=
  (List.range ((hi - lo) / step + 1).toNat).map fun (k : Nat) => lo + step * (k : Int)

/-- One row of the nine quantum-number arrays of `pw_3N_statespace` (type_defs.h:15-29):
`L_2N, S_2N, J_2N, T_2N, L_1N, two_J_1N, two_J_3N, two_T_3N, P_3N`. -/
structure PWState where
  L : Int
  S : Int
  J : Int
  T : Int
  l : Int
  twoj : Int
  twoJ3 : Int
  twoT3 : Int
  P : Int
deriving DecidableEq, Repr

/-- The run parameters used by the basis construction (type_defs.h:87-123). -/
structure PWParams where
  J2max : Int
  twoJ3max : Int
  isoBreak : Bool
  tensor : Bool := true

/-- `two_T_3N_max`, make_pw_symm_states.cpp:68-71. -/
def twoT3max (p : PWParams) : Int := if p.isoBreak then 3 else 1

/-- Innermost loop body, make_pw_symm_states.cpp:166-213: `L_1N` loop, parity test, and the
`two_T_3N==3` restriction (`continue`) before the nine `push_back`s. -/
def loopL1 (twoJ3 rem twoT3 J S L T twoj : Int) : List PWState :=
  (forRange ((twoj - 1).natAbs / 2) ((twoj + 1) / 2) 1).flatMap fun l =>
    if (L + l) % 2 = rem then
      if twoT3 = 3 ∧ ¬ (S = 0 ∧ L = 0 ∧ J = 0) then []
      else [{ L := L, S := S, J := J, T := T, l := l, twoj := twoj,
              twoJ3 := twoJ3, twoT3 := twoT3, P := 1 - 2 * rem }]
    else []

/-- `T_2N` loop with Pauli test and `two_J_1N` loop, make_pw_symm_states.cpp:146-216. -/
def loopT (twoJ3 rem twoT3 J S L : Int) : List PWState :=
  (forRange ((twoT3 - 1).natAbs / 2) (if (twoT3 + 1) / 2 > 1 then 1 else (twoT3 + 1) / 2) 1).flatMap fun T =>
    if (L + S + T) % 2 ≠ 0 then
      (forRange ((twoJ3 - 2 * J).natAbs) (twoJ3 + 2 * J) 2).flatMap fun twoj =>
        loopL1 twoJ3 rem twoT3 J S L T twoj
    else []

/-- Body of one `(two_J_3N, P_3N_remainder)` iteration: the states appended for one 3N channel,
make_pw_symm_states.cpp:134-220. -/
def channelStates (p : PWParams) (twoJ3 rem : Int) : List PWState :=
  (forRange 1 (twoT3max p) 2).flatMap fun twoT3 =>
    (forRange 0 p.J2max 1).flatMap fun J =>
      (forRange 0 1 1).flatMap fun S =>
        (forRange ((J - S).natAbs) (J + S) 1).flatMap fun L =>
          loopT twoJ3 rem twoT3 J S L

/-- The `(two_J_3N, P_3N_remainder)` pairs in loop order, make_pw_symm_states.cpp:122-124. -/
def channelLoop (p : PWParams) : List (Int × Int) :=
  (forRange 1 p.twoJ3max 2).flatMap fun twoJ3 => (forRange 0 1 1).map fun rem => (twoJ3, rem)

/-- Accumulators of the construction: the nine vectors (as one list), `Nalpha_temp_prev`,
and `chn_idx_temp` (make_pw_symm_states.cpp:97-111). `N_chn_3N_temp` is `chn.length`. -/
structure PWAcc where
  states : List PWState
  prev : Nat
  chn : List Nat

/-- One channel iteration with its bookkeeping, make_pw_symm_states.cpp:224-228. -/
def pwStep (p : PWParams) (a : PWAcc) (c : Int × Int) : PWAcc :=
  let blk := channelStates p c.1 c.2
  let states := a.states ++ blk
  { states := states
    chn := if blk.length ≠ 0 then a.chn ++ [a.prev] else a.chn
    prev := states.length }

/-- All channel iterations, make_pw_symm_states.cpp:109-230. -/
def pwLoop (p : PWParams) : PWAcc :=
  (channelLoop p).foldl (pwStep p) { states := [], prev := 0, chn := [] }

/-- What `construct_symmetric_pw_states` leaves in `pw_states` (make_pw_symm_states.cpp:248-283). -/
structure PWSpace where
  states : List PWState
  chnIdx : List Nat
  nChn : Nat

/-- The largest-channel search of make_pw_symm_states.cpp:234-244, executed *before* the final
`chn_idx_temp.push_back` of line 249: `none` is an out-of-range `std::vector::operator[]` read. -/
def largestNalpha (chn : List Nat) : Option Int :=
  (List.range chn.length).foldlM (fun (best : Int) (c : Nat) => do
    let lo ← chn[c]?
    let hi ← chn[c + 1]?
    let n := (hi : Int) - lo
    pure (if n > best then n else best)) 0

/-- `construct_symmetric_pw_states`: `none` is the `raise_error` of make_pw_symm_states.cpp:93-95.
The diagnostic `largestNalpha` (which does not influence the result) is modelled separately. -/
def constructPW (p : PWParams) : Option PWSpace :=
  if p.J2max < 0 then none
  else
    let a := pwLoop p
    some { states := a.states, chnIdx := a.chn ++ [a.states.length], nChn := a.chn.length }

/-- Parity character printed in the "Constructing channel" line, make_pw_symm_states.cpp:126-131. -/
def printedParity (rem : Int) : Char := if rem = 0 then '-' else '+'

/-- Deuteron quantum numbers, constants.h: deuteron_L/S/J/T, and the test of run_organizer.cpp:361-364. -/
def isDeuteron (s : PWState) : Bool := 0 == s.L && 1 == s.S && 1 == s.J && 0 == s.T

/-- Positions in a list satisfying a test, in increasing order: the `push_back(idx)` loop of
run_organizer.cpp:360-367. -/
def indicesWhere {α} (f : α → Bool) (xs : List α) : List Nat :=
  (List.range xs.length).filter fun i => match xs[i]? with | some x => f x | none => false

/-- Sub-array of one 3N channel (main.cpp:177-192, run_organizer.cpp:347-355). -/
def PWSpace.block (w : PWSpace) (c : Nat) : List PWState :=
  (w.states.drop (w.chnIdx.getD c 0)).take (w.chnIdx.getD (c + 1) 0 - w.chnIdx.getD c 0)

/-- `find_deuteron_channels`, run_organizer.cpp:342-378: per channel the list of deuteron positions. -/
def findDeuteronChannels (w : PWSpace) : List (List Nat) :=
  (List.range w.nChn).map fun c => indicesWhere isDeuteron (w.block c)

end TicTac
