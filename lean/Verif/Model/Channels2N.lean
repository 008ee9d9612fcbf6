import Verif.Model.PWStates
/-!
Model of the two-nucleon channel bookkeeping: `unique_2N_idx` (CPP/make_pw_symm_states.cpp:4-60), the array sizes
chosen in `main` (CPP/main.cpp:273-301), the decision whether a channel is "coupled", and the double loops over
states in `calculate_potential_matrices_array_in_WP_basis` (CPP/make_potential_matrix.cpp:111-203) and
`make_swp_states` (CPP/make_swp_states.cpp:329-404) which process every two-nucleon channel once.

`none` stands for the program stopping through `raise_error`.
-/
namespace TicTac

/-- `unique_2N_idx`, make_pw_symm_states.cpp:4-60. -/
def unique2NIdx (p : PWParams) (L S J T : Int) (coupled : Bool) : Option Int :=
  if coupled = true ∧ p.tensor = false then none
  else
    let state1S0 : Bool := S == 0 && J == 0 && L == 0 && T == 1
    if p.tensor then
      if coupled then
        let u := J - 1
        let u := if state1S0 = false ∧ p.isoBreak = true then u + 1 else u
        let u := if state1S0 = true ∧ p.isoBreak = true then 0 else u
        some u
      else
        let u := 2 * J + S
        some (if p.isoBreak then u - 1 else u)
    else
      if coupled then
        some (if p.isoBreak then 0 else -1)
      else
        let u := J * (4 * (if J > 1 then 1 else 0) + 2) + (if S = 1 then 1 else 0)
          + (if S = 1 ∧ J ≠ 0 then 1 else 0) * (J - L + 1)
        some (if p.isoBreak then u - 1 else u)

/-- `num_2N_unco_states`, main.cpp:273-289. -/
def numUnco (p : PWParams) : Int :=
  if p.tensor then (if p.isoBreak then 2 * (p.J2max + 1) - 1 else 2 * (p.J2max + 1))
  else (if p.isoBreak then 4 * p.J2max + 2 - 1 else 4 * p.J2max + 2)

/-- `num_2N_coup_states`, main.cpp:273-289. -/
def numCoup (p : PWParams) : Int :=
  if p.tensor then (if p.isoBreak then p.J2max + 1 else p.J2max)
  else (if p.isoBreak then 1 else 0)

/-- Number of coupled channel matrices that fit in `V_WP_coup_array` (and `C_WP_coup_array`), main.cpp:291-301:
its size is `Np_WP*Np_WP*4*num_2N_coup_states` with the tensor force and 0 without. -/
def coupMatricesAllocated (p : PWParams) : Int := if p.tensor then numCoup p else 0

/-- A storage slot: which array (`true` = coupled) and the channel index in it. -/
abbrev Slot := Bool × Int

/-- `state_1S0` as tested by the callers (make_potential_matrix.cpp:143, make_swp_states.cpp:352,
run_organizer.cpp:168): no test of T. -/
def is1S0 (s : PWState) : Bool := s.S == 0 && s.J == 0 && s.L == 0

/-- `coupled_via_L_2N` for a single state, run_organizer.cpp:169. -/
def coupledViaL (p : PWParams) (s : PWState) : Bool := p.tensor && s.L != s.J && s.J != 0

/-- `coupled_via_T_3N`, run_organizer.cpp:170. -/
def coupledViaT (p : PWParams) (s : PWState) : Bool := is1S0 s && p.isoBreak

/-- Slot used for one state's SWP data, run_organizer.cpp:165-203 (same logic in make_resolvent.cpp and
solve_faddeev.cpp).  `none` = `raise_error`. -/
def slotOf (p : PWParams) (s : PWState) : Option Slot :=
  if coupledViaL p s = true ∧ coupledViaT p s = true then none
  else
    let coupled := coupledViaL p s || coupledViaT p s
    (unique2NIdx p s.L s.S s.J s.T coupled).map fun i => (coupled, i)

/-- `coupled_via_L_2N` for a row/column pair, make_potential_matrix.cpp:164, make_swp_states.cpp:353. -/
def pairViaL (p : PWParams) (r c : PWState) : Bool :=
  p.tensor && (r.L != c.L || (r.L == c.L && r.L != r.J && r.J != 0))

/-- Which pairs interact: make_potential_matrix.cpp:128-134. -/
def potPairOK (p : PWParams) (r c : PWState) : Bool :=
  r.T == c.T && r.J == c.J && r.S == c.S &&
    ((p.tensor && decide ((r.L - c.L).natAbs ≤ 2)) || r.L == c.L)

/-- Which pairs interact: make_swp_states.cpp:347. -/
def swpPairOK (_ : PWParams) (r c : PWState) : Bool :=
  r.T == c.T && r.J == c.J && r.S == c.S && decide ((r.L - c.L).natAbs ≤ 2)

/-- `isoscalar_type`, make_potential_matrix.cpp:138-158, with C's precedence of `&&` over `||` (line 147);
`none` = `raise_error`. -/
def isoscalarType (r c : PWState) : Option Nat :=
  if is1S0 r && r.twoT3 == 3 && c.twoT3 == 3 then some 2
  else if (is1S0 r && (r.twoT3 == 3 && c.twoT3 == 1)) || (r.twoT3 == 1 && c.twoT3 == 3) then some 3
  else if r.T == 0 && r.twoT3 == c.twoT3 && r.twoT3 == 1 then some 0
  else if r.T == 1 && r.twoT3 == c.twoT3 && r.twoT3 == 1 then some 1
  else none

/-- Slot computed for an interacting row/column pair (make_potential_matrix.cpp:160-185,
make_swp_states.cpp:351-394). -/
def pairSlot (p : PWParams) (r c : PWState) : Option Slot :=
  if pairViaL p r c = true ∧ coupledViaT p r = true then none
  else
    let coupled := pairViaL p r c || coupledViaT p r
    (unique2NIdx p r.L r.S r.J r.T coupled).map fun i => (coupled, i)

/-- One processed two-nucleon channel: its slot and the row/column state that triggered it. -/
structure Job where
  slot : Slot
  r : PWState
  c : PWState
deriving DecidableEq

/-- One row/column iteration: skip pairs that do not interact, stop on `raise_error`, skip channels already
marked in the check-list, otherwise process (make_potential_matrix.cpp:134-203, make_swp_states.cpp:347-404).
`typed` says whether the isoscalar type is also determined (potential matrices only). -/
def pairStep (p : PWParams) (ok : PWState → PWState → Bool) (typed : Bool) (jobs : List Job)
    (r c : PWState) : Option (List Job) :=
  if ok r c then
    if typed = true ∧ isoscalarType r c = none then none
    else
      match pairSlot p r c with
      | none => none
      | some sl => if jobs.any (fun j => j.slot == sl) then some jobs else some (jobs ++ [⟨sl, r, c⟩])
  else some jobs

/-- The double loop over rows and columns. -/
def pairLoop (p : PWParams) (ok : PWState → PWState → Bool) (typed : Bool) (states : List PWState) :
    Option (List Job) :=
  states.foldlM (fun jobs r => states.foldlM (fun jobs c => pairStep p ok typed jobs r c) jobs) []

/-- Channels whose potential matrix is computed (make_potential_matrix.cpp:111-203). -/
def potJobs (p : PWParams) (states : List PWState) : Option (List Job) :=
  pairLoop p (potPairOK p) true states

/-- Channels that are diagonalised (make_swp_states.cpp:329-404). -/
def swpJobs (p : PWParams) (states : List PWState) : Option (List Job) :=
  pairLoop p (swpPairOK p) false states

/-- `chn_3S1`, make_swp_states.cpp:428, decided from the row state that triggered the diagonalisation. -/
def chn3S1 (j : Job) : Bool := j.r.L == 0 && j.r.S == 1 && j.r.J == 1 && j.r.T == 0

end TicTac
