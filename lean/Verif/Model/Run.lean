import Verif.Model.Potential
import Verif.Model.OnShell
import Verif.Model.Dense
/-! Model of the body of the channel loop of `main` for one parameter set, main.cpp:225-437: potential arrays, scattering wave packets,
on-shell bins, resolvents, solution of the Faddeev equation.  `P123` (computed or read by `fill_P123_arrays`) is an input here.  The pieces
are the models of the other files; this file only adds the way `main` connects them. -/
noncomputable section
namespace TicTac

/-- Where `calculate_potential_matrices_array_in_WP_basis` stores an element, make_potential_matrix.cpp:250-262: array (`true` = coupled) and
index. -/
def flatKey (N : Nat) (k : PotKey) : Bool × Int :=
  let n := k.1.2
  let br := k.2.1; let bc := k.2.2.1; let i := k.2.2.2.1; let j := k.2.2.2.2
  (k.1.1, if k.1.1 then n * 4 * N * N + (i + br * N) * 2 * N + (j + bc * N) else n * N * N + i * N + j)

/-- `V_WP_unco_array`, `V_WP_coup_array` after `calculate_potential_matrices_array_in_WP_basis`, main.cpp:303-314: as `potMatrices`, in the
flat arrays. -/
def potArrays (p : PWParams) (g : PotGrid) (V : PotModel) (junk : Job → Nat → Nat → Six) (init : Bool × Int → ℝ)
    (states : List PWState) : Option (Bool × Int → ℝ) := do
  let jobs ← potJobs p states
  let ws ← jobs.mapM fun job => jobWrites p g V (junk job) job
  return writeAll init (ws.flatten.map fun w => (flatKey g.Np w.1, w.2))

/-- What the user chooses. `g.pWP` are the boundaries of the p grid. -/
structure RunInput where
  p : PWParams
  g : PotGrid
  Nq : Nat
  q : Nat → ℝ
  pot : PotModel
  Tlab : List ℝ
  dense : Bool
  breakup : Bool

/-- What the program does not determine: LAPACK's eigenvectors, contents of fresh memory, the order of the threads. -/
structure RunEnv where
  diag : Diag
  junkV : Job → Nat → Nat → Six
  initV : Bool × Int → ℝ
  garbage : Nat → ℝ
  C0 : Bool → Int → ℝ
  junkCT : Bool → Int → Nat → ℝ
  junkVC : Bool → Int → Nat → ℝ
  G0 : Nat → ℂ
  /-- `chn_os_indexing` is not initialised without breakup, main.cpp:353. -/
  junkBU : Nat → Nat
  sched : List Nat
  pade : PadeJunk

/-- Everything computed before the equations are solved. -/
structure RunSetup where
  V : Bool → Int → ℝ
  swp : SwpState
  os : OnShell
  states : List PWState
  cfg : PadeCfg

/-- `G_array`: one slice of `dense_dim` numbers per energy, main.cpp:381-392. -/
def gArray (D : Nat) (Gs : List (Nat → ℂ)) : Nat → ℂ := fun k => (Gs[k / D]?.getD fun _ => 0) (k % D)

/-- An unsuccessful search ends in `raise_error`. -/
def orStop {α : Type} : Option α → Except Stop α
  | some a => .ok a
  | none => .error .raiseError

/-- `find_on_shell_bins`, breakup part, and what `chn_os_indexing` holds without it, main.cpp:353-373, run_organizer.cpp:136-339. -/
def runBreakup (x : RunInput) (env : RunEnv) (st : SwpState) (os : OnShell) (states : List PWState) :
    Except Stop ((Nat → Nat) × Nat × (Nat → Nat × Nat × Nat)) :=
  if x.breakup then do
    let b ← findBreakup x.p x.g.Np x.Nq x.q st.e st.Eb states os.Ecom
    pure (fun i => b.2.getD i 0, b.1.length, fun i => let t := b.1.getD i (0, 0, 0); (t.1.toNat, t.2.1.toNat, t.2.2.toNat))
  else pure (env.junkBU, env.junkBU 0, fun _ => (0, 0, 0))

/-- main.cpp:263-392 and solve_faddeev.cpp:1443-1541 for channel `chn` of the state space `w`; `ents` is `P123` in column-major order
(main.cpp:228-250).  Negative breakup indices (C40) are cut to 0 here; they concern the breakup elements only. -/
def runSetup (x : RunInput) (env : RunEnv) (w : PWSpace) (chn : Nat) (ents : List (Entry ℝ)) : Except Stop RunSetup := do
  let states := w.block chn
  let V ← orStop (potArrays x.p x.g x.pot env.junkV env.initV w.states)
  let V := fun b i => V (b, i)
  let st ← makeSwpStates x.p x.g.Np x.g.pWP V env.diag env.garbage env.C0 0 w.states
  let os ← findOnShell x.Nq x.q st.Eb x.Tlab
  let bu ← runBreakup x env st os states
  let Gs ← os.Ecom.mapM fun E => orStop (resolventArray x.p x.g.Np x.Nq x.q st.e (E + st.Eb) states env.G0)
  let CT ← orStop (kernelTab x.p x.g.Np (channelsOnly x.p (ctSub x.g.Np st.C) env.junkCT) states)
  let VC ← orStop (kernelTab x.p x.g.Np (channelsOnly x.p (vcSub x.g.Np V st.C) env.junkVC) states)
  pure { V := V, swp := st, os := os, states := states
         cfg := { Nalpha := states.length, Nq := x.Nq, Np := x.g.Np, CT := CT, VC := VC, ents := ents, ptr := csPtr (ents.map (·.col))
                  G := gArray (states.length * x.Nq * x.g.Np) Gs, qidx := os.qIdx, deut := (findDeuteronChannels w).getD chn []
                  breakup := x.breakup, buStart := bu.1, nBU := bu.2.1, buState := bu.2.2 } }

/-- One channel and parameter set, main.cpp:225-437: the results are `U_array` and `U_BU_array`. -/
def RunChannel (x : RunInput) (env : RunEnv) (w : PWSpace) (chn : Nat) (P123 : List (Entry ℝ)) (s : RunSetup) (U UBU : Nat → Option ℂ) : Prop :=
  ∃ ents, ColMajorSorted ((w.block chn).length * x.Nq * x.g.Np) P123 ents ∧ runSetup x env w chn ents = .ok s ∧
    SolveFaddeev s.cfg x.dense env.sched env.pade U UBU

end TicTac
end
