import Verif.Model.Run
import Verif.Model.Walk
import Verif.Model.FillP123
import Verif.Model.BreakupTable
/-! A whole run of the program up to the files of elastic and breakup amplitudes it leaves: main.cpp:118-497 around the model of one channel and one parameter set
(Model/Run) and of the potential objects (Model/Walk). -/
noncomputable section
namespace TicTac

/-- The table in a file of elastic amplitudes: one row per energy with the lab energy, the c.m. energy, the index of the q bin and the amplitudes. -/
abbrev ElasticTable := List (ℝ × ℝ × Nat × List (Option ℂ))

/-- `store_U_matrix_elements_txt`, disk_io_routines.cpp:878-905 (the decimal text is the subject of Model/Format). -/
def elasticTable (s : RunSetup) (U : Nat → Option ℂ) : ElasticTable :=
  (List.range s.os.Tlab.length).map fun k => (s.os.Tlab.getD k 0, s.os.Ecom.getD k 0, s.os.qIdx.getD k 0, uRow U s.cfg.deut.length s.os.Tlab.length k)

/-- What the user chooses; `x.pot` is replaced by the potential object selected by `name` and the parameter file `lines`. -/
structure ProgramInput where
  x : RunInput
  folder : Str
  name : Str
  lines : List Str
  cfg : DriverCfg

/-- `P_3N_array[0]` of the channel, main.cpp:194. -/
def channelParity (states : List PWState) : Int := match states with | [] => 0 | s :: _ => s.P

/-- Name of the file for a channel and a parameter set, main.cpp:399-403, 441-444. -/
def elasticName (X : ProgramInput) (w : PWSpace) (chn psi : Int) : Str :=
  uFile X.folder X.x.g.Np X.x.Nq (channelTwoJ (w.block chn.toNat)) (channelParity (w.block chn.toNat)) X.x.p.J2max psi

/-- Name of the file of breakup amplitudes, main.cpp:399-403, 455-458. -/
def breakupName (X : ProgramInput) (w : PWSpace) (chn psi : Int) : Str :=
  uBuFile X.folder X.x.g.Np X.x.Nq (channelTwoJ (w.block chn.toNat)) (channelParity (w.block chn.toNat)) X.x.p.J2max psi

/-- What a file of amplitudes holds. -/
inductive FileContent where
  | elastic (t : ElasticTable)
  | breakup (t : BuTable)

abbrev Files := Str → Option FileContent

/-- Opening a file for writing replaces what it held. -/
def writeFile (files : Files) (name : Str) (t : FileContent) : Files :=
  fun n => if n = name then some t else files n

/-- The table of breakup amplitudes of a solve, main.cpp:460-468 (`store_U_BU_matrix_elements_txt`).  The cells are those found in the set-up (main.cpp:353-373); an amplitude that is
not a number counts as 0; the array is large enough (C52); `qOut` is what lies outside the q boundaries. -/
def breakupOf (x : RunInput) (w : PWSpace) (chn : Nat) (s : RunSetup) (UBU : Nat → Option ℂ) (qOut : Int → ℝ) : Option BuTable :=
  match findBreakup x.p x.g.Np x.Nq x.q s.swp.e s.swp.Eb (w.block chn) s.os.Ecom with
  | .ok (v, off) => breakupTable (buInputOf x.p (w.block chn) x.g.Np x.q qOut s.swp.e ((findDeuteronChannels w).getD chn []) s.os v off fun n => (UBU n).getD 0)
  | .error _ => none

/-- The output of one solve, main.cpp:439-469; `none` = the program stops. -/
def storeResults (X : ProgramInput) (w : PWSpace) (chn psi : Int) (s : RunSetup) (U UBU : Nat → Option ℂ) (qOut : Int → ℝ) (files : Files) : Option Files :=
  let files := writeFile files (elasticName X w chn psi) (.elastic (elasticTable s U))
  if X.x.breakup then (breakupOf X.x w chn.toNat s UBU qOut).map fun t => writeFile files (breakupName X w chn psi) (.breakup t) else some files

/-- The solves of the two loops, in order, and the files they leave: main.cpp:166-497.  `P123 chn` is what `fill_P123_arrays` gave for the channel; `env` is what the
program does not determine, in each solve. -/
inductive ProgramLoop (X : ProgramInput) (w : PWSpace) (P123 : Nat → List (Entry ℝ)) (env : Int → Int → RunEnv) :
    List (Work × PotModel) → Files → Files → Prop
  | done (files : Files) : ProgramLoop X w P123 env [] files files
  | solve {chn psi : Int} {V : PotModel} {tr : List (Work × PotModel)} {files files1 files' : Files} {s : RunSetup} {U UBU : Nat → Option ℂ} {qOut : Int → ℝ} :
      RunChannel { X.x with pot := V } (env chn psi) w chn.toNat (P123 chn.toNat) s U UBU →
      storeResults X w chn psi s U UBU qOut files = some files1 →
      ProgramLoop X w P123 env tr files1 files' →
      ProgramLoop X w P123 env ((.solve chn psi, V) :: tr) files files'

/-- A run that comes to its end, from the files it found to the files it leaves. -/
def ProgramRun (pe : PotEnv) (fresh : Nat → ℝ) (stod : Str → Option ℝ) (X : ProgramInput) (w : PWSpace) (P123 : Nat → List (Entry ℝ)) (env : Int → Int → RunEnv)
    (files files' : Files) : Prop :=
  constructPW X.x.p = some w ∧ ∃ tr, runPotentials pe fresh X.name stod X.lines X.cfg w.nChn = some tr ∧ ProgramLoop X w P123 env tr files files'

end TicTac
end
