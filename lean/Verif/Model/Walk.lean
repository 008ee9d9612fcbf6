import Verif.Model.Chp
import Verif.Model.Main
import Verif.Model.LOPot
/-! The potential object of a run and the loop over parameter sets: CPP/Interactions/potential_model.cpp, the `update_parameters` of every model and
CPP/main.cpp:118-136, 246-266.  `setup_store_matrices` is called nowhere (make_potential_matrix.cpp:223-226 is commented out) and `first_parameter_sampling` only
sets a flag read by it, so neither is modelled. -/
noncomputable section
namespace TicTac

/-- The classes of potentials. -/
inductive PotKind
  | loInternal
  | chiral (m : ChiralModel)
  | malflietTjon
  | nijmegen
deriving DecidableEq, Repr

/-- The name test of `fetch_potential_ptr`, potential_model.cpp:18-66 (`none`: exit). -/
def potKind (name : Str) : Option PotKind :=
  if name = "LO_internal".toList then some .loInternal
  else if name = "IS_LO".toList then some (.chiral .isLO)
  else if name = "IS_NLO".toList then some (.chiral .isNLO)
  else if name = "IS_N2LO".toList then some (.chiral .isN2LO)
  else if name = "IS_N3LO".toList then some (.chiral .isN3LO)
  else if name = "N2LOopt".toList then some (.chiral .n2loopt)
  else if name = "Idaho_N3LO".toList then some (.chiral .idaho)
  else if name = "malfliet_tjon".toList then some .malflietTjon
  else if name = "nijmegen".toList then some .nijmegen
  else none

/-- A potential object together with the module variables of the Fortran code: the class, and the array last handed to a preset routine. -/
structure PotObj where
  kind : PotKind
  par : Nat → ℝ

/-- `parameters_n2lo_opt`, chiral_N2LOopt.h:26-40 with the values of constants.h:45-63. -/
def n2looptDefault : List ℝ :=
  [-1.51366037000000009e-01, -1.52141088000000008e-01, -1.51764746000000006e-01, -1.58434177000000009e-01, 2.40402194400000013, 1.26339076300000008,
   4.17045542000000047e-01, -7.82658500000000146e-01, 9.28384663000000110e-01, 6.18141418999999970e-01, -6.77808510999999947e-01, 1.29000000000000004,
   -9.18639529000000010e-01, -3.88868749299999994, 4.31032716100000002]

/-- `parameters_idaho_n3lo`, chiral_Idaho_N3LO.h:27-62 with the values of constants.h:69-109. -/
def idahoDefault : List ℝ :=
  [-1.45285999999999998e-01, -1.47166999999999992e-01, -1.46284999999999998e-01, -1.18972495999999997e-01, 2.37999999999999989, 1.48700000000000010,
   6.56000000000000028e-01, -6.30000000000000004e-01, 7.60000000000000009e-01, 8.25999999999999956e-01, -5.38000000000000034e-01, -2.54499999999999993,
   -16, 2.44999999999999996e-01, 5.25, 2.35000000000000009, 7.00000000000000089, 6.54999999999999982, -2.79999999999999982, 2.25, 6.61000000000000032,
   -1.77000000000000002, -1.45999999999999996, 2.29499999999999993, -4.65000000000000024e-01, 5.66000000000000014, 1.29000000000000004, -8.10000000000000053e-01,
   2.79999999999999982, -3.20000000000000018, 5.40000000000000036, 3.06000000000000005, -3.27000000000000002, 4.50000000000000011e-01, -5.65000000000000036]

/-- `fetch_potential_ptr` and the constructors: potential_model.cpp:18-66, chiral_twobody.cpp:7-34 (the array passed to the preset is `new double[n]`, never written:
`fresh` is what that memory holds), chiral_N2LOopt.cpp:5-7, chiral_Idaho_N3LO.cpp:5-7. -/
def fetchPot (fresh : Nat → ℝ) (k : PotKind) : PotObj :=
  match k with
  | .chiral .n2loopt => ⟨k, fun i => n2looptDefault.getD i 0⟩
  | .chiral .idaho => ⟨k, fun i => idahoDefault.getD i 0⟩
  | _ => ⟨k, fresh⟩

/-- `update_parameters(&parameter_vector[start])`: chiral_twobody.cpp:40-60, chiral_N2LOopt.cpp:12-14, chiral_Idaho_N3LO.cpp:12-14; the other models ignore the
array (chiral_LO_internal.cpp:20-21, malfliet_tjon.cpp:21-22, nijmegen.cpp:11-12).  `none`: a read outside `data`. -/
def updatePot (o : PotObj) (data : List ℝ) (start : Int) : Option PotObj :=
  match o.kind with
  | .chiral m =>
    ((List.range m.columns).mapM fun (i : Nat) => if start + i < 0 then none else data[(start + i).toNat]?).map fun l => ⟨o.kind, fun i => l.getD i 0⟩
  | _ => some o

/-- The parts of the potentials that are parameters of the model: angular mesh and loop functions of the chiral models, angular mesh of LO_internal, the Nijmegen
routine. -/
structure PotEnv where
  rule : List (ℝ × ℝ)
  prof : Profiles
  loRule : List (ℝ × ℝ)
  nijm : PotModel

/-- `pot_ptr->V`; zero where the model reads beyond a table. -/
def potOf (env : PotEnv) (o : PotObj) : PotModel :=
  match o.kind with
  | .chiral m => fun qi qo c S J T Tz => (chiralV env.rule env.prof (preset m o.par) qi qo c S J T Tz).getD 0
  | .loInternal => fun qi qo _ _ J _ _ => (loV (env.loRule.map (·.1)) (env.loRule.map (·.2)) qi qo J).getD 0
  | .malflietTjon => fun qi qo _ _ J _ _ => mtV qi qo J
  | .nijmegen => env.nijm

/-- The potential each unit of work is solved with: main.cpp:254-265 within the loops of `mainWork`.  `n` is `num_model_params`. -/
def potTrace (env : PotEnv) (walk : Bool) (data : List ℝ) (n : Nat) : PotObj → List Work → Option (List (Work × PotModel))
  | _, [] => some []
  | o, .p123 _ :: ws => potTrace env walk data n o ws
  | o, .solve chn psi :: ws =>
    (if walk then updatePot o data (psi * n) else some o).bind fun o' =>
      (potTrace env walk data n o' ws).map fun tr => (.solve chn psi, potOf env o') :: tr

/-- main.cpp:118-136, 161-266: the potential object, the parameter file (`lines`), the range check and the work, with the potential used for each solve.
`none`: the program stops or reads outside an array. -/
def runPotentials (env : PotEnv) (fresh : Nat → ℝ) (name : Str) (stod : Str → Option ℝ) (lines : List Str) (cfg : DriverCfg) (nChn : Nat) :
    Option (List (Work × PotModel)) :=
  (potKind name).bind fun k =>
    (if cfg.parameterWalk then
      match readSamples stod lines with
      | .ok (data, n, sets) => if psiCheck true cfg.psiStart cfg.psiEnd sets then some (data, n) else none
      | .error _ => none
    else some ([], 0)).bind fun dn =>
      (mainWork cfg nChn).bind fun ws => potTrace env cfg.parameterWalk dn.1 dn.2 (fetchPot fresh k) ws

end TicTac
end
