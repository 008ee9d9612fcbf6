import Verif.Model.PWStates
import Verif.Model.RunParams
/-!
The driver: channel loop, parameter-set loop, file names, parameter/energy/grid input files, output table
(CPP/main.cpp, CPP/disk_io_routines.cpp, CPP/make_wp_states.cpp).
-/
namespace TicTac

/-! ### Work list -/

/-- A unit of work of the main program. -/
inductive Work
  | p123 (chn : Int)          -- fill_P123_arrays for a channel, main.cpp:212-221
  | solve (chn psi : Int)     -- one parameter set of a channel, main.cpp:253-488
deriving DecidableEq, Repr

/-- Settings of `run_params` the driver loops depend on. -/
structure DriverCfg where
  parallelRun : Bool
  channelIdx : Int
  solveFaddeev : Bool
  calcP123 : Bool
  parameterWalk : Bool
  psiStart : Int
  psiEnd : Int

/-- Parameter-set loop, main.cpp:246-254. -/
def psiRange (c : DriverCfg) : List Int :=
  let lo := if c.parameterWalk then c.psiStart else 0
  let hi := if c.parameterWalk then c.psiEnd else 1
  forRange lo (hi - 1) 1

/-- Body of the channel loop, main.cpp:166-497. -/
def channelWork (c : DriverCfg) (chn : Int) : List Work :=
  if c.parallelRun = true ∧ chn ≠ c.channelIdx then []
  else .p123 chn :: (if c.solveFaddeev then (psiRange c).map (Work.solve chn) else [])

/-- The program after set-up, main.cpp:161-497: `none` is the `raise_error` of main.cpp:162-164. -/
def mainWork (c : DriverCfg) (nChn : Nat) : Option (List Work) :=
  if c.solveFaddeev = false ∧ c.calcP123 = false then none
  else some ((forRange 0 ((nChn : Int) - 1) 1).flatMap (channelWork c))

/-! ### Parameter-set range -/

/-- The range check of main.cpp:129-136 (`true` = run goes on). -/
def psiCheck (walk : Bool) (psiStart psiEnd : Int) (numInFile : Nat) : Bool :=
  if walk then !(decide (psiEnd - psiStart > numInFile)) else true

/-- Indices of `parameter_vector` whose address is handed to `update_parameters` for one set, main.cpp:264:
`num_model_params` numbers starting at `idx_param_set*num_model_params`. -/
def psiReads (psi : Int) (numModelParams : Nat) : List Int :=
  (List.range numModelParams).map fun (i : Nat) => psi * (numModelParams : Int) + (i : Int)

/-! ### Names of files -/

/-- `std::to_string(int)`. -/
def dec (n : Int) : Str := (Int.repr n).toList

/-- `file_identification`, main.cpp:406-410. -/
def fileId (np nq twoJ P jmax : Int) : Str :=
  "_Np_".toList ++ dec np ++ "_Nq_".toList ++ dec nq ++ "_JP_".toList ++ dec twoJ ++ "_".toList ++ dec P
    ++ "_Jmax_".toList ++ dec jmax

/-- Elastic output file, main.cpp:446-449. -/
def uFile (folder : Str) (np nq twoJ P jmax psi : Int) : Str :=
  folder ++ "/".toList ++ "U_PW_elements".toList ++ fileId np nq twoJ P jmax ++ "_PSI_".toList ++ dec psi ++ ".txt".toList

/-- Breakup output file, main.cpp:460-463. -/
def uBuFile (folder : Str) (np nq twoJ P jmax psi : Int) : Str :=
  folder ++ "/".toList ++ "U_PW_breakup_elements".toList ++ fileId np nq twoJ P jmax ++ "_PSI_".toList ++ dec psi
    ++ ".txt".toList

/-- Final P123 file, make_permutation_matrix.cpp:1320-1323. -/
def p123File (folder : Str) (twoJ P np nq jmax : Int) : Str :=
  folder ++ "/".toList ++ "P123_sparse_JP_".toList ++ dec twoJ ++ "_".toList ++ dec P ++ "_Np_".toList ++ dec np
    ++ "_Nq_".toList ++ dec nq ++ "_J2max_".toList ++ dec jmax ++ ".h5".toList

/-- Partial P123 file of a thread, `generate_subarray_file_name`, make_permutation_matrix.cpp:142-157. -/
def p123SubFile (folder : Str) (twoJ P np nq jmax thread tfc : Int) : Str :=
  folder ++ "/P123_subsparse_JP_".toList ++ dec twoJ ++ "_".toList ++ dec P ++ "_Np_".toList ++ dec np
    ++ "_Nq_".toList ++ dec nq ++ "_J2max_".toList ++ dec jmax ++ "_TFC_".toList ++ dec thread
    ++ "_".toList ++ dec tfc ++ ".h5".toList

/-- File of the Neumann terms, solve_faddeev.cpp:529, called with the `file_identification` of main.cpp:406-410 (which has
no parameter-set index). -/
def neumannFile (folder : Str) (np nq twoJ P jmax : Int) : Str :=
  folder ++ "/neumann_terms".toList ++ fileId np nq twoJ P jmax ++ ".txt".toList

/-- Files after solving a channel for a list of parameter sets: each set starts its Neumann file anew
(`rewrite_file=true`, solve_faddeev.cpp:907-917) and appends to it. `content psi` is everything set `psi` writes. -/
def neumannWalk (content : Int → Str) (folder : Str) (np nq twoJ P jmax : Int) (files : Str → Option Str) (psis : List Int) :
    Str → Option Str :=
  psis.foldl (fun fs psi => fun name => if name = neumannFile folder np nq twoJ P jmax then some (content psi) else fs name) files

/-- `std::strcpy` into `char filename[300]` (disk_io_routines.cpp:1009,1051,1105,1189, make_permutation_matrix.cpp:993):
`none` = writes outside the buffer (the terminating NUL needs one more character). -/
def strcpy300 (s : Str) : Option Str := if s.length + 1 ≤ 300 then some s else none

/-! ### Parameter samples -/

/-- Split at every single space, disk_io_routines.cpp:62-70. -/
def splitSpace : Str → List Str
  | [] => [[]]
  | c :: cs =>
    if c = ' ' then [] :: splitSpace cs
    else match splitSpace cs with
      | [] => [[c]]
      | t :: ts => (c :: t) :: ts

/-- How reading the sample list ends abnormally. -/
inductive SampleStop
  | exception      -- stod throws
  | divByZero      -- integer division by `num_model_params == 0`
deriving DecidableEq, Repr

/-- `read_parameter_sample_list`, disk_io_routines.cpp:43-78: (all numbers, numbers per set, number of sets).
`lines` is what `getline` yields; an unreadable file yields no line.  An empty file leaves `num_model_params` at its
initial 0 (main.cpp:128) and the division on line 77 is by zero. -/
def readSamples {D : Type} (stod : Str → Option D) (lines : List Str) : Except SampleStop (List D × Nat × Nat) :=
  match lines.mapM (fun l => (splitSpace l).mapM stod) with
  | none => .error .exception
  | some [] => .error .divByZero
  | some (first :: rest) =>
    let all := (first :: rest).flatten
    .ok (all, first.length, all.length / first.length)

/-! ### Energies -/

/-- `while (input_file >> entry)`, disk_io_routines.cpp:97-99: stops at the first token that is not a number. -/
def readDoubles {D : Type} (stod : Str → Option D) : List Str → List D
  | [] => []
  | t :: ts => match stod t with
    | none => []
    | some v => v :: readDoubles stod ts

/-- `read_input_energies`, disk_io_routines.cpp:80-108: outcome of the name check and of opening the file
(`exists?`), then the numbers up to the first token that is not a number. -/
def readEnergies {D : Type} (stod : Str → Option D) (exists? : Bool) (tokens : List Str) (path : Str) :
    Except Stop (List D) :=
  if path.length < 4 then .error .exception
  else if path.drop (path.length - 4) ≠ ".txt".toList then .error .raiseError
  else if !exists? then .error .raiseError
  else .ok (readDoubles stod tokens)

/-! ### Momentum grids -/

/-- Which boundaries a grid uses. -/
inductive GridSource
  | chebyshev
  | file (name : Str)
deriving DecidableEq, Repr

/-- `make_p_bin_grid`, make_wp_states.cpp:45-59. -/
def pGridSource (pType pFile : Str) : Except Stop GridSource :=
  if pType = "chebyshev".toList then .ok .chebyshev
  else if pType = "custom".toList then .ok (.file pFile)
  else .error .raiseError

/-- `make_q_bin_grid`, make_wp_states.cpp:60-74: the second test looks at `p_grid_type`. -/
def qGridSource (pType qType qFile : Str) : Except Stop GridSource :=
  if qType = "chebyshev".toList then .ok .chebyshev
  else if pType = "custom".toList then .ok (.file qFile)
  else .error .raiseError

/-- How reading a boundary file ends. -/
inductive BoundaryEnd (D : Type)
  | ok (bounds : List D)
  | raiseError
  | outOfBounds          -- write outside the `N_WP+1` allocated boundaries: undefined behaviour
deriving DecidableEq, Repr

/-- The line loop of `read_WP_boundaries_from_txt`, disk_io_routines.cpp:977-994; `parse` is `iss >> val`,
`acc` the values written so far (its length is `idx_counter`), `n` is `N_WP`. -/
def readBoundariesLoop {D : Type} (parse : Str → Option D) (n : Nat) : List D → List Str → BoundaryEnd D
  | acc, [] => if acc.length ≠ n + 1 then .raiseError else .ok acc
  | acc, l :: ls =>
    match parse l with
    | none => .raiseError
    | some v => if acc.length < n + 1 then readBoundariesLoop parse n (acc ++ [v]) ls else .outOfBounds

/-- `read_WP_boundaries_from_txt`, disk_io_routines.cpp:977-994. -/
def readBoundaries {D : Type} (parse : Str → Option D) (n : Nat) (lines : List Str) : BoundaryEnd D :=
  readBoundariesLoop parse n [] lines

/-! ### Output table of elastic elements -/

/-- The headers above the element columns, disk_io_routines.cpp:858-861: name `Ujk` of column number `h`. -/
def uHeaders : List (Nat × Nat) := [(0,0), (0,1), (0,2), (1,0), (1,1), (1,2), (2,0), (2,1), (2,2)]

/-- The elements written in the row of energy `q`, in column order, disk_io_routines.cpp:888-904;
`nd` deuteron states, `nq` energies. -/
def uRow {C : Type} (U : Nat → C) (nd nq q : Nat) : List C :=
  (List.range nd).flatMap fun r => (List.range nd).map fun c => U (r * nd * nq + c * nq + q)

/-! ### Breakup output array -/

/-- Allocated length of `U_BU_array`, main.cpp:418. -/
def buAlloc (numTlab numBU : Nat) : Nat := numTlab * numBU

/-- Indices of `U_BU_array` written, solve_faddeev.cpp:1389-1408: for each energy its range
`[offs[i], offs[i+1])` of breakup channels (`q_com_BU_idx_array`), each deuteron row. -/
def buWrites (offs : List Nat) (nd numBU : Nat) : List Nat :=
  (offs.zip offs.tail).flatMap fun se => (List.range nd).flatMap fun d =>
    (List.range' se.1 (se.2 - se.1)).map fun b => d * numBU + b

end TicTac
