import Verif.Model.RunParams
/-! What the argument parser prints: set_run_parameters.cpp:247-280, 544-577 and 617-691. -/
namespace TicTac

/-- The messages on standard output, by the function that prints them. -/
inductive Msg
  /-- `no_options_entered`, set_run_parameters.cpp:544-550 -/
  | noOptions
  /-- `show_usage`, set_run_parameters.cpp:282-542 -/
  | usage
  /-- `only_show_usage`, set_run_parameters.cpp:573-577 -/
  | onlyUsage
  /-- `use_input_list`, set_run_parameters.cpp:556-560, with the name of the file -/
  | usingFile (name : Str)
  /-- `unrecognised_option`, set_run_parameters.cpp:565-571, with the text it shows -/
  | unrecognised (text : Str)
  /-- set_run_parameters.cpp:677-678 -/
  | threadsCapped
deriving DecidableEq

/-- Messages printed so far, and how the function ended. -/
abbrev Logged (D : Type) := List Msg × Except Stop (RunParams D)

section
variable {D : Type} (stod : Str → Option D)

/-- The end of a branch that assigns: report if `read_and_set_parameter` did not know the option (set_run_parameters.cpp:273-277, 655-659). -/
def reported (shown : Str) : SetResult D → Logged D
  | .error e => ([], .error e)
  | .ok (p, found) => (if found = false then [.unrecognised shown] else [], .ok p)

/-- One line of an input file, set_run_parameters.cpp:258-279; the report shows the line. -/
def fileLineLog (p : RunParams D) (line : Str) : Logged D :=
  match splitEq line with
  | none => ([], .ok p)
  | some (option, input) =>
    if input.all (· == ' ') then ([], .ok p)
    else reported line (readAndSet stod p option (input.filter fun c => !isSpaceC c))

/-- A loop whose body prints. -/
def foldLog (f : RunParams D → Str → Logged D) : RunParams D → List Str → Logged D
  | p, [] => ([], .ok p)
  | p, a :: l =>
    match f p a with
    | (w, .error e) => (w, .error e)
    | (w, .ok q) => (w ++ (foldLog f q l).1, (foldLog f q l).2)

/-- `use_input_list`, set_run_parameters.cpp:552-561: the file is read first, then announced. -/
def useInputListLog (files : Str → List Str) (p : RunParams D) (name : Str) : Logged D :=
  match foldLog (fileLineLog stod) p (files name) with
  | (w, .error e) => (w, .error e)
  | (w, .ok q) => (w ++ [.usingFile name], .ok q)

/-- One command-line argument, set_run_parameters.cpp:628-667. -/
def handleArgLog (files : Str → List Str) (argc : Nat) (p : RunParams D) (arg : Str) : Logged D :=
  if arg = "-h".toList ∨ arg = "--help".toList then
    if argc = 2 then ([.usage, .onlyUsage], .error .helpExit) else ([.usage], .ok p)
  else if arg.length < 4 then ([], .error .exception)
  else if arg.drop (arg.length - 4) = ".txt".toList then useInputListLog stod files p arg
  else
    match splitEq arg with
    | none => ([.unrecognised arg], .ok p)
    | some (option, input) =>
      if input = [] then ([], .ok p)
      else reported arg (readAndSet stod p option input)

/-- set_run_parameters.cpp:617-668. -/
def readArgsLog (files : Str → List Str) (p : RunParams D) (args : List Str) : Logged D :=
  if args.length + 1 = 1 then ([.noOptions], .ok p)
  else foldLog (handleArgLog stod files (args.length + 1)) p args

/-- set_run_parameters.cpp:670-683. -/
def finalChecksLog (p : RunParams D) : Logged D :=
  if p.bool .parallel_run = true ∧ p.int .channel_idx = -1 then ([], .error .raiseError)
  else
    let w := if p.int .P123_omp_num_threads > p.int .Nq_WP then [Msg.threadsCapped] else []
    let p := if p.int .P123_omp_num_threads > p.int .Nq_WP then p.setInt .P123_omp_num_threads (p.int .Nq_WP) else p
    if Int.tmod (p.int .two_J_3N_max) 2 = 0 ∨ p.int .two_J_3N_max ≤ 0 then (w, .error .raiseError)
    else (w, .ok p)

/-- `set_run_parameters`, set_run_parameters.cpp:617-691, up to the printout of the parameters in force. -/
def setRunParametersLog (files : Str → List Str) (threads : Int) (one hundred : D) (args : List Str) : Logged D :=
  match readArgsLog stod files (defaultParams threads one hundred) args with
  | (w, .error e) => (w, .error e)
  | (w, .ok p) => (w ++ (finalChecksLog p).1, (finalChecksLog p).2)

end
end TicTac
