import Verif.Model.Messages
import Verif.Spec.RunParams
/-! What a user should be told about a command line. -/
namespace TicTac
namespace Spec

/-- The text is the name of an option. -/
def IsOption (key : Str) : Prop := ∃ k : Key, key = k.name

open Classical in
/-- The lines of an input file that name an unknown option and give it a value. -/
noncomputable def unknownLines (lines : List Str) : List Str := lines.filter fun l => decide (∃ kv, lineAssignment l = some kv ∧ ¬ IsOption kv.1)

open Classical in
/-- The messages one argument gives rise to. -/
noncomputable def argMessages (files : Str → List Str) (arg : Str) : List Msg :=
  if arg = "-h".toList ∨ arg = "--help".toList then [.usage]
  else if ".txt".toList <:+ arg then (unknownLines (files arg)).map Msg.unrecognised ++ [.usingFile arg]
  else match assignment arg with
    | none => [.unrecognised arg]
    | some kv => if kv.2 ≠ [] ∧ ¬ IsOption kv.1 then [.unrecognised arg] else []

/-- The messages of a whole command line. -/
noncomputable def allMessages (files : Str → List Str) (args : List Str) : List Msg :=
  if args = [] then [.noOptions] else args.flatMap (argMessages files)

end Spec
end TicTac
