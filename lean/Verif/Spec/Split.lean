import Verif.Model.Module
/-!
# Generated code spread over several files

What is left of generated code when it is not relevant how it is spread: declarations
of functions are repeated if the definition is in another file.
-/
namespace Verif.Spec

/-- A line that only declares a function. -/
def declaresOnly : Line → Bool
  | .declare _ _ => true
  | _ => false

/-- The code in all files, one after the other, without declarations. -/
def codeOf (files : List (List Line)) : List Line :=
  files.flatten.filter fun l => !declaresOnly l

end Verif.Spec
