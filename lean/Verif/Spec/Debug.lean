import Verif.Model.Debug
import Verif.Spec.Options
import Verif.Spec.Visibility
/-!
# Options for debugging

Attributes as they are read by Graphviz, and settings that only ask for something to be shown.
-/
namespace Verif.Spec

/-- The parts of a text between commas. -/
def commaParts : Str → List Str
  | [] => [[]]
  | c :: s =>
    match commaParts s with
    | [] => []
    | p :: ps => if c = ',' then [] :: p :: ps else (c :: p) :: ps

/-- The styles in a list of attributes that starts with `style="..."`. -/
def stylesIn (attributes : Str) : List Str :=
  if t%"style=\"".isPrefixOf attributes then
    commaParts ((attributes.drop (t%"style=\"").length).takeWhile (· ≠ '"'))
  else []

/-- The attributes after the quoted styles. -/
def attributesAfter (attributes : Str) : List Str :=
  commaParts (((attributes.drop (t%"style=\"").length).dropWhile (· ≠ '"')).drop 1)

/-- There are annotations, but none that decides about the visibility. -/
def Undecided (w : World) (s : Storage) (x : Nat) : Prop :=
  (w.info x).kind.isNamed = true ∧ ∃ a, s.entries x = some a ∧ a.named.visible = none

/-- The setting asks for something to be shown. -/
def forDebugging : Setting → Bool
  | .value .inspectGraph _ => true
  | .value .dumpGraph _ => true
  | .flag .dumpAst _ => true
  | _ => false

/-- The same is to be done, up to what is to be shown. -/
structure SameRequest (c c' : CommandLine) : Prop where
  options : c.options = c'.options
  verbose : c.verbose = c'.verbose
  buildPath : c.buildPath = c'.buildPath
  extraArgs : c.extraArgs = c'.extraArgs
  extraArgsBefore : c.extraArgsBefore = c'.extraArgsBefore
  source : c.source = c'.source
  command : c.command = c'.command

end Verif.Spec
