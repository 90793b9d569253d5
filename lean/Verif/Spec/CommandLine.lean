import Verif.Basic.Text
/-!
# How the compiler reads a command line

Only as far as language and language standard are concerned (clang's driver,
clang/Driver/Options.td).  Options that take the next argument as their value, other
than `-x`, are not known here.
-/
namespace Verif.Spec

/-- What an argument means. -/
inductive Item where
  /-- the language of the following files -/
  | lang (name : Str)
  /-- the language standard -/
  | std (name : Str)
  | other (arg : Str)
  deriving DecidableEq, Repr

/-- The arguments before `--` are read as the items; `rest` is everything from `--` on.
The last `-x` can lack its value, in which case it has no meaning. -/
inductive ReadsArgs : List Str → List Item → List Str → Prop where
  | nil : ReadsArgs [] [] []
  | separator {l : List Str} : ReadsArgs (t%"--" :: l) [] (t%"--" :: l)
  | missing : ReadsArgs [t%"-x"] [] []
  | langSeparate {v : Str} {l : List Str} {is : List Item} {rest : List Str} :
      ReadsArgs l is rest → ReadsArgs (t%"-x" :: v :: l) (.lang v :: is) rest
  | langJoined {v : Str} {l : List Str} {is : List Item} {rest : List Str} :
      v ≠ [] → ReadsArgs l is rest → ReadsArgs ((t%"-x" ++ v) :: l) (.lang v :: is) rest
  | std {v : Str} {l : List Str} {is : List Item} {rest : List Str} :
      ReadsArgs l is rest → ReadsArgs ((t%"-std=" ++ v) :: l) (.std v :: is) rest
  | other {a : Str} {l : List Str} {is : List Item} {rest : List Str} :
      a ≠ t%"--" → ¬ t%"-x" <+: a → ¬ t%"-std=" <+: a →
      ReadsArgs l is rest → ReadsArgs (a :: l) (.other a :: is) rest

/-- The language selected by an item. -/
def languageOf : Item → Option Str
  | .lang l => some l
  | .other a => if t%"--language=" <+: a then some (a.drop 11) else none
  | _ => none

/-- The standard selected by an item; `-ansi` is the one of 1998. -/
def standardOf : Item → Option Str
  | .std s => some s
  | .other a =>
    if t%"--std=" <+: a then some (a.drop 6) else if a = t%"-ansi" then some t%"c++98" else none
  | _ => none

/-- The language: the last one counts. -/
def language (is : List Item) : Option Str := (is.filterMap languageOf).getLast?

/-- The standard: the last one counts. -/
def standard (is : List Item) : Option Str := (is.filterMap standardOf).getLast?

/-- Without another spelling of the options `-x` and `-std=`. -/
def PlainSpelling (is : List Item) : Prop :=
  ∀ a, Item.other a ∈ is → languageOf (.other a) = none ∧ standardOf (.other a) = none

/-- `c++` or `gnu++`, followed by the version. -/
def CppStandard (dialect version s : Str) : Prop :=
  (dialect = t%"c" ∨ dialect = t%"gnu") ∧ s = dialect ++ t%"++" ++ version

/-- A version of C++ after 17, e.g. `20` or `2a`. -/
def Later (version : Str) : Prop := t%"2" <+: version

/-- Everything but language and standard. -/
def others (is : List Item) : List Str :=
  is.filterMap fun | .other a => some a | _ => none

/-- A flag for the resource directory. -/
def ResourceFlag (a : Str) : Prop := a = t%"-resource-dir" ∨ t%"-resource-dir=" <+: a

end Verif.Spec
