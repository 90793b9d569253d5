import Verif.Model.Decl
/-!
# Model: the texts of diagnostics

src/diagnostics.cpp and src/annotations/parser.cpp, and the part of clang's
`Diagnostic::FormatDiagnostic` (clang/lib/Basic/Diagnostic.cpp, not in the repository) that
substitutes arguments.

Simplified: arguments are texts, also the numbers passed for `%select`; modifiers other than
`select`, and options that contain further placeholders, are not used in the repository and lead to
`none`.
-/
namespace Verif

/-- The texts passed to `getCustomDiagID`, src/diagnostics.cpp:30-106 and
src/annotations/parser.cpp:234-255, and those of `note_declared_at` and `note_previous_definition`,
which are defined by clang.  Failed assertions have no text. -/
def template : DiagKind → Option Str
  | .alreadyExposedElsewhere => some t%"'%0' has already been exposed elsewhere"
  | .unknownBaseType => some t%"Unknown base type in '%0' annotation"
  | .incompatibleSignature => some t%"Signature of %0 is incompatible with '%1' annotation"
  | .invalidArgumentSpecifier => some t%"Invalid argument specifier in '%0' annotation: '%1'"
  | .invalidForDeclKind => some t%"Invalid annotation for %0: %1"
  | .invalidSpelling => some t%"Invalid spelling in '%0' annotation: '%1'"
  | .wrongArgumentType => some t%"Wrong type of argument for '%0' annotation: %1"
  | .wrongNumberOfArguments => some t%"Wrong number of arguments for '%0' annotation"
  | .needToMatchFirstDecl => some t%"Annotations need to match those of the first declaration"
  | .conflictingAnnotations => some t%"'%0' and '%1' cannot be used at the same time"
  | .exposeHereCycle => some t%"'expose_here' annotations form a cycle"
  | .invalidAssumption => some t%"Invalid assumption in genpybind (please report this): %0"
  | .ignoringQualifiers => some t%"Ignoring qualifiers on alias"
  | .onlyGlobalScope => some t%"'%0' can only be used in global scope"
  | .previouslyExposedHere => some t%"Previously exposed here"
  | .propertyAlreadyDefined => some t%"%select{getter|setter}1 already defined for '%0'"
  | .propertyHasNoGetter => some t%"No getter for the '%0' property"
  | .trailingParameters => some t%"cannot be followed by other parameters"
  | .unreachableDeclContext =>
    some t%"Declaration context '%0' contains 'visible' declarations but is not exposed"
  | .unsupportedAliasTarget => some t%"Annotated alias has unsupported target kind"
  | .noteDeclaredAt => some t%"declared here"
  | .notePreviousDefinition => some t%"previous definition is here"
  | .parseError .invalidToken => some t%"Invalid token in genpybind annotation: %0"
  | .parseError .missingClosingParen =>
    some t%"Invalid token in genpybind annotation while looking for ')': %0"
  | .parseError .invalidAnnotation => some t%"Invalid genpybind annotation: %0"
  | .assertion => none

/-- The options of `%select`, which are separated by `|`. -/
def splitOptions : Str → List Str
  | [] => [[]]
  | c :: s =>
    if c = '|' then [] :: splitOptions s
    else match splitOptions s with
      | [] => [[c]]
      | o :: os => (c :: o) :: os

/-- The digit for a number. -/
def digitValue (c : Char) : Option Nat := if c.isDigit then some (c.toNat - '0'.toNat) else none

/-- What stands for a placeholder with this modifier, these options and this argument.  `none` if
there is no such argument, which is an assertion failure in clang (`getArgKind`). -/
def substitute (args : List Str) (modifier options : Str) (n : Nat) : Option Str :=
  match args[n]? with
  | none => none
  | some a =>
    if modifier = [] then some a
    else if modifier = t%"select" then
      match a with
      | [c] => (digitValue c).bind fun k => (splitOptions options)[k]?
      | _ => none
    else none

/-- Where in a template we are. -/
inductive FormatState where
  | plain
  /-- behind `%` and these letters -/
  | modifier (m : Str)
  /-- behind `{` and this text -/
  | options (m o : Str)
  /-- behind `}` -/
  | closed (m o : Str)

/-- Substitute the placeholders in a template. -/
def formatFrom (args : List Str) : FormatState → Str → Option Str
  | .plain, [] => some []
  | _, [] => none
  | .plain, c :: s =>
    if c = '%' then formatFrom args (.modifier []) s else (formatFrom args .plain s).map (c :: ·)
  | .modifier m, c :: s =>
    match digitValue c with
    | some n => (substitute args m [] n).bind fun t => (formatFrom args .plain s).map (t ++ ·)
    | none =>
      if c = '{' then formatFrom args (.options m []) s
      else if c.isAlpha then formatFrom args (.modifier (m ++ [c])) s
      else if m = [] then (formatFrom args .plain s).map (c :: ·)
      else none
  | .options m o, c :: s =>
    if c = '}' then formatFrom args (.closed m o) s else formatFrom args (.options m (o ++ [c])) s
  | .closed m o, c :: s =>
    match digitValue c with
    | some n => (substitute args m o n).bind fun t => (formatFrom args .plain s).map (t ++ ·)
    | none => none

/-- `Diagnostic::FormatDiagnostic`. -/
def formatDiagnostic (args : List Str) (template : Str) : Option Str := formatFrom args .plain template

/-- The arguments of the message.  The name of a context that is not exposed
(src/decl_context_graph_processing.cpp:374-375) is not part of the model: `display` is
`getNameForDisplay`, src/diagnostics.cpp:16-28. -/
def messageArgs (display : Nat → Str) (d : Diag) : List Str :=
  if d.kind = .unreachableDeclContext then [display d.decl] else d.args

/-- The text that is shown for a diagnostic. -/
def message (display : Nat → Str) (d : Diag) : Option Str :=
  (template d.kind).bind (formatDiagnostic (messageArgs display d))

end Verif
