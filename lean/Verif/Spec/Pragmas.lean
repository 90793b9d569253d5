import Verif.Model.Pragmas
/-!
# Well-formed pragmas
-/
namespace Verif.Spec

/-- A well-formed pragma for a header. -/
def IncludePragma (l : PragmaLine) (file : Str) : Prop :=
  l.tokens = [.identifier t%"include", .filename file] ∧ file ≠ []

/-- The same, with something behind the name of the file. -/
def TrailingTokens (l : PragmaLine) : Prop :=
  ∃ file more, more ≠ [] ∧ l.tokens = .identifier t%"include" :: .filename file :: more

/-- The headers named by well-formed pragmas that were accepted by the preprocessor. -/
inductive Named : List PragmaLine → List Str → Prop where
  | nil : Named [] []
  | named {l : PragmaLine} {lines : List PragmaLine} {file : Str} {files : List Str} :
      IncludePragma l file → l.accepted = true → Named lines files →
      Named (l :: lines) (file :: files)
  | other {l : PragmaLine} {lines : List PragmaLine} {files : List Str} :
      ¬ (∃ file, IncludePragma l file) ∨ l.accepted = false → Named lines files →
      Named (l :: lines) files

end Verif.Spec
