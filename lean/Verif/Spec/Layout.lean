import Verif.Spec.ModuleName
/-!
# Layout and comments of the source code
-/
namespace Verif.Spec

/-- The same declarations at other locations and with other documentation. -/
def restyle (w : EmitWorld) (loc : Nat → Nat) (brief : Nat → Str) : EmitWorld := { w with loc, brief }

/-- See `restyle`. -/
def restyled (i : ToolInput) (loc : Nat → Nat) (brief : Nat → Str) : ToolInput :=
  { i with world := restyle i.world loc brief }

/-- Both locations order all declarations in the same way. -/
def SameOrder (loc loc' : Nat → Nat) : Prop := ∀ x y, loc' x ≤ loc' y ↔ loc x ≤ loc y

/-- The statement without documentation. -/
def undocumented : Stmt → Stmt
  | .init d types _ args policies => .init d types [] args policies
  | .function d isStatic name pointer _ args policies => .function d isStatic name pointer [] args policies
  | .operator d name definition _ => .operator d name definition []
  | .enumValue d name scope enumerator _ => .enumValue d name scope enumerator []
  | s => s

/-- The line without documentation. -/
def undocumentedLine : Line → Line
  | .introduce identifier (.type t parent name _ flag) => .introduce identifier (.type t parent name [] flag)
  | .stmt s => .stmt (undocumented s)
  | l => l

/-- Two files that are the same, except for documentation. -/
def SameCode (i : ToolInput) (a b : Str) : Prop :=
  a = b ∨ ∃ lines lines', a = fileText i lines ∧ b = fileText i lines' ∧
    lines'.map undocumentedLine = lines.map undocumentedLine

/-- Two results that are the same, except for documentation. -/
structure SameUpToDocumentation (i : ToolInput) (r r' : ToolResult) : Prop where
  exitCode : r'.exitCode = r.exitCode
  diags : r'.diags = r.diags
  files : ∀ p, r.files p = r'.files p ∨
    ∃ a b, r.files p = some a ∧ r'.files p = some b ∧ SameCode i a b
  printed : ForEach (SameCode i) r.printed r'.printed

end Verif.Spec
