import Verif.Basic.Text
/-!
# Values and annotations (abstract values; for the tagged-union memory model see
`Verif.Model.LiteralHeap`)
-/
namespace Verif

/-- Contents of a `LiteralValue`, include/genpybind/annotations/literal_value.h:24-40.
`unsigned` holds a 32 bit value in the code; the bound is established where
values are created (`tokenizeNumberLiteral`), not in the type. -/
inductive LiteralValue where
  | nothing
  | string (s : Str)
  | unsigned (n : Nat)
  | boolean (b : Bool)
  | default
  deriving DecidableEq, Repr

/-- `LiteralValue::Kind`, include/genpybind/annotations/literal_value.h:26-32. -/
inductive LiteralKind where
  | nothing | string | unsigned | boolean | default
  deriving DecidableEq, Repr

/-- The `kind` tag, include/genpybind/annotations/literal_value.h:35. -/
def LiteralValue.kind : LiteralValue → LiteralKind
  | .nothing => .nothing
  | .string _ => .string
  | .unsigned _ => .unsigned
  | .boolean _ => .boolean
  | .default => .default

/-- `LiteralValue::isa`, include/genpybind/annotations/literal_value.h:55. -/
def LiteralValue.isa (v : LiteralValue) (k : LiteralKind) : Bool := v.kind = k

/-- `LiteralValue::hasValue`, include/genpybind/annotations/literal_value.h:61. -/
def LiteralValue.hasValue (v : LiteralValue) : Bool := v.kind ≠ .nothing

/-- `AnnotationKind::Kind`, generated from
include/genpybind/annotations/annotations.def:9-50. -/
inductive AnnotationKind where
  | exposeAs | hidden | visible
  | arithmetic | exportValues
  | getterFor | setterFor
  | dynamicAttr | hideBase | holderType | inlineBase
  | implicitConversion
  | keepAlive | noconvert | required | returnValuePolicy
  | manual | postamble
  | module | onlyExposeIn
  | exposeHere | encourage
  | readonly
  deriving DecidableEq, Repr

/-- The `Enum`/`Spelling` pairs of include/genpybind/annotations/annotations.def:9-50,
in file order. -/
def AnnotationKind.table : List (AnnotationKind × Str) :=
  [ (.exposeAs, t%"expose_as"), (.hidden, t%"hidden"), (.visible, t%"visible"),
    (.arithmetic, t%"arithmetic"), (.exportValues, t%"export_values"),
    (.getterFor, t%"getter_for"), (.setterFor, t%"setter_for"),
    (.dynamicAttr, t%"dynamic_attr"), (.hideBase, t%"hide_base"),
    (.holderType, t%"holder_type"), (.inlineBase, t%"inline_base"),
    (.implicitConversion, t%"implicit_conversion"),
    (.keepAlive, t%"keep_alive"), (.noconvert, t%"noconvert"),
    (.required, t%"required"), (.returnValuePolicy, t%"return_value_policy"),
    (.manual, t%"manual"), (.postamble, t%"postamble"),
    (.module, t%"module"), (.onlyExposeIn, t%"only_expose_in"),
    (.exposeHere, t%"expose_here"), (.encourage, t%"encourage"),
    (.readonly, t%"readonly") ]

/-- `toString(AnnotationKind)`, src/annotations/annotation.cpp:13-21: the switch
generated from annotations.def.  (A kind without a case would be
`llvm_unreachable`; see `AnnotationKind.toString_total`.) -/
def AnnotationKind.toString? (k : AnnotationKind) : Option Str :=
  (table.find? (fun e => e.1 = k)).map (·.2)

/-- The `StringSwitch` of `Parser::parseAnnotationKind`,
src/annotations/parser.cpp:172-176: first matching `.Case`, else `nullopt`. -/
def AnnotationKind.ofString? (s : Str) : Option AnnotationKind :=
  (table.find? (fun e => e.2 = s)).map (·.1)

/-- `Annotation`, include/genpybind/annotations/annotation.h:47-63. -/
structure Annotation where
  kind : AnnotationKind
  arguments : List LiteralValue
  deriving DecidableEq, Repr

end Verif
