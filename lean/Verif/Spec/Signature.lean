import Verif.Spec.Exposer
import Verif.Spec.Functions
/-!
# What a call from Python looks like

The documentation, named arguments and call policies of what is exposed for a
function, in terms of its own comments, parameters and annotations.
-/
namespace Verif.Spec

/-- The documentation of a function: its own brief text, or the one of the template it
has been instantiated from. -/
inductive Documentation (w : EmitWorld) (d : Nat) : Str → Prop where
  | own : w.brief d ≠ [] → Documentation w d (w.brief d)
  | template (t) : w.brief d = [] → (w.fn d).primary = some t → Documentation w d (w.brief t)
  | none : w.brief d = [] → (w.fn d).primary = Option.none → Documentation w d []

/-- The annotations of a declaration. -/
def annotationsOf (w : EmitWorld) (d : Nat) : List Annotation :=
  (parseAllTexts d [] (w.info d).attrTexts).1

/-- `return_value_policy(s)` is given, and no other one after it. -/
def LastPolicy (as : List Annotation) (s : Str) : Prop :=
  ∃ before after, as = before ++ ⟨.returnValuePolicy, [.string s]⟩ :: after ∧
    ∀ t, ⟨.returnValuePolicy, [.string t]⟩ ∉ after

/-- The parameters of a function. -/
def paramsOf (w : EmitWorld) (d : Nat) : List Param := (w.fn d).params.map (·.param)

/-- Parameter `n` is named in an annotation of this kind. -/
def NamedIn (w : EmitWorld) (d : Nat) (k : AnnotationKind) (n : Nat) : Prop :=
  ∃ args a, ⟨k, args⟩ ∈ annotationsOf w d ∧ Documented (w.info d) ⟨k, args⟩ ∧ .string a ∈ args ∧
    FirstAt ((paramsOf w d).map (·.name)) a n

/-- How a function is called from Python. -/
structure Signature (w : EmitWorld) (d : Nat) (doc : Str) (args : List ArgOut)
    (policies : List PolicyOut) : Prop where
  doc : Documentation w d doc
  /-- one argument for every parameter that is neither `args` nor `kwargs`, unless one of
  them follows `kwargs` -/
  names : (¬ ∃ pre k mid p post, paramsOf w d = pre ++ k :: mid ++ p :: post ∧
      k.argsType = some .kwargs ∧ p.argsType = none) →
    args.map (fun o => (o.name, o.default)) =
      ((paramsOf w d).filter (·.argsType.isNone)).map (fun p => (p.name, p.default))
  /-- as long as there is no `args` or `kwargs` in front -/
  flags : ∀ n p, (paramsOf w d)[n]? = some p → (∀ q ∈ (paramsOf w d).take (n + 1), q.argsType = none) →
    ∃ o, args[n]? = some o ∧ o.name = p.name ∧ (o.noconvert = true ↔ NamedIn w d .noconvert n) ∧
      (o.noneFalse = true ↔ NamedIn w d .required n)
  policy : ∀ p, .returnValuePolicy p ∈ policies ↔ p ≠ [] ∧ LastPolicy (annotationsOf w d) p
  /-- not for static methods, see C18 -/
  keepAlive : ¬ ((w.info d).kind = .method ∧ (w.fn d).isStatic = true) →
    t%"return" ∉ (w.info d).params → t%"this" ∉ (w.info d).params →
    ∀ i j, .keepAlive i j ∈ policies ↔
      ∃ a b, ⟨.keepAlive, [.string a, .string b]⟩ ∈ annotationsOf w d ∧
        (∃ p, Denotes (w.info d) false a p ∧ seenAt (w.info d) false i = some p) ∧
        (∃ q, Denotes (w.info d) false b q ∧ seenAt (w.info d) false j = some q)

end Verif.Spec
