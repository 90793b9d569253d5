import Verif.Spec.OptIn
import Verif.Spec.Reannotate
/-!
# The contents of a module, read off the source code

Which classes and enums are part of a module, in terms of declarations and their own annotations;
neither graphs nor stored attributes are used.
-/
namespace Verif.Spec

/-- Class, enum or namespace `x` is presented as part of `p`: of the scope of its alias with
`expose_here` if there is one, or else of its own scope. -/
inductive ShownIn (w : World) (root : Tree) (x p : Nat) : Prop where
  | alias {a : Nat} : ExposesHere w root a x → ScopeOf w a p → ShownIn w root x p
  | own {t : Tree} : (∀ a, ¬ ExposesHere w root a x) → Occurs w root t → t.id = x → Context w x →
      ScopeOf w x p → ShownIn w root x p

/-- What annotations state about the visibility of `x`: the ones of an alias with `expose_here`, an
alias with `encourage`, or its own ones. -/
inductive Stated (w : World) (root : Tree) (x : Nat) : Option Bool → Prop where
  | exposed {a : Nat} : ExposesHere w root a x → Stated w root x (ownVisible w a)
  | encouraged {e : Nat} : Encourages w root e x → Stated w root x (some true)
  | own : (∀ a, ¬ ExposesHere w root a x) → (∀ e, ¬ Encourages w root e x) → Annotated w x →
      Stated w root x (ownVisible w x)
  | nothing : (∀ a, ¬ ExposesHere w root a x) → (∀ e, ¬ Encourages w root e x) → ¬ Annotated w x →
      Stated w root x none

/-- There are not both kinds of aliases for a type; see `C53_order_matters`. -/
def OneKindOfAlias (w : World) (root : Tree) : Prop :=
  ∀ x a e, ExposesHere w root a x → ¬ Encourages w root e x

/-- `x` is `a` or presented as part of it, possibly indirectly. -/
inductive Within (w : World) (root : Tree) (a : Nat) : Nat → Prop where
  | self : Within w root a a
  | step {p x : Nat} : Within w root a p → ShownIn w root x p → Within w root a x

/-- Visible according to the source code. -/
inductive SourceVisible (w : World) (root : Tree) : Nat → Prop where
  | stated {x : Nat} : Within w root w.unit x → x ≠ w.unit → Stated w root x (some true) →
      SourceVisible w root x
  | inherited {p x : Nat} : SourceVisible w root p → ShownIn w root x p → Stated w root x none →
      w.access x ≠ .private → w.access x ≠ .protected → SourceVisible w root x

/-- A namespace annotated to be exposed in other modules only. -/
def MeantForOthers (w : World) (name : Str) (n : Nat) : Prop :=
  (w.info n).kind = .namespace ∧ Annotated w n ∧ ∃ attrs ns, ownAttrs w n = some attrs ∧
    attrs.namespace_ = some ns ∧ ns.onlyExposeIn ≠ [] ∧ name ∉ ns.onlyExposeIn

/-- The class or enum is part of module `name`: so is everything it is presented in, and all classes
and enums among these are visible. -/
def InModule (w : World) (root : Tree) (name : Str) (x : Nat) : Prop :=
  IsType w x ∧ Within w root w.unit x ∧
    ∀ a, Within w root a x → ¬ MeantForOthers w name a ∧ (IsType w a → SourceVisible w root a)

/-- The same tree, up to the order of declarations. -/
inductive Rearranged : Tree → Tree → Prop where
  | refl {t : Tree} : Rearranged t t
  | siblings {id : Nat} {l l' : List Tree} : l.Perm l' → Rearranged (.node id l) (.node id l')
  | child {id : Nat} {l r : List Tree} {t t' : Tree} : Rearranged t t' →
      Rearranged (.node id (l ++ t :: r)) (.node id (l ++ t' :: r))
  | trans {t u v : Tree} : Rearranged t u → Rearranged u v → Rearranged t v

/-- The annotations if the declarations in `D` are annotated with `word` in addition. -/
def alsoAnnotated (w : EmitWorld) (D : Nat → Bool) (word : Str) : Nat → List Str :=
  fun x => if D x = true then (w.info x).attrTexts ++ [lozenge ++ word] else (w.info x).attrTexts

end Verif.Spec
