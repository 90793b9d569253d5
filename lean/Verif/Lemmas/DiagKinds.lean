import Verif.Lemmas.Insert
/-!
# Which diagnostics are reported while annotations are processed
-/
namespace Verif

namespace Dispatcher
variable {σ : Type} {P : Diag → Prop}

/-- What has been reported satisfies `P`. -/
def Reported (P : Diag → Prop) (d : Dispatcher σ) : Prop := ∀ g ∈ d.diags, P g

theorem rep_start (id : Nat) (a : Annotation) (x : σ) : (start id a x).Reported P := by
  intro g hg
  cases hg

theorem rep_checkArgKinds {d : Dispatcher σ} (h : d.Reported P) (k : LiteralKind) :
    (d.checkArgKinds k).2.Reported P := by
  unfold checkArgKinds
  split <;> exact h

theorem rep_append {l m : List Diag} (h : ∀ g ∈ l, P g) (h' : ∀ g ∈ m, P g) : ∀ g ∈ l ++ m, P g := by
  intro g hg
  rcases List.mem_append.1 hg with hg | hg
  · exact h g hg
  · exact h' g hg

theorem rep_ensure {d : Dispatcher σ} (h : d.Reported P) {c : Bool × List Diag} (hc : ∀ g ∈ c.2, P g) :
    (d.ensure c).Reported P := by
  unfold ensure
  split
  · split <;> exact rep_append h hc
  · exact h

theorem rep_nullary {d : Dispatcher σ} {f : Callback σ} (h : d.Reported P)
    (hf : ∀ x, ∀ g ∈ (f x).2, P g) : (d.nullary f).Reported P := by
  unfold nullary
  split
  · exact rep_append h (hf _)
  · exact h

theorem rep_unary {d : Dispatcher σ} {k : LiteralKind} {f : LiteralValue → Callback σ}
    (h : d.Reported P) (hf : ∀ v x, ∀ g ∈ (f v x).2, P g) : (d.unary k f).Reported P := by
  unfold unary
  split
  · split
    · dsimp only
      split
      · exact rep_append (rep_checkArgKinds h k) (hf _ _)
      · exact rep_checkArgKinds h k
    · exact h
  · exact h

theorem rep_binary {d : Dispatcher σ} {k : LiteralKind} {f : LiteralValue → LiteralValue → Callback σ}
    (h : d.Reported P) (hf : ∀ v u x, ∀ g ∈ (f v u x).2, P g) : (d.binary k f).Reported P := by
  unfold binary
  split
  · split
    · dsimp only
      split
      · exact rep_append (rep_checkArgKinds h k) (hf _ _ _)
      · exact rep_checkArgKinds h k
    · exact h
  · exact h

theorem rep_variadic {d : Dispatcher σ} {k : LiteralKind} {f : LiteralValue → Callback σ}
    (h : d.Reported P) (hf : ∀ v x, ∀ g ∈ (f v x).2, P g) : (d.variadic k f).Reported P := by
  unfold variadic
  split
  · dsimp only
    split
    · have : ∀ (l : List LiteralValue) (e : Dispatcher σ), e.Reported P →
          (l.foldl (fun d v => d.call (f v)) e).Reported P := by
        intro l
        induction l with
        | nil => exact fun e he => he
        | cons v l ih => exact fun e he => ih _ (rep_append he (hf v _))
      exact this _ _ (rep_checkArgKinds h k)
    · exact rep_checkArgKinds h k
  · exact h

theorem rep_variadicCollect {d : Dispatcher σ} {k : LiteralKind}
    {transform : LiteralValue → Str × List Diag} {process : List Str → σ → Bool × σ × List Diag}
    (h : d.Reported P) (ht : ∀ v, ∀ g ∈ (transform v).2, P g)
    (hf : ∀ l x, ∀ g ∈ (process l x).2.2, P g) :
    (d.variadicCollect k transform process).Reported P := by
  unfold variadicCollect
  split
  · dsimp only
    split
    · refine rep_append (rep_append (rep_checkArgKinds h k) ?_) (hf _ _)
      intro g hg
      obtain ⟨v, _, hv⟩ := List.mem_flatMap.1 hg
      exact ht v g hv
    · exact rep_checkArgKinds h k
  · exact h

theorem rep_onMatch {d : Dispatcher σ} {f : σ → List Diag} (h : d.Reported P)
    (hf : ∀ x, ∀ g ∈ f x, P g) : (d.onMatch f).Reported P := by
  unfold onMatch
  split
  · exact rep_append h (hf _)
  · exact h

end Dispatcher

open Dispatcher

/-- Kinds of diagnostics that are only reported while the module is emitted. -/
def DiagKind.emission : DiagKind → Bool
  | .propertyAlreadyDefined | .propertyHasNoGetter | .notePreviousDefinition | .exposeHereCycle
  | .trailingParameters => true
  | _ => false

/-- Not a diagnostic of the emission. -/
def Early (g : Diag) : Prop := g.kind.emission = false

theorem early_one {id : Nat} {k : DiagKind} {args : List Str} (h : k.emission = false) :
    ∀ g ∈ [(⟨id, k, args⟩ : Diag)], Early g := by
  intro g hg
  simp only [List.mem_singleton] at hg
  subst hg
  exact h

theorem early_nil : ∀ g ∈ ([] : List Diag), Early g := by simp

theorem early_checkMatch {σ : Type} {d : Dispatcher σ} (h : d.Reported Early) :
    ∀ g ∈ d.checkMatch.diags, Early g := by
  refine rep_append h ?_
  split
  · split <;> exact early_one rfl
  · exact early_nil

theorem early_onString {σ : Type} {id : Nat} {f : Str → Callback σ}
    (hf : ∀ b x, ∀ g ∈ (f b x).2, Early g) (v : LiteralValue) (x : σ) :
    ∀ g ∈ (onString id f v x).2, Early g := by
  unfold onString
  split
  · exact hf _ _
  · exact early_one rfl

theorem early_onBoolean {σ : Type} {id : Nat} {f : Bool → Callback σ}
    (hf : ∀ b x, ∀ g ∈ (f b x).2, Early g) (v : LiteralValue) (x : σ) :
    ∀ g ∈ (onBoolean id f v x).2, Early g := by
  unfold onBoolean
  split
  · exact hf _ _
  · exact early_one rfl

theorem early_setSpelling (id : Nat) (k : AnnotationKind) (v : LiteralValue) (x : NamedDeclAttrs) :
    ∀ g ∈ (setSpelling id k v x).2, Early g := by
  refine early_onString (fun b x => ?_) v x
  split
  · exact early_nil
  · exact early_one rfl

theorem early_modify {σ : Type} (f : σ → σ) (x : σ) : ∀ g ∈ (modify f x).2, Early g := early_nil

theorem early_flag {σ : Type} {d : Dispatcher σ} (h : d.Reported Early) {f : σ → σ} {id : Nat}
    {f' : Bool → σ → σ} :
    ∀ g ∈ ((d.nullary (modify f)).unary .boolean (onBoolean id fun b => modify (f' b))).checkMatch.diags,
      Early g :=
  early_checkMatch (rep_unary (rep_nullary h (early_modify _))
    (early_onBoolean fun _ _ => early_modify _ _))

theorem early_named (id : Nat) (d : DeclInfo) (a : Annotation) (x : NamedDeclAttrs) :
    ∀ g ∈ (processNamed id d a x).diags, Early g := by
  unfold processNamed
  dsimp only
  split
  · exact early_checkMatch (rep_nullary (rep_start _ _ _) (early_modify _))
  · exact early_checkMatch (rep_unary (rep_unary (rep_nullary (rep_start _ _ _) (early_modify _))
      (fun _ _ => early_modify _ _)) (early_onBoolean fun _ _ => early_modify _ _))
  · exact early_checkMatch (rep_unary (rep_unary (rep_start _ _ _) (fun _ _ => early_modify _ _))
      (early_setSpelling _ _))
  · exact rep_unary (rep_ensure (rep_start _ _ _) early_nil) (early_setSpelling _ _)
  · exact early_nil

theorem early_namespace (id : Nat) (a : Annotation) (x : NamespaceDeclAttrs) :
    ∀ g ∈ (processNamespace id a x).diags, Early g := by
  unfold processNamespace
  dsimp only
  split
  · exact early_checkMatch (rep_unary (rep_nullary (rep_start _ _ _) (early_modify _))
      (fun _ _ => early_modify _ _))
  · exact early_checkMatch (rep_variadic (rep_start _ _ _) (early_onString fun _ _ => early_modify _ _))
  · exact early_nil

theorem early_enum (id : Nat) (a : Annotation) (x : EnumDeclAttrs) :
    ∀ g ∈ (processEnum id a x).diags, Early g := by
  unfold processEnum
  dsimp only
  split
  · exact early_flag (rep_start _ _ _)
  · exact early_flag (rep_start _ _ _)
  · exact early_nil

theorem early_stringText (id : Nat) (v : LiteralValue) : ∀ g ∈ (stringText id v).2, Early g := by
  unfold stringText
  split
  · exact early_nil
  · exact early_one rfl

theorem early_unknownBase (id : Nat) (k : AnnotationKind) (l : List Nat) :
    ∀ g ∈ unknownBaseDiags id k l, Early g := by
  unfold unknownBaseDiags
  split
  · exact early_one rfl
  · exact early_nil

theorem early_record (env : DeclEnv) (id : Nat) (a : Annotation) (x : RecordDeclAttrs) :
    ∀ g ∈ (processRecord env id a x).diags, Early g := by
  unfold processRecord
  dsimp only
  split
  · exact early_flag (rep_start _ _ _)
  · exact early_checkMatch (rep_variadicCollect (rep_start _ _ _) (early_stringText _)
      fun _ _ => early_unknownBase _ _ _)
  · exact early_checkMatch (rep_unary (rep_start _ _ _) (early_onString fun _ _ => early_modify _ _))
  · exact early_checkMatch (rep_variadicCollect (rep_start _ _ _) (early_stringText _)
      fun _ _ => early_unknownBase _ _ _)
  · exact early_nil

theorem early_conflict (id : Nat) (x : TypedefNameDeclAttrs) : ∀ g ∈ checkForConflict id x, Early g := by
  unfold checkForConflict
  split
  · exact early_one rfl
  · exact early_nil

theorem early_typedef (id : Nat) (a : Annotation) (x : TypedefNameDeclAttrs) :
    ∀ g ∈ (processTypedef id a x).diags, Early g := by
  unfold processTypedef
  dsimp only
  split
  · exact early_checkMatch (rep_onMatch (rep_nullary (rep_start _ _ _) (early_modify _))
      (early_conflict _))
  · exact early_checkMatch (rep_onMatch (rep_nullary (rep_start _ _ _) (early_modify _))
      (early_conflict _))
  · exact early_nil

theorem early_function (id : Nat) (d : DeclInfo) (a : Annotation) (x : FunctionDeclAttrs) :
    ∀ g ∈ (processFunction id d a x).diags, Early g := by
  unfold processFunction
  dsimp only
  split
  · exact early_checkMatch (rep_unary (rep_start _ _ _) (early_onString fun _ _ => early_modify _ _))
  · refine early_checkMatch (rep_binary (rep_start _ _ _) fun v u x => ?_)
    split
    · split
      · exact early_one rfl
      · exact early_one rfl
      · exact early_nil
    · exact early_one rfl
  · refine early_checkMatch (rep_variadic (rep_start _ _ _) (early_onString fun s x => ?_))
    split
    · exact early_one rfl
    · exact early_nil
  · refine early_checkMatch (rep_variadic (rep_start _ _ _) (early_onString fun s x => ?_))
    split
    · exact early_one rfl
    · exact early_nil
  · exact early_nil

theorem early_collect (id : Nat) (k : AnnotationKind) (v : LiteralValue) :
    ∀ g ∈ (collectIdentifier id k v).2, Early g := by
  unfold collectIdentifier
  split
  · split
    · exact early_nil
    · exact early_one rfl
  · exact early_one rfl

theorem early_method (id : Nat) (d : DeclInfo) (a : Annotation) (x : MethodDeclAttrs) :
    ∀ g ∈ (processMethod id d a x).diags, Early g := by
  unfold processMethod
  dsimp only
  split
  · refine early_checkMatch (rep_variadicCollect (rep_ensure (rep_start _ _ _) ?_)
      (early_collect _ _) fun l x => ?_)
    · split
      · exact early_one rfl
      · exact early_nil
    · split <;> exact early_nil
  · refine early_checkMatch (rep_variadicCollect (rep_ensure (rep_start _ _ _) ?_)
      (early_collect _ _) fun l x => ?_)
    · split
      · exact early_one rfl
      · exact early_nil
    · split <;> exact early_nil
  · exact early_nil

theorem early_constructor (id : Nat) (d : DeclInfo) (a : Annotation) (x : ConstructorDeclAttrs) :
    ∀ g ∈ (processConstructor id d a x).diags, Early g := by
  unfold processConstructor
  dsimp only
  split
  · refine early_flag (rep_ensure (rep_start _ _ _) ?_)
    split
    · exact early_one rfl
    · exact early_nil
  · exact early_nil

theorem early_fieldOrVar (id : Nat) (d : DeclInfo) (a : Annotation) (x : FieldOrVarDeclAttrs) :
    ∀ g ∈ (processFieldOrVar id d a x).diags, Early g := by
  unfold processFieldOrVar
  dsimp only
  split
  · exact early_flag (rep_start _ _ _)
  · refine early_checkMatch (rep_nullary (rep_ensure (rep_start _ _ _) ?_) (early_modify _))
    split
    · exact early_nil
    · split
      · exact early_one rfl
      · exact early_nil
  · exact early_checkMatch (rep_nullary (rep_ensure (rep_start _ _ _) early_nil) (early_modify _))
  · exact early_nil

theorem early_lift {σ : Type} {get : DeclAttrs → Option σ} {put : DeclAttrs → σ → DeclAttrs}
    {process : Annotation → σ → Outcome σ} (h : ∀ a y, ∀ g ∈ (process a y).diags, Early g)
    (a : Annotation) (x : DeclAttrs) : ∀ g ∈ (liftHandler get put process a x).diags, Early g := by
  unfold liftHandler
  split
  · exact early_nil
  · exact h _ _

theorem early_handlers (env : DeclEnv) (id : Nat) :
    ∀ h ∈ handlers env id, ∀ a x, ∀ g ∈ (h a x).diags, Early g := by
  intro h hh a x
  simp only [handlers, List.mem_cons, List.not_mem_nil, or_false] at hh
  rcases hh with rfl | rfl | rfl | rfl | rfl | rfl | rfl | rfl | rfl | rfl | rfl
  · exact early_named _ _ _ _
  · exact early_lift (early_namespace _) a x
  · exact early_lift (early_enum _) a x
  · exact early_lift (early_record _ _) a x
  · exact early_lift (early_typedef _) a x
  · exact early_lift (early_fieldOrVar _ _) a x
  · exact early_lift (fun _ _ => early_nil) a x
  · exact early_lift (fun _ _ => early_nil) a x
  · exact early_lift (early_method _ _) a x
  · exact early_lift (early_constructor _ _) a x
  · exact early_lift (early_function _ _) a x

theorem early_supportsTypedef (id : Nat) (d : DeclInfo) : ∀ g ∈ supportsTypedefDiags id d, Early g := by
  unfold supportsTypedefDiags
  split
  · exact early_one rfl
  · exact early_nil

theorem early_any (hs : List Handler) (h : ∀ h ∈ hs, ∀ a x, ∀ g ∈ (h a x).diags, Early g) (a : Annotation) :
    ∀ x, ∀ g ∈ (anyHandler hs a x).diags, Early g := by
  induction hs with
  | nil => exact fun _ => early_nil
  | cons k hs ih =>
    intro x
    simp only [anyHandler]
    split
    · exact h k (by simp) a x
    · exact rep_append (h k (by simp) a x) (ih (fun h' hm => h h' (by simp [hm])) _)

theorem early_apply (env : DeclEnv) (id : Nat) (a : Annotation) (x : DeclAttrs) :
    ∀ g ∈ (applyAnnotation env id x a).2, Early g := by
  unfold applyAnnotation
  dsimp only
  have h := early_any _ (early_handlers env id) a x
  split
  · exact rep_append h (rep_append (early_supportsTypedef _ _) (early_one rfl))
  · exact h

theorem early_applyAll (env : DeclEnv) (id : Nat) (as : List Annotation) :
    ∀ x, ∀ g ∈ (applyAnnotations env id x as).2, Early g := by
  induction as with
  | nil => exact fun _ => early_nil
  | cons a as ih => exact fun x => rep_append (early_apply env id a x) (ih _)

theorem early_parse (id : Nat) (texts : List Str) :
    ∀ acc, ∀ g ∈ (parseAllTexts id acc texts).2, Early g := by
  induction texts with
  | nil => exact fun _ => early_nil
  | cons t ts ih =>
    intro acc
    simp only [parseAllTexts]
    split
    · exact ih _
    · split
      · exact ih _
      · exact rep_append (early_one rfl) (ih _)

theorem early_insert (env : DeclEnv) (s : Storage) (id : Nat) : ∀ g ∈ (s.insert env id).2, Early g := by
  unfold Storage.insert
  dsimp only
  split
  · exact early_one rfl
  · split
    · exact early_nil
    · exact rep_append (rep_append (early_supportsTypedef _ _) (early_parse _ _ _))
        (early_applyAll _ _ _ _)

end Verif
