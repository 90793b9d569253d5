import Verif.Lemmas.Commute
import Verif.Lemmas.AnnotationSeq
/-!
# Lemmas: interchangeable annotations have the same effect
-/
namespace Verif
open Spec

variable (env : DeclEnv) (id : Nat)

/-! ### The attributes after an annotation -/

/-- Later handlers do nothing if an earlier one can be responsible. -/
def Exclusive (a : Annotation) : List Handler → Prop
  | [] => True
  | h :: hs => ((∀ x, (h a x).handled = false) ∨ ∀ h' ∈ hs, Inert h' a) ∧ Exclusive a hs

theorem foldl_inert {a : Annotation} {hs : List Handler} (h : ∀ h' ∈ hs, Inert h' a) (x : DeclAttrs) :
    hs.foldl (fun x h => (h a x).attrs) x = x := by
  induction hs generalizing x with
  | nil => rfl
  | cons g hs ih =>
    rw [List.foldl_cons, h g (List.mem_cons_self ..)]
    exact ih (fun h' hh => h h' (List.mem_cons_of_mem _ hh)) x

theorem anyHandler_foldl {a : Annotation} {hs : List Handler} (h : Exclusive a hs) (x : DeclAttrs) :
    (anyHandler hs a x).attrs = hs.foldl (fun x h => (h a x).attrs) x := by
  induction hs generalizing x with
  | nil => rfl
  | cons g hs ih =>
    obtain ⟨h1, h2⟩ := h
    rw [anyHandler_cons, List.foldl_cons]
    rcases h1 with h1 | h1
    · rw [h1 x, if_neg (by simp)]
      exact ih h2 _
    · rw [foldl_inert h1]
      split
      · rfl
      · show (anyHandler hs a _).attrs = _
        rw [anyHandler_allInert h1]; rfl

theorem exclusive_of {a : Annotation} {hs : List Handler}
    (h : ∀ (i : Nat) (g : Handler), hs[i]? = some g → (∀ x, (g a x).handled = false) ∨
      ∀ (j : Nat) (g' : Handler), i < j → hs[j]? = some g' → Inert g' a) : Exclusive a hs := by
  induction hs with
  | nil => trivial
  | cons g hs ih =>
    refine ⟨?_, ih ?_⟩
    · rcases h 0 g rfl with h' | h'
      · exact .inl h'
      · right
        intro g' hg'
        obtain ⟨j, hj⟩ := List.mem_iff_getElem?.1 hg'
        exact h' (j + 1) g' (by omega) hj
    · intro i g' hg'
      rcases h (i + 1) g' hg' with h' | h'
      · exact .inl h'
      · exact .inr fun j g'' hij hj => h' (j + 1) g'' (by omega) hj

theorem exclusive_handlers (a : Annotation) : Exclusive a (handlers env id) := by
  obtain ⟨k, args⟩ := a
  refine exclusive_of fun i g hg => ?_
  by_cases hr : responsible k i = true
  · by_cases hm : k = .module ∧ i = 0
    · obtain ⟨rfl, rfl⟩ := hm
      left
      cases hg
      intro x
      rfl
    · right
      intro j g' hij hj
      refine handlers_inert env id k args j ?_ g' hj
      cases k <;> simp_all [responsible] <;> omega
  · left
    intro x
    rw [handlers_inert env id k args i (by simpa using hr) g hg x]
    rfl

/-- All parts of the attributes, separately. -/
def applied (a : Annotation) (x : DeclAttrs) : DeclAttrs where
  named := (processNamed id (env.info id) a x.named).attrs
  namespace_ := x.namespace_.map fun n => (processNamespace id a n).attrs
  enum := x.enum.map fun n => (processEnum id a n).attrs
  record := x.record.map fun n => (processRecord env id a n).attrs
  typedefName := x.typedefName.map fun n => (processTypedef id a n).attrs
  fieldOrVar := x.fieldOrVar.map fun n => (processFieldOrVar id (env.info id) a n).attrs
  operator := x.operator
  conversion := x.conversion
  method := x.method.map fun n => (processMethod id (env.info id) a n).attrs
  constructor := x.constructor.map fun n => (processConstructor id (env.info id) a n).attrs
  function := x.function.map fun n => (processFunction id (env.info id) a n).attrs

theorem apply_applied (a : Annotation) (x : DeclAttrs) : (applyAnnotation env id x a).1 = applied env id a x := by
  have h1 : (applyAnnotation env id x a).1 = (anyHandler (handlers env id) a x).attrs := by
    unfold applyAnnotation
    dsimp only
    split <;> rfl
  rw [h1, anyHandler_foldl (exclusive_handlers env id a)]
  unfold handlers
  simp only [List.foldl_cons, List.foldl_nil]
  obtain ⟨x0, x1, x2, x3, x4, x5, x6, x7, x8, x9, x10⟩ := x
  have e : ∀ {σ : Type} (get : DeclAttrs → Option σ) (put : DeclAttrs → σ → DeclAttrs)
      (p : Annotation → σ → Outcome σ) (x : DeclAttrs) (y : DeclAttrs),
      (get x = none → y = x) → (∀ n, get x = some n → y = put x (p a n).attrs) →
      (liftHandler get put p a x).attrs = y := by
    intro σ get put p x y h1 h2
    unfold liftHandler
    cases h : get x with
    | none => exact (h1 h).symm
    | some n => exact (h2 n h).symm
  rw [e (·.namespace_) _ _ _ ⟨_, x1.map fun n => (processNamespace id a n).attrs, x2, x3, x4, x5, x6, x7, x8, x9, x10⟩
    (by dsimp only; rintro rfl; rfl) (by dsimp only; rintro n rfl; rfl)]
  rw [e (·.enum) _ _ _ ⟨_, _, x2.map fun n => (processEnum id a n).attrs, x3, x4, x5, x6, x7, x8, x9, x10⟩
    (by dsimp only; rintro rfl; rfl) (by dsimp only; rintro n rfl; rfl)]
  rw [e (·.record) _ _ _ ⟨_, _, _, x3.map fun n => (processRecord env id a n).attrs, x4, x5, x6, x7, x8, x9, x10⟩
    (by dsimp only; rintro rfl; rfl) (by dsimp only; rintro n rfl; rfl)]
  rw [e (·.typedefName) _ _ _ ⟨_, _, _, _, x4.map fun n => (processTypedef id a n).attrs, x5, x6, x7, x8, x9, x10⟩
    (by dsimp only; rintro rfl; rfl) (by dsimp only; rintro n rfl; rfl)]
  rw [e (·.fieldOrVar) _ _ _ ⟨_, _, _, _, _, x5.map fun n => (processFieldOrVar id (env.info id) a n).attrs, x6, x7, x8, x9, x10⟩
    (by dsimp only; rintro rfl; rfl) (by dsimp only; rintro n rfl; rfl)]
  rw [e (·.operator) _ _ _ ⟨_, _, _, _, _, _, x6, x7, x8, x9, x10⟩
    (by dsimp only; rintro rfl; rfl) (by dsimp only; rintro n rfl; rfl)]
  rw [e (·.conversion) _ _ _ ⟨_, _, _, _, _, _, x6, x7, x8, x9, x10⟩
    (by dsimp only; rintro rfl; rfl) (by dsimp only; rintro n rfl; rfl)]
  rw [e (·.method) _ _ _ ⟨_, _, _, _, _, _, x6, x7, x8.map fun n => (processMethod id (env.info id) a n).attrs, x9, x10⟩
    (by dsimp only; rintro rfl; rfl) (by dsimp only; rintro n rfl; rfl)]
  rw [e (·.constructor) _ _ _ ⟨_, _, _, _, _, _, x6, x7, _, x9.map fun n => (processConstructor id (env.info id) a n).attrs, x10⟩
    (by dsimp only; rintro rfl; rfl) (by dsimp only; rintro n rfl; rfl)]
  rw [e (·.function) _ _ _ ⟨_, _, _, _, _, _, x6, x7, _, _, x10.map fun n => (processFunction id (env.info id) a n).attrs⟩
    (by dsimp only; rintro rfl; rfl) (by dsimp only; rintro n rfl; rfl)]
  rfl

theorem applied_commute (a b : Annotation) (hs : setting a.kind ≠ setting b.kind) (x : DeclAttrs) :
    applied env id a (applied env id b x) = applied env id b (applied env id a x) := by
  unfold applied
  simp only [Option.map_map, Function.comp_def, commute_named id _ a b hs, commute_namespace id a b hs,
    commute_enum id a b hs, commute_record env id a b hs, commute_typedef id a b hs, commute_var id _ a b hs,
    commute_method id _ a b hs, commute_constructor id _ a b hs, commute_function id _ a b hs]

/-! ### What is reported -/

theorem lift_reports {σ : Type} {get : DeclAttrs → Option σ} {put : DeclAttrs → σ → DeclAttrs}
    {p : Annotation → σ → Outcome σ} {a : Annotation} {s : Slot σ} (h : s.Stable (p a)) {x x' : DeclAttrs}
    (hx : (get x).isSome = (get x').isSome) :
    (liftHandler get put p a x).handled = (liftHandler get put p a x').handled ∧
      (liftHandler get put p a x).diags = (liftHandler get put p a x').diags := by
  unfold liftHandler
  cases h1 : get x with
  | none =>
    cases h2 : get x' with
    | none => exact ⟨rfl, rfl⟩
    | some n' => rw [h1, h2] at hx; cases hx
  | some n =>
    cases h2 : get x' with
    | none => rw [h1, h2] at hx; cases hx
    | some n' => exact stable_reports h n n'

theorem isSome_of {σ : Type} {u v : Option σ} {P : Prop} (h1 : u.isSome ↔ P) (h2 : v.isSome ↔ P) :
    u.isSome = v.isSome := by
  have := h1.trans h2.symm
  cases hu : u.isSome <;> cases hv : v.isSome <;> simp_all

theorem any_reports (a : Annotation) {x x' : DeclAttrs} (sh : Shape (env.info id) x)
    (sh' : Shape (env.info id) x') (ht : setting a.kind = .encourage → x.typedefName = x'.typedefName) :
    (anyHandler (handlers env id) a x).handled = (anyHandler (handlers env id) a x').handled ∧
      (anyHandler (handlers env id) a x).diags = (anyHandler (handlers env id) a x').diags := by
  obtain ⟨k, args⟩ := a
  have one : ∀ i g, (handlers env id)[i]? = some g → (∀ j, j ≠ i → responsible k j = false) →
      ((g ⟨k, args⟩ x).handled = (g ⟨k, args⟩ x').handled ∧ (g ⟨k, args⟩ x).diags = (g ⟨k, args⟩ x').diags) →
      (anyHandler (handlers env id) ⟨k, args⟩ x).handled = (anyHandler (handlers env id) ⟨k, args⟩ x').handled ∧
      (anyHandler (handlers env id) ⟨k, args⟩ x).diags = (anyHandler (handlers env id) ⟨k, args⟩ x').diags := by
    intro i g hg ho h
    rw [anyHandler_responsible env id k args i g hg ho, anyHandler_responsible env id k args i g hg ho]
    exact h
  cases k
  case hidden | visible | exposeAs =>
    exact one 0 _ rfl (by simp [responsible]) (stable_reports (stable_named id (env.info id) ⟨_, args⟩) _ _)
  case onlyExposeIn =>
    exact one 1 _ rfl (by simp [responsible]) (lift_reports (stable_namespace id ⟨_, args⟩)
      (isSome_of sh.namespace_ sh'.namespace_))
  case arithmetic | exportValues =>
    exact one 2 _ rfl (by simp [responsible]) (lift_reports (stable_enum id ⟨_, args⟩) (isSome_of sh.enum sh'.enum))
  case dynamicAttr | hideBase | holderType | inlineBase =>
    exact one 3 _ rfl (by simp [responsible]) (lift_reports (stable_record env id ⟨_, args⟩) (isSome_of sh.record sh'.record))
  case encourage | exposeHere =>
    refine one 4 _ rfl (by simp [responsible]) ?_
    have := ht rfl
    unfold liftHandler
    dsimp only
    rw [this]
    cases x'.typedefName <;> exact ⟨rfl, rfl⟩
  case readonly | manual | postamble =>
    exact one 5 _ rfl (by simp [responsible]) (lift_reports (stable_var id _ ⟨_, args⟩) (isSome_of sh.fieldOrVar sh'.fieldOrVar))
  case getterFor | setterFor =>
    exact one 8 _ rfl (by simp [responsible]) (lift_reports (stable_method id _ ⟨_, args⟩) (isSome_of sh.method sh'.method))
  case implicitConversion =>
    exact one 9 _ rfl (by simp [responsible]) (lift_reports (stable_constructor id _ ⟨_, args⟩) (isSome_of sh.constructor sh'.constructor))
  case keepAlive | noconvert | required | returnValuePolicy =>
    exact one 10 _ rfl (by simp [responsible]) (lift_reports (stable_function id _ ⟨_, args⟩) (isSome_of sh.function sh'.function))
  case module =>
    have hm : ∀ x, anyHandler (handlers env id) ⟨.module, args⟩ x =
        (let r := liftHandler (·.namespace_) (fun x y => { x with namespace_ := some y }) (processNamespace id) ⟨.module, args⟩
            { x with named := (processNamed id (env.info id) ⟨.module, args⟩ x.named).attrs }
         { r with diags := (processNamed id (env.info id) ⟨.module, args⟩ x.named).diags ++ r.diags }) := by
      intro x
      unfold handlers
      rw [anyHandler_cons, if_neg (by exact Bool.false_ne_true)]
      dsimp only
      rw [anyHandler_first]
      intro h' hh'
      obtain ⟨j, hj⟩ := List.mem_iff_getElem?.1 hh'
      exact handlers_inert env id .module args (j + 2) (by simp [responsible]) h' hj
    rw [hm, hm]
    dsimp only
    obtain ⟨h1, h2⟩ := lift_reports (put := fun x y => { x with namespace_ := some y })
      (get := fun x => x.namespace_)
      (x := { x with named := (processNamed id (env.info id) ⟨.module, args⟩ x.named).attrs })
      (x' := { x' with named := (processNamed id (env.info id) ⟨.module, args⟩ x'.named).attrs })
      (stable_namespace id ⟨.module, args⟩) (isSome_of sh.namespace_ sh'.namespace_)
    obtain ⟨-, h4⟩ := stable_reports (stable_named id (env.info id) ⟨.module, args⟩) x.named x'.named
    rw [h1, h2, h4]
    exact ⟨rfl, rfl⟩

theorem apply_reports (a : Annotation) {x x' : DeclAttrs} (sh : Shape (env.info id) x)
    (sh' : Shape (env.info id) x') (ht : setting a.kind = .encourage → x.typedefName = x'.typedefName) :
    (applyAnnotation env id x a).2 = (applyAnnotation env id x' a).2 := by
  obtain ⟨h1, h2⟩ := any_reports env id a sh sh' ht
  unfold applyAnnotation
  dsimp only
  rw [h1, h2]
  split <;> rfl

theorem silent_nil {a : Annotation} (h : Silent env (env.info id) a) {x : DeclAttrs}
    (sh : Shape (env.info id) x) : (applyAnnotation env id x a).2 = [] := by
  have := (apply_documented env id a x sh h.1).2.1
  rw [h.2] at this
  simpa using this

theorem apply_silent {a : Annotation} (h : Silent env (env.info id) a) {x : DeclAttrs}
    (sh : Shape (env.info id) x) : applyAnnotation env id x a = (applied env id a x, []) := by
  rw [← apply_applied env id a x, ← silent_nil env id h sh]

/-! ### The rules -/

theorem applyAll_append (as bs : List Annotation) (x : DeclAttrs) :
    applyAnnotations env id x (as ++ bs) =
      ((applyAnnotations env id (applyAnnotations env id x as).1 bs).1,
        (applyAnnotations env id x as).2 ++ (applyAnnotations env id (applyAnnotations env id x as).1 bs).2) := by
  induction as generalizing x with
  | nil => simp [applyAnnotations]
  | cons a as ih => simp [applyAnnotations, ih]

theorem applyAll_one (a : Annotation) (x : DeclAttrs) :
    applyAnnotations env id x [a] = applyAnnotation env id x a := by
  simp [applyAnnotations]

theorem applyAll_two (a b : Annotation) (x : DeclAttrs) :
    applyAnnotations env id x [a, b] = ((applyAnnotation env id (applyAnnotation env id x a).1 b).1,
      (applyAnnotation env id x a).2 ++ (applyAnnotation env id (applyAnnotation env id x a).1 b).2) := by
  simp [applyAnnotations]

/-- Two documented annotations with one effect, nothing being reported. -/
theorem same_effect {a b : Annotation} {x x' : DeclAttrs} (sh : Shape (env.info id) x)
    (sh' : Shape (env.info id) x') (ha : Silent env (env.info id) a) (hb : Silent env (env.info id) b)
    (h : ∀ y y', Effect env (env.info id) a x y → Effect env (env.info id) b x' y' → y = y') :
    applyAnnotation env id x a = applyAnnotation env id x' b :=
  Prod.ext (h _ _ (apply_documented env id a x sh ha.1).1 (apply_documented env id b x' sh' hb.1).1)
    (by rw [silent_nil env id ha sh, silent_nil env id hb sh'])

theorem apply_swap {a b : Annotation} (hs : setting a.kind ≠ setting b.kind)
    (hb : Silent env (env.info id) b) {x : DeclAttrs} (sh : Shape (env.info id) x) :
    applyAnnotations env id x [a, b] = applyAnnotations env id x [b, a] := by
  have sa := shape_apply env id a x sh
  have sb := shape_apply env id b x sh
  rw [applyAll_two, applyAll_two, silent_nil env id hb sa, silent_nil env id hb sh]
  have hd : (applyAnnotation env id (applyAnnotation env id x b).1 a).2 = (applyAnnotation env id x a).2 := by
    refine apply_reports env id a sb sh fun he => ?_
    rw [apply_applied]
    show x.typedefName.map _ = _
    have : ∀ n, processTypedef id b n = notHandled n := by
      intro n
      obtain ⟨k, args⟩ := b
      cases k <;> first | rfl | exact absurd he hs
    simp [this, notHandled]
  rw [hd]
  simp only [apply_applied, List.append_nil, List.nil_append]
  rw [applied_commute env id a b hs]

/-- Single values being set. -/
inductive Put : AnnotationKind → (DeclAttrs → DeclAttrs) → Prop where
  | visible (v) : Put .visible fun x => { x with named := { x.named with visible := v } }
  | exposeAs (v) : Put .exposeAs fun x => { x with named := { x.named with spelling := v } }
  | arithmetic (v) : Put .arithmetic fun x => { x with enum := x.enum.map ({ · with arithmetic := v }) }
  | exportValues (v) : Put .exportValues fun x => { x with enum := x.enum.map ({ · with exportValues := v }) }
  | dynamicAttr (v) : Put .dynamicAttr fun x => { x with record := x.record.map ({ · with dynamicAttr := v }) }
  | holderType (v) : Put .holderType fun x => { x with record := x.record.map ({ · with holderType := v }) }
  | readonly (v) : Put .readonly fun x => { x with fieldOrVar := x.fieldOrVar.map ({ · with readonly := v }) }
  | implicitConversion (v) : Put .implicitConversion
      fun x => { x with constructor := x.constructor.map ({ · with implicitConversion := v }) }
  | returnValuePolicy (v) : Put .returnValuePolicy
      fun x => { x with function := x.function.map ({ · with returnValuePolicy := v }) }

theorem put_put {k : AnnotationKind} {p q : DeclAttrs → DeclAttrs} (hp : Put k p) (hq : Put k q)
    (x : DeclAttrs) : q (p x) = q x := by
  cases hp <;> cases hq <;> first | rfl | (simp only [Option.map_map]; rfl)

/-- The one text given. -/
def theText : List LiteralValue → Str
  | [.string t] => t
  | _ => []

theorem effect_put {a : Annotation} {d : DeclInfo} (h : SingleValued a.kind) (ha : Silent env d a) :
    ∃ p, Put (setting a.kind) p ∧ ∀ x y, Effect env d a x y → y = p x := by
  obtain ⟨k, args⟩ := a
  cases k <;> try exact h.elim
  case hidden => exact ⟨_, .visible (some false), fun x y h => h⟩
  case visible =>
    rcases args with _ | ⟨v, _ | ⟨w, r⟩⟩
    · exact ⟨_, .visible (some true), fun x y h => h⟩
    · cases v
      case boolean b => exact ⟨_, .visible (some b), fun x y h => h⟩
      all_goals exact ⟨_, .visible none, fun x y h => h⟩
    · cases v <;> exact ⟨_, .visible none, fun x y h => h⟩
  case exposeAs =>
    rcases args with _ | ⟨v, _ | ⟨w, r⟩⟩
    · exact ⟨_, .exposeAs [], fun x y h => h⟩
    · cases v
      case string t =>
        refine ⟨_, .exposeAs t, fun x y h => h.1 ?_⟩
        have := ha.2 {}
        simp only [acceptedDiagKinds, List.flatMap_cons, List.flatMap_nil, List.append_nil] at this
        by_cases hv : ValidIdent t
        · exact hv
        · rw [if_neg hv] at this; cases this
      all_goals exact ⟨_, .exposeAs [], fun x y h => h⟩
    · cases v <;> exact ⟨_, .exposeAs [], fun x y h => h⟩
  case arithmetic =>
    rcases args with _ | ⟨v, _ | ⟨w, r⟩⟩
    · exact ⟨_, .arithmetic true, fun x y h => h⟩
    · cases v
      case boolean b => exact ⟨_, .arithmetic b, fun x y h => h⟩
      all_goals exact ⟨_, .arithmetic true, fun x y h => h⟩
    · cases v <;> exact ⟨_, .arithmetic true, fun x y h => h⟩
  case exportValues =>
    rcases args with _ | ⟨v, _ | ⟨w, r⟩⟩
    · exact ⟨_, .exportValues (some true), fun x y h => h⟩
    · cases v
      case boolean b => exact ⟨_, .exportValues (some b), fun x y h => h⟩
      all_goals exact ⟨_, .exportValues (some true), fun x y h => h⟩
    · cases v <;> exact ⟨_, .exportValues (some true), fun x y h => h⟩
  case dynamicAttr =>
    rcases args with _ | ⟨v, _ | ⟨w, r⟩⟩
    · exact ⟨_, .dynamicAttr true, fun x y h => h⟩
    · cases v
      case boolean b => exact ⟨_, .dynamicAttr b, fun x y h => h⟩
      all_goals exact ⟨_, .dynamicAttr true, fun x y h => h⟩
    · cases v <;> exact ⟨_, .dynamicAttr true, fun x y h => h⟩
  case readonly =>
    rcases args with _ | ⟨v, _ | ⟨w, r⟩⟩
    · exact ⟨_, .readonly true, fun x y h => h⟩
    · cases v
      case boolean b => exact ⟨_, .readonly b, fun x y h => h⟩
      all_goals exact ⟨_, .readonly true, fun x y h => h⟩
    · cases v <;> exact ⟨_, .readonly true, fun x y h => h⟩
  case implicitConversion =>
    rcases args with _ | ⟨v, _ | ⟨w, r⟩⟩
    · exact ⟨_, .implicitConversion true, fun x y h => h⟩
    · cases v
      case boolean b => exact ⟨_, .implicitConversion b, fun x y h => h⟩
      all_goals exact ⟨_, .implicitConversion true, fun x y h => h⟩
    · cases v <;> exact ⟨_, .implicitConversion true, fun x y h => h⟩
  case holderType =>
    refine ⟨_, .holderType (theText args), fun x y hy => ?_⟩
    obtain ⟨t, rfl, hy⟩ := hy
    exact hy
  case returnValuePolicy =>
    refine ⟨_, .returnValuePolicy (theText args), fun x y hy => ?_⟩
    obtain ⟨t, rfl, hy⟩ := hy
    exact hy

theorem apply_overridden {a b : Annotation} (hs : setting a.kind = setting b.kind)
    (h1 : SingleValued a.kind) (h2 : SingleValued b.kind)
    (ha : Silent env (env.info id) a) (hb : Silent env (env.info id) b) {x : DeclAttrs}
    (sh : Shape (env.info id) x) : applyAnnotations env id x [a, b] = applyAnnotations env id x [b] := by
  have sa := shape_apply env id a x sh
  rw [applyAll_two, applyAll_one, silent_nil env id ha sh, List.nil_append]
  refine same_effect env id sa sh hb hb fun y y' hy hy' => ?_
  obtain ⟨p, hp, ep⟩ := effect_put env h1 ha
  obtain ⟨q, hq, eq⟩ := effect_put env h2 hb
  rw [eq _ _ hy, eq _ _ hy', ep _ _ (apply_documented env id a x sh ha.1).1]
  exact put_put (hs ▸ hp) hq x

theorem apply_hidden {x : DeclAttrs} (sh : Shape (env.info id) x) :
    applyAnnotation env id x ⟨.hidden, []⟩ = applyAnnotation env id x ⟨.visible, [.boolean false]⟩ := by
  refine same_effect env id sh sh ⟨⟨trivial, trivial, .bare, by simp [forms], rfl⟩, fun _ => rfl⟩
    ⟨⟨trivial, trivial, .one .boolean, by simp [forms], rfl⟩, fun _ => rfl⟩ fun y y' hy hy' => ?_
  exact Eq.trans hy hy'.symm

theorem apply_flag {k : AnnotationKind} (h1 : Documented (env.info id) ⟨k, []⟩)
    (h2 : Documented (env.info id) ⟨k, [.boolean true]⟩) {x : DeclAttrs} (sh : Shape (env.info id) x) :
    applyAnnotation env id x ⟨k, []⟩ = applyAnnotation env id x ⟨k, [.boolean true]⟩ := by
  have h2' := h2
  obtain ⟨-, -, f, hf, hb⟩ := h2'
  cases k <;> simp only [forms, List.mem_cons, List.not_mem_nil, or_false] at hf
  case visible | arithmetic | exportValues | dynamicAttr | readonly | implicitConversion =>
    exact same_effect env id sh sh ⟨h1, fun _ => rfl⟩ ⟨h2, fun _ => rfl⟩ fun y y' hy hy' => Eq.trans hy hy'.symm
  all_goals
    exfalso
    first
    | (subst hf; simp [Form.Accepts, LiteralValue.kind] at hb)
    | (rcases hf with rfl | rfl <;> simp [Form.Accepts, LiteralValue.kind] at hb)

/-! ### Several names -/

theorem apply_handled {a : Annotation} {x : DeclAttrs} (h : (anyHandler (handlers env id) a x).handled = true) :
    applyAnnotation env id x a =
      ((anyHandler (handlers env id) a x).attrs, (anyHandler (handlers env id) a x).diags) := by
  unfold applyAnnotation
  dsimp only
  rw [if_neg (by rw [h]; simp)]

/-- One annotation does what two annotations do. -/
def DoesBoth {σ : Type} (P Q R : σ → Outcome σ) : Prop :=
  ∀ n, (Q n).handled = true ∧ (R n).handled = true ∧
    P n = ⟨true, (R (Q n).attrs).attrs, (Q n).diags ++ (R (Q n).attrs).diags⟩

theorem apply_both {σ : Type} {k : AnnotationKind} {vs ws us : List LiteralValue} {x : DeclAttrs}
    {get : DeclAttrs → Option σ} {put : DeclAttrs → σ → DeclAttrs} {p : Annotation → σ → Outcome σ}
    (i : Nat) (hh : (handlers env id)[i]? = some (liftHandler get put p))
    (ho : ∀ j, j ≠ i → responsible k j = false)
    (hb : DoesBoth (p ⟨k, us⟩) (p ⟨k, vs⟩) (p ⟨k, ws⟩)) (hx : (get x).isSome)
    (hg : ∀ y, get (put x y) = some y) (hp : ∀ y z, put (put x y) z = put x z) :
    applyAnnotations env id x [⟨k, us⟩] = applyAnnotations env id x [⟨k, vs⟩, ⟨k, ws⟩] := by
  obtain ⟨n, hn⟩ := Option.isSome_iff_exists.1 hx
  have one : ∀ args x n, get x = some n → (p ⟨k, args⟩ n).handled = true →
      applyAnnotation env id x ⟨k, args⟩ = (put x (p ⟨k, args⟩ n).attrs, (p ⟨k, args⟩ n).diags) := by
    intro args x n hx h
    have e : anyHandler (handlers env id) ⟨k, args⟩ x =
        ⟨(p ⟨k, args⟩ n).handled, put x (p ⟨k, args⟩ n).attrs, (p ⟨k, args⟩ n).diags⟩ := by
      rw [anyHandler_responsible env id k args i _ hh ho]
      unfold liftHandler
      rw [hx]
    rw [apply_handled env id (by rw [e]; exact h), e]
  obtain ⟨h1, -, h3⟩ := hb n
  obtain ⟨-, h4, -⟩ := hb (p ⟨k, vs⟩ n).attrs
  rw [applyAll_one, applyAll_two, one us x n hn (by rw [h3]), one vs x n hn h1, one ws _ _ (hg _) h4, hp, h3]

theorem foldCalls_append {σ : Type} (f : LiteralValue → Callback σ) (vs ws : List LiteralValue) (x : σ) :
    foldCalls f (vs ++ ws) x = ((foldCalls f ws (foldCalls f vs x).1).1,
      (foldCalls f vs x).2 ++ (foldCalls f ws (foldCalls f vs x).1).2) := by
  induction vs generalizing x with
  | nil => simp [foldCalls]
  | cons v vs ih => simp [foldCalls, ih]

theorem both_variadic {σ : Type} (k : AnnotationKind) (vs ws : List LiteralValue) (f : LiteralValue → Callback σ)
    (hv : vs ≠ []) (hw : ws ≠ []) (hs : ∀ v ∈ vs ++ ws, v.kind = .string) :
    DoesBoth (fun n => ((Dispatcher.start id ⟨k, vs ++ ws⟩ n).variadic .string f).checkMatch)
      (fun n => ((Dispatcher.start id ⟨k, vs⟩ n).variadic .string f).checkMatch)
      (fun n => ((Dispatcher.start id ⟨k, ws⟩ n).variadic .string f).checkMatch) := by
  have h1 := (all_string_iff _).1 hs
  have h2 := (all_string_iff vs).1 fun v h => hs v (List.mem_append_left _ h)
  have h3 := (all_string_iff ws).1 fun v h => hs v (List.mem_append_right _ h)
  intro n
  simp only [variadic_checkMatch]
  rw [h1, h2, h3, if_neg hv, if_neg hw, if_neg (by simp [hv])]
  simp [foldCalls_append, hw]

theorem both_collect {σ : Type} (k : AnnotationKind) (vs ws : List LiteralValue)
    (t : LiteralValue → Str × List Diag) (p : List Str → σ → Bool × σ × List Diag)
    (hs : ∀ v ∈ vs ++ ws, v.kind = .string)
    (h1 : ∀ n, (p (vs.map fun v => (t v).1) n).1 = true) (h2 : ∀ n, (p (ws.map fun v => (t v).1) n).1 = true)
    (h3 : ∀ l n, (p l n).2.2 = [])
    (h4 : ∀ n, (p ((vs ++ ws).map fun v => (t v).1) n).1 = true ∧
      (p ((vs ++ ws).map fun v => (t v).1) n).2.1 =
        (p (ws.map fun v => (t v).1) (p (vs.map fun v => (t v).1) n).2.1).2.1) :
    DoesBoth (fun n => ((Dispatcher.start id ⟨k, vs ++ ws⟩ n).variadicCollect .string t p).checkMatch)
      (fun n => ((Dispatcher.start id ⟨k, vs⟩ n).variadicCollect .string t p).checkMatch)
      (fun n => ((Dispatcher.start id ⟨k, ws⟩ n).variadicCollect .string t p).checkMatch) := by
  have e1 := (all_string_iff _).1 hs
  have e2 := (all_string_iff vs).1 fun v h => hs v (List.mem_append_left _ h)
  have e3 := (all_string_iff ws).1 fun v h => hs v (List.mem_append_right _ h)
  intro n
  have ev : ∀ args (n : σ), args.find? (fun v => !v.isa .string) = none →
      (p (args.map fun v => (t v).1) n).1 = true →
      ((Dispatcher.start id ⟨k, args⟩ n).variadicCollect .string t p).checkMatch =
        ⟨true, (p (args.map fun v => (t v).1) n).2.1, args.flatMap fun v => (t v).2⟩ := by
    intro args n h h'
    simp [Dispatcher.variadicCollect, Dispatcher.start, Dispatcher.checkArgKinds, h, h', Dispatcher.checkMatch, h3]
  dsimp only
  rw [ev _ _ e1 (h4 n).1, ev _ _ e2 (h1 n), ev ws n e3 (h2 n),
    ev ws (p (vs.map fun v => (t v).1) n).2.1 e3 (h2 _)]
  refine ⟨rfl, rfl, ?_⟩
  simp [← (h4 n).2, List.flatMap_append]

theorem ensure_ok {σ : Type} (dp : Dispatcher σ) (c : Bool × List Diag) (h : c = (true, [])) :
    dp.ensure c = dp := by
  subst h
  unfold Dispatcher.ensure
  split
  · simp
  · rfl

theorem names_kind {d : DeclInfo} {k : AnnotationKind} {args : List LiteralValue} (hk : ManyNames k)
    (hd : Documented d ⟨k, args⟩) : ∀ v ∈ args, v.kind = .string := by
  obtain ⟨-, -, f, hf, h⟩ := hd
  cases k <;> first
    | exact hk.elim
    | (simp only [forms, List.mem_cons, List.not_mem_nil, or_false] at hf; subst hf; exact h.2)

theorem apply_split {k : AnnotationKind} {vs ws : List LiteralValue} (hk : ManyNames k) (hv : vs ≠ [])
    (hw : ws ≠ []) (hd : Documented (env.info id) ⟨k, vs ++ ws⟩) {x : DeclAttrs}
    (sh : Shape (env.info id) x) :
    applyAnnotations env id x [⟨k, vs ++ ws⟩] = applyAnnotations env id x [⟨k, vs⟩, ⟨k, ws⟩] := by
  have hs := names_kind hk hd
  obtain ⟨ha, hc, -⟩ := hd
  cases k <;> first | exact hk.elim | skip
  case noconvert | required =>
    exact apply_both env id 10 rfl (by simp [responsible]) (both_variadic id _ vs ws _ hv hw hs)
      (sh.function.2 ha) (fun _ => rfl) (fun _ _ => rfl)
  case onlyExposeIn =>
    exact apply_both env id 1 rfl (by simp [responsible]) (both_variadic id _ vs ws _ hv hw hs)
      (sh.namespace_.2 ha) (fun _ => rfl) (fun _ _ => rfl)
  case getterFor =>
    refine apply_both env id 8 rfl (by simp [responsible]) ?_ (sh.method.2 ha) (fun _ => rfl) (fun _ _ => rfl)
    have e : (if (env.info id).minRequired ≠ 0 ∨ (env.info id).returnsVoid = true
        then (false, invalidSignature id (env.info id) .getterFor) else (true, [])) = (true, []) := by
      rw [if_neg (by rw [hc.1, hc.2]; simp)]
    have := both_collect (σ := MethodDeclAttrs) id .getterFor vs ws (collectIdentifier id .getterFor)
      (fun ids x => if ids.isEmpty then (false, x, [])
        else (true, { x with getterFor := ids.foldl setInsert x.getterFor }, [])) hs
      (fun n => by simp [hv]) (fun n => by simp [hw]) (fun l n => by split <;> rfl)
      (fun n => by simp [hv, hw, List.foldl_append])
    have pe : ∀ args, processMethod id (env.info id) ⟨.getterFor, args⟩ = fun n =>
        ((Dispatcher.start id ⟨.getterFor, args⟩ n).variadicCollect .string (collectIdentifier id .getterFor)
          (fun ids x => if ids.isEmpty then (false, x, [])
            else (true, { x with getterFor := ids.foldl setInsert x.getterFor }, []))).checkMatch := by
      intro args
      funext n
      unfold processMethod
      dsimp only
      rw [ensure_ok _ _ e]
    rw [pe, pe, pe]
    exact this
  case setterFor =>
    refine apply_both env id 8 rfl (by simp [responsible]) ?_ (sh.method.2 ha) (fun _ => rfl) (fun _ _ => rfl)
    have e : (if (env.info id).params.length < 1 ∨ (env.info id).minRequired > 1
        then (false, invalidSignature id (env.info id) .setterFor) else (true, [])) = (true, []) := by
      have h1 : 1 ≤ (env.info id).params.length := hc.1
      have h2 : (env.info id).minRequired ≤ 1 := hc.2
      rw [if_neg (by omega)]
    have := both_collect (σ := MethodDeclAttrs) id .setterFor vs ws (collectIdentifier id .setterFor)
      (fun ids x => if ids.isEmpty then (false, x, [])
        else (true, { x with setterFor := ids.foldl setInsert x.setterFor }, [])) hs
      (fun n => by simp [hv]) (fun n => by simp [hw]) (fun l n => by split <;> rfl)
      (fun n => by simp [hv, hw, List.foldl_append])
    have pe : ∀ args, processMethod id (env.info id) ⟨.setterFor, args⟩ = fun n =>
        ((Dispatcher.start id ⟨.setterFor, args⟩ n).variadicCollect .string (collectIdentifier id .setterFor)
          (fun ids x => if ids.isEmpty then (false, x, [])
            else (true, { x with setterFor := ids.foldl setInsert x.setterFor }, []))).checkMatch := by
      intro args
      funext n
      unfold processMethod
      dsimp only
      rw [ensure_ok _ _ e]
    rw [pe, pe, pe]
    exact this

/-! ### Repetition -/

theorem foldl_setInsert_present {α : Type} [DecidableEq α] (l s : List α) (h : ∀ y ∈ l, y ∈ s) :
    l.foldl setInsert s = s := by
  induction l with
  | nil => rfl
  | cons a l ih =>
    have : setInsert s a = s := if_pos (h a (List.mem_cons_self ..))
    rw [List.foldl_cons, this]
    exact ih fun y hy => h y (List.mem_cons_of_mem _ hy)

theorem foldl_setInsert_again {α : Type} [DecidableEq α] (l s : List α) :
    l.foldl setInsert (l.foldl setInsert s) = l.foldl setInsert s :=
  foldl_setInsert_present _ _ fun y hy => (mem_foldl_setInsert l s y).2 (.inr hy)

/-- A field that is a set. -/
theorem foldCalls_set {σ α : Type} [DecidableEq α] (get : σ → List α) (put : σ → List α → σ)
    (gp : ∀ n u, get (put n u) = u) (pg : ∀ n, put n (get n) = n) (pp : ∀ n u v, put (put n u) v = put n v)
    (f : LiteralValue → Callback σ)
    (hf : ∀ v, (∀ n, (f v n).1 = n) ∨ ∃ i, ∀ n, (f v n).1 = put n (setInsert (get n) i))
    (args : List LiteralValue) : ∃ l : List α, ∀ n, (foldCalls f args n).1 = put n (l.foldl setInsert (get n)) := by
  induction args with
  | nil => exact ⟨[], fun n => (pg n).symm⟩
  | cons v args ih =>
    obtain ⟨l, hl⟩ := ih
    rcases hf v with h | ⟨i, h⟩
    · exact ⟨l, fun n => by simp only [foldCalls]; rw [hl, h]⟩
    · exact ⟨i :: l, fun n => by simp only [foldCalls]; rw [hl, h, gp, pp]; rfl⟩

theorem twice_set {σ α : Type} [DecidableEq α] (get : σ → List α) (put : σ → List α → σ)
    (gp : ∀ n u, get (put n u) = u) (pp : ∀ n u v, put (put n u) v = put n v) (P : σ → σ) (l : List α)
    (h : ∀ n, P n = put n (l.foldl setInsert (get n))) (n : σ) : P (P n) = P n := by
  rw [h (P n), h n, gp, pp, foldl_setInsert_again]

theorem twice_record (a : Annotation) (h : SetValued a.kind) (n : RecordDeclAttrs) :
    (processRecord env id a (processRecord env id a n).attrs).attrs = (processRecord env id a n).attrs := by
  obtain ⟨k, args⟩ := a
  cases k <;> first | exact h.elim | skip
  case hideBase =>
    cases hf : args.find? (fun v => !v.isa .string) with
    | some v =>
      have e : ∀ n, (processRecord env id ⟨.hideBase, args⟩ n).attrs = n := by
        intro n
        simp [processRecord, Dispatcher.variadicCollect, Dispatcher.start, Dispatcher.checkArgKinds, hf, Dispatcher.checkMatch]
      rw [e, e]
    | none =>
      refine twice_set (·.hideBase) (fun n u => { n with hideBase := u }) (fun _ _ => rfl) (fun _ _ _ => rfl)
        (fun n => (processRecord env id ⟨.hideBase, args⟩ n).attrs)
        (selectBases env (args.map fun v => (stringText id v).1) (env.info id).bases) (fun n => ?_) n
      simp [processRecord, Dispatcher.variadicCollect, Dispatcher.start, Dispatcher.checkArgKinds, hf, Dispatcher.checkMatch]
  case inlineBase =>
    cases hf : args.find? (fun v => !v.isa .string) with
    | some v =>
      have e : ∀ n, (processRecord env id ⟨.inlineBase, args⟩ n).attrs = n := by
        intro n
        simp [processRecord, Dispatcher.variadicCollect, Dispatcher.start, Dispatcher.checkArgKinds, hf, Dispatcher.checkMatch]
      rw [e, e]
    | none =>
      refine twice_set (·.inlineBase) (fun n u => { n with inlineBase := u }) (fun _ _ => rfl) (fun _ _ _ => rfl)
        (fun n => (processRecord env id ⟨.inlineBase, args⟩ n).attrs)
        (selectBases env (args.map fun v => (stringText id v).1) (env.info id).allBases) (fun n => ?_) n
      simp [processRecord, Dispatcher.variadicCollect, Dispatcher.start, Dispatcher.checkArgKinds, hf, Dispatcher.checkMatch]
  all_goals rfl

theorem twice_method (d : DeclInfo) (a : Annotation) (h : SetValued a.kind) (n : MethodDeclAttrs) :
    (processMethod id d a (processMethod id d a n).attrs).attrs = (processMethod id d a n).attrs := by
  obtain ⟨k, args⟩ := a
  cases k <;> first | exact h.elim | skip
  case getterFor =>
    have : ∃ l : List Str, ∀ n, (processMethod id d ⟨.getterFor, args⟩ n).attrs =
        { n with getterFor := l.foldl setInsert n.getterFor } := by
      by_cases hc : d.minRequired ≠ 0 ∨ d.returnsVoid = true
      · refine ⟨[], fun n => ?_⟩
        simp only [processMethod]
        rw [if_pos hc]
        simp [Dispatcher.ensure, Dispatcher.variadicCollect, Dispatcher.start, Dispatcher.checkMatch]
      · cases hf : args.find? (fun v => !v.isa .string) with
        | some v =>
          refine ⟨[], fun n => ?_⟩
          simp only [processMethod]
          rw [if_neg hc]
          simp [Dispatcher.ensure, Dispatcher.variadicCollect, Dispatcher.start, Dispatcher.checkArgKinds, hf,
            Dispatcher.checkMatch]
        | none =>
          refine ⟨args.map fun v => (collectIdentifier id .getterFor v).1, fun n => ?_⟩
          simp only [processMethod]
          rw [if_neg hc]
          cases args with
          | nil =>
            simp [Dispatcher.ensure, Dispatcher.variadicCollect, Dispatcher.start, Dispatcher.checkArgKinds,
              Dispatcher.checkMatch]
          | cons v vs =>
            simp [Dispatcher.ensure, Dispatcher.variadicCollect, Dispatcher.start, Dispatcher.checkArgKinds, hf,
              Dispatcher.checkMatch]
    obtain ⟨l, hl⟩ := this
    exact twice_set (·.getterFor) (fun n u => { n with getterFor := u }) (fun _ _ => rfl) (fun _ _ _ => rfl)
      (fun n => (processMethod id d ⟨.getterFor, args⟩ n).attrs) l hl n
  case setterFor =>
    have : ∃ l : List Str, ∀ n, (processMethod id d ⟨.setterFor, args⟩ n).attrs =
        { n with setterFor := l.foldl setInsert n.setterFor } := by
      by_cases hc : d.params.length < 1 ∨ d.minRequired > 1
      · refine ⟨[], fun n => ?_⟩
        simp only [processMethod]
        rw [if_pos hc]
        simp [Dispatcher.ensure, Dispatcher.variadicCollect, Dispatcher.start, Dispatcher.checkMatch]
      · cases hf : args.find? (fun v => !v.isa .string) with
        | some v =>
          refine ⟨[], fun n => ?_⟩
          simp only [processMethod]
          rw [if_neg hc]
          simp [Dispatcher.ensure, Dispatcher.variadicCollect, Dispatcher.start, Dispatcher.checkArgKinds, hf,
            Dispatcher.checkMatch]
        | none =>
          refine ⟨args.map fun v => (collectIdentifier id .setterFor v).1, fun n => ?_⟩
          simp only [processMethod]
          rw [if_neg hc]
          cases args with
          | nil =>
            simp [Dispatcher.ensure, Dispatcher.variadicCollect, Dispatcher.start, Dispatcher.checkArgKinds,
              Dispatcher.checkMatch]
          | cons v vs =>
            simp [Dispatcher.ensure, Dispatcher.variadicCollect, Dispatcher.start, Dispatcher.checkArgKinds, hf,
              Dispatcher.checkMatch]
    obtain ⟨l, hl⟩ := this
    exact twice_set (·.setterFor) (fun n u => { n with setterFor := u }) (fun _ _ => rfl) (fun _ _ _ => rfl)
      (fun n => (processMethod id d ⟨.setterFor, args⟩ n).attrs) l hl n
  all_goals rfl

theorem twice_function (d : DeclInfo) (a : Annotation) (h : SetValued a.kind) (n : FunctionDeclAttrs) :
    (processFunction id d a (processFunction id d a n).attrs).attrs = (processFunction id d a n).attrs := by
  obtain ⟨k, args⟩ := a
  cases k <;> first | exact h.elim | skip
  case noconvert =>
    obtain ⟨l, hl⟩ := foldCalls_set (σ := FunctionDeclAttrs) (·.noconvert) (fun n u => { n with noconvert := u })
      (fun _ _ => rfl) (fun _ => rfl) (fun _ _ _ => rfl)
      (onString id fun s x => match lookupIndex (parameterNames d false false) s with
        | none => (x, invalidArgument id .noconvert s)
        | some i => ({ x with noconvert := setInsert x.noconvert i }, [])) (fun v => by
          cases v <;> try exact .inl fun _ => rfl
          simp only [onString]
          split
          · exact .inl fun _ => rfl
          · exact .inr ⟨_, fun _ => rfl⟩) args
    by_cases hc : args ≠ [] ∧ args.find? (fun v => !v.isa .string) = none
    · refine twice_set (·.noconvert) (fun n u => { n with noconvert := u }) (fun _ _ => rfl) (fun _ _ _ => rfl)
        (fun n => (processFunction id d ⟨.noconvert, args⟩ n).attrs) l (fun n => ?_) n
      rw [← hl n]
      show (((Dispatcher.start id _ n).variadic .string _).checkMatch).attrs = _
      rw [variadic_checkMatch, if_neg hc.1, hc.2]
      rfl
    · have e : ∀ n, (processFunction id d ⟨.noconvert, args⟩ n).attrs = n := by
        intro n
        show (((Dispatcher.start id _ n).variadic .string _).checkMatch).attrs = _
        rw [variadic_checkMatch]
        split
        · rfl
        · rename_i h1
          split
          · rfl
          · rename_i h2
            exact absurd ⟨h1, h2⟩ hc
      rw [e, e]
  case required =>
    obtain ⟨l, hl⟩ := foldCalls_set (σ := FunctionDeclAttrs) (·.required) (fun n u => { n with required := u })
      (fun _ _ => rfl) (fun _ => rfl) (fun _ _ _ => rfl)
      (onString id fun s x => match lookupIndex (parameterNames d false false) s with
        | none => (x, invalidArgument id .required s)
        | some i => ({ x with required := setInsert x.required i }, [])) (fun v => by
          cases v <;> try exact .inl fun _ => rfl
          simp only [onString]
          split
          · exact .inl fun _ => rfl
          · exact .inr ⟨_, fun _ => rfl⟩) args
    by_cases hc : args ≠ [] ∧ args.find? (fun v => !v.isa .string) = none
    · refine twice_set (·.required) (fun n u => { n with required := u }) (fun _ _ => rfl) (fun _ _ _ => rfl)
        (fun n => (processFunction id d ⟨.required, args⟩ n).attrs) l (fun n => ?_) n
      rw [← hl n]
      show (((Dispatcher.start id _ n).variadic .string _).checkMatch).attrs = _
      rw [variadic_checkMatch, if_neg hc.1, hc.2]
      rfl
    · have e : ∀ n, (processFunction id d ⟨.required, args⟩ n).attrs = n := by
        intro n
        show (((Dispatcher.start id _ n).variadic .string _).checkMatch).attrs = _
        rw [variadic_checkMatch]
        split
        · rfl
        · rename_i h1
          split
          · rfl
          · rename_i h2
            exact absurd ⟨h1, h2⟩ hc
      rw [e, e]
  all_goals rfl

theorem apply_again {a : Annotation} (h : SetValued a.kind) (ha : Silent env (env.info id) a) {x : DeclAttrs}
    (sh : Shape (env.info id) x) : applyAnnotations env id x [a, a] = applyAnnotations env id x [a] := by
  have sa := shape_apply env id a x sh
  rw [applyAll_two, applyAll_one, apply_silent env id ha sh]
  have sa' : Shape (env.info id) (applied env id a x) := by rw [← apply_applied]; exact sa
  rw [apply_silent env id ha sa']
  simp only [List.append_nil, Prod.mk.injEq, and_true]
  unfold applied
  have idle : ∀ k args, SetValued k → (∀ n, processNamed id (env.info id) ⟨k, args⟩ n = notHandled n) ∧
      (∀ n, processNamespace id ⟨k, args⟩ n = notHandled n) ∧ (∀ n, processEnum id ⟨k, args⟩ n = notHandled n) ∧
      (∀ n, processTypedef id ⟨k, args⟩ n = notHandled n) ∧
      (∀ n, processFieldOrVar id (env.info id) ⟨k, args⟩ n = notHandled n) ∧
      (∀ n, processConstructor id (env.info id) ⟨k, args⟩ n = notHandled n) := by
    intro k args hk
    cases k <;> first
      | exact hk.elim
      | exact ⟨fun _ => rfl, fun _ => rfl, fun _ => rfl, fun _ => rfl, fun _ => rfl, fun _ => rfl⟩
  obtain ⟨h0, h1, h2, h4, h5, h9⟩ := idle a.kind a.arguments h
  simp only [Option.map_map, Function.comp_def, twice_record env id a h, twice_method id _ a h,
    twice_function id _ a h]
  simp [h0, h1, h2, h4, h5, h9, notHandled]

/-- Interchangeable annotations have the same effect, and the same is reported about them. -/
theorem apply_interchangeable {as bs : List Annotation} (h : Interchangeable env (env.info id) as bs) :
    ∀ x, Shape (env.info id) x → applyAnnotations env id x as = applyAnnotations env id x bs := by
  induction h with
  | refl => exact fun x _ => rfl
  | symm _ _ _ ih => exact fun x sh => (ih x sh).symm
  | trans _ _ _ _ _ ih1 ih2 => exact fun x sh => (ih1 x sh).trans (ih2 x sh)
  | append as bs as' bs' _ _ ih1 ih2 =>
    intro x sh
    rw [applyAll_append, applyAll_append, ih1 x sh, ih2 _ (shape_applyAll env id bs x sh)]
  | hidden =>
    intro x sh
    rw [applyAll_one, applyAll_one]
    exact apply_hidden env id sh
  | flag k h1 h2 =>
    intro x sh
    rw [applyAll_one, applyAll_one]
    exact apply_flag env id h1 h2 sh
  | split k vs ws hk hv hw hd => exact fun x sh => apply_split env id hk hv hw hd sh
  | swap a b hs hb => exact fun x sh => apply_swap env id hs hb sh
  | overridden a b hs h1 h2 ha hb => exact fun x sh => apply_overridden env id hs h1 h2 ha hb sh
  | again a hs ha => exact fun x sh => apply_again env id hs ha sh

/-- Either way, something is written. -/
theorem interchangeable_nil {d : DeclInfo} {as bs : List Annotation} (h : Interchangeable env d as bs) :
    as = [] ↔ bs = [] := by
  induction h with
  | refl => exact Iff.rfl
  | symm _ _ _ ih => exact ih.symm
  | trans _ _ _ _ _ ih1 ih2 => exact ih1.trans ih2
  | append _ _ _ _ _ _ ih1 ih2 => simp [ih1, ih2]
  | _ => simp

end Verif
