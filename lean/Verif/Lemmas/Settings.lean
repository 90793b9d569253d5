import Verif.Lemmas.FunctionAttrs
import Verif.Spec.Settings
/-!
# Lemmas: attributes after a sequence of annotations
-/
set_option linter.unusedSimpArgs false
namespace Verif
open Spec

/-! ### Two ways of combining annotations -/

/-- What annotations of kind `k` add. -/
def Accum {α : Type} (d : DeclInfo) (k : AnnotationKind) (P : List LiteralValue → α → Prop)
    (as : List Annotation) (old new : α → Prop) : Prop :=
  ∀ x, new x ↔ old x ∨ ∃ args, Given d as k args ∧ P args x

/-- The last value wins. -/
def Latest {α : Type} (g : Annotation → Option α) (as : List Annotation) (old new : α) : Prop :=
  new = ((as.filterMap g).getLast?).getD old

section
variable {α : Type} {d : DeclInfo} {k : AnnotationKind} {P : List LiteralValue → α → Prop}
  {as bs : List Annotation} {o n m : α → Prop} {g : Annotation → Option α}

theorem Accum.nil : Accum d k P [] o o := by
  intro x
  simp [Given]

theorem Accum.trans (h1 : Accum d k P as o n) (h2 : Accum d k P bs n m) : Accum d k P (as ++ bs) o m := by
  intro x
  rw [h2 x, h1 x, or_assoc]
  refine or_congr Iff.rfl ?_
  simp only [Given, List.mem_append]
  constructor
  · rintro (⟨args, ⟨h, hd⟩, hp⟩ | ⟨args, ⟨h, hd⟩, hp⟩)
    · exact ⟨args, ⟨.inl h, hd⟩, hp⟩
    · exact ⟨args, ⟨.inr h, hd⟩, hp⟩
  · rintro ⟨args, ⟨h | h, hd⟩, hp⟩
    · exact .inl ⟨args, ⟨h, hd⟩, hp⟩
    · exact .inr ⟨args, ⟨h, hd⟩, hp⟩

theorem Accum.kind {a : Annotation} (h : a.kind ≠ k) : Accum d k P [a] o o := by
  intro x
  constructor
  · exact .inl
  · rintro (h' | ⟨args, ⟨hm, -⟩, -⟩)
    · exact h'
    · simp only [List.mem_singleton] at hm
      subst hm
      exact absurd rfl h

theorem Accum.undoc {a : Annotation} (h : ¬ Documented d a) : Accum d k P [a] o o := by
  intro x
  constructor
  · exact .inl
  · rintro (h' | ⟨args, ⟨hm, hd⟩, -⟩)
    · exact h'
    · simp only [List.mem_singleton] at hm
      subst hm
      exact absurd hd h

theorem Accum.one {args : List LiteralValue} (hd : Documented d ⟨k, args⟩)
    (h : ∀ x, n x ↔ o x ∨ P args x) : Accum d k P [⟨k, args⟩] o n := by
  intro x
  rw [h x]
  refine or_congr Iff.rfl ⟨fun hp => ⟨args, ⟨by simp, hd⟩, hp⟩, ?_⟩
  rintro ⟨args', ⟨hm, -⟩, hp⟩
  simp only [List.mem_singleton, Annotation.mk.injEq, true_and] at hm
  subst hm
  exact hp

theorem Latest.nil {v : α} : Latest g [] v v := rfl

theorem Latest.trans {u v w : α} (h1 : Latest g as u v) (h2 : Latest g bs v w) : Latest g (as ++ bs) u w := by
  unfold Latest at *
  rw [List.filterMap_append, List.getLast?_append, h2, h1]
  cases (bs.filterMap g).getLast? <;> rfl

theorem Latest.skip {a : Annotation} {v : α} (h : g a = none) : Latest g [a] v v := by
  simp [Latest, h]

theorem Latest.one {a : Annotation} {u v : α} (h : g a = some v) : Latest g [a] u v := by
  simp [Latest, h]
end

theorem switchOf_kind {k : AnnotationKind} {a : Annotation} (h : a.kind ≠ k) : switchOf k a = none := by
  obtain ⟨k', args⟩ := a
  unfold switchOf
  split
  · rename_i heq
    cases heq
    exact if_neg h
  · rename_i heq
    cases heq
    exact if_neg h
  · rfl

theorem switchOf_undoc {k : AnnotationKind} {d : DeclInfo} {a : Annotation}
    (hf : forms k = [.bare, .one .boolean]) (hap : Applies k d) (hs : SideCondition k d)
    (h : ¬ Documented d a) : switchOf k a = none := by
  obtain ⟨k', args⟩ := a
  unfold switchOf
  split
  · rename_i heq
    cases heq
    split
    · rename_i e
      subst e
      exact absurd ⟨hap, hs, .bare, by rw [hf]; simp, by simp [Form.Accepts]⟩ h
    · rfl
  · rename_i b heq
    cases heq
    split
    · rename_i e
      subst e
      exact absurd ⟨hap, hs, .one .boolean, by rw [hf]; simp, by simp [Form.Accepts, LiteralValue.kind]⟩ h
    · rfl
  · rfl

/-- The arguments of a documented switch. -/
theorem switch_args {k : AnnotationKind} {d : DeclInfo} {args : List LiteralValue}
    (hf : forms k = [.bare, .one .boolean]) (h : Documented d ⟨k, args⟩) :
    args = [] ∨ ∃ b, args = [.boolean b] := by
  obtain ⟨-, -, f, hm, hacc⟩ := h
  rw [hf] at hm
  simp only [List.mem_cons, List.not_mem_nil, or_false] at hm
  rcases hm with rfl | rfl
  · exact .inl hacc
  · rcases args with _ | ⟨v, _ | ⟨w, r⟩⟩ <;> simp [Form.Accepts] at hacc
    cases v <;> simp [LiteralValue.kind] at hacc
    exact .inr ⟨_, rfl⟩

theorem textOf_kind {k : AnnotationKind} {a : Annotation} (h : a.kind ≠ k) : textOf k a = none := by
  obtain ⟨k', args⟩ := a
  unfold textOf
  split
  · rename_i heq
    cases heq
    exact if_neg h
  · rfl

/-! ### Parts that are left alone -/

theorem effect_frames (env : DeclEnv) (d : DeclInfo) (a : Annotation) (x y : DeclAttrs)
    (h : Effect env d a x y) :
    (responsible a.kind 1 = false → y.namespace_ = x.namespace_) ∧
    (responsible a.kind 2 = false → y.enum = x.enum) ∧
    (responsible a.kind 3 = false → y.record = x.record) ∧
    (responsible a.kind 5 = false → y.fieldOrVar = x.fieldOrVar) ∧
    (responsible a.kind 8 = false → y.method = x.method) ∧
    (responsible a.kind 9 = false → y.constructor = x.constructor) := by
  obtain ⟨k, args⟩ := a
  cases k
  case keepAlive =>
    simp only [Effect] at h
    obtain ⟨s, t, -, h1, h2⟩ := h
    obtain ⟨f, rfl⟩ := keepAlive_cases h1 h2
    exact ⟨fun _ => rfl, fun _ => rfl, fun _ => rfl, fun _ => rfl, fun _ => rfl, fun _ => rfl⟩
  case exposeAs =>
    rcases args with _ | ⟨v, _ | ⟨w, r⟩⟩
    · simp only [Effect] at h; rw [h]; simp
    · cases v <;> simp only [Effect] at h
      case string =>
        rename_i s
        by_cases hv : ValidIdent s
        · rw [h.1 hv]; simp
        · rw [h.2 hv]; simp
      all_goals rw [h]; simp
    · simp only [Effect] at h; rw [h]; simp
  case module =>
    rcases args with _ | ⟨v, _ | ⟨w, r⟩⟩
    · simp only [Effect] at h; rw [h]; simp [responsible]
    · cases v <;> simp only [Effect] at h
      case string =>
        rename_i s
        by_cases hv : ValidIdent s
        · rw [h.1 hv]; simp [responsible]
        · rw [h.2 hv]; simp [responsible]
      all_goals rw [h]; simp [responsible]
    · simp only [Effect] at h; rw [h]; simp [responsible]
  all_goals
    unfold Effect at h; simp only at h
    try split at h
    all_goals first
      | contradiction
      | (subst h; simp [responsible])
      | (obtain ⟨_, _, rfl⟩ := h; simp [responsible])
      | (obtain ⟨_, _, _, rfl, _⟩ := h; simp [responsible])

/-- One part of the attributes after a sequence of annotations. -/
theorem part_all {σ : Type} (env : DeclEnv) (id : Nat) (get : DeclAttrs → Option σ)
    (R : List Annotation → σ → σ → Prop) (hnil : ∀ v, R [] v v)
    (htrans : ∀ as bs u v w, R as u v → R bs v w → R (as ++ bs) u w)
    (hstep : ∀ a x v, Shape (env.info id) x → get x = some v →
      ∃ v', get (applyAnnotation env id x a).1 = some v' ∧ R [a] v v')
    (as : List Annotation) (x : DeclAttrs) (sh : Shape (env.info id) x) (v : σ) (hx : get x = some v) :
    ∃ v', get (applyAnnotations env id x as).1 = some v' ∧ R as v v' := by
  induction as generalizing x v with
  | nil => exact ⟨v, by simpa [applyAnnotations] using hx, hnil v⟩
  | cons a as ih =>
    obtain ⟨u, hu, h1⟩ := hstep a x v sh hx
    obtain ⟨w, hw, h2⟩ := ih _ (shape_apply env id a x sh) u hu
    refine ⟨w, by simpa [applyAnnotations] using hw, ?_⟩
    simpa using htrans [a] as v u w h1 h2

/-- The steps, given what happens for documented annotations. -/
theorem part_step {σ : Type} (env : DeclEnv) (id : Nat) (get : DeclAttrs → Option σ) (i : Nat)
    (R : List Annotation → σ → σ → Prop)
    (hframe : ∀ a x y, Effect env (env.info id) a x y → responsible a.kind i = false → get y = get x)
    (hother : ∀ a v, responsible a.kind i = false → R [a] v v)
    (hundoc : ∀ a v x, Shape (env.info id) x → get x = some v → ¬ Documented (env.info id) a → R [a] v v)
    (hdoc : ∀ a x y v, Shape (env.info id) x → Documented (env.info id) a → responsible a.kind i = true →
      Effect env (env.info id) a x y → get x = some v → ∃ v', get y = some v' ∧ R [a] v v')
    (a : Annotation) (x : DeclAttrs) (v : σ) (sh : Shape (env.info id) x) (hx : get x = some v) :
    ∃ v', get (applyAnnotation env id x a).1 = some v' ∧ R [a] v v' := by
  by_cases hd : Documented (env.info id) a
  · obtain ⟨he, -, -⟩ := apply_documented env id a x sh hd
    cases hr : responsible a.kind i with
    | false => exact ⟨v, by rw [hframe a x _ he hr, hx], hother a v hr⟩
    | true => exact hdoc a x _ v sh hd hr he hx
  · exact ⟨v, by rw [(apply_undocumented env id a x sh hd).1, hx], hundoc a v x sh hx hd⟩

/-! ### The parts -/

/-- Namespaces. -/
def NsR (d : DeclInfo) (as : List Annotation) (u v : NamespaceDeclAttrs) : Prop :=
  Accum (α := Unit) d .module (fun _ _ => True) as (fun _ => u.module = true) (fun _ => v.module = true) ∧
  Accum d .onlyExposeIn (fun args s => .string s ∈ args) as (· ∈ u.onlyExposeIn) (· ∈ v.onlyExposeIn)

theorem ns_step (env : DeclEnv) (id : Nat) (a : Annotation) (x : DeclAttrs) (v : NamespaceDeclAttrs)
    (sh : Shape (env.info id) x) (hx : x.namespace_ = some v) :
    ∃ v', (applyAnnotation env id x a).1.namespace_ = some v' ∧ NsR (env.info id) [a] v v' := by
  refine part_step env id (·.namespace_) 1 (NsR (env.info id))
    (fun a x y h => (effect_frames env _ a x y h).1) ?_ ?_ ?_ a x v sh hx
  · intro a v h
    refine ⟨.kind ?_, .kind ?_⟩ <;> (intro e; rw [e] at h; simp [responsible] at h)
  · exact fun a v x _ _ h => ⟨.undoc h, .undoc h⟩
  · intro a x y v sh hd hr he hx
    obtain ⟨k, args⟩ := a
    cases k <;> simp [responsible] at hr
    case module =>
      have hy : y.namespace_ = some { v with module := true } := by
        rcases args with _ | ⟨l, _ | ⟨w, r⟩⟩
        · simp only [Effect] at he; rw [he]; simp [hx]
        · cases l <;> simp only [Effect] at he
          case string =>
            rename_i s
            by_cases hv : ValidIdent s
            · rw [he.1 hv]; simp [hx]
            · rw [he.2 hv]; simp [hx]
          all_goals rw [he]; simp [hx]
        · simp only [Effect] at he; rw [he]; simp [hx]
      exact ⟨_, hy, .one hd (by simp), .kind (by simp)⟩
    case onlyExposeIn =>
      simp only [Effect] at he
      obtain ⟨names, rfl, rfl⟩ := he
      refine ⟨_, congrArg (Option.map _) hx, .kind (by simp), .one hd ?_⟩
      intro s
      simp

/-- Enumerations. -/
def EnumR (as : List Annotation) (u v : EnumDeclAttrs) : Prop :=
  Latest (switchOf .arithmetic) as u.arithmetic v.arithmetic ∧
  Latest (fun a => (switchOf .exportValues a).map some) as u.exportValues v.exportValues

theorem enum_step (env : DeclEnv) (id : Nat) (a : Annotation) (x : DeclAttrs) (v : EnumDeclAttrs)
    (sh : Shape (env.info id) x) (hx : x.enum = some v) :
    ∃ v', (applyAnnotation env id x a).1.enum = some v' ∧ EnumR [a] v v' := by
  refine part_step env id (·.enum) 2 EnumR
    (fun a x y h => (effect_frames env _ a x y h).2.1) ?_ ?_ ?_ a x v sh hx
  · intro a v h
    refine ⟨.skip (switchOf_kind ?_), .skip (Option.map_eq_none_iff.2 (switchOf_kind ?_))⟩ <;>
      (intro e; rw [e] at h; simp [responsible] at h)
  · intro a v x sh hx h
    have hk : (env.info id).kind = .enum := sh.enum.1 (by rw [hx]; rfl)
    exact ⟨.skip (switchOf_undoc rfl hk trivial h), .skip (Option.map_eq_none_iff.2
      (switchOf_undoc rfl hk trivial h))⟩
  · intro a x y v sh hd hr he hx
    obtain ⟨k, args⟩ := a
    cases k <;> simp [responsible] at hr
    case arithmetic =>
      rcases switch_args rfl hd with rfl | ⟨b, rfl⟩ <;> simp only [Effect] at he <;> subst he
      · exact ⟨_, congrArg (Option.map _) hx, .one rfl, .skip rfl⟩
      · exact ⟨_, congrArg (Option.map _) hx, .one rfl, .skip rfl⟩
    case exportValues =>
      rcases switch_args rfl hd with rfl | ⟨b, rfl⟩ <;> simp only [Effect] at he <;> subst he
      · exact ⟨_, congrArg (Option.map _) hx, .skip rfl, .one rfl⟩
      · exact ⟨_, congrArg (Option.map _) hx, .skip rfl, .one rfl⟩

/-- Classes. -/
def RecordR (env : DeclEnv) (d : DeclInfo) (as : List Annotation) (u v : RecordDeclAttrs) : Prop :=
  Latest (switchOf .dynamicAttr) as u.dynamicAttr v.dynamicAttr ∧
  Latest (textOf .holderType) as u.holderType v.holderType ∧
  Accum d .hideBase (fun args b => b ∈ d.bases ∧ SelectsBase env args b) as (· ∈ u.hideBase) (· ∈ v.hideBase) ∧
  Accum d .inlineBase (fun args b => b ∈ d.allBases ∧ SelectsBase env args b) as (· ∈ u.inlineBase)
    (· ∈ v.inlineBase)

theorem textOf_undoc {k : AnnotationKind} {d : DeclInfo} {a : Annotation}
    (hf : forms k = [.one .string]) (hap : Applies k d) (hs : SideCondition k d)
    (h : ¬ Documented d a) : textOf k a = none := by
  obtain ⟨k', args⟩ := a
  unfold textOf
  split
  · rename_i b heq
    cases heq
    split
    · rename_i e
      subst e
      exact absurd ⟨hap, hs, .one .string, by rw [hf]; simp, by simp [Form.Accepts, LiteralValue.kind]⟩ h
    · rfl
  · rfl

theorem record_step (env : DeclEnv) (id : Nat) (a : Annotation) (x : DeclAttrs) (v : RecordDeclAttrs)
    (sh : Shape (env.info id) x) (hx : x.record = some v) :
    ∃ v', (applyAnnotation env id x a).1.record = some v' ∧ RecordR env (env.info id) [a] v v' := by
  refine part_step env id (·.record) 3 (RecordR env (env.info id))
    (fun a x y h => (effect_frames env _ a x y h).2.2.1) ?_ ?_ ?_ a x v sh hx
  · intro a v h
    refine ⟨.skip (switchOf_kind ?_), .skip (textOf_kind ?_), .kind ?_, .kind ?_⟩ <;>
      (intro e; rw [e] at h; simp [responsible] at h)
  · intro a v x sh hx h
    have hk : (env.info id).kind = .record := sh.record.1 (by rw [hx]; rfl)
    exact ⟨.skip (switchOf_undoc rfl hk trivial h), .skip (textOf_undoc rfl hk trivial h), .undoc h, .undoc h⟩
  · intro a x y v sh hd hr he hx
    obtain ⟨k, args⟩ := a
    cases k <;> simp [responsible] at hr
    case dynamicAttr =>
      rcases switch_args rfl hd with rfl | ⟨b, rfl⟩ <;> simp only [Effect] at he <;> subst he
      · exact ⟨_, congrArg (Option.map _) hx, .one rfl, .skip rfl, .kind (by simp), .kind (by simp)⟩
      · exact ⟨_, congrArg (Option.map _) hx, .one rfl, .skip rfl, .kind (by simp), .kind (by simp)⟩
    case hideBase =>
      simp only [Effect] at he
      obtain ⟨r, r', h0, rfl, hr', hadd⟩ := he
      rw [hx] at h0; cases h0
      refine ⟨r', rfl, ?_, ?_, .one hd hadd, ?_⟩ <;> rw [hr']
      · exact .skip (switchOf_kind (by simp))
      · exact .skip (textOf_kind (by simp))
      · exact .kind (by simp)
    case inlineBase =>
      simp only [Effect] at he
      obtain ⟨r, r', h0, rfl, hr', hadd⟩ := he
      rw [hx] at h0; cases h0
      refine ⟨r', rfl, ?_, ?_, ?_, .one hd hadd⟩ <;> rw [hr']
      · exact .skip (switchOf_kind (by simp))
      · exact .skip (textOf_kind (by simp))
      · exact .kind (by simp)
    case holderType =>
      simp only [Effect] at he
      obtain ⟨s, rfl, rfl⟩ := he
      exact ⟨_, congrArg (Option.map _) hx, .skip rfl, .one rfl, .kind (by simp), .kind (by simp)⟩

/-- Aliases. -/
def TypedefR (d : DeclInfo) (as : List Annotation) (u v : TypedefNameDeclAttrs) : Prop :=
  Accum (α := Unit) d .encourage (fun _ _ => True) as (fun _ => u.encourage = true) (fun _ => v.encourage = true) ∧
  Accum (α := Unit) d .exposeHere (fun _ _ => True) as (fun _ => u.exposeHere = true)
    (fun _ => v.exposeHere = true)

theorem typedef_step (env : DeclEnv) (id : Nat) (a : Annotation) (x : DeclAttrs) (v : TypedefNameDeclAttrs)
    (sh : Shape (env.info id) x) (hx : x.typedefName = some v) :
    ∃ v', (applyAnnotation env id x a).1.typedefName = some v' ∧ TypedefR (env.info id) [a] v v' := by
  refine part_step env id (·.typedefName) 4 (TypedefR (env.info id))
    (fun a x y h => (effect_frame env _ a x y h).2) ?_ ?_ ?_ a x v sh hx
  · intro a v h
    refine ⟨.kind ?_, .kind ?_⟩ <;> (intro e; rw [e] at h; simp [responsible] at h)
  · exact fun a v x _ _ h => ⟨.undoc h, .undoc h⟩
  · intro a x y v sh hd hr he hx
    obtain ⟨k, args⟩ := a
    cases k <;> simp [responsible] at hr
    case encourage =>
      simp only [Effect] at he
      subst he
      exact ⟨_, congrArg (Option.map _) hx, .one hd (by simp), .kind (by simp)⟩
    case exposeHere =>
      simp only [Effect] at he
      subst he
      exact ⟨_, congrArg (Option.map _) hx, .kind (by simp), .one hd (by simp)⟩

theorem manualLambda_unique {d : DeclInfo} {l m : Nat} (h1 : IsManualLambda d l) (h2 : IsManualLambda d m) :
    l = m := by
  obtain ⟨-, x, hx, rfl, -⟩ := h1
  obtain ⟨-, y, hy, rfl, -⟩ := h2
  rw [hx] at hy
  cases hy
  rfl

/-- Fields and variables. -/
def VarR (d : DeclInfo) (as : List Annotation) (u v : FieldOrVarDeclAttrs) : Prop :=
  Latest (switchOf .readonly) as u.readonly v.readonly ∧
  ((∀ l, u.manualBindings = some l → IsManualLambda d l) →
    (∀ l, v.manualBindings = some l → IsManualLambda d l) ∧
    Accum d .manual (fun _ l => IsManualLambda d l) as (fun l => u.manualBindings = some l)
      (fun l => v.manualBindings = some l)) ∧
  Accum (α := Unit) d .postamble (fun _ _ => True) as (fun _ => u.postamble = true) (fun _ => v.postamble = true)

theorem var_step (env : DeclEnv) (id : Nat) (a : Annotation) (x : DeclAttrs) (v : FieldOrVarDeclAttrs)
    (sh : Shape (env.info id) x) (hx : x.fieldOrVar = some v) :
    ∃ v', (applyAnnotation env id x a).1.fieldOrVar = some v' ∧ VarR (env.info id) [a] v v' := by
  refine part_step env id (·.fieldOrVar) 5 (VarR (env.info id))
    (fun a x y h => (effect_frames env _ a x y h).2.2.2.1) ?_ ?_ ?_ a x v sh hx
  · intro a v h
    refine ⟨.skip (switchOf_kind ?_), fun hm => ⟨hm, .kind ?_⟩, .kind ?_⟩ <;>
      (intro e; rw [e] at h; simp [responsible] at h)
  · intro a v x sh hx h
    have hk : (env.info id).kind = .field ∨ (env.info id).kind = .var := sh.fieldOrVar.1 (by rw [hx]; rfl)
    exact ⟨.skip (switchOf_undoc rfl hk trivial h), fun hm => ⟨hm, .undoc h⟩, .undoc h⟩
  · intro a x y v sh hd hr he hx
    obtain ⟨k, args⟩ := a
    cases k <;> simp [responsible] at hr
    case readonly =>
      rcases switch_args rfl hd with rfl | ⟨b, rfl⟩ <;> simp only [Effect] at he <;> subst he
      · exact ⟨_, congrArg (Option.map _) hx, .one rfl, fun hm => ⟨hm, .kind (by simp)⟩, .kind (by simp)⟩
      · exact ⟨_, congrArg (Option.map _) hx, .one rfl, fun hm => ⟨hm, .kind (by simp)⟩, .kind (by simp)⟩
    case manual =>
      simp only [Effect] at he
      obtain ⟨l, hl, rfl⟩ := he
      refine ⟨_, congrArg (Option.map _) hx, .skip (switchOf_kind (by simp)), fun hm => ⟨?_, .one hd ?_⟩, .kind (by simp)⟩
      · intro m hm
        cases hm
        exact hl
      · intro m
        constructor
        · intro hm
          cases hm
          exact .inr hl
        · rintro (h | h)
          · rw [manualLambda_unique (hm m h) hl]
          · rw [manualLambda_unique h hl]
    case postamble =>
      simp only [Effect] at he
      subst he
      exact ⟨_, congrArg (Option.map _) hx, .skip (switchOf_kind (by simp)), fun hm => ⟨hm, .kind (by simp)⟩,
        .one hd (by simp)⟩

/-- Methods. -/
def MethodR (d : DeclInfo) (as : List Annotation) (u v : MethodDeclAttrs) : Prop :=
  Accum d .getterFor (fun args s => s ≠ [] ∧ ValidIdent s ∧ .string s ∈ args) as
    (fun s => s ≠ [] ∧ s ∈ u.getterFor) (fun s => s ≠ [] ∧ s ∈ v.getterFor) ∧
  Accum d .setterFor (fun args s => s ≠ [] ∧ ValidIdent s ∧ .string s ∈ args) as
    (fun s => s ≠ [] ∧ s ∈ u.setterFor) (fun s => s ≠ [] ∧ s ∈ v.setterFor)

theorem method_step (env : DeclEnv) (id : Nat) (a : Annotation) (x : DeclAttrs) (v : MethodDeclAttrs)
    (sh : Shape (env.info id) x) (hx : x.method = some v) :
    ∃ v', (applyAnnotation env id x a).1.method = some v' ∧ MethodR (env.info id) [a] v v' := by
  refine part_step env id (·.method) 8 (MethodR (env.info id))
    (fun a x y h => (effect_frames env _ a x y h).2.2.2.2.1) ?_ ?_ ?_ a x v sh hx
  · intro a v h
    refine ⟨.kind ?_, .kind ?_⟩ <;> (intro e; rw [e] at h; simp [responsible] at h)
  · exact fun a v x _ _ h => ⟨.undoc h, .undoc h⟩
  · intro a x y v sh hd hr he hx
    obtain ⟨k, args⟩ := a
    have hadd : ∀ (P : Str → Prop) (l l' : List Str),
        (∀ s, s ≠ [] → (s ∈ l' ↔ s ∈ l ∨ P s)) →
        ∀ s, (s ≠ [] ∧ s ∈ l') ↔ (s ≠ [] ∧ s ∈ l) ∨ (s ≠ [] ∧ P s) := by
      intro P l l' h s
      rw [← and_or_left]
      exact and_congr_right fun hs => h s hs
    cases k <;> simp [responsible] at hr
    case getterFor =>
      simp only [Effect] at he
      obtain ⟨m, m', h0, rfl, hs, hg⟩ := he
      rw [hx] at h0; cases h0
      refine ⟨m', rfl, .one hd (hadd _ _ _ hg), ?_⟩
      rw [hs]
      exact .kind (by simp)
    case setterFor =>
      simp only [Effect] at he
      obtain ⟨m, m', h0, rfl, hs, hg⟩ := he
      rw [hx] at h0; cases h0
      refine ⟨m', rfl, ?_, .one hd (hadd _ _ _ hg)⟩
      rw [hs]
      exact .kind (by simp)

open Classical in
/-- `implicit_conversion`, if the side condition is met. -/
noncomputable def implicitOf (d : DeclInfo) (a : Annotation) : Option Bool :=
  if SideCondition .implicitConversion d then switchOf .implicitConversion a else none

theorem ctor_step (env : DeclEnv) (id : Nat) (a : Annotation) (x : DeclAttrs) (v : ConstructorDeclAttrs)
    (sh : Shape (env.info id) x) (hx : x.constructor = some v) :
    ∃ v', (applyAnnotation env id x a).1.constructor = some v' ∧
      Latest (implicitOf (env.info id)) [a] v.implicitConversion v'.implicitConversion := by
  refine part_step env id (·.constructor) 9
    (fun as u v => Latest (implicitOf (env.info id)) as u.implicitConversion v.implicitConversion)
    (fun a x y h => (effect_frames env _ a x y h).2.2.2.2.2) ?_ ?_ ?_ a x v sh hx
  · intro a v h
    refine .skip ?_
    unfold implicitOf
    rw [switchOf_kind (by intro e; rw [e] at h; simp [responsible] at h), ite_self]
  · intro a v x sh hx h
    have hk : (env.info id).kind = .constructor := sh.constructor.1 (by rw [hx]; rfl)
    refine .skip ?_
    unfold implicitOf
    split
    · rename_i hs
      exact switchOf_undoc rfl hk hs h
    · rfl
  · intro a x y v sh hd hr he hx
    obtain ⟨k, args⟩ := a
    cases k <;> simp [responsible] at hr
    case implicitConversion =>
      have hs : SideCondition .implicitConversion (env.info id) := hd.2.1
      rcases switch_args rfl hd with rfl | ⟨b, rfl⟩ <;> simp only [Effect] at he <;> subst he
      · exact ⟨_, congrArg (Option.map _) hx, .one (by unfold implicitOf; rw [if_pos hs]; rfl)⟩
      · exact ⟨_, congrArg (Option.map _) hx, .one (by unfold implicitOf; rw [if_pos hs]; rfl)⟩

end Verif
