import Verif.Lemmas.DiagKinds
import Verif.Lemmas.AnnotationSeq
import Verif.Lemmas.ViablePrefix
import Verif.Props.Parsing
/-!
# What is said about one annotation
-/
namespace Verif
open Spec

namespace Dispatcher
variable {σ : Type} {P : Diag → Prop} {id : Nat} {a : Annotation}

/-- The dispatcher is about this annotation, has reported only what satisfies `P`, and remembers
an argument of the wrong kind. -/
structure Going (id : Nat) (a : Annotation) (P : Diag → Prop) (d : Dispatcher σ) : Prop where
  decl : d.decl = id
  kind : d.kind = a.kind
  args : d.args = a.arguments
  diags : ∀ g ∈ d.diags, P g
  mismatch : ∀ v, d.mismatch = some v → v ∈ a.arguments ∧ (a.arguments = [v] ∨ v.kind ≠ .string)

theorem going_start (x : σ) : (start id a x).Going id a P :=
  ⟨rfl, rfl, rfl, by simp [start], by simp [start]⟩

theorem going_call {d : Dispatcher σ} (h : d.Going id a P) {f : Callback σ}
    (hf : ∀ x, ∀ g ∈ (f x).2, P g) : (d.call f).Going id a P :=
  ⟨h.decl, h.kind, h.args, rep_append h.diags (hf _), h.mismatch⟩

theorem going_matched {d : Dispatcher σ} (h : d.Going id a P) :
    Going id a P { d with state := .matched } :=
  ⟨h.decl, h.kind, h.args, h.diags, h.mismatch⟩

theorem checkArgKinds_true {d : Dispatcher σ} {k : LiteralKind} (h : (d.checkArgKinds k).1 = true) :
    (d.checkArgKinds k).2 = d ∧ ∀ v ∈ d.args, v.kind = k := by
  unfold checkArgKinds at h ⊢
  split at h
  · cases h
  · rename_i hf
    refine ⟨rfl, fun v hv => ?_⟩
    have := List.find?_eq_none.1 hf v hv
    simpa [LiteralValue.isa] using this

theorem going_checkArgKinds {d : Dispatcher σ} (h : d.Going id a P) (k : LiteralKind)
    (hk : k = .string ∨ ∃ v, d.args = [v]) : (d.checkArgKinds k).2.Going id a P := by
  unfold checkArgKinds
  split
  · rename_i v hv
    refine ⟨h.decl, h.kind, h.args, h.diags, ?_⟩
    intro u hu
    simp only [Option.some.injEq] at hu
    subst hu
    have hm := List.mem_of_find?_eq_some hv
    refine ⟨h.args ▸ hm, ?_⟩
    rcases hk with rfl | ⟨u, hu⟩
    · right
      have := List.find?_some hv
      simpa [LiteralValue.isa] using this
    · left
      rw [← h.args, hu]
      rw [hu] at hm
      simp only [List.mem_singleton] at hm
      rw [hm]
  · exact h

theorem going_nullary {d : Dispatcher σ} {f : Callback σ} (h : d.Going id a P)
    (hf : ∀ x, ∀ g ∈ (f x).2, P g) : (d.nullary f).Going id a P := by
  unfold nullary
  split
  · exact going_matched (going_call h hf)
  · exact h

theorem going_unary {d : Dispatcher σ} {k : LiteralKind} {f : LiteralValue → Callback σ}
    (h : d.Going id a P) (hf : ∀ v, a.arguments = [v] → v.kind = k → ∀ x, ∀ g ∈ (f v x).2, P g) :
    (d.unary k f).Going id a P := by
  unfold unary
  split
  · split
    · rename_i v hv
      have hc := going_checkArgKinds h k (.inr ⟨v, hv⟩)
      dsimp only
      split
      · rename_i ht
        obtain ⟨h1, h2⟩ := checkArgKinds_true ht
        exact going_matched (going_call hc (hf v (h.args ▸ hv) (h2 v (by simp [hv]))))
      · exact hc
    · exact h
  · exact h

theorem going_binary {d : Dispatcher σ} {f : LiteralValue → LiteralValue → Callback σ}
    (h : d.Going id a P) (hf : ∀ v u, a.arguments = [v, u] → v.kind = .string → u.kind = .string →
      ∀ x, ∀ g ∈ (f v u x).2, P g) : (d.binary .string f).Going id a P := by
  unfold binary
  split
  · split
    · rename_i v u hv
      have hc := going_checkArgKinds h .string (.inl rfl)
      dsimp only
      split
      · rename_i ht
        obtain ⟨h1, h2⟩ := checkArgKinds_true ht
        exact going_matched (going_call hc (hf v u (h.args ▸ hv) (h2 v (by simp [hv])) (h2 u (by simp [hv]))))
      · exact hc
    · exact h
  · exact h

theorem going_variadic {d : Dispatcher σ} {f : LiteralValue → Callback σ} (h : d.Going id a P)
    (hf : ∀ v ∈ a.arguments, v.kind = .string → ∀ x, ∀ g ∈ (f v x).2, P g) :
    (d.variadic .string f).Going id a P := by
  unfold variadic
  split
  · have hc := going_checkArgKinds h .string (.inl rfl)
    dsimp only
    split
    · rename_i ht
      obtain ⟨h1, h2⟩ := checkArgKinds_true ht
      rw [h1]
      have : ∀ (l : List LiteralValue), (∀ v ∈ l, v ∈ a.arguments ∧ v.kind = .string) →
          ∀ e : Dispatcher σ, e.Going id a P → (l.foldl (fun d v => d.call (f v)) e).Going id a P := by
        intro l
        induction l with
        | nil => exact fun _ e he => he
        | cons v l ih =>
          exact fun hl e he => ih (fun u hu => hl u (by simp [hu])) _
            (going_call he (hf v (hl v (by simp)).1 (hl v (by simp)).2))
      exact going_matched (this _ (fun v hv => ⟨h.args ▸ hv, h2 v hv⟩) _ h)
    · exact hc
  · exact h

theorem going_variadicCollect {d : Dispatcher σ} {transform : LiteralValue → Str × List Diag}
    {process : List Str → σ → Bool × σ × List Diag} (h : d.Going id a P)
    (ht : ∀ v ∈ a.arguments, v.kind = .string → ∀ g ∈ (transform v).2, P g)
    (hp : (∀ v ∈ a.arguments, v.kind = .string) →
      ∀ x, ∀ g ∈ (process (a.arguments.map fun v => (transform v).1) x).2.2, P g) :
    (d.variadicCollect .string transform process).Going id a P := by
  unfold variadicCollect
  split
  · have hc := going_checkArgKinds h .string (.inl rfl)
    dsimp only
    split
    · rename_i hk
      obtain ⟨h1, h2⟩ := checkArgKinds_true hk
      rw [h1]
      refine ⟨h.decl, h.kind, h.args, rep_append (rep_append h.diags ?_) ?_, h.mismatch⟩
      · intro g hg
        obtain ⟨v, hv, hg⟩ := List.mem_flatMap.1 hg
        exact ht v (h.args ▸ hv) (h2 v hv) g hg
      · rw [h.args]
        exact hp (fun v hv => h2 v (h.args ▸ hv)) _
    · exact hc
  · exact h

theorem going_onMatch {d : Dispatcher σ} {f : σ → List Diag} (h : d.Going id a P)
    (hf : ∀ x, ∀ g ∈ f x, P g) : (d.onMatch f).Going id a P := by
  unfold onMatch
  split
  · exact ⟨h.decl, h.kind, h.args, rep_append h.diags (hf _), h.mismatch⟩
  · exact h

end Dispatcher

open Dispatcher

/-- What can be reported about an annotation, before the declaration is taken into account. -/
inductive Says (env : DeclEnv) (id : Nat) (a : Annotation) : Diag → Prop where
  | type (v : LiteralValue) : SideCondition a.kind (env.info id) → v ∈ a.arguments →
      (a.arguments = [v] ∨ v.kind ≠ .string) →
      Says env id a ⟨id, .wrongArgumentType, [kindText a.kind, v.print]⟩
  | number : SideCondition a.kind (env.info id) →
      Says env id a ⟨id, .wrongNumberOfArguments, [kindText a.kind]⟩
  | conflict : a.kind = .encourage ∨ a.kind = .exposeHere →
      Says env id a ⟨id, .conflictingAnnotations, [kindText .encourage, kindText .exposeHere]⟩
  | complaint (g : Diag) : g.kind ≠ .wrongArgumentType → g.kind ≠ .wrongNumberOfArguments →
      (Applies a.kind (env.info id) → Complaint env id a g) → Says env id a g

section
variable {env : DeclEnv} {id : Nat} {a : Annotation} {σ : Type}

theorem says_checkMatch {d : Dispatcher σ} (hs : SideCondition a.kind (env.info id))
    (h : d.Going id a (Says env id a)) : ∀ g ∈ d.checkMatch.diags, Says env id a g := by
  refine rep_append h.diags ?_
  split
  · split
    · rename_i v hv
      intro g hg
      simp only [List.mem_singleton] at hg
      subst hg
      rw [h.decl, h.kind]
      exact .type v hs (h.mismatch v hv).1 (h.mismatch v hv).2
    · intro g hg
      simp only [List.mem_singleton] at hg
      subst hg
      rw [h.decl, h.kind]
      exact .number hs
  · simp

theorem says_modify (f : σ → σ) (x : σ) : ∀ g ∈ (modify f x).2, Says env id a g := by simp [modify]

theorem says_nil : ∀ g ∈ ([] : List Diag), Says env id a g := by simp

theorem says_one {g : Diag} (h : Says env id a g) : ∀ g' ∈ [g], Says env id a g' := by
  simpa using h

theorem says_onBoolean {f : Bool → σ → σ} (v : LiteralValue) (hv : v.kind = .boolean) (x : σ) :
    ∀ g ∈ (onBoolean id (fun b => modify (f b)) v x).2, Says env id a g := by
  cases v <;> simp [LiteralValue.kind] at hv
  exact says_modify _ _

theorem says_onString {f : Str → Callback σ} {v : LiteralValue} (hv : v.kind = .string)
    (hf : ∀ s, v = .string s → ∀ x, ∀ g ∈ (f s x).2, Says env id a g) (x : σ) :
    ∀ g ∈ (onString id f v x).2, Says env id a g := by
  cases v <;> simp [LiteralValue.kind] at hv
  exact hf _ rfl _

theorem says_flag {d : Dispatcher σ} (hs : SideCondition a.kind (env.info id))
    (h : d.Going id a (Says env id a)) {f : σ → σ} {f' : Bool → σ → σ} :
    ∀ g ∈ ((d.nullary (modify f)).unary .boolean (onBoolean id fun b => modify (f' b))).checkMatch.diags,
      Says env id a g :=
  says_checkMatch hs (going_unary (going_nullary h (says_modify _)) fun v _ hv => says_onBoolean v hv)

theorem says_spelling {s : Str} (hk : a.kind ∈ [.exposeAs, .module, .getterFor, .setterFor])
    (hs : LiteralValue.string s ∈ a.arguments) (hv : ¬ isValidIdentifier s = true) :
    Says env id a ⟨id, .invalidSpelling, [kindText a.kind, s]⟩ :=
  .complaint _ (by simp) (by simp) fun _ => by
    rw [kindText_eq]
    exact .spelling s hk hs fun h => hv ((isValidIdentifier_iff s).2 h)

theorem says_setSpelling {k : AnnotationKind} (hk : a.kind = k) (hk' : k = .exposeAs ∨ k = .module)
    (v : LiteralValue) (ha : a.arguments = [v]) (hv : v.kind = .string) (x : NamedDeclAttrs) :
    ∀ g ∈ (setSpelling id k v x).2, Says env id a g := by
  refine says_onString hv (fun s hs x => ?_) x
  split
  · exact says_nil
  · rename_i hn
    subst hk
    refine says_one (says_spelling ?_ (by simp [ha, hs]) hn)
    rcases hk' with h | h <;> simp [h]

theorem says_named (x : NamedDeclAttrs) :
    ∀ g ∈ (processNamed id (env.info id) a x).diags, Says env id a g := by
  unfold processNamed
  dsimp only
  split
  · rename_i hk
    exact says_checkMatch (by simp [hk, SideCondition]) (going_nullary (going_start _) (says_modify _))
  · rename_i hk
    exact says_checkMatch (by simp [hk, SideCondition])
      (going_unary (going_unary (going_nullary (going_start _) (says_modify _))
      (fun _ _ _ _ => says_modify _ _)) (fun v _ hv => says_onBoolean v hv))
  · rename_i hk
    exact says_checkMatch (by simp [hk, SideCondition])
      (going_unary (going_unary (going_start _) (fun _ _ _ _ => says_modify _ _))
      (fun v ha hv => says_setSpelling hk (.inl rfl) v ha hv))
  · rename_i hk
    have hg : (Dispatcher.ensure (Dispatcher.start id a x)
        ((decide ((env.info id).kind = .namespace)), [])).Going id a (Says env id a) := by
      unfold Dispatcher.ensure
      split
      · split
        · exact ⟨rfl, rfl, rfl, by simp [Dispatcher.start], by simp [Dispatcher.start]⟩
        · exact ⟨rfl, rfl, rfl, by simp [Dispatcher.start], by simp [Dispatcher.start]⟩
      · exact going_start _
    exact (going_unary hg (fun v ha hv => says_setSpelling hk (.inr rfl) v ha hv)).diags
  · exact says_nil

theorem says_namespace (x : NamespaceDeclAttrs) :
    ∀ g ∈ (processNamespace id a x).diags, Says env id a g := by
  unfold processNamespace
  dsimp only
  split
  · rename_i hk
    exact says_checkMatch (by simp [hk, SideCondition])
      (going_unary (going_nullary (going_start _) (says_modify _)) (fun _ _ _ _ => says_modify _ _))
  · rename_i hk
    exact says_checkMatch (by simp [hk, SideCondition])
      (going_variadic (going_start _) (fun v _ hv => says_onString hv fun _ _ _ => says_modify _ _))
  · exact says_nil

theorem says_enum (x : EnumDeclAttrs) : ∀ g ∈ (processEnum id a x).diags, Says env id a g := by
  unfold processEnum
  dsimp only
  split
  · rename_i hk
    exact says_flag (by simp [hk, SideCondition]) (going_start _)
  · rename_i hk
    exact says_flag (by simp [hk, SideCondition]) (going_start _)
  · exact says_nil

theorem says_stringText (v : LiteralValue) (hv : v.kind = .string) :
    ∀ g ∈ (stringText id v).2, Says env id a g := by
  cases v <;> simp [LiteralValue.kind] at hv
  exact says_nil

theorem texts_all (args : List LiteralValue) (h : ∀ v ∈ args, v.kind = .string) :
    (args.map fun v => (stringText id v).1).map LiteralValue.string = args := by
  induction args with
  | nil => rfl
  | cons v args ih =>
    have hv := h v (by simp)
    cases v <;> simp [LiteralValue.kind] at hv
    rw [List.map_cons, List.map_cons, ih fun u hu => h u (by simp [hu])]
    rfl

theorem says_base (k : AnnotationKind) (hk : a.kind = k) (bases : List Nat)
    (hb : k = .hideBase ∧ bases = (env.info id).bases ∨ k = .inlineBase ∧ bases = (env.info id).allBases)
    (h : ∀ v ∈ a.arguments, v.kind = .string) :
    ∀ g ∈ unknownBaseDiags id k (selectBases env (a.arguments.map fun v => (stringText id v).1) bases),
      Says env id a g := by
  unfold unknownBaseDiags
  split
  · rename_i he
    refine says_one (.complaint _ (by simp) (by simp) fun _ => ?_)
    subst hk
    rw [kindText_eq]
    have hno : ¬ ∃ b ∈ bases, SelectsBase env a.arguments b := by
      rintro ⟨b, hb, hs⟩
      rw [List.isEmpty_iff] at he
      have := (mem_selectBases env (a.arguments.map fun v => (stringText id v).1) bases b).2
        ⟨hb, by rw [texts_all _ h]; exact hs⟩
      rw [he] at this
      cases this
    refine .base ?_
    rcases hb with ⟨h1, h2⟩ | ⟨h1, h2⟩
    · exact .inl ⟨h1, h2 ▸ hno⟩
    · exact .inr ⟨h1, h2 ▸ hno⟩
  · exact says_nil

theorem says_record (x : RecordDeclAttrs) : ∀ g ∈ (processRecord env id a x).diags, Says env id a g := by
  unfold processRecord
  dsimp only
  split
  · rename_i hk
    exact says_flag (by simp [hk, SideCondition]) (going_start _)
  · rename_i hk
    exact says_checkMatch (by simp [hk, SideCondition]) (going_variadicCollect (going_start _)
      (fun v _ hv => says_stringText v hv) fun h _ => says_base _ hk _ (.inl ⟨rfl, rfl⟩) h)
  · rename_i hk
    exact says_checkMatch (by simp [hk, SideCondition]) (going_unary (going_start _)
      (fun v _ hv => says_onString hv fun _ _ _ => says_modify _ _))
  · rename_i hk
    exact says_checkMatch (by simp [hk, SideCondition]) (going_variadicCollect (going_start _)
      (fun v _ hv => says_stringText v hv) fun h _ => says_base _ hk _ (.inr ⟨rfl, rfl⟩) h)
  · exact says_nil

theorem says_conflict (hk : a.kind = .encourage ∨ a.kind = .exposeHere) (x : TypedefNameDeclAttrs) :
    ∀ g ∈ checkForConflict id x, Says env id a g := by
  unfold checkForConflict
  split
  · exact says_one (.conflict hk)
  · exact says_nil

theorem says_typedef (x : TypedefNameDeclAttrs) : ∀ g ∈ (processTypedef id a x).diags, Says env id a g := by
  unfold processTypedef
  dsimp only
  split
  · rename_i hk
    exact says_checkMatch (by simp [hk, SideCondition])
      (going_onMatch (going_nullary (going_start _) (says_modify _)) (says_conflict (.inl hk)))
  · rename_i hk
    exact says_checkMatch (by simp [hk, SideCondition])
      (going_onMatch (going_nullary (going_start _) (says_modify _)) (says_conflict (.inr hk)))
  · exact says_nil

theorem says_parameter {k : AnnotationKind} {s : Str} (hk : a.kind = k)
    (hs : LiteralValue.string s ∈ a.arguments)
    (hn : k = .keepAlive ∧ s ∉ keepAliveNames (env.info id) ∨
        (k = .noconvert ∨ k = .required) ∧ s ∉ (env.info id).params) :
    ∀ g ∈ invalidArgument id k s, Says env id a g := by
  subst hk
  exact says_one (.complaint _ (by simp) (by simp) fun _ => by
    rw [kindText_eq]; exact .parameter s hn hs)

theorem says_function (x : FunctionDeclAttrs) :
    ∀ g ∈ (processFunction id (env.info id) a x).diags, Says env id a g := by
  unfold processFunction
  dsimp only
  split
  · rename_i hk
    exact says_checkMatch (by simp [hk, SideCondition]) (going_unary (going_start _)
      (fun v _ hv => says_onString hv fun _ _ _ => says_modify _ _))
  · rename_i hk
    refine says_checkMatch (by simp [hk, SideCondition]) (going_binary (going_start _)
      fun v u ha hv hu x => ?_)
    cases v <;> simp [LiteralValue.kind] at hv
    cases u <;> simp [LiteralValue.kind] at hu
    dsimp only
    rw [parameterNames_keepAlive]
    split
    · rename_i hn
      exact says_parameter hk (by simp [ha]) (.inl ⟨rfl, (lookupIndex_none ..).1 hn⟩)
    · rename_i hn
      exact says_parameter hk (by simp [ha]) (.inl ⟨rfl, (lookupIndex_none ..).1 hn⟩)
    · exact says_nil
  · rename_i hk
    refine says_checkMatch (by simp [hk, SideCondition]) (going_variadic (going_start _)
      fun v hv hs => says_onString hs fun s hs x => ?_)
    split
    · rename_i hn
      rw [parameterNames_plain] at hn
      exact says_parameter hk (hs ▸ hv) (.inr ⟨.inl rfl, (lookupIndex_none ..).1 hn⟩)
    · exact says_nil
  · rename_i hk
    refine says_checkMatch (by simp [hk, SideCondition]) (going_variadic (going_start _)
      fun v hv hs => says_onString hs fun s hs x => ?_)
    split
    · rename_i hn
      rw [parameterNames_plain] at hn
      exact says_parameter hk (hs ▸ hv) (.inr ⟨.inr rfl, (lookupIndex_none ..).1 hn⟩)
    · exact says_nil
  · exact says_nil

theorem friendlyName_eq (d : DeclInfo) : friendlyName d = called d := by
  unfold friendlyName called supportsNamespace supportsEnum supportsRecord supportsTypedef
    supportsFieldOrVar supportsMethod supportsOperator supportsConversion supportsConstructor
    supportsFunction
  cases d.kind <;> rcases d.operator with _ | o <;>
    first
    | rfl
    | (cases o <;> rfl)

theorem says_collect {k : AnnotationKind} (hk : a.kind = k) (hk' : k = .getterFor ∨ k = .setterFor)
    (v : LiteralValue) (hm : v ∈ a.arguments) (hv : v.kind = .string) :
    ∀ g ∈ (collectIdentifier id k v).2, Says env id a g := by
  cases v <;> simp [LiteralValue.kind] at hv
  unfold collectIdentifier
  dsimp only
  split
  · exact says_nil
  · rename_i hn
    subst hk
    refine says_one (says_spelling ?_ hm hn)
    rcases hk' with h | h <;> simp [h]

theorem start_ensure (x : σ) : (Dispatcher.start id a x).ensure (true, []) = Dispatcher.start id a x := by
  simp [Dispatcher.ensure, Dispatcher.start]

theorem says_method (x : MethodDeclAttrs) :
    ∀ g ∈ (processMethod id (env.info id) a x).diags, Says env id a g := by
  unfold processMethod
  dsimp only
  split
  · rename_i hk
    by_cases hc : (env.info id).minRequired ≠ 0 ∨ (env.info id).returnsVoid = true
    · rw [if_pos hc]
      simp only [Dispatcher.ensure, Dispatcher.start, Dispatcher.variadicCollect, Dispatcher.checkMatch]
      intro g hg
      simp [invalidSignature] at hg
      subst hg
      refine .complaint _ (by simp) (by simp) fun hap => ?_
      have := Complaint.signature (env := env) (id := id) (a := a) (.inl hk) hap (by
        rw [hk]
        simp only [SideCondition]
        rintro ⟨h1, h2⟩
        rcases hc with h | h
        · exact h h1
        · rw [h2] at h; cases h)
      rwa [friendlyName_eq, kindText_eq, ← hk]
    · rw [if_neg hc, start_ensure]
      refine says_checkMatch ?_ (going_variadicCollect (going_start _)
        (fun v hm hv => says_collect hk (.inl rfl) v hm hv) fun h x => ?_)
      · simp only [hk, SideCondition]
        simp only [not_or] at hc
        exact ⟨by have := hc.1; omega, by simpa using hc.2⟩
      · split <;> exact says_nil
  · rename_i hk
    by_cases hc : (env.info id).params.length < 1 ∨ (env.info id).minRequired > 1
    · rw [if_pos hc]
      simp only [Dispatcher.ensure, Dispatcher.start, Dispatcher.variadicCollect, Dispatcher.checkMatch]
      intro g hg
      simp [invalidSignature] at hg
      subst hg
      refine .complaint _ (by simp) (by simp) fun hap => ?_
      have := Complaint.signature (env := env) (id := id) (a := a) (.inr hk) hap (by
        rw [hk]
        simp only [SideCondition]
        rintro ⟨h1, h2⟩
        omega)
      rwa [friendlyName_eq, kindText_eq, ← hk]
    · rw [if_neg hc, start_ensure]
      refine says_checkMatch ?_ (going_variadicCollect (going_start _)
        (fun v hm hv => says_collect hk (.inr rfl) v hm hv) fun h x => ?_)
      · simp only [hk, SideCondition]
        omega
      · split <;> exact says_nil
  · exact says_nil

theorem print_isSome (a : Annotation) : a.print = some ((a.print).getD []) := by
  have h := AnnotationKind.toString_total a.kind
  unfold Annotation.print
  cases hk : a.kind.toString? with
  | none => rw [hk] at h; cases h
  | some n => rfl

theorem says_constructor (x : ConstructorDeclAttrs) :
    ∀ g ∈ (processConstructor id (env.info id) a x).diags, Says env id a g := by
  unfold processConstructor
  dsimp only
  split
  · rename_i hk
    by_cases hc : (env.info id).params.length ≠ 1 ∨ (env.info id).converting = false
    · rw [if_pos hc]
      simp only [Dispatcher.ensure, Dispatcher.start, Dispatcher.nullary, Dispatcher.unary,
        Dispatcher.checkMatch]
      intro g hg
      simp at hg
      subst hg
      refine .complaint _ (by simp) (by simp) fun hap => .converting _ hk hap ?_ (print_isSome a)
      rw [hk]
      simp only [SideCondition]
      rintro ⟨h1, h2⟩
      rcases hc with h | h
      · exact h h1
      · rw [h2] at h; cases h
    · rw [if_neg hc, start_ensure]
      refine says_flag ?_ (going_start _)
      simp only [hk, SideCondition]
      simp only [not_or] at hc
      exact ⟨by have := hc.1; omega, by simpa using hc.2⟩
  · exact says_nil

theorem says_fieldOrVar (x : FieldOrVarDeclAttrs) :
    ∀ g ∈ (processFieldOrVar id (env.info id) a x).diags, Says env id a g := by
  unfold processFieldOrVar
  dsimp only
  split
  · rename_i hk
    exact says_flag (by simp [hk, SideCondition]) (going_start _)
  · rename_i hk
    cases hm : manualBindingsExpr (env.info id) with
    | none =>
      simp [Dispatcher.ensure, Dispatcher.start, Dispatcher.nullary, Dispatcher.checkMatch]
    | some l =>
      have hl := (manualBindingsExpr_eq _ _).1 hm
      cases hu : (env.info id).inTranslationUnit with
      | false =>
        simp only [Dispatcher.ensure, Dispatcher.start, Dispatcher.nullary, Dispatcher.checkMatch]
        intro g hg
        simp at hg
        subst hg
        refine .complaint _ (by simp) (by simp) fun _ => ?_
        rw [kindText_eq, ← hk]
        exact .scope l hk hl hu
      | true =>
        simp only [Option.isNone_some, Bool.false_eq_true, if_false, Bool.not_true]
        rw [start_ensure]
        refine says_checkMatch ?_ (going_nullary (going_start _) (says_modify _))
        rw [hk]
        exact ⟨⟨l, hl⟩, hu⟩
  · rename_i hk
    cases hm : manualBindingsExpr (env.info id) with
    | none =>
      simp [Dispatcher.ensure, Dispatcher.start, Dispatcher.nullary, Dispatcher.checkMatch]
    | some l =>
      simp only [Option.isSome_some]
      rw [start_ensure]
      refine says_checkMatch ?_ (going_nullary (going_start _) (says_modify _))
      rw [hk]
      exact ⟨l, (manualBindingsExpr_eq _ _).1 hm⟩
  · exact says_nil

theorem says_lift {get : DeclAttrs → Option σ} {put : DeclAttrs → σ → DeclAttrs}
    {process : Annotation → σ → Outcome σ} (h : ∀ y, ∀ g ∈ (process a y).diags, Says env id a g)
    (x : DeclAttrs) : ∀ g ∈ (liftHandler get put process a x).diags, Says env id a g := by
  unfold liftHandler
  split
  · exact says_nil
  · exact h _

end

theorem says_handlers (env : DeclEnv) (id : Nat) (a : Annotation) :
    ∀ h ∈ handlers env id, ∀ x, ∀ g ∈ (h a x).diags, Says env id a g := by
  intro h hh x
  simp only [handlers, List.mem_cons, List.not_mem_nil, or_false] at hh
  rcases hh with rfl | rfl | rfl | rfl | rfl | rfl | rfl | rfl | rfl | rfl | rfl
  · exact says_named _
  · exact says_lift says_namespace x
  · exact says_lift says_enum x
  · exact says_lift says_record x
  · exact says_lift says_typedef x
  · exact says_lift says_fieldOrVar x
  · exact says_lift (fun _ => says_nil) x
  · exact says_lift (fun _ => says_nil) x
  · exact says_lift says_method x
  · exact says_lift says_constructor x
  · exact says_lift says_function x

theorem says_any (env : DeclEnv) (id : Nat) (a : Annotation) (hs : List Handler)
    (h : ∀ h ∈ hs, ∀ x, ∀ g ∈ (h a x).diags, Says env id a g) :
    ∀ x, ∀ g ∈ (anyHandler hs a x).diags, Says env id a g := by
  induction hs with
  | nil => exact fun _ => says_nil
  | cons k hs ih =>
    intro x
    simp only [anyHandler]
    split
    · exact h k (by simp) x
    · exact rep_append (h k (by simp) x) (ih (fun h' hm => h h' (by simp [hm])) _)


/-- A violated side condition is reported by the handler, unless there is no suitable lambda. -/
theorem side_said (env : DeclEnv) (id : Nat) (a : Annotation) (x : DeclAttrs)
    (sh : Shape (env.info id) x) (hap : Applies a.kind (env.info id))
    (hsc : ¬ SideCondition a.kind (env.info id))
    (hd : (anyHandler (handlers env id) a x).diags = []) :
    (a.kind = .manual ∨ a.kind = .postamble) ∧ ¬ ∃ l, IsManualLambda (env.info id) l := by
  obtain ⟨k, args⟩ := a
  dsimp only at hap hsc ⊢
  cases k <;> try exact absurd trivial hsc
  · exfalso
    rw [anyHandler_responsible env id _ args 8 _ rfl (by intro j; simp [responsible])] at hd
    obtain ⟨m, hm⟩ := Option.isSome_iff_exists.1 (sh.method.2 hap)
    have hc : (env.info id).minRequired ≠ 0 ∨ (env.info id).returnsVoid = true := by
      simp only [SideCondition] at hsc
      cases hv : (env.info id).returnsVoid with
      | true => exact .inr rfl
      | false => exact .inl fun h => hsc ⟨h, hv⟩
    simp only [liftHandler, hm, processMethod] at hd
    rw [if_pos hc] at hd
    simp [Dispatcher.ensure, Dispatcher.start, Dispatcher.variadicCollect, Dispatcher.checkMatch,
      invalidSignature] at hd
  · exfalso
    rw [anyHandler_responsible env id _ args 8 _ rfl (by intro j; simp [responsible])] at hd
    obtain ⟨m, hm⟩ := Option.isSome_iff_exists.1 (sh.method.2 hap)
    have hc : (env.info id).params.length < 1 ∨ (env.info id).minRequired > 1 := by
      simp only [SideCondition] at hsc
      omega
    simp only [liftHandler, hm, processMethod] at hd
    rw [if_pos hc] at hd
    simp [Dispatcher.ensure, Dispatcher.start, Dispatcher.variadicCollect, Dispatcher.checkMatch,
      invalidSignature] at hd
  · exfalso
    rw [anyHandler_responsible env id _ args 9 _ rfl (by intro j; simp [responsible])] at hd
    obtain ⟨m, hm⟩ := Option.isSome_iff_exists.1 (sh.constructor.2 hap)
    have hc : (env.info id).params.length ≠ 1 ∨ (env.info id).converting = false := by
      simp only [SideCondition] at hsc
      cases hv : (env.info id).converting with
      | false => exact .inr rfl
      | true => exact .inl fun h => hsc ⟨h, hv⟩
    simp only [liftHandler, hm, processConstructor] at hd
    rw [if_pos hc] at hd
    simp [Dispatcher.ensure, Dispatcher.start, Dispatcher.nullary, Dispatcher.unary,
      Dispatcher.checkMatch] at hd
  · exact ⟨.inl rfl, hsc⟩
  · refine ⟨.inr rfl, ?_⟩
    rintro ⟨l, hl⟩
    have hu : (env.info id).inTranslationUnit = false := by
      cases hu : (env.info id).inTranslationUnit with
      | false => rfl
      | true => exact absurd ⟨⟨l, hl⟩, hu⟩ hsc
    rw [anyHandler_responsible env id _ args 5 _ rfl (by intro j; simp [responsible])] at hd
    obtain ⟨m, hm⟩ := Option.isSome_iff_exists.1 (sh.fieldOrVar.2 hap)
    simp only [liftHandler, hm, processFieldOrVar] at hd
    rw [(manualBindingsExpr_eq _ _).2 hl, hu] at hd
    simp [Dispatcher.ensure, Dispatcher.start, Dispatcher.nullary, Dispatcher.checkMatch] at hd

theorem accepted_other (env : DeclEnv) (d : DeclInfo) (a : Annotation) (y : DeclAttrs) :
    DiagKind.wrongArgumentType ∉ acceptedDiagKinds env d a y ∧
      DiagKind.wrongNumberOfArguments ∉ acceptedDiagKinds env d a y := by
  obtain ⟨k, args⟩ := a
  have key : ∀ (F : LiteralValue → List DiagKind) (D E : DiagKind), (∀ v, ∀ e ∈ F v, e = D) → E ≠ D →
      E ∉ args.flatMap F := by
    intro F D E hF hE hm
    obtain ⟨v, _, hv⟩ := List.mem_flatMap.1 hm
    exact hE (hF v E hv)
  unfold acceptedDiagKinds
  cases k <;> dsimp only <;>
    first
    | exact ⟨List.not_mem_nil, List.not_mem_nil⟩
    | (constructor <;> split <;> simp <;> done)
    | (refine ⟨key _ .invalidSpelling _ (fun v e he => ?_) (by decide),
        key _ .invalidSpelling _ (fun v e he => ?_) (by decide)⟩ <;>
        (split at he
         · split at he
           · cases he
           · simpa using he
         · cases he))
    | (refine ⟨key _ .invalidArgumentSpecifier _ (fun v e he => ?_) (by decide),
        key _ .invalidArgumentSpecifier _ (fun v e he => ?_) (by decide)⟩ <;>
        (split at he
         · split at he
           · cases he
           · simpa using he
         · cases he))

/-- An argument the dispatcher did not accept is of no kind that is documented. -/
theorem wrong_kind (k : AnnotationKind) (args : List LiteralValue) (v : LiteralValue) (hv : v ∈ args)
    (h : args = [v] ∨ v.kind ≠ .string) (hc : ∃ f ∈ forms k, f.AcceptsCount args.length)
    (hn : ¬ ∃ f ∈ forms k, f.Accepts args) : ∀ f ∈ forms k, f.literal ≠ some v.kind := by
  have hone : args.length ≤ 1 → args = [v] := by
    match args with
    | [] => cases hv
    | [u] => simp only [List.mem_singleton] at hv; intro; rw [hv]
    | _ :: _ :: _ => simp
  intro f hf he
  have hlit : args = [v] → (∀ kind, f ≠ .two kind) → False := by
    rintro rfl h2
    refine hn ⟨f, hf, ?_⟩
    cases f with
    | bare => cases he
    | one kind => simp only [Form.literal, Option.some.injEq] at he; simp [Form.Accepts, he]
    | two kind => exact absurd rfl (h2 kind)
    | some kind => simp only [Form.literal, Option.some.injEq] at he; simp [Form.Accepts, he]
    | any kind => simp only [Form.literal, Option.some.injEq] at he; simp [Form.Accepts, he]
  have hfin : args = [v] → f.AcceptsCount 1 → False := by
    intro h1 h2
    refine hlit h1 fun kind h3 => ?_
    subst h3
    simp [Form.AcceptsCount] at h2
  have key : f.AcceptsCount args.length ∨ args.length ≤ 1 ∧ ∀ kind, f ≠ .two kind := by
    cases k <;>
      simp only [forms, List.mem_cons, List.not_mem_nil, or_false, exists_eq_left, exists_eq_or_imp,
        Form.AcceptsCount] at hf hc <;>
      first
      | (subst hf; exact .inl hc)
      | (right
         refine ⟨by omega, fun kind h3 => ?_⟩
         subst h3
         simp at hf)
  have hstr : v.kind ≠ .string → args.length ≤ 1 := by
    intro hs
    cases k <;>
      simp only [forms, List.mem_cons, List.not_mem_nil, or_false, exists_eq_left, exists_eq_or_imp,
        Form.AcceptsCount] at hf hc <;>
      first
      | omega
      | (subst hf
         simp only [Form.literal, Option.some.injEq] at he
         exact absurd he.symm hs)
  have h1 : args = [v] := by
    rcases h with h | h
    · exact h
    · exact hone (hstr h)
  refine hlit h1 fun kind h3 => ?_
  rcases key with h2 | h2
  · subst h3
    rw [h1] at h2
    simp [Form.AcceptsCount] at h2
  · exact h2.2 kind h3

/-- Everything reported about an annotation is justified, or is about two annotations. -/
theorem complaint_said (env : DeclEnv) (id : Nat) (a : Annotation) (x : DeclAttrs)
    (sh : Shape (env.info id) x) (g : Diag) (hg : g ∈ (applyAnnotation env id x a).2) :
    Complaint env id a g ∨
    (env.info id).kind = .typedefName ∧
      g = ⟨id, .conflictingAnnotations, [kindName .encourage, kindName .exposeHere]⟩ ∨
    g ∈ supportsTypedefDiags id (env.info id) := by
  have hf := follows env id a x sh
  have hsaid : ∀ g ∈ (anyHandler (handlers env id) a x).diags, Complaint env id a g ∨
      (env.info id).kind = .typedefName ∧
      g = ⟨id, .conflictingAnnotations, [kindName .encourage, kindName .exposeHere]⟩ := by
    intro g hg
    have hap : Applies a.kind (env.info id) := by
      false_or_by_contra
      rename_i hap
      rw [hf.applies hap] at hg
      cases hg
    have hnd : g.kind = .wrongArgumentType ∨ g.kind = .wrongNumberOfArguments →
        ¬ Documented (env.info id) a := by
      intro hk hd
      have hm : g.kind ∈ (anyHandler (handlers env id) a x).diags.map (·.kind) :=
        List.mem_map_of_mem hg
      rw [(hf.doc hd).2.2] at hm
      have hno := accepted_other env (env.info id) a (anyHandler (handlers env id) a x).attrs
      rcases hk with hk | hk <;> rw [hk] at hm
      · exact hno.1 hm
      · exact hno.2 hm
    have hform : SideCondition a.kind (env.info id) →
        g.kind = .wrongArgumentType ∨ g.kind = .wrongNumberOfArguments →
        (¬ ∃ f ∈ forms a.kind, f.Accepts a.arguments) ∧
        (g.kind = .wrongArgumentType ↔ ∃ f ∈ forms a.kind, f.AcceptsCount a.arguments.length) := by
      intro hs hk
      have hno : ¬ ∃ f ∈ forms a.kind, f.Accepts a.arguments := fun h => hnd hk ⟨hap, hs, h⟩
      refine ⟨hno, ?_⟩
      obtain ⟨args, he⟩ := hf.forms hap hs hno
      rw [he] at hg
      simp only [List.mem_singleton] at hg
      subst hg
      dsimp only
      split <;> simp_all
    cases says_any env id a _ (says_handlers env id a) x g hg with
    | type v hs hv hv' =>
      left
      obtain ⟨h1, h2⟩ := hform hs (.inl rfl)
      rw [kindText_eq]
      exact .type v hap hs (h2.1 rfl) hv (wrong_kind _ _ v hv hv' (h2.1 rfl) h1)
    | number hs =>
      left
      obtain ⟨h1, h2⟩ := hform hs (.inr rfl)
      rw [kindText_eq]
      exact .number hap hs fun h => by cases h2.2 h
    | conflict hk =>
      right
      rw [kindText_eq, kindText_eq]
      refine ⟨?_, rfl⟩
      rcases hk with hk | hk <;> (rw [hk] at hap; exact hap)
    | complaint g _ _ h => exact .inl (h hap)
  unfold applyAnnotation at hg
  dsimp only at hg
  split at hg
  · rename_i hc
    simp only [Bool.and_eq_true, Bool.not_eq_true'] at hc
    rcases List.mem_append.1 hg with hg | hg
    · rcases hsaid g hg with h | h
      · exact .inl h
      · exact .inr (.inl h)
    · unfold reportInvalidAnnotation at hg
      rcases List.mem_append.1 hg with hg | hg
      · exact .inr (.inr hg)
      · left
        simp only [List.mem_singleton] at hg
        subst hg
        rw [friendlyName_eq]
        refine .unsupported _ ?_ (print_isSome a)
        have hnd : ¬ Documented (env.info id) a := by
          intro hd
          rw [(hf.doc hd).1] at hc
          cases hc.2
        refine Classical.byCases (p := Applies a.kind (env.info id)) (fun hap => .inr ?_) .inl
        have herr : ∀ g ∈ (anyHandler (handlers env id) a x).diags, g.isError = false := by
          intro g hg
          have := hc.1
          unfold hasErrors at this
          rw [List.any_eq_false] at this
          simpa using this g hg
        have hsc : ¬ SideCondition a.kind (env.info id) := by
          intro hs
          obtain ⟨args, he⟩ := hf.forms hap hs fun h => hnd ⟨hap, hs, h⟩
          have := herr _ (by rw [he]; exact List.mem_singleton.2 rfl)
          simp only [Diag.isError] at this
          split at this <;> cases this
        refine side_said env id a x sh hap hsc ?_
        rcases hf.side hap hsc with h | ⟨g, h, he, _⟩
        · exact h
        · rw [herr g (by rw [h]; simp)] at he
          cases he
  · rcases hsaid g hg with h | h
    · exact .inl h
    · exact .inr (.inl h)

/-- Everything reported for a declaration when its annotations are read is justified. -/
theorem insert_said (env : DeclEnv) (id : Nat) (g : Diag) (hg : g ∈ (firstInsert env id).2) :
    AnnotationReason env id g := by
  have hgiven : ∀ a ∈ (parseAllTexts id [] (env.info id).attrTexts).1, Spelled (env.info id) a := by
    have : ∀ texts, (∀ t ∈ texts, t ∈ (env.info id).attrTexts) →
        ∀ a ∈ (parseAllTexts id [] texts).1, Spelled (env.info id) a := by
      intro texts
      induction texts with
      | nil => simp [parseAllTexts]
      | cons t ts ih =>
        intro ht a ha
        have ih' := ih fun u hu => ht u (by simp [hu])
        simp only [parseAllTexts] at ha
        cases hc : consumeFront lozenge t with
        | none => rw [hc] at ha; exact ih' a ha
        | some rest =>
          rw [hc] at ha
          dsimp only at ha
          rw [consumeFront_some, lozenge_eq] at hc
          obtain ⟨new, h1, ⟨front, r, h2, h3, _⟩, _⟩ := C03_prior_kept rest [] _ (lexes_lexAll rest)
          have hmem : ∀ acc', acc' = new → a ∈ (parseAllTexts id acc' ts).1 → Spelled (env.info id) a := by
            rintro acc' rfl ha
            rw [parseAllTexts_acc] at ha
            rcases List.mem_append.1 ha with ha | ha
            · exact ⟨rest, lexAll rest, front, r, acc', hc ▸ ht t (by simp), lexes_lexAll _, h2, h3, ha⟩
            · exact ih' a ha
          rw [List.nil_append] at h1
          split at ha
          · rename_i acc' he
            exact hmem acc' (by rw [he] at h1; exact h1) ha
          · rename_i e acc' he
            exact hmem acc' (by rw [he] at h1; exact h1) ha
    exact this _ fun _ h => h
  have htarget : ∀ g ∈ supportsTypedefDiags id (env.info id), AnnotationReason env id g := by
    intro g hg
    unfold supportsTypedefDiags at hg
    split at hg
    · rename_i h
      simp only [List.mem_singleton] at hg
      subst hg
      refine .target h.1 h.2.1 ?_
      have := h.2.2
      unfold hasAnnotations at this
      rw [List.any_eq_true] at this
      obtain ⟨t, ht, hc⟩ := this
      refine ⟨t, ht, ?_⟩
      cases hcf : consumeFront lozenge t with
      | none => rw [hcf] at hc; cases hc
      | some rest =>
        rw [consumeFront_some, lozenge_eq] at hcf
        exact ⟨rest, hcf.symm⟩
    · cases hg
  unfold firstInsert at hg
  dsimp only at hg
  rcases List.mem_append.1 hg with hg | hg
  · rcases List.mem_append.1 hg with hg | hg
    · exact htarget g hg
    · have : ∀ texts, (∀ t ∈ texts, t ∈ (env.info id).attrTexts) →
          ∀ acc, ∀ g ∈ (parseAllTexts id acc texts).2, AnnotationReason env id g := by
        intro texts
        induction texts with
        | nil => simp [parseAllTexts]
        | cons t ts ih =>
          intro ht acc g hg
          have ih' := ih fun u hu => ht u (by simp [hu])
          simp only [parseAllTexts] at hg
          cases hc : consumeFront lozenge t with
          | none => rw [hc] at hg; exact ih' _ g hg
          | some rest =>
            rw [hc] at hg
            dsimp only at hg
            rw [consumeFront_some, lozenge_eq] at hc
            split at hg
            · exact ih' _ g hg
            · rename_i e acc' he
              dsimp only at hg
              rcases List.mem_cons.1 hg with rfl | hg
              · refine .text rest e.token (lexAll rest) e.kind (hc ▸ ht t (by simp)) (lexes_lexAll _) ?_
                rw [parseAnnotationsInto_eq] at he
                exact pAnns_stops _ e (congrArg Prod.fst he)
              · exact ih' _ g hg
      exact this _ (fun _ h => h) _ g hg
  · generalize hp : (parseAllTexts id [] (env.info id).attrTexts).1 = as at hg hgiven
    have hsh := shape_start env id ((env.info id).kind ≠ .namespace ∧
      hasAnnotations (env.info id) (allowEmpty := false) = true) (some true)
    generalize hx : (if (env.info id).kind ≠ .namespace ∧
      hasAnnotations (env.info id) (allowEmpty := false) = true
      then { freshAttrs (env.info id) with
        named := { (freshAttrs (env.info id)).named with visible := some true } }
      else freshAttrs (env.info id)) = x at hg hsh
    have hone : ∀ as : List Annotation, (∀ a ∈ as, Spelled (env.info id) a) → ∀ x, Shape (env.info id) x →
        ∀ g ∈ (applyAnnotations env id x as).2, AnnotationReason env id g ∨
          (env.info id).kind = .typedefName ∧
          g = ⟨id, .conflictingAnnotations, [kindName .encourage, kindName .exposeHere]⟩ := by
      intro as
      induction as with
      | nil => intro _ _ _ g hg; cases hg
      | cons a as ih =>
        intro hgv x hsh g hg
        simp only [applyAnnotations] at hg
        rcases List.mem_append.1 hg with hg | hg
        · rcases complaint_said env id a x hsh g hg with h | h | h
          · exact .inl (.annotation a g (hgv a (by simp)) h)
          · exact .inr h
          · exact .inl (htarget g h)
        · exact ih (fun b hb => hgv b (by simp [hb])) _ (shape_apply env id a x hsh) g hg
    rcases hone as hgiven x hsh g hg with h | h
    · exact h
    · obtain ⟨hk, rfl⟩ := h
      have ht : x.typedefName = some {} := by
        have : x.typedefName = (freshAttrs (env.info id)).typedefName := by
          rw [← hx]; split <;> rfl
        rw [this]
        simp [freshAttrs, supportsTypedef, hk]
      have := (applyAll_conflict env id as x hsh {} ht (by simp)).1 ⟨_, hg, rfl⟩
      simp only [Bool.false_eq_true, false_or] at this
      exact .conflict (hgiven _ this.1) (hgiven _ this.2)

end Verif
