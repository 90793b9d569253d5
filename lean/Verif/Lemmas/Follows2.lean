import Verif.Lemmas.Dispatch
/-!
# One annotation: the handlers do what is documented (continued)
-/
set_option linter.unusedSimpArgs false
namespace Verif
open Spec

theorem follows_exposeAs (env : DeclEnv) (id : Nat) (args : List LiteralValue) (x : DeclAttrs) :
    Follows env id ⟨.exposeAs, args⟩ x (anyHandler (handlers env id) ⟨.exposeAs, args⟩ x) := by
  rw [anyHandler_responsible env id _ args 0 _ rfl (by intro j; simp [responsible])]
  rcases args with _ | ⟨v, _ | ⟨w, r⟩⟩
  · follow
  · cases v with
    | string s =>
      simp only [processNamed, setSpelling]
      by_cases h : ValidIdent s
      · have h' := (isValidIdentifier_iff s).2 h
        follow
      · have h' : isValidIdentifier s = false := by
          rw [Bool.eq_false_iff, Ne, isValidIdentifier_iff]; exact h
        follow
    | _ => follow
  · follow

theorem follows_module (env : DeclEnv) (id : Nat) (args : List LiteralValue) (x : DeclAttrs)
    (sh : Shape (env.info id) x) :
    Follows env id ⟨.module, args⟩ x (anyHandler (handlers env id) ⟨.module, args⟩ x) := by
  have key : ∀ x, anyHandler (handlers env id).tail ⟨.module, args⟩ x =
      liftHandler (·.namespace_) (fun x y => { x with namespace_ := some y })
      (processNamespace id) ⟨.module, args⟩ x := by
    intro x
    refine anyHandler_only _ _ 0 _ rfl ?_ x
    intro j h' hj hh
    exact handlers_inert env id .module args (j + 1) (by simp [responsible]; omega) h'
      (by simpa [List.getElem?_tail] using hh)
  have hs := sh.namespace_
  clear sh
  have e : handlers env id = (fun a x =>
      let r := processNamed id (env.info id) a x.named
      { handled := r.handled, attrs := { x with named := r.attrs }, diags := r.diags }) ::
      (handlers env id).tail := rfl
  rw [e, anyHandler_cons, key]
  clear e key
  obtain ⟨n, ns, e, r, t, fv, o, c, m, ct, f⟩ := x
  rcases ns with _ | ns <;> simp only [liftHandler]
  · rcases args with _ | ⟨v, _ | ⟨w, r⟩⟩
    · follow
    · cases v with
      | string s => simp only [processNamed, setSpelling]; follow
      | _ => follow
    · follow
  · rcases args with _ | ⟨v, _ | ⟨w, r⟩⟩
    · follow
    · cases v with
      | string s =>
        simp only [processNamed, setSpelling]
        by_cases h : ValidIdent s
        · have h' := (isValidIdentifier_iff s).2 h
          follow
        · have h' : isValidIdentifier s = false := by
            rw [Bool.eq_false_iff, Ne, isValidIdentifier_iff]; exact h
          follow
      | _ => follow
    · follow

theorem follows_returnValuePolicy (env : DeclEnv) (id : Nat) (args : List LiteralValue)
    (x : DeclAttrs) (sh : Shape (env.info id) x) :
    Follows env id ⟨.returnValuePolicy, args⟩ x
      (anyHandler (handlers env id) ⟨.returnValuePolicy, args⟩ x) := by
  rw [anyHandler_responsible env id _ args 10 _ rfl (by intro j; simp [responsible])]
  have hs := sh.function
  clear sh
  obtain ⟨n, ns, e, r, t, fv, o, c, m, ct, f⟩ := x
  rcases f with _ | f <;> simp only [liftHandler]
  · follow
  · follow_unary args

/-- Cases for annotations taking one or more strings. -/
theorem follows_some (env : DeclEnv) (id : Nat) (k : AnnotationKind) (args : List LiteralValue)
    (x : DeclAttrs) (o : Outcome DeclAttrs) (hf : forms k = [.some .string])
    (hap : Applies k (env.info id)) (hsc : SideCondition k (env.info id))
    (h1 : args = [] → o = ⟨false, x, [wrongCount id k]⟩)
    (h2 : ∀ v, args ≠ [] → args.find? (fun v => !v.isa .string) = some v →
      o = ⟨false, x, [wrongType id k v]⟩)
    (h3 : ∀ names : List Str, names ≠ [] → args = names.map .string →
      o.handled = true ∧ Effect env (env.info id) ⟨k, args⟩ x o.attrs ∧
      o.diags.map (·.kind) = acceptedDiagKinds env (env.info id) ⟨k, args⟩ o.attrs ∧
      ∀ g ∈ o.diags, g.decl = id) :
    Follows env id ⟨k, args⟩ x o := by
  have hacc : (∃ f ∈ forms k, f.Accepts args) ↔
      args ≠ [] ∧ args.find? (fun v => !v.isa .string) = none := by
    rw [hf, ← all_string_iff]; simp [Form.Accepts]
  have hdoc : Documented (env.info id) ⟨k, args⟩ ↔
      args ≠ [] ∧ args.find? (fun v => !v.isa .string) = none := by
    unfold Documented; simp only [hacc]; simp [hap, hsc]
  by_cases he : args = []
  · have ho := h1 he
    subst he ho
    constructor <;> simp_all [Form.AcceptsCount]
  · cases hff : args.find? (fun v => !v.isa .string) with
    | some v =>
      have ho := h2 v he hff
      subst ho
      constructor <;> simp_all [Form.AcceptsCount]
    | none =>
      obtain ⟨names, hn⟩ := (find_not_string args).1 hff
      obtain ⟨a1, a2, a3, a4⟩ := h3 names (by rintro rfl; simp [hn] at he) hn
      have hd : Documented (env.info id) ⟨k, args⟩ := hdoc.2 ⟨he, hff⟩
      refine ⟨fun _ => ⟨a1, a2, a3⟩, fun h => absurd hd h, fun _ _ h => absurd (hacc.2 ⟨he, hff⟩) h,
        fun h => absurd hap h, fun _ h => absurd hsc h, a4⟩

/-- A component that is absent. -/
theorem follows_absent (env : DeclEnv) (id : Nat) (k : AnnotationKind) (args : List LiteralValue)
    (x : DeclAttrs) (hap : ¬ Applies k (env.info id)) :
    Follows env id ⟨k, args⟩ x (notHandled x) := by
  constructor <;> simp_all [Documented, notHandled]

theorem foldCalls_collect {σ : Type} (names : List Str) (x : σ) (f : LiteralValue → Callback σ)
    (g : σ → Str → σ) (D : Str → List Diag)
    (hf : ∀ s x, f (.string s) x = (g x s, D s)) :
    foldCalls f (names.map .string) x = (names.foldl g x, names.flatMap D) := by
  induction names generalizing x with
  | nil => rfl
  | cons n ns ih => simp [foldCalls, hf, ih]

theorem follows_onlyExposeIn (env : DeclEnv) (id : Nat) (args : List LiteralValue)
    (x : DeclAttrs) (sh : Shape (env.info id) x) :
    Follows env id ⟨.onlyExposeIn, args⟩ x
      (anyHandler (handlers env id) ⟨.onlyExposeIn, args⟩ x) := by
  rw [anyHandler_responsible env id _ args 1 _ rfl (by intro j; simp [responsible])]
  have hs := sh.namespace_
  clear sh
  obtain ⟨n, ns, e, r, t, fv, o, c, m, ct, f⟩ := x
  rcases ns with _ | ns <;> simp only [liftHandler]
  · exact follows_absent _ _ _ _ _ (by simp_all [Applies])
  · have hap : Applies .onlyExposeIn (env.info id) := by simp_all [Applies]
    simp only [processNamespace]
    rw [variadic_checkMatch]
    refine follows_some env id _ args _ _ rfl hap trivial ?_ ?_ ?_
    · intro h; simp [h]
    · intro v h h'; simp [h, h']
    · intro names hne hn
      have h' := (find_not_string args).2 ⟨names, hn⟩
      have hne' : args ≠ [] := by rw [hn]; simpa using hne
      simp only [h', if_neg hne']
      rw [hn, foldCalls_collect names ns _
        (fun x s => { x with onlyExposeIn := x.onlyExposeIn ++ [s] }) (fun _ => [])
        (by intro s x; rfl)]
      have hl : names.foldl (fun (x : NamespaceDeclAttrs) s =>
          { x with onlyExposeIn := x.onlyExposeIn ++ [s] }) ns =
          { ns with onlyExposeIn := ns.onlyExposeIn ++ names } := by
        clear hn hne hs
        induction names generalizing ns with
        | nil => simp
        | cons n ns ih => simp [ih]
      rw [hl]
      refine ⟨trivial, ⟨names, rfl, by simp⟩, by simp [acceptedDiagKinds], by simp⟩

/-- Diagnostics of `noconvert` and `required`. -/
theorem param_diags (id : Nat) (k : AnnotationKind) (d : DeclInfo) (names : List Str) :
    (names.flatMap fun s => match lookupIndex d.params s with
      | none => invalidArgument id k s
      | some _ => []).map (·.kind) =
    (names.map LiteralValue.string).flatMap (fun v => open Classical in match v with
      | .string s => if s ∈ d.params then [] else [.invalidArgumentSpecifier]
      | _ => []) := by
  induction names with
  | nil => rfl
  | cons n ns ih =>
    simp only [List.map_cons, List.flatMap_cons, List.map_append, ih]
    congr 1
    cases h : lookupIndex d.params n with
    | none => simp [(lookupIndex_none _ _).1 h, invalidArgument]
    | some i =>
      have : n ∈ d.params := by
        apply Classical.byContradiction
        intro hh; rw [(lookupIndex_none _ _).2 hh] at h; cases h
      simp [this]

theorem mem_param_fold (d : DeclInfo) (names : List Str) (s : List Nat) (i : Nat) :
    i ∈ (names.foldl (fun (x : List Nat) s => match lookupIndex d.params s with
      | none => x
      | some i => setInsert x i) s) ↔
    i ∈ s ∨ ∃ n, LiteralValue.string n ∈ names.map LiteralValue.string ∧ FirstAt d.params n i := by
  induction names generalizing s with
  | nil => simp
  | cons n ns ih =>
    rw [List.foldl_cons, ih]
    cases h : lookupIndex d.params n with
    | none =>
      have hn : ∀ i, ¬ FirstAt d.params n i := by
        intro i hi; rw [(lookupIndex_some _ _ _).2 hi] at h; cases h
      simp [hn]
    | some j =>
      have hj := (lookupIndex_some _ _ _).1 h
      have hu : ∀ i, FirstAt d.params n i ↔ i = j := by
        intro i
        rw [← lookupIndex_some, h]
        simp [eq_comm]
      simp [mem_setInsert, hu, or_assoc]

theorem follows_noconvert (env : DeclEnv) (id : Nat) (args : List LiteralValue)
    (x : DeclAttrs) (sh : Shape (env.info id) x) :
    Follows env id ⟨.noconvert, args⟩ x
      (anyHandler (handlers env id) ⟨.noconvert, args⟩ x) := by
  rw [anyHandler_responsible env id _ args 10 _ rfl (by intro j; simp [responsible])]
  have hs := sh.function
  clear sh
  obtain ⟨n, ns, e, r, t, fv, o, c, m, ct, f⟩ := x
  rcases f with _ | f <;> simp only [liftHandler]
  · exact follows_absent _ _ _ _ _ (by simp_all [Applies])
  · have hap : Applies .noconvert (env.info id) := by simp_all [Applies]
    simp only [processFunction]
    rw [variadic_checkMatch]
    refine follows_some env id _ args _ _ rfl hap trivial ?_ ?_ ?_
    · intro h; simp [h]
    · intro v h h'; simp [h, h']
    · intro names hne hn
      have h' := (find_not_string args).2 ⟨names, hn⟩
      have hne' : args ≠ [] := by rw [hn]; simpa using hne
      simp only [h', if_neg hne', parameterNames_plain]
      rw [hn, foldCalls_collect names f _
        (fun x s => match lookupIndex (env.info id).params s with
          | none => x
          | some i => { x with noconvert := setInsert x.noconvert i })
        (fun s => match lookupIndex (env.info id).params s with
          | none => invalidArgument id .noconvert s
          | some _ => [])
        (by intro s x; simp only [onString]; cases lookupIndex (env.info id).params s <;> rfl)]
      have hl : names.foldl (fun (x : FunctionDeclAttrs) s =>
          match lookupIndex (env.info id).params s with
          | none => x
          | some i => { x with noconvert := setInsert x.noconvert i }) f =
          { f with noconvert := names.foldl (fun (x : List Nat) s =>
            match lookupIndex (env.info id).params s with
            | none => x
            | some i => setInsert x i) f.noconvert } := by
        clear hn hne hs
        induction names generalizing f with
        | nil => rfl
        | cons n ns ih =>
          rw [List.foldl_cons, List.foldl_cons, ih]
          cases lookupIndex (env.info id).params n <;> rfl
      rw [hl]
      refine ⟨trivial, ⟨f, _, rfl, rfl, rfl, ?_⟩, ?_, ?_⟩
      · intro i
        exact mem_param_fold (env.info id) names f.noconvert i
      · simp only [acceptedDiagKinds]
        exact param_diags id .noconvert (env.info id) names
      · intro g hg
        simp only [List.mem_flatMap] at hg
        obtain ⟨s, _, hg⟩ := hg
        cases h : lookupIndex (env.info id).params s with
        | none => rw [h] at hg; simp [invalidArgument] at hg; simp [hg]
        | some i => rw [h] at hg; simp at hg

theorem follows_required (env : DeclEnv) (id : Nat) (args : List LiteralValue)
    (x : DeclAttrs) (sh : Shape (env.info id) x) :
    Follows env id ⟨.required, args⟩ x
      (anyHandler (handlers env id) ⟨.required, args⟩ x) := by
  rw [anyHandler_responsible env id _ args 10 _ rfl (by intro j; simp [responsible])]
  have hs := sh.function
  clear sh
  obtain ⟨n, ns, e, r, t, fv, o, c, m, ct, f⟩ := x
  rcases f with _ | f <;> simp only [liftHandler]
  · exact follows_absent _ _ _ _ _ (by simp_all [Applies])
  · have hap : Applies .required (env.info id) := by simp_all [Applies]
    simp only [processFunction]
    rw [variadic_checkMatch]
    refine follows_some env id _ args _ _ rfl hap trivial ?_ ?_ ?_
    · intro h; simp [h]
    · intro v h h'; simp [h, h']
    · intro names hne hn
      have h' := (find_not_string args).2 ⟨names, hn⟩
      have hne' : args ≠ [] := by rw [hn]; simpa using hne
      simp only [h', if_neg hne', parameterNames_plain]
      rw [hn, foldCalls_collect names f _
        (fun x s => match lookupIndex (env.info id).params s with
          | none => x
          | some i => { x with required := setInsert x.required i })
        (fun s => match lookupIndex (env.info id).params s with
          | none => invalidArgument id .required s
          | some _ => [])
        (by intro s x; simp only [onString]; cases lookupIndex (env.info id).params s <;> rfl)]
      have hl : names.foldl (fun (x : FunctionDeclAttrs) s =>
          match lookupIndex (env.info id).params s with
          | none => x
          | some i => { x with required := setInsert x.required i }) f =
          { f with required := names.foldl (fun (x : List Nat) s =>
            match lookupIndex (env.info id).params s with
            | none => x
            | some i => setInsert x i) f.required } := by
        clear hn hne hs
        induction names generalizing f with
        | nil => rfl
        | cons n ns ih =>
          rw [List.foldl_cons, List.foldl_cons, ih]
          cases lookupIndex (env.info id).params n <;> rfl
      rw [hl]
      refine ⟨trivial, ⟨f, _, rfl, rfl, rfl, ?_⟩, ?_, ?_⟩
      · intro i
        exact mem_param_fold (env.info id) names f.required i
      · simp only [acceptedDiagKinds]
        exact param_diags id .required (env.info id) names
      · intro g hg
        simp only [List.mem_flatMap] at hg
        obtain ⟨s, _, hg⟩ := hg
        cases h : lookupIndex (env.info id).params s with
        | none => rw [h] at hg; simp [invalidArgument] at hg; simp [hg]
        | some i => rw [h] at hg; simp at hg

theorem follows_keepAlive (env : DeclEnv) (id : Nat) (args : List LiteralValue)
    (x : DeclAttrs) (sh : Shape (env.info id) x) :
    Follows env id ⟨.keepAlive, args⟩ x
      (anyHandler (handlers env id) ⟨.keepAlive, args⟩ x) := by
  rw [anyHandler_responsible env id _ args 10 _ rfl (by intro j; simp [responsible])]
  have hs := sh.function
  clear sh
  obtain ⟨n, ns, e, r, t, fv, o, c, m, ct, f⟩ := x
  rcases f with _ | f <;> simp only [liftHandler]
  · exact follows_absent _ _ _ _ _ (by simp_all [Applies])
  · have hap : Applies .keepAlive (env.info id) := by simp_all [Applies]
    rcases args with _ | ⟨v, _ | ⟨w, _ | ⟨u, r⟩⟩⟩
    · follow
    · follow
    · by_cases hv : ∃ s, v = .string s
      · by_cases hw : ∃ t, w = .string t
        · obtain ⟨s, rfl⟩ := hv
          obtain ⟨t, rfl⟩ := hw
          have hd : Documented (env.info id) ⟨.keepAlive, [.string s, .string t]⟩ :=
            ⟨hap, trivial, .two .string, by simp [forms], rfl⟩
          have hx : ∃ f ∈ forms .keepAlive, f.Accepts [.string s, .string t] :=
            ⟨.two .string, by simp [forms], rfl⟩
          have hstep : (processFunction id (env.info id) ⟨.keepAlive, [.string s, .string t]⟩ f) =
              match lookupIndex (keepAliveNames (env.info id)) s,
                lookupIndex (keepAliveNames (env.info id)) t with
              | none, _ => ⟨true, f, invalidArgument id .keepAlive s⟩
              | some _, none => ⟨true, f, invalidArgument id .keepAlive t⟩
              | some i, some j => ⟨true, { f with keepAlive := f.keepAlive ++ [(i, j)] }, []⟩ := by
            simp only [processFunction, Dispatcher.start, Dispatcher.binary,
              Dispatcher.checkArgKinds, parameterNames_keepAlive]
            cases h1 : lookupIndex (keepAliveNames (env.info id)) s <;>
            cases h2 : lookupIndex (keepAliveNames (env.info id)) t <;>
            simp [Dispatcher.checkMatch, Dispatcher.call, h1, h2, LiteralValue.isa,
              LiteralValue.kind]
          rw [hstep]
          refine ⟨fun _ => ?_, fun h => absurd hd h, fun _ _ h => absurd hx h,
            fun h => absurd hap h, fun _ h => absurd trivial h, ?_⟩
          · cases h1 : lookupIndex (keepAliveNames (env.info id)) s with
            | none =>
              have h1' := (lookupIndex_none _ _).1 h1
              refine ⟨rfl, ⟨s, t, rfl, ?_, fun _ => rfl⟩, ?_⟩
              · intro i j hi _
                rw [(lookupIndex_some _ _ _).2 hi] at h1; cases h1
              · simp [acceptedDiagKinds, h1', invalidArgument]
            | some i =>
              have m1 : s ∈ keepAliveNames (env.info id) := by
                apply Classical.byContradiction
                intro hh; rw [(lookupIndex_none _ _).2 hh] at h1; cases h1
              cases h2 : lookupIndex (keepAliveNames (env.info id)) t with
              | none =>
                have h2' := (lookupIndex_none _ _).1 h2
                refine ⟨rfl, ⟨s, t, rfl, ?_, fun _ => rfl⟩, ?_⟩
                · intro i j _ hj
                  rw [(lookupIndex_some _ _ _).2 hj] at h2; cases h2
                · simp [acceptedDiagKinds, h2', invalidArgument]
              | some j =>
                have m2 : t ∈ keepAliveNames (env.info id) := by
                  apply Classical.byContradiction
                  intro hh; rw [(lookupIndex_none _ _).2 hh] at h2; cases h2
                refine ⟨rfl, ⟨s, t, rfl, ?_, ?_⟩, ?_⟩
                · intro i' j' hi hj
                  rw [(lookupIndex_some _ _ _).2 hi] at h1
                  rw [(lookupIndex_some _ _ _).2 hj] at h2
                  cases h1; cases h2; rfl
                · rintro (h | h)
                  · exact absurd m1 h
                  · exact absurd m2 h
                · simp [acceptedDiagKinds, m1, m2]
          · intro g
            cases lookupIndex (keepAliveNames (env.info id)) s <;>
            cases lookupIndex (keepAliveNames (env.info id)) t <;>
              simp [invalidArgument] <;> rintro rfl <;> rfl
        · obtain ⟨s, rfl⟩ := hv
          cases w with
          | string t => exact absurd ⟨t, rfl⟩ hw
          | _ => follow
      · cases v with
        | string t => exact absurd ⟨t, rfl⟩ hv
        | _ => follow
    · follow

end Verif
