import Verif.Spec.Convert
import Verif.Props.Contents
import Verif.Props.Signature
/-!
# C99: values that become Python objects when a module is imported
-/
namespace Verif
open Spec

/-- What is written for an enum. -/
theorem enum_statements (w : EmitWorld) (ok : EmitOK w) (s : Storage) (vis : Visibilities) (x : Nat)
    (hk : (w.info x).kind = .enum) (t : Stmt)
    (ht : t ∈ (exposeContext w vis s (Exposer.create w s x) x).emitted.stmts) :
    t = .exportValues ∨ ∃ d n e doc, t = .enumValue d n (w.typeName x) e doc := by
  have hnp := enum_not_proposed w ok s x
  have hc : Exposer.create w s x = .enum x := by
    unfold Exposer.create
    rw [hk]
  rw [(exposeContext_eq w vis s _ x hnp).1, hc] at ht
  rcases List.mem_append.1 ht with h | h
  · obtain ⟨d, -, hd⟩ := List.mem_flatMap.1 h
    unfold declOutput at hd
    split at hd
    · split at hd
      · simp only [declStmts] at hd
        unfold handleDeclEnum at hd
        split at hd
        · simp only [List.mem_singleton] at hd
          exact .inr ⟨_, _, _, _, hd⟩
        · cases hd
      · cases hd
    · cases hd
  · simp only [finalStmts] at h
    unfold finalizeEnum at h
    split at h
    · split at h
      · simp only [List.mem_singleton] at h
        exact .inl h
      · cases h
    · cases h

/-- Attributes that are set to a value are variables, those that are set to a type are not;
enumerators are only written for enums. -/
def FitsKind (w : EmitWorld) (t : Stmt) : Prop :=
  (∀ d n q, t = .valueAttr d n q → (w.info d).kind = .var) ∧
  (∀ d n q, t = .typeAttr d n q → (w.info d).kind ≠ .var) ∧
  ∀ d n c e doc, t ≠ .enumValue d n c e doc

theorem generic_fits (w : EmitWorld) (s : Storage) (hd : Derived w s) (x : Nat) (a : DeclAttrs)
    (ha : attrsOf w s x = some a) (t : Stmt) (ht : t ∈ (handleDeclGeneric w a x).stmts) : FitsKind w t := by
  have hs := attrsOf_shape w s hd x a ha
  unfold handleDeclGeneric at ht
  split at ht
  · cases ht
  split at ht
  · rename_i u hu
    split at ht
    · cases ht
    split at ht
    · cases ht
    · simp only [List.mem_singleton] at ht
      subst ht
      refine ⟨by nofun, ?_, by nofun⟩
      intro d n q e
      simp only [Stmt.typeAttr.injEq] at e
      rw [← e.1, hs.typedefName.1 (by rw [hu]; rfl)]
      decide
  split at ht
  · rename_i v hv
    split at ht
    · split at ht
      · cases ht
      · simp only [List.mem_singleton] at ht
        subst ht
        exact ⟨by nofun, by nofun, by nofun⟩
    · split at ht
      · cases ht
      · rename_i hf
        simp only [List.mem_singleton] at ht
        subst ht
        refine ⟨?_, by nofun, by nofun⟩
        intro d n q e
        simp only [Stmt.valueAttr.injEq] at e
        rw [← e.1]
        exact (hs.fieldOrVar.1 (by rw [hv]; rfl)).resolve_left hf
  repeat' (first
    | cases ht; done
    | (simp only [List.mem_singleton] at ht; subst ht; exact ⟨by nofun, by nofun, by nofun⟩)
    | split at ht)

theorem record_fits (w : EmitWorld) (s : Storage) (hd : Derived w s) (r : Nat) (x : Nat) (a : DeclAttrs)
    (ha : attrsOf w s x = some a) (t : Stmt) (ht : t ∈ (handleDeclRecord w r [] a x).2.stmts) :
    FitsKind w t := by
  unfold handleDeclRecord at ht
  repeat' (first
    | exact generic_fits w s hd x a ha t ht
    | cases ht; done
    | (simp only [List.mem_cons, List.not_mem_nil, or_false] at ht
       first
        | (subst ht; exact ⟨by nofun, by nofun, by nofun⟩)
        | (rcases ht with rfl | rfl <;> exact ⟨by nofun, by nofun, by nofun⟩))
    | split at ht | (dsimp only at ht; split at ht))

theorem context_fits (w : EmitWorld) (s : Storage) (hd : Derived w s) (vis : Visibilities) (e : Exposer)
    (he : ∀ x, e ≠ .enum x) (c : Nat) (t : Stmt)
    (ht : t ∈ (exposeContext w vis s e c).emitted.stmts) : FitsKind w t := by
  rcases stmt_origin w vis s e he c t ht with ⟨x, a, ha, hx⟩ | ⟨m, hm⟩
  · cases e with
    | plain => exact generic_fits w s hd x a ha t hx
    | «namespace» y => exact generic_fits w s hd x a ha t hx
    | enum y => exact absurd rfl (he y)
    | record r p => exact record_fits w s hd r x a ha t hx
  · cases e with
    | plain =>
      simp only [finalStmts, List.mem_singleton] at hm
      subst hm
      exact ⟨by nofun, by nofun, by nofun⟩
    | «namespace» y =>
      simp only [finalStmts, List.mem_singleton] at hm
      subst hm
      exact ⟨by nofun, by nofun, by nofun⟩
    | enum y => exact absurd rfl (he y)
    | record r p =>
      obtain ⟨n, g, st, rfl⟩ := properties_only w m t hm
      exact ⟨by nofun, by nofun, by nofun⟩

/-- `**kwargs` comes last. -/
theorem kwargs_last (w : EmitWorld) (d : Nat) (h : KwargsLast (w.fn d).params) :
    ¬ ∃ pre k mid p post, paramsOf w d = pre ++ k :: mid ++ p :: post ∧
      k.argsType = some .kwargs ∧ p.argsType = none := by
  rintro ⟨pre, k, mid, p, post, he, hk, hp⟩
  unfold paramsOf at he
  obtain ⟨l, l3, h1, h2, h3⟩ := List.map_eq_append_iff.1 he
  obtain ⟨l1, l2, h4, h5, h6⟩ := List.map_eq_append_iff.1 h2
  obtain ⟨q, l4, h7, h8, h9⟩ := List.map_eq_cons_iff.1 h6
  obtain ⟨q', l5, h10, h11, h12⟩ := List.map_eq_cons_iff.1 h3
  subst h4 h7 h10
  refine h l1.length (l1 ++ q :: l4).length q q' (by simp) ?_ ?_ (by rw [h8]; exact hk) (by rw [h11]; exact hp)
  · rw [h1]
    simp
  · rw [h1]
    simp

/-- The default arguments that are written are those of the function. -/
theorem written_defaults (w : EmitWorld) (d : Nat) (doc : Str) (args : List ArgOut) (policies : List PolicyOut)
    (h : Signature w d doc args policies) (hk : KwargsLast (w.fn d).params) (e : Str) :
    e ∈ args.filterMap (·.default) ↔ DefaultArgument w d e := by
  have hn := h.names (kwargs_last w d hk)
  have hd : args.map (·.default) = ((paramsOf w d).filter (·.argsType.isNone)).map (·.default) := by
    have := congrArg (List.map Prod.snd) hn
    simpa [List.map_map, Function.comp_def] using this
  have h1 : e ∈ args.filterMap (·.default) ↔ some e ∈ args.map (·.default) := by
    simp [List.mem_filterMap, List.mem_map]
  rw [h1, hd]
  unfold DefaultArgument
  simp only [List.mem_map, List.mem_filter, Option.isNone_iff_eq_none]
  constructor
  · rintro ⟨p, ⟨h1, h2⟩, h3⟩
    exact ⟨p, h1, h2, h3⟩
  · rintro ⟨p, h1, h2, h3⟩
    exact ⟨p, ⟨h1, h2⟩, h3⟩

/-- A statement of the context with this number has been executed. -/
theorem execution_context (i : ToolInput) (name : Str) (g : Graph) (b : Building) (order : List Nat)
    (place : Nat → List Str) (e : Execution) (he : e ∈ executed i name g b order place)
    (hm : ∀ v l, e.stmt ≠ .manual v l) :
    ∃ x ∈ contextsOf i.world order, e.stmt ∈ (exposeContext i.world
      (analyze i.world.toWorld b.storage i.members name g).vis b.storage
      (Exposer.create i.world b.storage x) x).emitted.stmts := by
  unfold executed executionsOf at he
  rcases List.mem_append.1 he with he | he
  · obtain ⟨x, hx, he⟩ := List.mem_flatMap.1 he
    obtain ⟨t, ht, rfl⟩ := List.mem_map.1 he
    exact ⟨x, hx, ht⟩
  · obtain ⟨v, _, hv⟩ := List.mem_filterMap.1 he
    obtain ⟨l, _, rfl⟩ := Option.map_eq_some_iff.1 hv
    exact absurd rfl (hm _ _)

theorem execution_known (i : ToolInput) (name : Str) (g : Graph) (b : Building) (order : List Nat)
    (place : Nat → List Str) (e : Execution) (he : e ∈ executed i name g b order place) :
    e.known = typesOf i.world order place := by
  unfold executed executionsOf at he
  rcases List.mem_append.1 he with he | he
  · obtain ⟨x, hx, he⟩ := List.mem_flatMap.1 he
    obtain ⟨t, ht, rfl⟩ := List.mem_map.1 he
    rfl
  · obtain ⟨v, _, hv⟩ := List.mem_filterMap.1 he
    obtain ⟨l, _, rfl⟩ := Option.map_eq_some_iff.1 hv
    rfl

theorem known_registered (i : ToolInput) (ok : InputOK i) (name : Str) (g : Graph) (b : Building)
    (order : List Nat) (place : Nat → List Str) (pl : Placement i name g b order place) (t : Str) :
    t ∈ (typesOf i.world order place).map (·.1) ↔
      ∃ y, Exposed i.world.toWorld b.storage name g y ∧ i.world.typeName y = t := by
  have hcg := C23_graphs i.world.toWorld i.tree ok.unit g b pl.graph
  have hty : ∀ x, isTypeContext i.world x = true ↔ IsType i.world.toWorld x := by
    intro x
    simp [isTypeContext, IsType, or_comm]
  unfold typesOf
  simp only [List.map_map, List.mem_map, List.mem_filter, Function.comp_apply]
  refine exists_congr fun x => and_congr_left fun _ => ?_
  constructor
  · rintro ⟨h1, h2⟩
    have ht := (hty x).1 h2
    have hx := pl.sorted.perm.mem_iff.1 (List.mem_filter.1 h1).1
    exact ⟨ht, (C26_types i.world.toWorld b.storage i.members name g hcg x ht).1 hx⟩
  · rintro ⟨ht, h⟩
    have hx := (C26_types i.world.toWorld b.storage i.members name g hcg x ht).2 h
    refine ⟨own_representative i.world order x (pl.sorted.perm.mem_iff.2 hx) ?_, (hty x).2 ht⟩
    rcases ht with h | h <;> rw [h] <;> decide

theorem has_execution {α : Type} {l : List Execution} {e : Execution} (he : e ∈ l) {F : Stmt → Option α} {v : α}
    (h : F e.stmt = some v) : Has l e.object F v := ⟨e, he, rfl, h⟩

/-- C99: all values in the statements that are executed when the module is imported can be
converted exactly if the types that the default arguments of its functions and constructors and
its constants need are exposed in this module, anywhere, or registered by another one. -/
theorem C99_values (needs : Str → List Str) (others : List Str) (i : ToolInput) (ok : InputOK i)
    (lk : LookupOK i.world) (re : Reopening i.world.toWorld) (hu : NoBareReopening i.world.toWorld i.tree)
    (name : Str) (g : Graph) (b : Building) (order : List Nat) (place : Nat → List Str)
    (pl : Placement i name g b order place)
    (hc : ∀ x, Contributes i.world.toWorld b.storage name g x →
      ((i.world.info x).kind = .namespace →
        HasVisible i.world.toWorld b.storage i.members (EffVisible i.world.toWorld b.storage g) g x) →
      ContextOK i.world b.storage g x) :
    (∀ e ∈ executed i name g b order place, Converts needs others e) ↔
      ∀ x object, Fills i.world.toWorld b.storage i.members name g place x object →
        (∀ d e, Callable i.world b.storage g x d → DefaultArgument i.world d e →
          ∀ t ∈ needs e, RegisteredType i.world b.storage name g others t) ∧
        ∀ d, Constant i.world b.storage g x d →
          ∀ t ∈ needs (i.world.qualifiedName d), RegisteredType i.world b.storage name g others t := by
  have hder := derived_built i.world i.tree ok.unit g b pl.graph
  have hkn := known_registered i ok name g b order place pl
  have henum : ∀ x, (i.world.info x).kind ≠ .enum → ∀ y, Exposer.create i.world b.storage x ≠ .enum y :=
    fun x hk y hy => hk ((create_kind _ _ x).1 y hy).2
  have hkind : ∀ e ∈ executed i name g b order place, (∀ v l, e.stmt ≠ .manual v l) →
      (∀ d n c en doc, e.stmt ≠ .enumValue d n c en doc) → e.stmt ≠ .exportValues →
      ∃ x ∈ contextsOf i.world order, (∀ y, Exposer.create i.world b.storage x ≠ .enum y) ∧
        e.stmt ∈ (exposeContext i.world (analyze i.world.toWorld b.storage i.members name g).vis b.storage
          (Exposer.create i.world b.storage x) x).emitted.stmts := by
    intro e he h1 h2 h3
    obtain ⟨x, hx, hs⟩ := execution_context i name g b order place e he h1
    refine ⟨x, hx, henum x fun hk => ?_, hs⟩
    rcases enum_statements i.world ok.emit b.storage _ x hk _ hs with h | ⟨d, n, en, doc, h⟩
    · exact h3 h
    · exact h2 _ _ _ _ _ h
  have hlast : ∀ x object d, Fills i.world.toWorld b.storage i.members name g place x object →
      Callable i.world b.storage g x d → KwargsLast (i.world.fn d).params := by
    rintro x object d hf ⟨ho, h⟩
    have := (hc x hf.1 hf.2.1).exposed d (.inl ho.1) ho.2
    rcases h with ⟨h1, h2⟩ | ⟨h1, h2⟩
    · exact this.function h1 h2
    · exact this.constructor h1 h2
  have hconv : ∀ e ∈ executed i name g b order place, (Converts needs others e ↔
      ∀ t ∈ converted needs e.stmt, RegisteredType i.world b.storage name g others t) := by
    intro e he
    unfold Converts RegisteredType
    rw [execution_known i name g b order place e he]
    simp only [hkn]
  constructor
  · intro h x object hf
    constructor
    · intro d e hcall hdef t ht
      have hl := hlast x object d hf hcall
      obtain ⟨ho, ⟨hk, hfn⟩ | ⟨hk, hfn⟩⟩ := hcall
      · obtain ⟨ex, hex, _, hst⟩ := (C71_functions i ok lk re hu name g b order place pl object d _ _ _).2
          ⟨⟨x, hf, hk, ho, hfn⟩, rfl, rfl, rfl⟩
        cases hs : ex.stmt <;> rw [hs] at hst <;> try (cases hst; done)
        rename_i d' st n p doc args policies
        cases hst
        obtain ⟨y, _, hne, hy⟩ := hkind ex hex (by rw [hs]; nofun) (by rw [hs]; nofun) (by rw [hs]; nofun)
        rw [hs] at hy
        have hsig := C66_function i.world ok.emit b.storage hder _ _ hne _ _ _ _ _ _ _ _ hy
        refine (hconv ex hex).1 (h ex hex) t ?_
        rw [hs]
        exact List.mem_flatMap.2 ⟨e, (written_defaults _ _ _ _ _ hsig hl e).2 hdef, ht⟩
      · obtain ⟨ex, hex, _, hst⟩ := (C71_constructors i ok lk re hu name g b order place pl object d _).2
          ⟨⟨x, hf, hk, ho, hfn⟩, rfl⟩
        cases hs : ex.stmt <;> rw [hs] at hst <;> try (cases hst; done)
        rename_i d' types doc args policies
        simp only [initOf, Option.some.injEq, Prod.mk.injEq] at hst
        obtain ⟨rfl, _⟩ := hst
        obtain ⟨y, _, hne, hy⟩ := hkind ex hex (by rw [hs]; nofun) (by rw [hs]; nofun) (by rw [hs]; nofun)
        rw [hs] at hy
        have hsig := C66_constructor i.world ok.emit b.storage hder _ _ hne _ _ _ _ _ _ hy
        refine (hconv ex hex).1 (h ex hex) t ?_
        rw [hs]
        exact List.mem_flatMap.2 ⟨e, (written_defaults _ _ _ _ _ hsig hl e).2 hdef, ht⟩
    · rintro d ⟨hk, hk', ho, hv, hm⟩ t ht
      obtain ⟨ex, hex, _, hst⟩ := (C71_attributes i ok lk re hu name g b order place pl object d _ _).2
          ⟨⟨x, hf, hk, ho, .inr ⟨hk', hv, rfl, hm⟩⟩, rfl⟩
      cases hs : ex.stmt <;> rw [hs] at hst <;> try (cases hst; done)
      · obtain ⟨y, _, hne, hy⟩ := hkind ex hex (by rw [hs]; nofun) (by rw [hs]; nofun) (by rw [hs]; nofun)
        cases hst
        exact absurd hv ((context_fits i.world b.storage hder _ _ hne _ _ hy).2.1 _ _ _ hs)
      · simp only [attributeOf, Option.some.injEq, Prod.mk.injEq] at hst
        obtain ⟨rfl, _, hq⟩ := hst
        refine (hconv ex hex).1 (h ex hex) t ?_
        rw [hs]
        simp only [converted, hq]
        exact ht
  · intro h e he
    rw [hconv e he]
    intro t ht
    cases hs : e.stmt <;> rw [hs] at ht <;> try (cases ht; done)
    · rename_i d source target
      simp only [converted, List.mem_singleton] at ht
      subst ht
      obtain ⟨x, hf, hk, _, _, _, _, rfl⟩ :=
        (C74_conversions i ok lk re hu name g b order place pl e.object d source _).1
          (has_execution he (by rw [hs]; rfl))
      exact .inr ⟨x, ⟨.inr hk, hf.1⟩, rfl⟩
    · rename_i d types doc args policies
      obtain ⟨ex, hex, ht⟩ := List.mem_flatMap.1 ht
      obtain ⟨⟨x, hf, hk, ho, hcl⟩, _⟩ :=
        (C71_constructors i ok lk re hu name g b order place pl e.object d types).1
          (has_execution he (by rw [hs]; rfl))
      have hcall : Callable i.world b.storage g x d := ⟨ho, .inr ⟨hk, hcl⟩⟩
      obtain ⟨y, _, hne, hy⟩ := hkind e he (by rw [hs]; nofun) (by rw [hs]; nofun) (by rw [hs]; nofun)
      rw [hs] at hy
      have hsig := C66_constructor i.world ok.emit b.storage hder _ _ hne _ _ _ _ _ _ hy
      exact (h x _ hf).1 d ex hcall
        ((written_defaults _ _ _ _ _ hsig (hlast x _ d hf hcall) ex).1 hex) t ht
    · rename_i d st n p doc args policies
      obtain ⟨ex, hex, ht⟩ := List.mem_flatMap.1 ht
      obtain ⟨⟨x, hf, hk, ho, hfn⟩, _⟩ :=
        (C71_functions i ok lk re hu name g b order place pl e.object d st n p).1
          (has_execution he (by rw [hs]; rfl))
      have hcall : Callable i.world b.storage g x d := ⟨ho, .inl ⟨hk, hfn⟩⟩
      obtain ⟨y, _, hne, hy⟩ := hkind e he (by rw [hs]; nofun) (by rw [hs]; nofun) (by rw [hs]; nofun)
      rw [hs] at hy
      have hsig := C66_function i.world ok.emit b.storage hder _ _ hne _ _ _ _ _ _ _ _ hy
      exact (h x _ hf).1 d ex hcall
        ((written_defaults _ _ _ _ _ hsig (hlast x _ d hf hcall) ex).1 hex) t ht
    · rename_i d n q
      obtain ⟨y, _, hne, hy⟩ := hkind e he (by rw [hs]; nofun) (by rw [hs]; nofun) (by rw [hs]; nofun)
      have hv := (context_fits i.world b.storage hder _ _ hne _ _ hy).1 _ _ _ hs
      obtain ⟨⟨x, hf, hk, ho, hx⟩, _⟩ :=
        (C71_attributes i ok lk re hu name g b order place pl e.object d n q).1
          (has_execution he (by rw [hs]; rfl))
      rcases hx with ⟨a, u, ha, hu', _⟩ | ⟨hk', _, rfl, hm⟩
      · have := (attrsOf_shape _ _ hder d a ha).typedefName.1 (by rw [hu']; rfl)
        rw [hv] at this
        cases this
      · exact (h x _ hf).2 d ⟨hk, hk', ho, hv, hm⟩ t ht
    · rename_i d n c en doc
      simp only [converted, List.mem_singleton] at ht
      subst ht
      obtain ⟨x, hx, hy⟩ := execution_context i name g b order place e he (by rw [hs]; nofun)
      rw [hs] at hy
      have hk : (i.world.info x).kind = .enum := Classical.byContradiction fun hk =>
        (context_fits i.world b.storage hder _ _ (henum x hk) _ _ hy).2.2 _ _ _ _ _ rfl
      rcases enum_statements i.world ok.emit b.storage _ x hk _ hy with h | ⟨_, _, _, _, h⟩
      · cases h
      · cases h
        refine .inr ((hkn _).1 ?_)
        unfold typesOf
        simp only [List.map_map, List.mem_map, List.mem_filter, Function.comp_apply]
        exact ⟨x, ⟨hx, by simp [isTypeContext, hk]⟩, rfl⟩

/-- C99: a generated module can be imported, including the conversion of values, exactly if the
conditions of C61 hold and all types needed by default arguments and constants are available,
regardless of their order and of the number of files. -/
theorem C99_run (needs : Str → List Str) (others : List Str) (o : ToolOptions) (i : ToolInput)
    (ok : InputOK i) (lk : LookupOK i.world) (mo : MembersOK i.world) (re : Reopening i.world.toWorld)
    (hu : NoBareReopening i.world.toWorld i.tree) (files : Files) (r : ToolResult)
    (hr : runTool o i files = some r) (hx : o.expectFailure = false) (h0 : r.exitCode = 0)
    (hnd : o.outputFiles.Nodup) :
    ∃ name g b order place, moduleNameFor o.moduleName i.mainFile = some name ∧
      Placement i name g b order place ∧
      ∃ lines : List (List Line), lines.length = o.outputFiles.length ∧
        (∀ (k : Nat) path ls, o.outputFiles[k]? = some path → lines[k]? = some ls →
          (path ≠ ['-'] → r.files path = some (fileText i ls)) ∧
          (path = ['-'] → r.printed = [fileText i ls])) ∧
        (ImportedWith needs others lines ↔
          ((identifiersOf i.world order).Nodup ∧ Importable i.world b.storage
            (analyze i.world.toWorld b.storage i.members name g).pruned order place) ∧
          ∀ x object, Fills i.world.toWorld b.storage i.members name g place x object →
            (∀ d e, Callable i.world b.storage g x d → DefaultArgument i.world d e →
              ∀ t ∈ needs e, RegisteredType i.world b.storage name g others t) ∧
            ∀ d, Constant i.world b.storage g x d →
              ∀ t ∈ needs (i.world.qualifiedName d), RegisteredType i.world b.storage name g others t) := by
  obtain ⟨name, g, b, order, place, hn, hb, hv, hpl, lines, hlen, hfiles, hiff, hst⟩ :=
    C69_module o i ok files r hr hx h0 hnd
  have pl : Placement i name g b order place := ⟨hb, hv, hpl⟩
  refine ⟨name, g, b, order, place, hn, pl, lines, hlen, hfiles, ?_⟩
  have hout : o.outputFiles ≠ [] := by
    unfold ToolOptions.outputFiles
    cases o.outputs <;> simp
  have hno : ¬ ErrorReported i (handleTranslationUnit i name o.outputFiles) := by
    rw [(C50_exit o i files name r hn hr).1 h0, hx]
    simp
  obtain ⟨_, _, _, g', b', hb', _, _, hc⟩ :=
    (C72_success_iff i ok lk mo re hu name o.outputFiles hout).1 hno
  rw [hb] at hb'
  cases hb'
  rw [← C99_values needs others i ok lk re hu name g b order place pl hc, ← hiff]
  constructor
  · rintro ⟨st, h1, h2⟩
    exact ⟨⟨st, h1⟩, fun e he => h2 e (by rw [(hst st h1).1]; exact he)⟩
  · rintro ⟨⟨st, h1⟩, h2⟩
    exact ⟨st, h1, fun e he => h2 e (by rw [(hst st h1).1] at he; exact he)⟩

/-! ### Examples -/

/-- `struct visible S { int f(int x = ::n::E::A); hidden int g(); };
namespace module n { enum text E { A }; }` -/
def exDefault (text : Str) : ToolInput := { exInput with
  world := { exUnit with
    info := fun x => { exUnit.info x with
      attrTexts := if x = 5 then [lozenge ++ text] else (exUnit.info x).attrTexts }
    fn := fun d => if d = 2 then
        { exUnit.fn 2 with params := [⟨{ id := 0, name := t%"x", default := some t%"::n::E::A" },
            { text := t%"::n::E" }, t%"::n::E"⟩] }
      else exUnit.fn d } }

/-- Values of the enum need its type. -/
def exNeeds (e : Str) : List Str := if e = t%"::n::E::A" then [t%"::n::E"] else []

theorem exDefault_ok (text : Str) : InputOK (exDefault text) where
  unit := by
    refine ⟨rfl, fun id => ?_, show (ids exUnitTree).Nodup by decide +kernel, fun id p ps => ?_, fun id h => ?_,
      rfl, fun a x => ?_, fun a x => ?_, fun a => ?_⟩
    all_goals simp only [exDefault, exUnit]
    · split <;> simp_all
    · split <;> simp <;> rintro rfl rfl <;> rfl
    · split <;> simp_all [exDefault, exUnit]
    · split <;> simp
    · split <;> simp
    · split <;> simp
  emit := by
    refine ⟨by simp [exDefault, exUnit], by simp [exDefault, exUnit], ?_, fun _ _ => rfl⟩
    intro d
    by_cases hd : d = 2
    · subst hd
      rfl
    · simp only [exDefault, if_neg hd]
      exact exInput_ok.emit.params d
  bases := by
    intro x a
    simp [exDefault, exUnit, EmitWorld.bases, Hierarchy.direct]
  picks := lastSmallest_ok _
  iterate := fun _ => .refl _

theorem exDefault_lookup (text : Str) : LookupOK (exDefault text).world where
  same := fun x y h => exInput_lookup.same x y h
  operators := by simp [exDefault, exUnit]
  specialized := by simp [exDefault, exUnit]

theorem exDefault_members (text : Str) : MembersOK (exDefault text).world where
  ofClass := exInput_members.ofClass
  ofUnit := exInput_members.ofUnit
  once := exInput_members.once
  distinct := exInput_members.distinct

theorem exDefault_reopening (text : Str) : Reopening (exDefault text).world.toWorld where
  name := fun x y h => exInput_reopening.name x y h
  scope := fun x y p q h hp hq => exInput_reopening.scope x y p q h hp hq
  access := exInput_reopening.access

theorem exDefault_bare (text : Str) : NoBareReopening (exDefault text).world.toWorld (exDefault text).tree := by
  rintro s t hs ht ⟨h1, h2, h⟩ hx
  have h : s.id = t.id := h
  have hi : t.id = 4 := by
    have h2 : (exUnit.info t.id).kind = .namespace := h2
    revert h2
    simp only [exUnit]
    split <;> simp_all
  refine ⟨t, .here ?_, ?_⟩
  · rw [hi]; simp [Implementation, exDefault, exUnit]
  · rwa [← h]

local macro "eval_run" : tactic => `(tactic| (
  simp only [handleTranslationUnit, emitModule, findEnclosingScopes, analyze, pruneGraph, hideNamespaces,
    declContextsWithVisibleNamedDecls, deriveEffectiveVisibility, dfs_fuel]
  decide +kernel))

def exDefaultOptions : ToolOptions := { outputs := [t%"/a"] }

theorem exDefault_name (text : Str) : moduleNameFor [] (exDefault text).mainFile = some t%"my_lib" :=
  show moduleNameFor [] exInput.mainFile = some t%"my_lib" from
    (makeValidIdentifier_eq _).trans (by decide +kernel)

theorem exDefault_run (text : Str) (h1 : (handleTranslationUnit (exDefault text) t%"my_lib" [t%"/a"]).diags = [])
    (h2 : (handleTranslationUnit (exDefault text) t%"my_lib" [t%"/a"]).ioError = false) :
    ∃ r, runTool exDefaultOptions (exDefault text) (fun _ => none) = some r ∧ r.exitCode = 0 ∧ r.diags = [] := by
  unfold runTool
  rw [show exDefaultOptions.moduleName = [] from rfl, exDefault_name]
  refine ⟨_, rfl, ?_, h1⟩
  have h : errorOccurred (exDefault text) (handleTranslationUnit (exDefault text) t%"my_lib" [t%"/a"]) = false := by
    unfold errorOccurred
    rw [h1, h2]
    rfl
  dsimp only
  rw [show exDefaultOptions.outputFiles = [t%"/a"] from rfl, h]
  rfl

set_option maxRecDepth 8000 in
theorem exDefault_hidden_quiet :
    (handleTranslationUnit (exDefault t%"hidden") t%"my_lib" [t%"/a"]).diags = [] ∧
    (handleTranslationUnit (exDefault t%"hidden") t%"my_lib" [t%"/a"]).ioError = false := by
  constructor <;> eval_run

set_option maxRecDepth 8000 in
theorem exDefault_visible_quiet :
    (handleTranslationUnit (exDefault t%"visible") t%"my_lib" [t%"/a"]).diags = [] ∧
    (handleTranslationUnit (exDefault t%"visible") t%"my_lib" [t%"/a"]).ioError = false := by
  constructor <;> eval_run

/-- The contexts that become part of the module. -/
def exDefaultNodes (text : Str) : Option (List Nat) :=
  match buildGraph (exDefault text).world.toWorld (exDefault text).tree with
  | (some g, b) => some (analyze (exDefault text).world.toWorld b.storage (exDefault text).members t%"my_lib" g).pruned.nodes
  | _ => none

set_option maxRecDepth 8000 in
theorem exDefault_nodes : exDefaultNodes t%"hidden" = some [0, 1] ∧
    exDefaultNodes t%"visible" = some [0, 1, 4, 5] := by
  unfold exDefaultNodes
  constructor <;> eval_run

theorem exDefault_exposed (text : Str) (nodes : List Nat) (h : exDefaultNodes text = some nodes) (g : Graph)
    (b : Building) (hb : buildGraph (exDefault text).world.toWorld (exDefault text).tree = (some g, b)) (x : Nat)
    (hx : IsType (exDefault text).world.toWorld x) :
    Exposed (exDefault text).world.toWorld b.storage t%"my_lib" g x ↔ x ∈ nodes := by
  unfold exDefaultNodes at h
  rw [hb] at h
  simp only [Option.some.injEq] at h
  have hcg := C23_graphs _ _ (exDefault_ok text).unit g b hb
  rw [← h, C26_types _ b.storage (exDefault text).members t%"my_lib" g hcg x hx]
  exact ⟨fun h => h.2, fun h => ⟨hx, h⟩⟩

/-- Whether the type of the default argument is available. -/
theorem exDefault_registered (text : Str) (nodes : List Nat) (h : exDefaultNodes text = some nodes) (g : Graph)
    (b : Building) (hb : buildGraph (exDefault text).world.toWorld (exDefault text).tree = (some g, b)) :
    RegisteredType (exDefault text).world b.storage t%"my_lib" g [] t%"::n::E" ↔ 5 ∈ nodes := by
  have key : ∀ x, IsType (exDefault text).world.toWorld x → x = 1 ∨ x = 5 := by
    intro x hx
    have hx : (exUnit.info x).kind = .enum ∨ (exUnit.info x).kind = .record := hx
    revert hx
    simp only [exUnit]
    split <;> simp
  have h5 : IsType (exDefault text).world.toWorld 5 := .inl rfl
  rw [← exDefault_exposed text nodes h g b hb 5 h5]
  constructor
  · rintro (h | ⟨y, hy, ht⟩)
    · cases h
    · rcases key y hy.1 with rfl | rfl
      · exact absurd ht (by simp [exDefault, exUnit])
      · exact hy
  · intro h
    exact .inr ⟨5, h, rfl⟩

/-- The method of `S` is called with a default argument. -/
theorem exDefault_callable (text : Str) (nodes : List Nat) (h : exDefaultNodes text = some nodes) (h1 : 1 ∈ nodes)
    (hat : (attrsOf (exDefault text).world (buildGraph (exDefault text).world.toWorld (exDefault text).tree).2.storage
      2).map (fun a => (a.named.visible, isAccessor (exDefault text).world
        (buildGraph (exDefault text).world.toWorld (exDefault text).tree).2.storage 2)) = some (none, false))
    (g : Graph) (b : Building)
    (hb : buildGraph (exDefault text).world.toWorld (exDefault text).tree = (some g, b)) (place : Nat → List Str) :
    Fills (exDefault text).world.toWorld b.storage (exDefault text).members t%"my_lib" g place 1 (place 1) ∧
    Callable (exDefault text).world b.storage g 1 2 ∧ DefaultArgument (exDefault text).world 2 t%"::n::E::A" := by
  have ht : IsType (exDefault text).world.toWorld 1 := .inr rfl
  have hx := (exDefault_exposed text nodes h g b hb 1 ht).2 h1
  rw [hb] at hat
  dsimp only at hat
  obtain ⟨a, ha, hv⟩ := Option.map_eq_some_iff.1 hat
  simp only [Prod.mk.injEq] at hv
  refine ⟨⟨hx.2, by nofun, rfl⟩, ⟨⟨⟨2, ?_, by simp [specializationsOf, exDefault, exUnit]⟩, a, ha,
    .inr ⟨hv.1, hx.2.2.2 1 .self ht⟩⟩, .inl ⟨by nofun, rfl, rfl, hv.2, fun _ => rfl⟩⟩, ?_⟩
  · exact ⟨_, List.mem_map.2 ⟨2, by simp, rfl⟩, ⟨rfl, by simp, by simp⟩, rfl, by nofun, by nofun, by nofun,
      by nofun, rfl⟩
  · exact ⟨_, List.mem_singleton.2 rfl, rfl, rfl⟩

set_option maxRecDepth 8000 in
theorem exDefault_attrs : ∀ text ∈ [t%"hidden", t%"visible"],
    (attrsOf (exDefault text).world (buildGraph (exDefault text).world.toWorld (exDefault text).tree).2.storage
      2).map (fun a => (a.named.visible, isAccessor (exDefault text).world
        (buildGraph (exDefault text).world.toWorld (exDefault text).tree).2.storage 2)) = some (none, false) := by
  decide +kernel

/-- C99: if the enum of a default argument is hidden, there is no diagnostic, but the module cannot
be imported. -/
theorem C99_hidden : ∃ r lines, runTool exDefaultOptions (exDefault t%"hidden") (fun _ => none) = some r ∧
    r.exitCode = 0 ∧ r.diags = [] ∧ r.files t%"/a" = some (fileText (exDefault t%"hidden") lines) ∧
    ¬ ImportedWith exNeeds [] [lines] := by
  obtain ⟨r, hr, h0, hq⟩ := exDefault_run t%"hidden" exDefault_hidden_quiet.1 exDefault_hidden_quiet.2
  obtain ⟨name, g, b, order, place, hn, pl, lines, hl, hf, h⟩ := C99_run exNeeds [] exDefaultOptions
    (exDefault t%"hidden") (exDefault_ok _) (exDefault_lookup _) (exDefault_members _) (exDefault_reopening _)
    (exDefault_bare _) _ r hr rfl h0 (by decide)
  cases hn.symm.trans (exDefault_name t%"hidden")
  match lines, hl with
  | [lines], _ =>
  refine ⟨r, lines, hr, h0, hq, (hf 0 t%"/a" lines rfl rfl).1 (by decide), fun hi => ?_⟩
  obtain ⟨h1, h2, h3⟩ := exDefault_callable t%"hidden" _ exDefault_nodes.1 (by decide)
    (exDefault_attrs _ (by simp)) g b pl.graph place
  have := ((h.1 hi).2 1 _ h1).1 2 _ h2 h3 t%"::n::E" (by decide)
  rw [exDefault_registered t%"hidden" _ exDefault_nodes.1 g b pl.graph] at this
  exact absurd this (by decide)

/-- If it is visible, or known from another module, its type is available. -/
example : ∃ g b, buildGraph (exDefault t%"visible").world.toWorld (exDefault t%"visible").tree = (some g, b) ∧
    Callable (exDefault t%"visible").world b.storage g 1 2 ∧
    DefaultArgument (exDefault t%"visible").world 2 t%"::n::E::A" ∧
    RegisteredType (exDefault t%"visible").world b.storage t%"my_lib" g [] t%"::n::E" := by
  have h := exDefault_nodes.2
  unfold exDefaultNodes at h
  split at h
  · rename_i g b hb
    obtain ⟨_, h2, h3⟩ := exDefault_callable t%"visible" _ exDefault_nodes.2 (by decide)
      (exDefault_attrs _ (by simp)) g b hb fun _ => []
    exact ⟨g, b, hb, h2, h3, (exDefault_registered t%"visible" _ exDefault_nodes.2 g b hb).2 (by decide)⟩
  · cases h

end Verif
