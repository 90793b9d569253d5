import Verif.Spec.Contents
import Verif.Props.Success
/-!
# C74: properties, conversions, manual bindings and exported values of a module
-/
namespace Verif
open Spec

theorem getters_mem (w : EmitWorld) (s : Storage) (m : Members) (name : Str) (g : Graph)
    (hg : ContextGraph w.toWorld g) (lk : LookupOK w) (hd : Derived w s) (x : Nat)
    (hx : Contributes w.toWorld s name g x) (n : Str) (d : Nat) :
    (d ∈ getters w s (analyze w.toWorld s m name g).vis x (proposedDecls w (Exposer.create w s x) x) n ↔
      GetterIn w s g x n d) ∧
    (d ∈ setters w s (analyze w.toWorld s m name g).vis x (proposedDecls w (Exposer.create w s x) x) n ↔
      SetterIn w s g x n d) := by
  have hv := fun d => shown_iff w s m name g hg x d hx.1 hx.2.1
  have hmeth : ∀ d a m, attrsOf w s d = some a → a.method = some m → overloadsOperator (w.info d) = false := by
    intro d a m ha hm
    have := (attrsOf_shape w s hd d a ha).method.1 (by rw [hm]; rfl)
    unfold overloadsOperator isOperator
    rcases this.2 with h | h <;> simp [h]
  constructor
  all_goals
    first | unfold getters GetterIn Offers | unfold setters SetterIn Offers
    simp only [List.mem_filter, Bool.and_eq_true, hv]
    constructor
    · rintro ⟨h1, h2, h3⟩
      obtain ⟨m, hm, hc⟩ := (Option.any_eq_true ..).1 h3
      obtain ⟨a, ha, ham⟩ := Option.bind_eq_some_iff.1 hm
      exact ⟨⟨(proposed_iff w lk s x d fun _ => hmeth d a m ha ham).1 h1, h2⟩, a, m, ha, ham, by simpa using hc⟩
    · rintro ⟨⟨h1, h2⟩, a, m, ha, ham, hc⟩
      refine ⟨(proposed_iff w lk s x d fun _ => hmeth d a m ha ham).2 h1, h2, ?_⟩
      rw [ha]
      simp only [Option.bind_some, ham, Option.any_some]
      simpa using hc

/-- C74: the properties of the classes of the module. -/
theorem C74_properties (i : ToolInput) (ok : InputOK i) (lk : LookupOK i.world)
    (name : Str) (g : Graph) (b : Building) (order : List Nat) (place : Nat → List Str)
    (pl : Placement i name g b order place)
    (hc : ∀ x, Contributes i.world.toWorld b.storage name g x → (i.world.info x).kind = .record →
      ContextOK i.world b.storage g x)
    (object : List Str) (n : Str) (getter : FnPtr) (setter : Option FnPtr) :
    Has (executed i name g b order place) object propertyOf (n, getter, setter) ↔
      ∃ x, Fills i.world.toWorld b.storage i.members name g place x object ∧
        (i.world.info x).kind = .record ∧
        (∃ d, GetterIn i.world b.storage g x n d ∧ getter = emitFunctionPointer i.world d) ∧
        SetterOf i.world b.storage g x n setter := by
  have hcg := C23_graphs i.world.toWorld i.tree ok.unit g b pl.graph
  have hder := derived_built i.world i.tree ok.unit g b pl.graph
  rw [contents_iff i ok.unit name g b order place pl propertyOf (fun _ _ => rfl) _
    (fun x => (i.world.info x).kind = .record ∧
        (∃ d, GetterIn i.world b.storage g x n d ∧ getter = emitFunctionPointer i.world d) ∧
        SetterOf i.world b.storage g x n setter)]
  · intro x hx
    by_cases hk : (i.world.info x).kind = .record
    · have hcr : Exposer.create i.world b.storage x =
          .record x (createFromAnnotations b.storage (i.world.hierarchy x) x) := by
        unfold Exposer.create
        rw [hk]
      have hgs := getters_mem i.world b.storage i.members name g hcg lk hder x hx n
      have hcx := hc x hx hk
      have hlast : ∀ (l : List Nat) (d : Nat), (∀ d ∈ l, ∀ d' ∈ l, d = d') → d ∈ l → l.getLast? = some d := by
        intro l d hl hd
        cases hq : l.getLast? with
        | none => rw [List.getLast?_eq_none_iff.1 hq] at hd; cases hd
        | some e => rw [hl e (List.mem_of_getLast? hq) d hd]
      have h36 := C36_iff i.world b.storage hder (analyze i.world.toWorld b.storage i.members name g).vis x
        (createFromAnnotations b.storage (i.world.hierarchy x) x) x n getter setter
      dsimp only at h36
      rw [← hcr] at h36
      have hmem : (n, getter, setter) ∈ (exposeContext i.world
          (analyze i.world.toWorld b.storage i.members name g).vis b.storage
          (Exposer.create i.world b.storage x) x).emitted.stmts.filterMap propertyOf ↔
          Stmt.property n getter setter ∈ (exposeContext i.world
          (analyze i.world.toWorld b.storage i.members name g).vis b.storage
          (Exposer.create i.world b.storage x) x).emitted.stmts := by
        rw [List.mem_filterMap]
        constructor
        · rintro ⟨st, hst, he⟩
          cases st <;> simp only [propertyOf, Option.some.injEq, Prod.mk.injEq, reduceCtorEq] at he
          obtain ⟨rfl, rfl, rfl⟩ := he
          exact hst
        · exact fun h => ⟨_, h, rfl⟩
      rw [hmem, h36]
      constructor
      · rintro ⟨d, hd, rfl, rfl⟩
        refine ⟨hk, ⟨d, (hgs d).1.1 (List.mem_of_getLast? hd), rfl⟩, ?_⟩
        cases hs : (setters i.world b.storage (analyze i.world.toWorld b.storage i.members name g).vis x
          (proposedDecls i.world (Exposer.create i.world b.storage x) x) n).getLast? with
        | none =>
          intro e he
          rw [← (hgs e).2, List.getLast?_eq_none_iff.1 hs] at he
          cases he
        | some e => exact ⟨e, (hgs e).2.1 (List.mem_of_getLast? hs), rfl⟩
      · rintro ⟨_, ⟨d, hd, rfl⟩, hs⟩
        refine ⟨d, hlast _ d ?_ ((hgs d).1.2 hd), rfl, ?_⟩
        · intro e he e' he'
          exact hcx.getters hk n e e' ((hgs e).1.1 he) ((hgs e').1.1 he')
        · cases setter with
          | none =>
            have : setters i.world b.storage (analyze i.world.toWorld b.storage i.members name g).vis x
                (proposedDecls i.world (Exposer.create i.world b.storage x) x) n = [] := by
              rw [List.eq_nil_iff_forall_not_mem]
              exact fun e he => hs e ((hgs e).2.1 he)
            rw [this]
            rfl
          | some p =>
            obtain ⟨e, he, rfl⟩ := hs
            rw [hlast _ e ?_ ((hgs e).2.2 he)]
            · rfl
            · intro e he e' he'
              exact hcx.setters hk n e e' ((hgs e).2.1 he) ((hgs e').2.1 he')
    · rw [only_classes i.world ok.emit b.storage _ propertyOf (fun _ _ _ _ _ => rfl) rfl rfl ?_ x hk]
      · simp [hk]
      · intro a d
        unfold handleDeclGeneric
        repeat' (first | rfl | split | (dsimp only; split))
  · rintro x y hxy _ _ ⟨h, _⟩
    rw [hxy.1] at h
    cases h

/-- C74: the implicit conversions to the classes of the module. -/
theorem C74_conversions (i : ToolInput) (ok : InputOK i) (lk : LookupOK i.world)
    (re : Reopening i.world.toWorld) (hu : NoBareReopening i.world.toWorld i.tree)
    (name : Str) (g : Graph) (b : Building) (order : List Nat) (place : Nat → List Str)
    (pl : Placement i name g b order place) (object : List Str) (d : Nat) (source target : Str) :
    Has (executed i name g b order place) object conversionOf (d, source, target) ↔
      ∃ x, Fills i.world.toWorld b.storage i.members name g place x object ∧
        (i.world.info x).kind = .record ∧ Offers i.world b.storage g x d ∧ callable i.world x d = true ∧
        convertsImplicitly i.world b.storage d = true ∧
        (∃ q, (i.world.fn d).params = [q] ∧ source = q.type.text) ∧ target = i.world.typeName x := by
  have hder := derived_built i.world i.tree ok.unit g b pl.graph
  rw [offered_contents i ok lk re hu name g b order place pl conversionOf (fun _ _ => rfl) _ d
    (fun x => (i.world.info x).kind = .record ∧ callable i.world x d = true ∧
        convertsImplicitly i.world b.storage d = true ∧
        (∃ q, (i.world.fn d).params = [q] ∧ source = q.type.text) ∧ target = i.world.typeName x)]
  · constructor
    · rintro ⟨x, h1, h2, h3, h4⟩
      exact ⟨x, h1, h3, h2, h4⟩
    · rintro ⟨x, h1, h3, h2, h4⟩
      exact ⟨x, h1, h2, h3, h4⟩
  · intro x
    by_cases hk : (i.world.info x).kind = .record
    · have hc : Exposer.create i.world b.storage x =
          .record x (createFromAnnotations b.storage (i.world.hierarchy x) x) := by
        unfold Exposer.create
        rw [hk]
      rw [hc, C41_conversions i.world ok.emit b.storage hder]
      simp only [List.mem_filterMap, List.mem_filter, Option.map_eq_some_iff, Prod.mk.injEq,
        Bool.and_eq_true]
      constructor
      · rintro ⟨y, ⟨⟨h1, h2⟩, h3, h4⟩, q, hq, rfl, rfl, rfl⟩
        refine ⟨h1, h2, hk, h3, h4, ⟨q, ?_, rfl⟩, rfl⟩
        have hl := (C41_converting i.world ok.emit b.storage hder y h4).2.2
        match hp : (i.world.fn y).params, hl, hq with
        | [q'], _, hq =>
          simp only [List.head?_cons, Option.some.injEq] at hq
          rw [hq]
      · rintro ⟨h1, h2, _, h3, h4, ⟨q, hq, rfl⟩, rfl⟩
        exact ⟨d, ⟨⟨h1, h2⟩, h3, h4⟩, q, by rw [hq]; rfl, rfl, rfl, rfl⟩
    · rw [only_classes i.world ok.emit b.storage _ conversionOf (fun _ _ _ _ _ => rfl) rfl rfl ?_ x hk]
      · simp [hk]
      · intro a d
        unfold handleDeclGeneric
        repeat' (first | rfl | split | (dsimp only; split))
  · rintro x ⟨_, h, _⟩ _
    unfold callable at h
    simp only [Bool.and_eq_true, decide_eq_true_eq] at h
    simp [overloadsOperator, h.1.1.1]
  · rintro x y hxy ⟨h, _⟩
    rw [hxy.1] at h
    cases h

/-- C74: the methods of the classes of the module that use `operator<<`. -/
theorem C74_streams (i : ToolInput) (ok : InputOK i)
    (oo : ∀ r, (i.world.info r).kind = .record → OperatorsOK i.world r)
    (name : Str) (g : Graph) (b : Building) (order : List Nat) (place : Nat → List Str)
    (pl : Placement i name g b order place) (object : List Str) (d : Nat) (n type : Str) :
    Has (executed i name g b order place) object streamOf (d, n, type) ↔
      ∃ x, Fills i.world.toWorld b.storage i.members name g place x object ∧
        (i.world.info x).kind = .record ∧ isFreeOperator i.world x d ∧
        VisibleIn i.world b.storage g x d ∧ PrintsAs i.world b.storage d n ∧ type = i.world.typeName x := by
  have hcg := C23_graphs i.world.toWorld i.tree ok.unit g b pl.graph
  have hder := derived_built i.world i.tree ok.unit g b pl.graph
  rw [contents_iff i ok.unit name g b order place pl streamOf (fun _ _ => rfl) _
    (fun x => (i.world.info x).kind = .record ∧ isFreeOperator i.world x d ∧
        VisibleIn i.world b.storage g x d ∧ PrintsAs i.world b.storage d n ∧ type = i.world.typeName x)]
  · intro x hx
    by_cases hk : (i.world.info x).kind = .record
    · have hc : Exposer.create i.world b.storage x =
          .record x (createFromAnnotations b.storage (i.world.hierarchy x) x) := by
        unfold Exposer.create
        rw [hk]
      rw [hc, C60_stream i.world b.storage hder _ x hk (oo x hk),
        shown_iff i.world b.storage i.members name g hcg x d hx.1 hx.2.1]
      unfold PrintsAs
      constructor
      · rintro ⟨h1, h2, h3, h4, h5, h6, h7, h8⟩
        refine ⟨hk, ?_, h2, ⟨h3, h4, h5, h6, ?_⟩, h8⟩
        · rcases h1 with h1 | h1
          · have := (oo x hk).member _ d h1 h3
            simp [printsToStream, this] at h5
          · exact h1
        · simpa [Option.map_eq_some_iff] using h7
      · rintro ⟨_, h1, h2, ⟨h3, h4, h5, h6, h7⟩, h8⟩
        exact ⟨.inr h1, h2, h3, h4, h5, h6, by simpa [Option.map_eq_some_iff] using h7, h8⟩
    · rw [only_classes i.world ok.emit b.storage _ streamOf (fun _ _ _ _ _ => rfl) rfl rfl ?_ x hk]
      · simp [hk]
      · intro a d
        unfold handleDeclGeneric
        repeat' (first | rfl | split | (dsimp only; split))
  · rintro x y hxy _ _ ⟨h, _⟩
    rw [hxy.1] at h
    cases h

/-- C74: the enums of the module whose enumerators are available outside of them. -/
theorem C74_exports (i : ToolInput) (ok : InputOK i)
    (name : Str) (g : Graph) (b : Building) (order : List Nat) (place : Nat → List Str)
    (pl : Placement i name g b order place) (object : List Str) :
    Has (executed i name g b order place) object exportOf () ↔
      ∃ x, Fills i.world.toWorld b.storage i.members name g place x object ∧
        (i.world.info x).kind = .enum ∧ ExportsValues i.world b.storage x := by
  rw [contents_iff i ok.unit name g b order place pl exportOf (fun _ _ => rfl) _
    (fun x => (i.world.info x).kind = .enum ∧ ExportsValues i.world b.storage x)]
  · intro x hx
    have hnp := enum_not_proposed i.world ok.emit b.storage x
    have hgen : ∀ a d, (handleDeclGeneric i.world a d).stmts.filterMap exportOf = [] := by
      intro a d
      unfold handleDeclGeneric
      repeat' (first | rfl | split | (dsimp only; split))
    by_cases hk : (i.world.info x).kind = .enum
    · have hc : Exposer.create i.world b.storage x = .enum x := by
        unfold Exposer.create
        rw [hk]
      rw [hc] at hnp ⊢
      unfold ExportsValues
      rw [(exposeContext_eq i.world _ b.storage (.enum x) x hnp).1, List.filterMap_append, List.mem_append]
      have hdecl : ∀ l : List Nat, (l.flatMap (declOutput i.world b.storage
          (analyze i.world.toWorld b.storage i.members name g).vis (.enum x) x)).filterMap
          exportOf = [] := by
        intro l
        rw [List.filterMap_flatMap, List.flatMap_eq_nil_iff]
        intro d _
        unfold declOutput
        split
        · split
          · unfold declStmts handleDeclEnum
            dsimp only
            split <;> rfl
          · rfl
        · rfl
      rw [hdecl]
      unfold finalStmts finalizeEnum
      dsimp only
      cases ha : (b.storage.entries x).bind (·.enum) with
      | none => simp [Emitted.none]
      | some a =>
        dsimp only
        cases hx : a.exportValues with
        | none => cases i.world.isScoped x <;> simp [Emitted.none, exportOf, hx, hk]
        | some v => cases v <;> simp [Emitted.none, exportOf, hx, hk]
    · rw [selected i.world _ b.storage _ x exportOf (fun _ => none) hnp]
      · simp [hk]
      · intro m
        cases he : Exposer.create i.world b.storage x with
        | record y p => exact properties_select exportOf (fun _ _ _ => rfl) i.world m
        | enum y => exact absurd ((create_kind _ _ x).1 y he).2 hk
        | _ => rfl
      · intro d a _ _
        cases he : Exposer.create i.world b.storage x with
        | record y p =>
          simp only [declStmts]
          unfold handleDeclRecord
          repeat' (first | rfl | exact hgen _ _ | split | (dsimp only; split))
        | enum y => exact absurd ((create_kind _ _ x).1 y he).2 hk
        | _ => simpa [declStmts] using hgen a d
  · rintro x y hxy _ _ ⟨h, _⟩
    rw [hxy.1] at h
    cases h

/-- C74: the manual bindings: those of visible variables are applied to the object of their
context, those for the postamble to the module. -/
theorem C74_manual (i : ToolInput) (ok : InputOK i) (lk : LookupOK i.world)
    (re : Reopening i.world.toWorld) (hu : NoBareReopening i.world.toWorld i.tree)
    (name : Str) (g : Graph) (b : Building) (order : List Nat) (place : Nat → List Str)
    (pl : Placement i name g b order place) (object : List Str) (d l : Nat) :
    Has (executed i name g b order place) object manualOf (d, l) ↔
      (∃ x, Fills i.world.toWorld b.storage i.members name g place x object ∧
        (i.world.info x).kind ≠ .enum ∧ Offers i.world b.storage g x d ∧
        manualLambda i.world b.storage d = some l) ∨
      object = [] ∧ d ∈ i.world.unitVars ∧ postambleLambda b.storage d = some l := by
  have hcg := C23_graphs i.world.toWorld i.tree ok.unit g b pl.graph
  have hder := derived_built i.world i.tree ok.unit g b pl.graph
  have hctx := contents_written i ok.unit name g b order place pl manualOf (d, l)
    (fun x => (i.world.info x).kind ≠ .enum ∧ Offers i.world b.storage g x d ∧
        manualLambda i.world b.storage d = some l) ?_ ?_ object
  · rw [← hctx]
    unfold Has executed executionsOf
    constructor
    · rintro ⟨e, he, ho, hv⟩
      rcases List.mem_append.1 he with he | he
      · obtain ⟨x, hx, he⟩ := List.mem_flatMap.1 he
        obtain ⟨st, hst, rfl⟩ := List.mem_map.1 he
        exact .inl ⟨x, hx, ho, List.mem_filterMap.2 ⟨st, hst, hv⟩⟩
      · obtain ⟨u, hu, he⟩ := List.mem_filterMap.1 he
        obtain ⟨l', hl, rfl⟩ := Option.map_eq_some_iff.1 he
        simp only [manualOf, Option.some.injEq, Prod.mk.injEq] at hv
        obtain ⟨rfl, rfl⟩ := hv
        exact .inr ⟨ho.symm, hu, hl⟩
    · rintro (⟨x, hx, ho, hv⟩ | ⟨rfl, hu, hl⟩)
      · obtain ⟨st, hst, hv⟩ := List.mem_filterMap.1 hv
        exact ⟨_, List.mem_append_left _ (List.mem_flatMap.2 ⟨x, hx, List.mem_map.2 ⟨st, hst, rfl⟩⟩), ho, hv⟩
      · exact ⟨_, List.mem_append_right _ (List.mem_filterMap.2 ⟨d, hu, by rw [hl]; rfl⟩), rfl, rfl⟩
  · intro x hx
    by_cases hk : (i.world.info x).kind = .enum
    · have hc : Exposer.create i.world b.storage x = .enum x := by
        unfold Exposer.create
        rw [hk]
      have hnp := enum_not_proposed i.world ok.emit b.storage x
      rw [hc] at hnp ⊢
      rw [selected i.world _ b.storage _ x manualOf (fun _ => none) hnp]
      · simp [hk]
      · intro m
        unfold finalStmts finalizeEnum
        dsimp only
        split
        · split <;> rfl
        · rfl
      · intro d a _ _
        unfold declStmts handleDeclEnum
        dsimp only
        split <;> rfl
    · have he : ∀ y, Exposer.create i.world b.storage x ≠ .enum y :=
        fun y hy => hk ((create_kind _ _ x).1 y hy).2
      rw [C46_definitions i.world b.storage hder _ _ he]
      simp only [List.mem_filterMap, List.mem_filter, Option.map_eq_some_iff, Prod.mk.injEq]
      have hop : manualLambda i.world b.storage d = some l → overloadsOperator (i.world.info d) = false := by
        intro h
        unfold manualLambda at h
        split at h
        · rename_i v hv
          obtain ⟨a, ha, hav⟩ := Option.bind_eq_some_iff.1 hv
          have := (attrsOf_shape i.world b.storage hder d a ha).fieldOrVar.1 (by rw [hav]; rfl)
          rcases this with h | h <;> simp [overloadsOperator, h, DeclKind.isFunction]
        · cases h
      have hv := shown_iff i.world b.storage i.members name g hcg x d hx.1 hx.2.1
      have hpi := fun h => proposed_iff i.world lk b.storage x d fun _ => hop h
      constructor
      · rintro ⟨y, ⟨h1, h2⟩, l', h3, rfl, rfl⟩
        exact ⟨hk, ⟨(hpi h3).1 h1, hv.1 h2⟩, h3⟩
      · rintro ⟨_, ⟨h1, h2⟩, h3⟩
        exact ⟨d, ⟨(hpi h3).2 h1, hv.2 h2⟩, l, h3, rfl, rfl⟩
  · rintro x y hxy hx hy ⟨h1, h2, h3⟩
    exact ⟨by rw [hxy.2.1]; decide, same_offers i ok lk re hu g b pl.graph x y hxy hx hy d h2, h3⟩

/-! ### Example -/

/-- `struct visible S { getter_for(p) int f(int); setter_for(p) int g(); implicit_conversion S(int);
static auto manual m = ...; }; namespace n { enum visible E { A }; }
expose_as(__str__) operator<<(std::ostream &, S); auto manual, postamble q = ...;` -/
def exContents : EmitWorld := { exUnit with
  info := fun
    | 2 => { kind := .method, name := t%"f", attrTexts := [lozenge ++ t%"getter_for(p)"] }
    | 3 => { kind := .method, name := t%"g", params := [t%"x"], minRequired := 1, returnsVoid := true
             attrTexts := [lozenge ++ t%"setter_for(p)"] }
    | 7 => { kind := .constructor, name := t%"S", attrTexts := [lozenge ++ t%"implicit_conversion"]
             params := [t%"x"], minRequired := 1, converting := true }
    | 8 => { kind := .var, name := t%"m", attrTexts := [lozenge ++ t%"manual"]
             lambda := some ⟨80, true, 1, true, false⟩ }
    | 9 => { kind := .function, name := t%"operator<<", nameIsIdentifier := false
             operator := some .lessLess, params := [t%"x", t%"x"], minRequired := 2
             attrTexts := [lozenge ++ t%"expose_as(__str__)"] }
    | 10 => { kind := .var, name := t%"q", attrTexts := [lozenge ++ t%"manual, postamble"]
              lambda := some ⟨81, true, 1, true, false⟩, inTranslationUnit := true }
    | x => exUnit.info x
  ancestors := fun | 7 => [1, 0] | 8 => [1, 0] | x => exUnit.ancestors x
  fn := fun
    | 2 => exPlain t%"S::f" 0
    | 3 => exPlain t%"S::g" 1
    | 7 => exPlain t%"S::S" 1
    | 9 => { exPlain t%"operator<<" with
             params := [⟨{ id := 0, name := t%"x" }, { text := t%"std::ostream &" }, t%"std::ostream"⟩,
               ⟨{ id := 1, name := t%"x" }, { text := t%"::S", record := some 1 }, t%"::S"⟩]
             firstPointee := .named true }
    | x => exUnit.fn x
  found := fun
    | 1 => [2, 3, 7, 8].map fun d => ⟨d, none, false, .public, false, false, some 1, none⟩
    | x => exUnit.found x
  associated := fun | 1 => [9] | _ => []
  unitVars := [10] }

def exContentsInput : ToolInput := { exInput with
  world := exContents
  pick := fun _ => lastSmallest exContents.loc
  tree := .node 0 [.node 1 [.node 2 [], .node 3 [], .node 7 [], .node 8 []], .node 4 [.node 5 [.node 6 []]],
    .node 9 [], .node 10 []] }

/-- What is executed on import of the generated file. -/
def exContentsExecuted : Option (List Execution) :=
  let w := exContents
  let i := exContentsInput
  let b := buildGraph w.toWorld i.tree
  match b.1 with
  | none => none
  | some graph =>
    let a := analyze w.toWorld b.2.storage i.members t%"my_lib" graph
    let m := emitModule w b.2.storage a.pruned a.vis i.pick a.pruned.nodes 1 t%"my_lib"
    match importModule [m.stream 0] with
    | .error _ => none
    | .ok st => some st.executed

/-- Rewrites a run to a form that can be evaluated. -/
local macro "eval_run" : tactic => `(tactic| (
  simp only [handleTranslationUnit, emitModule, findEnclosingScopes, analyze, pruneGraph, hideNamespaces,
    declContextsWithVisibleNamedDecls, deriveEffectiveVisibility, dfs_fuel]
  decide +kernel))

/-- The statements of a kind, with their objects. -/
def exContentsOf {α : Type} (what : Stmt → Option α) : Option (List (List Str × α)) :=
  exContentsExecuted.map fun l => l.filterMap fun e => (what e.stmt).map fun v => (e.object, v)

/-- All kinds of contents exist. -/
example : exContentsOf (fun st => (propertyOf st).map fun p => (p.1, p.2.1.fn, p.2.2.map (·.fn))) =
    some [([t%"S"], t%"p", 2, some 3)] := by
  unfold exContentsOf exContentsExecuted
  eval_run

example : exContentsOf conversionOf = some [([t%"S"], 7, t%"int", t%"::S")] := by
  unfold exContentsOf exContentsExecuted
  eval_run

example : exContentsOf streamOf = some [([t%"S"], 9, t%"__str__", t%"::S")] := by
  unfold exContentsOf exContentsExecuted
  eval_run

example : exContentsOf exportOf = some [([t%"n", t%"E"], ())] := by
  unfold exContentsOf exContentsExecuted
  eval_run

example : exContentsOf manualOf = some [([t%"S"], 8, 80), ([], 10, 81)] := by
  unfold exContentsOf exContentsExecuted
  eval_run

/-- Nothing is reported. -/
example : (handleTranslationUnit exContentsInput t%"my_lib" [t%"/a"]).diags = [] := by eval_run

end Verif
