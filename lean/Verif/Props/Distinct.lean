import Verif.Spec.Distinct
import Verif.Props.Contents
import Verif.Props.Names
/-!
# C73: Python names given by the source code
-/
namespace Verif
open Spec

theorem binary_name (k : OperatorKind) (rev : Bool) : isOperatorName (pythonBinaryOperatorName k rev) := by
  cases rev <;> cases k <;> first | exact .inl rfl | exact .inr ⟨_, rfl⟩

theorem operator_name (r : Nat) (k : OperatorKind) (self : Option CppType) (ps : List CppType) (t : Str)
    (p : Str × OpLambda) (h : emitOperator r k self ps t = some p) : isOperatorName p.1 := by
  unfold emitOperator at h
  split at h
  · cases h
  · dsimp only at h
    split at h
    · cases h
    · simp only [Option.some.injEq] at h
      subst h
      dsimp only
      split
      · cases k <;> first | exact .inl rfl | exact .inr ⟨_, rfl⟩
      · exact binary_name _ _

/-- What is known of a statement, given the context it is written for. -/
def StmtShape (w : EmitWorld) (s : Storage) (x : Nat) : Stmt → Prop
  | .typeAttr d _ _ => (w.info d).kind = .typedefName
  | .valueAttr d _ _ => (w.info d).kind = .field ∨ (w.info d).kind = .var
  | .enumValue d n scope e doc => (w.info x).kind = .enum ∧ n = pythonName w s d ∧
      scope = w.typeName x ∧ e = (w.info d).name ∧ doc = w.brief d
  | .operator _ n _ _ => isOperatorName n
  | _ => True

theorem generic_shape (w : EmitWorld) (s : Storage) (hd : Derived w s) (x d : Nat) (a : DeclAttrs)
    (ha : attrsOf w s d = some a) : ∀ st ∈ (handleDeclGeneric w a d).stmts, StmtShape w s x st := by
  have hs := attrsOf_shape w s hd d a ha
  unfold handleDeclGeneric
  split
  · simp [Emitted.fail]
  · split
    · rename_i t ht
      split
      · simp [Emitted.none]
      · split
        · simp [Emitted.none]
        · simp only [List.mem_singleton, forall_eq]
          exact hs.typedefName.1 (by rw [ht]; rfl)
    · split
      · rename_i v hv
        split
        · split
          · simp [Emitted.none]
          · simp [StmtShape]
        · split
          · simp [Emitted.fail]
          · simp only [List.mem_singleton, forall_eq]
            exact hs.fieldOrVar.1 (by rw [hv]; rfl)
      · have hf : ∀ c : Bool, ∀ st ∈ (if c = true then Emitted.none else match a.function with
            | some f =>
              if (w.fn d).isDeleted then Emitted.none
              else
                let fallback := if (w.info d).operator = some .call then t%"__call__" else []
                let args := emitParameters f ((w.fn d).params.map (·.param))
                { stmts := [.function d ((w.info d).kind.isMethod && (w.fn d).isStatic)
                    (emitSpelling (w.info d) a.named fallback) (emitFunctionPointer w d)
                    (getDocstring w d) args.1 (emitPolicies f)]
                  diags := args.2 }
            | none => Emitted.none).stmts, StmtShape w s x st := by
          intro c
          split
          · simp [Emitted.none]
          · split
            · split
              · simp [Emitted.none]
              · simp [StmtShape]
            · simp [Emitted.none]
        exact hf _

theorem stmt_shape (w : EmitWorld) (ok : EmitOK w) (s : Storage) (hd : Derived w s) (vis : Visibilities)
    (x : Nat) (st : Stmt)
    (hst : st ∈ (exposeContext w vis s (Exposer.create w s x) x).emitted.stmts) : StmtShape w s x st := by
  rw [(exposeContext_eq w vis s _ x (enum_not_proposed w ok s x)).1, List.mem_append] at hst
  rcases hst with hst | hst
  · obtain ⟨d, _, hst⟩ := List.mem_flatMap.1 hst
    unfold declOutput at hst
    cases ha : attrsOf w s d with
    | none => rw [ha] at hst; cases hst
    | some a =>
      rw [ha] at hst
      dsimp only at hst
      split at hst
      · have hg := generic_shape w s hd x d a ha
        cases he : Exposer.create w s x with
        | enum y =>
          obtain ⟨rfl, hk⟩ := (create_kind w s x).1 y he
          rw [he] at hst
          simp only [declStmts, handleDeclEnum] at hst
          split at hst
          · rename_i hy
            simp only [List.mem_singleton] at hst
            subst hst
            have hn := pythonName_eq w s d a ha
            rw [if_neg (by rw [hy]; simp [DeclKind.isFunction])] at hn
            exact ⟨hk, hn.symm, rfl, rfl, rfl⟩
          · simp [Emitted.none] at hst
        | record y p =>
          rw [he] at hst
          simp only [declStmts] at hst
          unfold handleDeclRecord at hst
          cases hc : a.constructor with
          | some c =>
            rw [hc] at hst
            dsimp only at hst
            split at hst
            · simp [Emitted.none] at hst
            · split at hst
              · split at hst
                · simp [Emitted.fail] at hst
                · simp only [List.mem_cons, List.not_mem_nil, or_false] at hst
                  rcases hst with rfl | rfl <;> trivial
              · simp only [List.mem_singleton] at hst
                subst hst
                trivial
          | none =>
            rw [hc] at hst
            dsimp only at hst
            split at hst
            · split at hst
              · simp [Emitted.none] at hst
              · split at hst
                · simp [Emitted.fail] at hst
                · split at hst
                  · simp [Emitted.fail] at hst
                  · dsimp only at hst
                    split at hst
                    · simp [Emitted.none] at hst
                    · simp only [List.mem_singleton] at hst
                      subst hst
                      trivial
                  · split at hst
                    · simp [Emitted.none] at hst
                    · rename_i r hr
                      simp only [List.mem_singleton] at hst
                      subst hst
                      exact operator_name _ _ _ _ _ r hr
            · split at hst
              · simp at hst
              · split at hst
                · split at hst
                  · split at hst
                    · simp [Emitted.fail] at hst
                    · simp only [List.mem_singleton] at hst
                      subst hst
                      trivial
                  · simp only [List.mem_singleton] at hst
                    subst hst
                    trivial
                · exact hg st hst
        | _ =>
          rw [he] at hst
          exact hg st hst
      · cases hst
  · cases he : Exposer.create w s x with
    | record y p =>
      rw [he] at hst
      have := properties_select (fun st => match st with | .property .. => none | st => some st)
        (fun _ _ _ => rfl) w (addAll ([], []) (accessors w s vis (.record y p) x)).1
      rw [List.filterMap_eq_nil_iff] at this
      have := this st hst
      cases st <;> first | trivial | cases this
    | enum y =>
      rw [he] at hst
      unfold finalStmts finalizeEnum at hst
      dsimp only at hst
      split at hst
      · split at hst
        · simp only [List.mem_singleton] at hst
          subst hst
          trivial
        · simp [Emitted.none] at hst
      · simp [Emitted.none] at hst
    | _ =>
      rw [he] at hst
      simp only [finalStmts, List.mem_singleton] at hst
      subst hst
      trivial

/-- The origin of what a statement defines. -/
def originOf : Stmt → Origin
  | .init d .. | .function d .. | .operator d .. | .stringFromLshift d .. => .function d
  | .typeAttr d .. | .valueAttr d .. => .attribute d
  | .property n .. => .property n
  | .field d .. => .member d
  | .enumValue d .. => .enumerator d
  | _ => .function 0

/-- What is assumed about classes and enums: they have objects of their own, and these are known
to be such. -/
structure OwnObjects (i : ToolInput) (s : Storage) (g : Graph) (name : Str) (place : Nat → List Str)
    (isClass : List Str → Bool) : Prop where
  own : ∀ x y o, Fills i.world.toWorld s i.members name g place x o →
    Fills i.world.toWorld s i.members name g place y o → IsType i.world.toWorld x → x = y
  known : ∀ x o, Fills i.world.toWorld s i.members name g place x o →
    (isClass o = true ↔ IsType i.world.toWorld x)

/-- A statement is written for one of the contexts, or a manual binding. -/
theorem executed_written (i : ToolInput) (ok : InputOK i) (name : Str) (g : Graph) (b : Building)
    (order : List Nat) (place : Nat → List Str) (pl : Placement i name g b order place) (e : Execution)
    (he : e ∈ executed i name g b order place) :
    (∃ d l, e.stmt = .manual d l) ∨ ∃ x ∈ contextsOf i.world order, 
      Fills i.world.toWorld b.storage i.members name g place x e.object ∧
      e.stmt ∈ (exposeContext i.world (analyze i.world.toWorld b.storage i.members name g).vis b.storage
          (Exposer.create i.world b.storage x) x).emitted.stmts := by
  unfold executed executionsOf at he
  rcases List.mem_append.1 he with he | he
  · obtain ⟨x, hx, he⟩ := List.mem_flatMap.1 he
    obtain ⟨st, hst, rfl⟩ := List.mem_map.1 he
    have hcg := C23_graphs i.world.toWorld i.tree ok.unit g b pl.graph
    have hk := kept_nodes i.world.toWorld b.storage i.members name g hcg
    obtain ⟨h1, h2⟩ := (hk x).1 (pl.sorted.perm.mem_iff.1 (List.mem_filter.1 hx).1)
    exact .inr ⟨x, hx, ⟨h1, h2, rfl⟩, hst⟩
  · obtain ⟨u, _, hu⟩ := List.mem_filterMap.1 he
    obtain ⟨l, _, rfl⟩ := Option.map_eq_some_iff.1 hu
    exact .inl ⟨u, l, rfl⟩

/-- What is assumed of a run in this section. -/
structure Given (i : ToolInput) (name : Str) (g : Graph) (b : Building) (order : List Nat)
    (place : Nat → List Str) (isClass : List Str → Bool) : Prop where
  ok : InputOK i
  lk : LookupOK i.world
  re : Reopening i.world.toWorld
  hu : NoBareReopening i.world.toWorld i.tree
  oo : ∀ r, (i.world.info r).kind = .record → OperatorsOK i.world r
  pl : Placement i name g b order place
  hc : ∀ x, Contributes i.world.toWorld b.storage name g x → (i.world.info x).kind = .record →
    ContextOK i.world b.storage g x
  objects : OwnObjects i b.storage g name place isClass

/-- What is executed comes from the source code. -/
theorem origin_of {i : ToolInput} {name : Str} {g : Graph} {b : Building} {order : List Nat}
    {place : Nat → List Str} {isClass : List Str → Bool} (h : Given i name g b order place isClass)
    (e : Execution) (he : e ∈ executed i name g b order place) (df : Definition)
    (hd : definedBy isClass e.object e.stmt = some df) :
    df.object = e.object ∧ df.stmt = e.stmt ∧
      HasAttr i b.storage g name place df.object df.name df.what (originOf e.stmt) := by
  obtain ⟨ok, lk, re, hu, oo, pl, hc, hcls⟩ := h
  have hder := derived_built i.world i.tree ok.unit g b pl.graph
  have hrec : ∀ x o, Fills i.world.toWorld b.storage i.members name g place x o →
      (i.world.info x).kind = .record → isClass o = true := fun x o hx hk => (hcls.known x o hx).2 (.inr hk)
  cases hs : e.stmt with
  | implicitlyConvertible | manual | exportValues | useContext => rw [hs] at hd; cases hd
  | init d types doc args pol =>
    rw [hs] at hd
    simp only [definedBy, Option.some.injEq] at hd
    subst hd
    refine ⟨rfl, rfl, ?_⟩
    obtain ⟨⟨x, hx, hk, ho, hcl⟩, _⟩ := (C71_constructors i ok lk re hu name g b order place pl e.object d types).1
      ⟨e, he, rfl, by rw [hs]; rfl⟩
    dsimp only
    rw [hrec x _ hx hk]
    exact .constructor hx hk ho hcl
  | function d isStatic n p doc args pol =>
    rw [hs] at hd
    simp only [definedBy, Option.some.injEq] at hd
    subst hd
    refine ⟨rfl, rfl, ?_⟩
    obtain ⟨⟨x, hx, hk, ho, hf⟩, rfl, rfl, _⟩ := (C71_functions i ok lk re hu name g b order place pl e.object
      d isStatic n p).1 ⟨e, he, rfl, by rw [hs]; rfl⟩
    dsimp only
    have : isClass e.object = decide ((i.world.info x).kind = .record) := by
      rw [Bool.eq_iff_iff, hcls.known x _ hx, decide_eq_true_iff]
      unfold IsType
      constructor
      · rintro (h | h)
        · exact absurd h hk
        · exact h
      · exact .inr
    rw [this]
    exact .function hx hk ho hf
  | operator d n l doc =>
    rw [hs] at hd
    simp only [definedBy, Option.some.injEq] at hd
    subst hd
    refine ⟨rfl, rfl, ?_⟩
    obtain ⟨x, hx, hk, ho, hv, hdef⟩ := (C71_operators i ok oo name g b order place pl e.object d).1
      ⟨e, he, rfl, by rw [hs]; rfl⟩
    dsimp only
    rw [hrec x _ hx hk]
    rcases executed_written i ok name g b order place pl e he with ⟨d', l', hm⟩ | ⟨y, _, _, hst⟩
    · rw [hs] at hm; cases hm
    · have := stmt_shape i.world ok.emit b.storage hder _ y e.stmt hst
      rw [hs] at this
      exact .operator hx hk ho hv hdef this
  | stringFromLshift d n t =>
    rw [hs] at hd
    simp only [definedBy, Option.some.injEq] at hd
    subst hd
    refine ⟨rfl, rfl, ?_⟩
    obtain ⟨x, hx, hk, ho, hv, hp, _⟩ := (C74_streams i ok oo name g b order place pl e.object d n t).1
      ⟨e, he, rfl, by rw [hs]; rfl⟩
    dsimp only
    rw [hrec x _ hx hk]
    exact .stream hx hk ho hv hp
  | typeAttr d n t =>
    rw [hs] at hd
    simp only [definedBy, Option.some.injEq] at hd
    subst hd
    refine ⟨rfl, rfl, ?_⟩
    obtain ⟨⟨x, hx, hk, ho, ha⟩, rfl⟩ := (C71_attributes i ok lk re hu name g b order place pl e.object d n t).1
      ⟨e, he, rfl, by rw [hs]; rfl⟩
    refine .attribute hx hk ho ?_
    rcases ha with ha | ⟨h1, h2, _, h3⟩
    · exact .inl ⟨_, ha⟩
    · exact .inr ⟨h1, h2, h3⟩
  | valueAttr d n t =>
    rw [hs] at hd
    simp only [definedBy, Option.some.injEq] at hd
    subst hd
    refine ⟨rfl, rfl, ?_⟩
    obtain ⟨⟨x, hx, hk, ho, ha⟩, rfl⟩ := (C71_attributes i ok lk re hu name g b order place pl e.object d n t).1
      ⟨e, he, rfl, by rw [hs]; rfl⟩
    refine .attribute hx hk ho ?_
    rcases ha with ha | ⟨h1, h2, _, h3⟩
    · exact .inl ⟨_, ha⟩
    · exact .inr ⟨h1, h2, h3⟩
  | property n p q =>
    rw [hs] at hd
    simp only [definedBy, Option.some.injEq] at hd
    subst hd
    refine ⟨rfl, rfl, ?_⟩
    obtain ⟨x, hx, hk, ⟨d, hg, _⟩, _⟩ := (C74_properties i ok lk name g b order place pl hc e.object n p q).1
      ⟨e, he, rfl, by rw [hs]; rfl⟩
    exact .property hx hk hg
  | field d ro st n q =>
    rw [hs] at hd
    simp only [definedBy, Option.some.injEq] at hd
    subst hd
    refine ⟨rfl, rfl, ?_⟩
    obtain ⟨⟨x, hx, hk, ho⟩, v, hv, _, rfl, rfl, _⟩ := (C71_members i ok lk re hu name g b order place pl e.object
      d ro st n q).1 ⟨e, he, rfl, by rw [hs]; rfl⟩
    have := HasAttr.member hx hk ho hv
    simpa [decide_eq_true_eq, originOf] using this
  | enumValue d n scope m doc =>
    rw [hs] at hd
    simp only [definedBy, Option.some.injEq] at hd
    subst hd
    refine ⟨rfl, rfl, ?_⟩
    obtain ⟨⟨x, hx, hk, ho, _⟩, he, rfl⟩ := (C71_enumerators i ok lk re hu name g b order place pl e.object d n _).1
      ⟨e, he, rfl, by rw [hs]; rfl⟩
    exact .enumerator hx hk ho he

/-- What is defined apart from functions is given by its origin. -/
theorem origin_unique {i : ToolInput} {name : Str} {g : Graph} {b : Building} {order : List Nat}
    {place : Nat → List Str} {isClass : List Str → Bool} (h : Given i name g b order place isClass)
    (e e' : Execution) (he : e ∈ executed i name g b order place)
    (he' : e' ∈ executed i name g b order place) (ho : e.object = e'.object)
    (hr : originOf e.stmt = originOf e'.stmt) (hf : ∀ d, originOf e.stmt ≠ .function d) :
    e.stmt = e'.stmt := by
  obtain ⟨ok, lk, re, hu, oo, pl, hc, hcls⟩ := h
  have hder := derived_built i.world i.tree ok.unit g b pl.graph
  have hsh : ∀ e ∈ executed i name g b order place, (∃ d l, e.stmt = .manual d l) ∨
      ∃ x, Fills i.world.toWorld b.storage i.members name g place x e.object ∧
        StmtShape i.world b.storage x e.stmt := by
    intro e he
    rcases executed_written i ok name g b order place pl e he with h | ⟨y, _, hy, hst⟩
    · exact .inl h
    · exact .inr ⟨y, hy, stmt_shape i.world ok.emit b.storage hder _ y e.stmt hst⟩
  have halias : ∀ d t, AliasFor i.world b.storage d t → (i.world.info d).kind = .typedefName ∧
      i.world.aliasTag d = some t := by
    rintro d t ⟨a, q, ha, hq, _, _, ht⟩
    exact ⟨(attrsOf_shape i.world b.storage hder d a ha).typedefName.1 (by rw [hq]; rfl), ht⟩
  have hattr : ∀ e ∈ executed i name g b order place, ∀ d n t, attributeOf e.stmt = some (d, n, t) →
      n = pythonName i.world b.storage d ∧
      ((i.world.info d).kind = .typedefName ∧ i.world.aliasTag d = some t ∨
        (i.world.info d).kind = .var ∧ t = i.world.qualifiedName d) := by
    intro e he d n t hs
    obtain ⟨⟨x, _, _, _, ha⟩, hn⟩ := (C71_attributes i ok lk re hu name g b order place pl e.object d n t).1
      ⟨e, he, rfl, hs⟩
    refine ⟨hn, ?_⟩
    rcases ha with ha | ⟨_, h2, h3, _⟩
    · exact .inl (halias d t ha)
    · exact .inr ⟨h2, h3⟩
  have htarget : ∀ d t t', ((i.world.info d).kind = .typedefName ∧ i.world.aliasTag d = some t ∨
        (i.world.info d).kind = .var ∧ t = i.world.qualifiedName d) →
      ((i.world.info d).kind = .typedefName ∧ i.world.aliasTag d = some t' ∨
        (i.world.info d).kind = .var ∧ t' = i.world.qualifiedName d) → t = t' := by
    rintro d t t' (⟨h1, h2⟩ | ⟨h1, rfl⟩) (⟨h3, h4⟩ | ⟨h3, rfl⟩)
    · rw [h2] at h4; cases h4; rfl
    · rw [h1] at h3; cases h3
    · rw [h1] at h3; cases h3
    · rfl
  cases hs : e.stmt with
  | implicitlyConvertible | manual | exportValues | useContext | init | function | operator
  | stringFromLshift => rw [hs] at hf; exact absurd rfl (hf _)
  | typeAttr d n t =>
    obtain ⟨rfl, ht⟩ := hattr e he d n t (by rw [hs]; rfl)
    cases hs' : e'.stmt <;> rw [hs, hs'] at hr <;>
      simp only [originOf, Origin.attribute.injEq, reduceCtorEq] at hr
    · rename_i d' n' t'
      subst hr
      obtain ⟨rfl, ht'⟩ := hattr e' he' d n' t' (by rw [hs']; rfl)
      rw [htarget d t t' ht ht']
    · rename_i d' n' t'
      subst hr
      exfalso
      rcases hsh e he with ⟨_, _, hm⟩ | ⟨_, _, h1⟩
      · rw [hs] at hm; cases hm
      rcases hsh e' he' with ⟨_, _, hm⟩ | ⟨_, _, h2⟩
      · rw [hs'] at hm; cases hm
      rw [hs] at h1
      rw [hs'] at h2
      simp only [StmtShape] at h1 h2
      rw [h1] at h2
      rcases h2 with h2 | h2 <;> cases h2
  | valueAttr d n t =>
    obtain ⟨rfl, ht⟩ := hattr e he d n t (by rw [hs]; rfl)
    cases hs' : e'.stmt <;> rw [hs, hs'] at hr <;>
      simp only [originOf, Origin.attribute.injEq, reduceCtorEq] at hr
    · rename_i d' n' t'
      subst hr
      exfalso
      rcases hsh e he with ⟨_, _, hm⟩ | ⟨_, _, h1⟩
      · rw [hs] at hm; cases hm
      rcases hsh e' he' with ⟨_, _, hm⟩ | ⟨_, _, h2⟩
      · rw [hs'] at hm; cases hm
      rw [hs] at h1
      rw [hs'] at h2
      simp only [StmtShape] at h1 h2
      rw [h2] at h1
      rcases h1 with h1 | h1 <;> cases h1
    · rename_i d' n' t'
      subst hr
      obtain ⟨rfl, ht'⟩ := hattr e' he' d n' t' (by rw [hs']; rfl)
      rw [htarget d t t' ht ht']
  | property n p q =>
    cases hs' : e'.stmt <;> rw [hs, hs'] at hr <;>
      simp only [originOf, Origin.property.injEq, reduceCtorEq] at hr
    rename_i n' p' q'
    subst hr
    obtain ⟨x, hx, hk, ⟨d, hg, rfl⟩, hset⟩ := (C74_properties i ok lk name g b order place pl hc e.object n p q).1
      ⟨e, he, rfl, by rw [hs]; rfl⟩
    obtain ⟨y, hy, _, ⟨d', hg', rfl⟩, hset'⟩ :=
      (C74_properties i ok lk name g b order place pl hc e'.object n p' q').1 ⟨e', he', rfl, by rw [hs']; rfl⟩
    have := hcls.own x y e.object hx (ho ▸ hy) (.inr hk)
    subst this
    have hcx := hc x hx.1 hk
    rw [hcx.getters hk n d d' hg hg']
    congr 1
    cases q <;> cases q'
    · rfl
    · obtain ⟨s, hs, _⟩ := hset'
      exact absurd hs (hset s)
    · obtain ⟨s, hs, _⟩ := hset
      exact absurd hs (hset' s)
    · obtain ⟨s, h1, rfl⟩ := hset
      obtain ⟨s', h2, rfl⟩ := hset'
      rw [hcx.setters hk n s s' h1 h2]
  | field d ro st n q =>
    cases hs' : e'.stmt <;> rw [hs, hs'] at hr <;>
      simp only [originOf, Origin.member.injEq, reduceCtorEq] at hr
    rename_i d' ro' st' n' q'
    subst hr
    obtain ⟨_, v, hv, rfl, rfl, rfl, rfl⟩ := (C71_members i ok lk re hu name g b order place pl e.object
      d ro st n q).1 ⟨e, he, rfl, by rw [hs]; rfl⟩
    obtain ⟨_, v', hv', rfl, rfl, rfl, rfl⟩ := (C71_members i ok lk re hu name g b order place pl e'.object
      d ro' st' n' q').1 ⟨e', he', rfl, by rw [hs']; rfl⟩
    obtain ⟨a, ha, hav, _⟩ := hv
    obtain ⟨a', ha', hav', _⟩ := hv'
    rw [ha] at ha'
    cases ha'
    rw [hav] at hav'
    cases hav'
    rfl
  | enumValue d n scope m doc =>
    cases hs' : e'.stmt <;> rw [hs, hs'] at hr <;>
      simp only [originOf, Origin.enumerator.injEq, reduceCtorEq] at hr
    rename_i d' n' scope' m' doc'
    subst hr
    rcases hsh e he with ⟨_, _, hm⟩ | ⟨x, hx, h1⟩
    · rw [hs] at hm; cases hm
    rcases hsh e' he' with ⟨_, _, hm⟩ | ⟨y, hy, h2⟩
    · rw [hs'] at hm; cases hm
    rw [hs] at h1
    rw [hs'] at h2
    obtain ⟨hk, rfl, rfl, rfl, rfl⟩ := h1
    obtain ⟨_, rfl, rfl, rfl, rfl⟩ := h2
    rw [hcls.own x y e.object hx (ho ▸ hy) (.inl hk)]

/-- Definitions are executed statements, or copies of enumerators. -/
theorem mem_definitions (isClass : List Str → Bool) (df : Definition) : ∀ (l before : List Execution),
    df ∈ definitions isClass before l →
      (∃ e ∈ l, definedBy isClass e.object e.stmt = some df) ∨
      ∃ e ∈ l, e.stmt = .exportValues ∧ ∃ b ∈ before ++ l, b.object = e.object ∧
        ∃ d n scope m doc, b.stmt = .enumValue d n scope m doc ∧ df = ⟨e.object.dropLast, n, .value, b.stmt⟩ := by
  intro l
  induction l with
  | nil => intro before h; cases h
  | cons e l ih =>
    intro before h
    simp only [definitions, List.mem_append, Option.mem_toList] at h
    rcases h with (h | h) | h
    · exact .inl ⟨e, by simp, h⟩
    · right
      unfold exportedBy at h
      split at h
      · rename_i hs
        obtain ⟨b, hb, h⟩ := List.mem_filterMap.1 h
        split at h
        · rename_i d n scope m doc hbs
          split at h
          · rename_i ho
            cases h
            exact ⟨e, by simp, hs, b, by simp [hb], ho, d, n, scope, m, doc, hbs, rfl⟩
          · cases h
        · cases h
      · cases h
    · rcases ih _ h with ⟨e', he', h⟩ | ⟨e', he', hs, b, hb, h⟩
      · exact .inl ⟨e', by simp [he'], h⟩
      · exact .inr ⟨e', by simp [he'], hs, b, by simpa [List.append_assoc] using hb, h⟩

/-- A definition and where it comes from. -/
def DefinedFrom (isClass : List Str → Bool) (l : List Execution) (df : Definition) (r : Origin) : Prop :=
  (∃ e ∈ l, definedBy isClass e.object e.stmt = some df ∧ r = originOf e.stmt) ∨
    ∃ b ∈ l, ∃ d n scope m doc, b.stmt = .enumValue d n scope m doc ∧ 
      df = ⟨b.object.dropLast, n, .value, b.stmt⟩ ∧ r = .exported b.object d

theorem defined_from {i : ToolInput} {name : Str} {g : Graph} {b : Building} {order : List Nat}
    {place : Nat → List Str} {isClass : List Str → Bool} (h : Given i name g b order place isClass)
    (df : Definition) (hd : df ∈ definitions isClass [] (executed i name g b order place)) :
    ∃ r, DefinedFrom isClass (executed i name g b order place) df r ∧
      HasAttr i b.storage g name place df.object df.name df.what r := by
  rcases mem_definitions isClass df _ _ hd with ⟨e, he, hd⟩ | ⟨e, he, hs, e', he', ho, d, n, sc, m, doc, hs', hdf⟩
  · exact ⟨_, .inl ⟨e, he, hd, rfl⟩, (origin_of h e he df hd).2.2⟩
  · simp only [List.nil_append] at he'
    refine ⟨.exported e'.object d, .inr ⟨e', he', d, n, sc, m, doc, hs', by rw [hdf, ho], rfl⟩, ?_⟩
    obtain ⟨x, hx, hk, hex⟩ := (C74_exports i h.ok name g b order place h.pl e.object).1
      ⟨e, he, rfl, by rw [hs]; rfl⟩
    obtain ⟨⟨y, hy, hky, hoy, _⟩, hkd, rfl⟩ := (C71_enumerators i h.ok h.lk h.re h.hu name g b order place h.pl
      e'.object d n _).1 ⟨e', he', rfl, by rw [hs']; rfl⟩
    have := h.objects.own x y e.object hx (ho ▸ hy) (.inl hk)
    subst this
    rw [hdf, ← ho]
    exact .exported hy hk hex hoy hkd

theorem from_unique {i : ToolInput} {name : Str} {g : Graph} {b : Building} {order : List Nat}
    {place : Nat → List Str} {isClass : List Str → Bool} (h : Given i name g b order place isClass)
    (df df' : Definition) (r : Origin) (hd : DefinedFrom isClass (executed i name g b order place) df r)
    (hd' : DefinedFrom isClass (executed i name g b order place) df' r) (ho : df.object = df'.object)
    (hf : ∀ k, df.what ≠ .function k) : df = df' := by
  have hexp : ∀ (st : Stmt) o d, originOf st ≠ .exported o d := by
    intro st o d hst
    cases st <;> cases hst
  rcases hd with ⟨e, he, h1, rfl⟩ | ⟨e, he, d, n, sc, m, doc, hs, rfl, rfl⟩
  · rcases hd' with ⟨e', he', h1', hr⟩ | ⟨_, _, _, _, _, _, _, _, _, hr⟩
    · obtain ⟨o1, _⟩ := origin_of h e he df h1
      obtain ⟨o2, _⟩ := origin_of h e' he' df' h1'
      have hoe : e.object = e'.object := o1.symm.trans (ho.trans o2)
      have := origin_unique h e e' he he' hoe hr ?_
      · rw [this, hoe, h1'] at h1
        cases h1
        rfl
      · intro d hd
        cases hs : e.stmt <;> rw [hs] at hd h1 <;> simp only [originOf, reduceCtorEq] at hd <;>
          simp only [definedBy, Option.some.injEq, reduceCtorEq] at h1 <;> subst h1 <;> exact hf _ rfl
    · exact absurd hr (hexp _ _ _)
  · rcases hd' with ⟨e', he', h1', hr⟩ | ⟨e', he', d', n', sc', m', doc', hs', rfl, hr⟩
    · exact absurd hr.symm (hexp _ _ _)
    · simp only [Origin.exported.injEq] at hr
      obtain ⟨hoe, rfl⟩ := hr
      have := origin_unique h e e' he he' hoe (by rw [hs, hs']; rfl) (by rw [hs]; intro d hd; cases hd)
      rw [hs, hs'] at this
      cases this
      rw [hs, hs', hoe]

theorem enumerators_once (w : EmitWorld) (mo : MembersOK w) (eo : EnumeratorsOnce w) (s : Storage) (x : Nat)
    (hk : (w.info x).kind = .enum) : (proposedDecls w (Exposer.create w s x) x).Nodup := by
  unfold proposedDecls
  dsimp only
  rw [flatMap_eq_expand, if_neg (by rw [hk]; decide), List.append_nil]
  unfold List.Nodup
  rw [List.pairwise_flatMap]
  refine ⟨fun m _ => mo.distinct m, ?_⟩
  have hsym : ∀ {m m' : Nat}, (∀ d ∈ specializationsOf w m, ∀ d' ∈ specializationsOf w m', d ≠ d') →
      ∀ d ∈ specializationsOf w m', ∀ d' ∈ specializationsOf w m, d ≠ d' :=
    fun h d hd d' hd' e => h d' hd' d hd e.symm
  rw [(sortDecls_perm w.toWorld _).pairwise_iff hsym]
  unfold collectVisibleDecls
  rw [List.pairwise_filterMap]
  refine (eo x hk).imp ?_
  have hfd : ∀ f m, foundDecl w.toWorld w.hasLocation (Exposer.create w s x).inliningPolicy f = some m →
      f.hiddenBy = none ∧ m = f.shadows.getD f.decl := by
    intro f m h
    unfold foundDecl at h
    split at h
    · cases h
    · rename_i hh
      split at h
      · cases h
      · dsimp only at h
        split at h
        · cases h
        · split at h
          · cases h
          · cases h
            refine ⟨?_, rfl⟩
            cases hf : f.hiddenBy with
            | none => rfl
            | some y => simp [hf] at hh
  intro f f' h m hm m' hm' d hd d' hd' e
  obtain ⟨h1, rfl⟩ := hfd f m hm
  obtain ⟨h2, rfl⟩ := hfd f' m' hm'
  subst e
  exact h h1 h2 d hd hd'

/-- The declaration of an enumerator that is defined. -/
def enumDecl : Stmt → Option Nat
  | .enumValue d .. => some d
  | _ => none

theorem enumerators_nodup {i : ToolInput} {name : Str} {g : Graph} {b : Building} {order : List Nat}
    {place : Nat → List Str} {isClass : List Str → Bool} (h : Given i name g b order place isClass)
    (mo : MembersOK i.world) (eo : EnumeratorsOnce i.world) :
    ((definitions isClass [] (executed i name g b order place)).filter
      fun d => d.what = .enumerator).Nodup := by
  have hlist : ∀ (l before : List Execution),
      (definitions isClass before l).filter (fun d => d.what = .enumerator) =
        (l.filterMap fun e => definedBy isClass e.object e.stmt).filter fun d => d.what = .enumerator := by
    intro l
    induction l with
    | nil => intro _; rfl
    | cons e l ih =>
      intro before
      have hexp : (exportedBy before e).filter (fun d => d.what = .enumerator) = [] := by
        rw [List.filter_eq_nil_iff]
        intro df hdf
        unfold exportedBy at hdf
        split at hdf
        · obtain ⟨b, _, hb⟩ := List.mem_filterMap.1 hdf
          split at hb
          · split at hb
            · cases hb; simp
            · cases hb
          · cases hb
        · cases hdf
      simp only [definitions, List.filter_append, hexp, List.append_nil, ih]
      cases hd : definedBy isClass e.object e.stmt with
      | none => simp [hd]
      | some df => simp [hd, List.filter_cons]; split <;> simp
  rw [hlist]
  have hder := derived_built i.world i.tree h.ok.unit g b h.pl.graph
  have hcg := C23_graphs i.world.toWorld i.tree h.ok.unit g b h.pl.graph
  have hkn := kept_nodes i.world.toWorld b.storage i.members name g hcg
  have hfill : ∀ x ∈ contextsOf i.world order,
      Fills i.world.toWorld b.storage i.members name g place x (place x) := by
    intro x hx
    obtain ⟨h1, h2⟩ := (hkn x).1 (h.pl.sorted.perm.mem_iff.1 (List.mem_filter.1 hx).1)
    exact ⟨h1, h2, rfl⟩
  have hnd : order.Nodup := h.pl.sorted.perm.nodup_iff.2 (emitInput i h.ok g b h.pl.graph name).graph.nodup
  have hstmt : ∀ df o st, definedBy isClass o st = some df → df.what = .enumerator →
      df.object = o ∧ df.stmt = st ∧ (enumDecl st).isSome = true := by
    intro df o st hd hw
    cases st <;> simp only [definedBy, Option.some.injEq, reduceCtorEq] at hd <;> subst hd <;>
      first | (exact ⟨rfl, rfl, rfl⟩) | (cases hw; done) | (dsimp only at hw; split at hw <;> cases hw)
  have hkind : ∀ x st, st ∈ (exposeContext i.world (analyze i.world.toWorld b.storage i.members name g).vis
      b.storage (Exposer.create i.world b.storage x) x).emitted.stmts → (enumDecl st).isSome = true →
      (i.world.info x).kind = .enum := by
    intro x st hst he
    have := stmt_shape i.world h.ok.emit b.storage hder _ x st hst
    cases st <;> simp only [enumDecl, Option.isSome_none, Bool.false_eq_true] at he
    exact this.1
  unfold executed executionsOf
  rw [List.filterMap_append, List.filter_append]
  have hman : ((i.world.unitVars.filterMap fun v => (postambleLambda b.storage v).map fun l =>
      ({ object := [], stmt := .manual v l, known := typesOf i.world order place } : Execution)).filterMap
        fun e => definedBy isClass e.object e.stmt) = [] := by
    rw [List.filterMap_eq_nil_iff]
    intro e he
    obtain ⟨u, _, hu⟩ := List.mem_filterMap.1 he
    obtain ⟨l, _, rfl⟩ := Option.map_eq_some_iff.1 hu
    rfl
  rw [hman, List.filter_nil, List.append_nil, List.filterMap_flatMap, List.filter_flatMap]
  unfold List.Nodup
  rw [List.pairwise_flatMap]
  constructor
  · intro x hx
    have hone : ((exposeContext i.world (analyze i.world.toWorld b.storage i.members name g).vis
        b.storage (Exposer.create i.world b.storage x) x).emitted.stmts.filterMap enumDecl).Nodup := by
      by_cases hk : (i.world.info x).kind = .enum
      · have hpd := enumerators_once i.world mo eo b.storage x hk
        have hc : Exposer.create i.world b.storage x = .enum x := by
          unfold Exposer.create
          rw [hk]
        have hnp := enum_not_proposed i.world h.ok.emit b.storage x
        rw [hc] at hnp hpd ⊢
        rw [selected i.world _ b.storage _ x enumDecl (fun d =>
          if (i.world.info d).kind = .enumConstant then some d else none) hnp]
        · unfold List.Nodup
          rw [List.pairwise_filterMap]
          refine (List.Nodup.sublist List.filter_sublist hpd).imp ?_
          intro d d' hne e he e' he'
          split at he
          · cases he
            split at he'
            · cases he'
              exact hne
            · cases he'
          · cases he
        · intro m
          unfold finalStmts finalizeEnum
          dsimp only
          split
          · split <;> rfl
          · rfl
        · intro d a _ _
          unfold declStmts handleDeclEnum
          dsimp only
          split <;> simp [enumDecl, Emitted.none]
      · rw [List.filterMap_eq_nil_iff.2]
        · exact List.nodup_nil
        · intro st hst
          cases he : enumDecl st with
          | none => rfl
          | some d => exact absurd (hkind x st hst (by rw [he]; rfl)) hk
    generalize (exposeContext i.world (analyze i.world.toWorld b.storage i.members name g).vis
      b.storage (Exposer.create i.world b.storage x) x).emitted.stmts = l at hone
    unfold List.Nodup at hone
    rw [List.pairwise_filterMap] at hone
    rw [List.filterMap_map, List.pairwise_filter, List.pairwise_filterMap]
    refine hone.imp ?_
    intro st st' hne df hdf df' hdf' hw hw' heq
    simp only [decide_eq_true_eq] at hw hw'
    obtain ⟨_, h1, h2⟩ := hstmt df _ st hdf hw
    obtain ⟨_, h1', _⟩ := hstmt df' _ st' hdf' hw'
    obtain ⟨d, hd⟩ := Option.isSome_iff_exists.1 h2
    rw [← heq, h1] at h1'
    exact hne d hd d (h1' ▸ hd) rfl
  · refine (contextsOf_nodup i.world order hnd).imp_of_mem ?_
    intro x y hx hy hne df hdf df' hdf' heq
    subst heq
    have key : ∀ x, df ∈ List.filter (fun d => decide (d.what = .enumerator)) (List.filterMap
        (fun e => definedBy isClass e.object e.stmt)
        ((exposeContext i.world (analyze i.world.toWorld b.storage i.members name g).vis
        b.storage (Exposer.create i.world b.storage x) x).emitted.stmts.map fun st =>
          ({ object := place x, stmt := st, known := typesOf i.world order place } : Execution))) →
        df.object = place x ∧ (i.world.info x).kind = .enum := by
      intro x hdf
      obtain ⟨h1, h2⟩ := List.mem_filter.1 hdf
      obtain ⟨e, he, hd⟩ := List.mem_filterMap.1 h1
      obtain ⟨st, hst, rfl⟩ := List.mem_map.1 he
      obtain ⟨q1, q2, q3⟩ := hstmt df _ st hd (by simpa using h2)
      exact ⟨q1, hkind x st hst q3⟩
    obtain ⟨o1, k1⟩ := key x hdf
    obtain ⟨o2, _⟩ := key y hdf'
    exact hne (h.objects.own x y (place x) (hfill x hx) (by rw [← o1, o2]; exact hfill y hy) (.inl k1))

/-- C73: if different things have different Python names in the source code, no names clash when
the module is imported. -/
theorem C73_source {i : ToolInput} {name : Str} {g : Graph} {b : Building} {order : List Nat}
    {place : Nat → List Str} {isClass : List Str → Bool} (h : Given i name g b order place isClass)
    (mo : MembersOK i.world) (eo : EnumeratorsOnce i.world)
    (mro : List Str → List (List Str)) (start : PyNames)
    (hd : DistinctNames i b.storage g name place mro start) :
    NoClash mro start (definitions isClass [] (executed i name g b order place)) where
  names := by
    intro df hdf df' hdf' ho hn
    obtain ⟨r, hr, ha⟩ := defined_from h df hdf
    obtain ⟨r', hr', ha'⟩ := defined_from h df' hdf'
    rw [ho, hn] at ha
    rcases hd.names _ _ _ _ _ _ ha ha' with ⟨rfl, hw⟩ | ⟨k, h1, h2⟩
    · cases hw' : df.what with
      | function k => exact .inr ⟨k, rfl, by rw [← hw, hw']⟩
      | _ => exact .inl (from_unique h df df' r hr hr' ho (by rw [hw']; intro k hk; cases hk))
    · exact .inr ⟨k, h1, h2⟩
  enumerators := enumerators_nodup h mo eo
  fresh := by
    intro df hdf
    obtain ⟨r, _, ha⟩ := defined_from h df hdf
    exact hd.fresh _ _ _ _ ha
  functions := by
    rintro df hdf ⟨k, hk⟩ hp p hb
    obtain ⟨r, _, ha⟩ := defined_from h df hdf
    rw [hk] at ha
    obtain ⟨h1, h2⟩ := hd.functions _ _ _ _ ha hp p hb
    refine ⟨h1, fun df' hdf' ho hn => ?_⟩
    obtain ⟨r', _, ha'⟩ := defined_from h df' hdf'
    rw [ho, hn] at ha'
    exact h2 _ _ ha'
  statics := by
    intro df hdf hw p hb df' hdf' ho hn hs
    obtain ⟨r, _, ha⟩ := defined_from h df hdf
    obtain ⟨r', _, ha'⟩ := defined_from h df' hdf'
    rw [ho, hn, hs] at ha'
    exact hd.statics _ _ _ _ ha hw p hb r' ha'


/-- The objects classes and enums have got. -/
def typeObjects (w : EmitWorld) (order : List Nat) (place : Nat → List Str) (o : List Str) : Bool :=
  decide (o ∈ (typesOf w order place).map (·.2))

theorem scope_outside {s : Storage} {g : Graph} (w : World)
    (hpo : ∀ p, PassedOver s p → (w.info p).kind = .namespace)
    (hns : ∀ p x, Edge g p x → (w.info x).kind = .namespace → ¬ IsType w p) {q y : Nat}
    (h : EnclosingScope s g q y) : (w.info y).kind = .namespace → ¬ IsType w q := by
  induction h with
  | here hE _ => exact hns _ _ hE
  | above _ _ _ hp ih => exact fun _ => ih (hpo _ hp)

/-- If the module can be imported, no other context has the object of a class or enum. -/
theorem own_objects (i : ToolInput) (ok : InputOK i) (ho : NamespacesOutside i.world.toWorld)
    (name : Str) (g : Graph) (b : Building) (order : List Nat) (place : Nat → List Str)
    (pl : Placement i name g b order place)
    (im : Importable i.world b.storage (analyze i.world.toWorld b.storage i.members name g).pruned order place) :
    OwnObjects i b.storage g name place (typeObjects i.world order place) := by
  have hcg := C23_graphs i.world.toWorld i.tree ok.unit g b pl.graph
  have hder := derived_built i.world i.tree ok.unit g b pl.graph
  have hi := emitInput i ok g b pl.graph name
  have hk := kept_nodes i.world.toWorld b.storage i.members name g hcg
  obtain ⟨hpg, hroot, hedge, hreach⟩ := C26_places i.world.toWorld b.storage i.members name g hcg
  have hscope := namespace_scope i.world i.tree ok.unit g b pl.graph
  generalize hP : (analyze i.world.toWorld b.storage i.members name g).pruned = P at *
  have hplace := pl.objects
  have hperm := pl.sorted.perm
  rw [hP] at hplace hperm
  have hty : ∀ x, isTypeContext i.world x = true ↔ IsType i.world.toWorld x := by
    intro x
    unfold isTypeContext IsType
    simp only [Bool.or_eq_true, decide_eq_true_eq]
    exact Or.comm
  have hobj : ∀ x, IsType i.world.toWorld x → hasObject i.world b.storage x = true := by
    intro x hx
    unfold hasObject
    rcases hx with h | h <;> rw [h]
  have hsingle : ∀ x, IsType i.world.toWorld x → x ∈ P.nodes → x ∈ contextsOf i.world order := by
    intro x hx hm
    have hm' := hperm.mem_iff.2 hm
    obtain ⟨r, hr⟩ := representative_isSome i.world order x hm'
    have : r = x := by
      rcases sameContext_cases _ _ _ (representative_same _ _ _ _ hr).1 with h | h
      · exact h.symm
      · rcases hx with h' | h' <;> rw [h.1] at h' <;> cases h'
    subst this
    exact List.mem_filter.2 ⟨hm', by simpa using hr⟩
  have hctx : ∀ x, x ∈ contextsOf i.world order → x ∈ P.nodes :=
    fun x hx => hperm.mem_iff.1 (List.mem_filter.1 hx).1
  have hrep : ∀ y, representative i.world order y = some y → y ∈ contextsOf i.world order := by
    intro y hy
    exact List.mem_filter.2 ⟨(representative_same _ _ _ _ hy).2, by simpa using hy⟩
  have hpo : ∀ p, PassedOver b.storage p → (i.world.info p).kind = .namespace := by
    rintro p ⟨a, ns, he, hn, _⟩
    have := attrsOf_shape i.world b.storage hder p a (by unfold attrsOf; rw [he])
    exact this.namespace_.1 (by rw [hn]; rfl)
  have main : ∀ x ∈ P.nodes, IsType i.world.toWorld x → ∀ y o, Refers i.world b.storage P order y o →
      y ∈ P.nodes → place x = o → x = y := by
    intro x hx ht y o hy
    induction hy with
    | root =>
      intro _ hp
      have hxr := hplace x hx
      rw [hp] at hxr
      exfalso
      generalize hnil : ([] : List Str) = path at hxr
      cases hxr with
      | root => rcases ht with h | h <;> rw [hi.graph.root_kind] at h <;> cases h
      | again hr hne _ =>
        rcases sameContext_cases _ _ _ (representative_same _ _ _ _ hr).1 with h | h
        · exact hne h.symm
        · rcases ht with h' | h' <;> rw [h.1] at h' <;> cases h'
      | inside _ _ _ hno => rw [hobj x ht] at hno; cases hno
      | own _ _ _ _ => simp at hnil
    | @again y r path hr hne _ ih =>
      intro _ hp
      obtain ⟨hsame, hm⟩ := representative_same _ _ _ _ hr
      have hxr := ih (hperm.mem_iff.1 hm) hp
      subst hxr
      rcases sameContext_cases _ _ _ hsame with h | h
      · exact h.symm
      · rcases ht with h' | h' <;> rw [h.2.1] at h' <;> cases h'
    | @inside q y path hr hE _ hno ih =>
      intro hyn hp
      have hyr : y ≠ P.root := by
        rintro rfl
        cases hE with
        | here hE _ => exact hi.graph.root_top _ hE
        | above _ hE _ _ => exact hi.graph.root_top _ hE
      have hq : q ∈ P.nodes := by
        clear ih hno hr
        induction hE with
        | here hE _ => exact hi.graph.parent _ _ hE
        | above _ hE _ _ ih =>
          have := hi.graph.parent _ _ hE
          exact ih this (by assumption)
      have hxq := ih hq hp
      subst hxq
      have hnk : (i.world.info y).kind = .namespace := by
        rcases hi.graph.node_kind y hyn hyr with h | h | h
        · exact h
        · rw [hobj y (.inl h)] at hno; cases hno
        · rw [hobj y (.inr h)] at hno; cases hno
      refine absurd ht (scope_outside i.world.toWorld hpo (fun p z hE hz => ?_) hE hnk)
      exact ho z p hz (hscope p z ((hedge p z).1 hE).1 hz).2
    | @own q y path hr hE hq hno _ =>
      intro hyn hp
      have hy := Refers.own hr hE hq hno
      rw [← refers_unique i.world b.storage P hi.graph order (hplace y hyn) hy] at hp
      by_cases hxy : x = y
      · exact hxy
      · exact absurd hp (im.names x (hsingle x ht hx) y (hrep y hr) hxy ((hty x).2 ht) hno)
  have own : ∀ x y o, Fills i.world.toWorld b.storage i.members name g place x o →
    Fills i.world.toWorld b.storage i.members name g place y o → IsType i.world.toWorld x → x = y := by
    rintro x y o ⟨h1, h2, h3⟩ ⟨h4, h5, h6⟩ ht
    have hy := (hk y).2 ⟨h4, h5⟩
    exact main x ((hk x).2 ⟨h1, h2⟩) ht y _ (hplace y hy) hy (h3.trans h6.symm)
  refine ⟨own, fun x o hx => ?_⟩
  have hxn := (hk x).2 ⟨hx.1, hx.2.1⟩
  unfold typeObjects typesOf
  simp only [List.map_map, List.mem_map, Function.comp, List.mem_filter, decide_eq_true_eq]
  constructor
  · rintro ⟨y, ⟨hy, hyt⟩, hyo⟩
    have hyn := (hk y).1 (hctx y hy)
    exact own y x o ⟨hyn.1, hyn.2, hyo⟩ hx ((hty y).1 hyt) ▸ (hty y).1 hyt
  · exact fun ht => ⟨x, ⟨hsingle x ht hxn, (hty x).2 ht⟩, hx.2.2⟩

theorem OwnObjects.types {i : ToolInput} {s : Storage} {g : Graph} {name : Str} {place : Nat → List Str}
    {f : List Str → Bool} (h : OwnObjects i s g name place f) (types : List Nat)
    (ht : ∀ x, x ∈ types ↔ Exposed i.world.toWorld s name g x) :
    OwnObjects i s g name place fun o => decide (o ∈ types.map place) := by
  refine ⟨h.own, fun x o hx => ?_⟩
  simp only [decide_eq_true_eq, List.mem_map, ht]
  constructor
  · rintro ⟨y, ⟨hy, hc⟩, rfl⟩
    refine h.own y x _ ⟨hc, fun hk => ?_, rfl⟩ hx hy ▸ hy
    rcases hy with h | h <;> rw [hk] at h <;> cases h
  · exact fun hk => ⟨x, ⟨hk, hx.1⟩, hx.2.2⟩

/-- C73: if the tool succeeds, the module can be imported up to the point where its objects get
their attributes, and the names given by the source code are distinct, nothing goes wrong and all
attributes are as expected. -/
theorem C73_source_run (o : ToolOptions) (i : ToolInput) (ok : InputOK i) (lk : LookupOK i.world)
    (mo : MembersOK i.world) (re : Reopening i.world.toWorld) (hu : NoBareReopening i.world.toWorld i.tree)
    (oo : ∀ r, (i.world.info r).kind = .record → OperatorsOK i.world r) (eo : EnumeratorsOnce i.world)
    (no : NamespacesOutside i.world.toWorld) (files : Files)
    (r : ToolResult) (hr : runTool o i files = some r) (hx : o.expectFailure = false) (h0 : r.exitCode = 0)
    (hnd : o.outputFiles.Nodup) :
    ∃ name g b order place, moduleNameFor o.moduleName i.mainFile = some name ∧
      Placement i name g b order place ∧
      ∃ lines : List (List Line), lines.length = o.outputFiles.length ∧
        (∀ (k : Nat) path ls, o.outputFiles[k]? = some path → lines[k]? = some ls →
          (path ≠ ['-'] → r.files path = some (fileText i ls)) ∧
          (path = ['-'] → r.printed = [fileText i ls])) ∧
        ∀ st, importModule lines = .ok st → ∀ mro modules,
          let start := PyNames.start (st.types.map (·.2)) modules
          let defined := definitions (fun p => decide (p ∈ st.types.map (·.2))) [] st.executed
          DistinctNames i b.storage g name place mro start →
          PyNames.run mro start defined = .ok (expectedNames start defined) := by
  obtain ⟨name, g, b, order, place, hn, hb, hv, hpl, lines, hlen, hfiles, hiff, hst⟩ :=
    C69_module o i ok files r hr hx h0 hnd
  have pl : Placement i name g b order place := ⟨hb, hv, hpl⟩
  refine ⟨name, g, b, order, place, hn, pl, lines, hlen, hfiles, fun st him mro modules hd => ?_⟩
  obtain ⟨he, types, _, hty, hts⟩ := hst st him
  have hobj := (own_objects i ok no name g b order place pl (hiff.1 ⟨st, him⟩).2).types types hty
  have hts' : st.types.map (·.2) = types.map place := by
    rw [hts, List.map_map]
    rfl
  have hout : o.outputFiles ≠ [] := by
    unfold ToolOptions.outputFiles
    cases o.outputs <;> simp
  have hno : ¬ ErrorReported i (handleTranslationUnit i name o.outputFiles) := by
    rw [(C50_exit o i files name r hn hr).1 h0, hx]
    simp
  obtain ⟨_, _, _, g', b', hb', _, _, hc⟩ :=
    (C72_success_iff i ok lk mo re hu name o.outputFiles hout).1 hno
  rw [hb] at hb'
  cases hb'
  refine C73_names mro _ modules _ ?_
  rw [he, hts']
  refine C73_source ⟨ok, lk, re, hu, oo, pl, fun x h1 h2 => hc x h1 ?_, hobj⟩ mo eo mro _ ?_
  · intro h
    rw [h] at h2
    cases h2
  · rw [← hts']
    exact hd

/-! ### Examples -/

/-- The objects of the example. -/
def exPlaces : Nat → List Str
  | 1 => [t%"S"] | 4 => [t%"n"] | 5 => [t%"n", t%"E"] | _ => []

theorem exUnit_found (s : Storage) (x m d : Nat) (h : FoundIn exInput.world s x m)
    (hd : d ∈ specializationsOf exInput.world m) : x = 1 ∧ (d = 2 ∨ d = 3) ∨ x = 5 ∧ d = 6 := by
  obtain ⟨f, hf, _, rfl, _⟩ := h
  simp only [exInput, exUnit, specializationsOf, Option.getD_none, List.mem_singleton] at hf hd
  subst hd
  split at hf
  · simp only [List.map_cons, List.map_nil, List.mem_cons, List.not_mem_nil, or_false] at hf
    rcases hf with rfl | rfl <;> simp
  · simp only [List.mem_singleton] at hf
    subst hf
    simp
  · cases hf

theorem exUnit_attrs (g : Graph) (name : Str) (place : Nat → List Str) (h1 : place 1 = [t%"S"])
    (h5 : place 5 = [t%"n", t%"E"]) (o : List Str) (n : Str) (w : What) (r : Origin)
    (h : HasAttr exInput (buildGraph exInput.world.toWorld exInput.tree).2.storage g name place o n w r) :
    (o, n, w, r) ∈ [([t%"S"], t%"f", .function true, .function 2), ([t%"S"], t%"g", .function true, .function 3),
      ([t%"n", t%"E"], t%"A", .enumerator, .enumerator 6), ([t%"n"], t%"A", .value, .exported [t%"n", t%"E"] 6)] := by
  have hname : ∀ d ∈ [2, 3, 6], pythonName exInput.world (buildGraph exInput.world.toWorld exInput.tree).2.storage d =
      (exInput.world.info d).name := by decide +kernel
  have hget : ∀ d ∈ [2, 3], (((attrsOf exInput.world (buildGraph exInput.world.toWorld exInput.tree).2.storage d).bind
      (·.method)).map (·.getterFor)) = some [] := by decide +kernel
  have hdata : ∀ d ∈ [2, 3, 6], (attrsOf exInput.world (buildGraph exInput.world.toWorld exInput.tree).2.storage d).all
      (fun a => a.fieldOrVar.isNone && a.typedefName.isNone) = true := by decide +kernel
  have hoff : ∀ x d, Offers exInput.world (buildGraph exInput.world.toWorld exInput.tree).2.storage g x d →
      x = 1 ∧ (d = 2 ∨ d = 3) ∨ x = 5 ∧ d = 6 := by
    rintro x d ⟨⟨m, h1, h2⟩, _⟩
    exact exUnit_found _ x m d h1 h2
  have hfree : ∀ x d, ¬ isFreeOperator exInput.world x d := by
    rintro x d ⟨f, hf, _⟩
    cases hf
  generalize (buildGraph exInput.world.toWorld exInput.tree).2.storage = s at *
  have hmem : ∀ x d, Offers exInput.world s g x d → ∀ a, attrsOf exInput.world s d = some a →
      a.fieldOrVar = none ∧ a.typedefName = none := by
    intro x d ho a ha
    have : d ∈ [2, 3, 6] := by rcases hoff x d ho with ⟨_, rfl | rfl⟩ | ⟨_, rfl⟩ <;> simp
    simpa [ha] using hdata d this
  cases h with
  | «constructor» hx hk ho hc =>
    rcases hoff _ _ ho with ⟨rfl, rfl | rfl⟩ | ⟨rfl, rfl⟩ <;> exfalso <;> revert hc <;> decide
  | function hx hk ho hf =>
    rw [← hx.2.2]
    rcases hoff _ _ ho with ⟨rfl, rfl | rfl⟩ | ⟨rfl, rfl⟩
    · rw [h1, hname 2 (by simp)]; decide
    · rw [h1, hname 3 (by simp)]; decide
    · exact absurd rfl hk
  | operator hx hk ho hv hd hn =>
    rcases ho with ⟨m, h1, h2⟩ | ho
    · rcases exUnit_found _ _ m _ h1 h2 with ⟨rfl, rfl | rfl⟩ | ⟨rfl, rfl⟩ <;> exfalso <;> revert hd <;> decide
    · exact absurd ho (hfree _ _)
  | stream hx hk ho => exact absurd ho (hfree _ _)
  | member hx hk ho hd =>
    obtain ⟨a, ha, h2, _⟩ := hd
    rw [(hmem _ _ ho a ha).1] at h2
    cases h2
  | «attribute» hx hk ho hd =>
    rcases hd with ⟨t, a, q, h1, h2, _⟩ | ⟨_, _, v, a, h1, h2, _⟩
    · rw [(hmem _ _ ho a h1).2] at h2
      cases h2
    · rw [(hmem _ _ ho a h1).1] at h2
      cases h2
  | property hx hk hg =>
    obtain ⟨ho, a, m, h1, h2, h3⟩ := hg
    rcases hoff _ _ ho with ⟨rfl, rfl | rfl⟩ | ⟨rfl, rfl⟩
    · have := hget 2 (by simp)
      rw [h1] at this
      simp only [Option.bind_some, h2, Option.map_some, Option.some.injEq] at this
      rw [this] at h3
      cases h3
    · have := hget 3 (by simp)
      rw [h1] at this
      simp only [Option.bind_some, h2, Option.map_some, Option.some.injEq] at this
      rw [this] at h3
      cases h3
    · cases hk
  | enumerator hx hk ho hc =>
    rw [← hx.2.2]
    rcases hoff _ _ ho with ⟨rfl, rfl | rfl⟩ | ⟨rfl, rfl⟩
    · cases hk
    · cases hk
    · rw [h5, hname 6 (by simp)]; decide
  | exported hx hk he ho hc =>
    rw [← hx.2.2]
    rcases hoff _ _ ho with ⟨rfl, rfl | rfl⟩ | ⟨rfl, rfl⟩
    · cases hk
    · cases hk
    · rw [h5, hname 6 (by simp)]; decide

/-- The names of the example are distinct. -/
example (g : Graph) (name : Str) :
    DistinctNames exInput (buildGraph exInput.world.toWorld exInput.tree).2.storage g name exPlaces (fun _ => [])
      (.start [[t%"S"], [t%"n", t%"E"]] [[t%"n"]]) where
  names := by
    intro o n w w' r r' h h'
    have h1 := exUnit_attrs _ _ exPlaces rfl rfl _ _ _ _ h
    have h2 := exUnit_attrs _ _ exPlaces rfl rfl _ _ _ _ h'
    simp only [List.mem_cons, Prod.mk.injEq, List.not_mem_nil, or_false] at h1 h2
    rcases h1 with ⟨rfl, rfl, rfl, rfl⟩ | ⟨rfl, rfl, rfl, rfl⟩ | ⟨rfl, rfl, rfl, rfl⟩ | ⟨rfl, rfl, rfl, rfl⟩ <;>
      simp at h2 <;> simp [h2]
  fresh := by
    intro o n w r h
    have h1 := exUnit_attrs _ _ exPlaces rfl rfl _ _ _ _ h
    simp only [List.mem_cons, Prod.mk.injEq, List.not_mem_nil, or_false] at h1
    rcases h1 with ⟨rfl, rfl, rfl, rfl⟩ | ⟨rfl, rfl, rfl, rfl⟩ | ⟨rfl, rfl, rfl, rfl⟩ | ⟨rfl, rfl, rfl, rfl⟩ <;> decide
  functions := by
    intro o n k r _ _ b hb
    cases hb
  statics := by
    intro o n k r _ _ b hb
    cases hb

theorem exInput_once : EnumeratorsOnce exInput.world := by
  intro x hk
  have : x = 5 := by
    revert hk
    simp only [exInput, exUnit]
    split <;> simp
  subst this
  simp [exInput, exUnit]

theorem exInput_outside : NamespacesOutside exInput.world.toWorld := by
  rintro x p hk ⟨pre, post, he, _⟩ ht
  have : x = 4 := by
    revert hk
    simp only [exInput, exUnit]
    split <;> simp
  subst this
  have hp : p ∈ exInput.world.ancestors 4 := by rw [he]; simp
  have : p = 0 := by simpa [exInput, exUnit] using hp
  subst this
  rcases ht with h | h <;> cases h

theorem exInput_operators : ∀ r, (exInput.world.info r).kind = .record → OperatorsOK exInput.world r := by
  intro r _
  refine ⟨by simp [exInput, exUnit], ?_, ?_⟩
  · rintro p d ⟨f, hf, m, h1, h2⟩ ho
    simp only [exInput, exUnit, overloadsOperator] at ho ⊢
    revert ho
    split <;> decide
  · intro d
    simp only [exInput, exUnit]
    split <;> simp [exPlain]

end Verif
