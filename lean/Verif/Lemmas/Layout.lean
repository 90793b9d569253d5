import Verif.Spec.Layout
import Verif.Lemmas.ReannotateEmit
/-!
# Lemmas: locations and documentation
-/
namespace Verif
open Spec

/-- What is written, without documentation. -/
def bare (e : Emitted) : Emitted := { e with stmts := e.stmts.map undocumented }

/-- The state of an exposer, without documentation. -/
def bareE (e : Exposing) : Exposing := { e with emitted := bare e.emitted }

section
variable {w : EmitWorld} {loc : Nat → Nat} {brief : Nat → Str}

theorem style_sort (h : SameOrder w.loc loc) (l : List Nat) :
    sortDecls (restyle w loc brief).toWorld l = sortDecls w.toWorld l := by
  have hi : ∀ x l, insertDecl (restyle w loc brief).toWorld x l = insertDecl w.toWorld x l := by
    intro x l
    induction l with
    | nil => rfl
    | cons y l ih =>
      unfold insertDecl
      rw [ih]
      show (if loc x ≤ loc y then _ else _) = _
      by_cases hx : w.loc x ≤ w.loc y
      · rw [if_pos hx, if_pos ((h x y).2 hx)]
      · rw [if_neg hx, if_neg fun h' => hx ((h x y).1 h')]
  induction l with
  | nil => rfl
  | cons x l ih =>
    show insertDecl _ x (sortDecls _ l) = insertDecl _ x (sortDecls _ l)
    rw [ih, hi]

theorem style_proposed (h : SameOrder w.loc loc) (x : Exposer) (c : Nat) :
    proposedDecls (restyle w loc brief) x c = proposedDecls w x c := by
  unfold proposedDecls
  dsimp only
  rw [style_sort h]
  rfl

mutual
theorem style_traverse : ∀ (t : Tree) (c : Collected),
    traverse (restyle w loc brief).toWorld c t = traverse w.toWorld c t
  | .node x l, c => by
    rw [traverse, traverse, style_traverseAll l]
    rfl
theorem style_traverseAll : ∀ (l : List Tree) (c : Collected),
    traverseAll (restyle w loc brief).toWorld c l = traverseAll w.toWorld c l
  | [], _ => by rw [traverseAll, traverseAll]
  | t :: l, c => by rw [traverseAll, traverseAll, style_traverse t, style_traverseAll l]
end

theorem style_build (tree : Tree) :
    buildGraph (restyle w loc brief).toWorld tree = buildGraph w.toWorld tree := by
  unfold buildGraph
  rw [style_traverse]
  rfl

theorem ite_related {α β : Type} (f : α → β) {c c' : Prop} [Decidable c] [Decidable c'] {a b a' b' : α} (h : c ↔ c')
    (ha : c → f a = f a') (hb : ¬ c → f b = f b') : f (if c then a else b) = f (if c' then a' else b') := by
  by_cases hc : c
  · rw [if_pos hc, if_pos (h.1 hc)]; exact ha hc
  · rw [if_neg hc, if_neg fun h' => hc (h.2 h')]; exact hb hc

theorem style_generic (a : DeclAttrs) (x : Nat) :
    bare (handleDeclGeneric (restyle w loc brief) a x) = bare (handleDeclGeneric w a x) := by
  unfold handleDeclGeneric
  by_cases h1 : a.constructor.isSome = true
  · rw [if_pos h1, if_pos h1]
  rw [if_neg h1, if_neg h1]
  cases a.typedefName with
  | some t => rfl
  | none =>
    cases a.fieldOrVar with
    | some v => rfl
    | none =>
      cases a.method with
      | none =>
        cases a.function with
        | none => rfl
        | some f =>
          exact ite_related bare Iff.rfl (fun _ => rfl) fun _ => ite_related bare Iff.rfl (fun _ => rfl) fun _ => rfl
      | some m =>
        dsimp only
        by_cases hm : (!m.getterFor.isEmpty || !m.setterFor.isEmpty) = true
        · rw [if_pos hm, if_pos hm]
        · rw [if_neg hm, if_neg hm]
          cases a.function with
          | none => rfl
          | some f =>
            exact ite_related bare Iff.rfl (fun _ => rfl) fun _ => rfl

theorem style_enum (e : Nat) (a : DeclAttrs) (x : Nat) :
    bare (handleDeclEnum (restyle w loc brief) e a x) = bare (handleDeclEnum w e a x) := by
  unfold handleDeclEnum
  show bare (if (w.info x).kind = .enumConstant then _ else _) = bare (if (w.info x).kind = .enumConstant then _ else _)
  split <;> rfl

/-- Properties, and what is written without documentation. -/
def bareP (p : PropertyMap × Emitted) : PropertyMap × Emitted := (p.1, bare p.2)

theorem style_record (r : Nat) (m : PropertyMap) (a : DeclAttrs) (x : Nat) :
    bareP (handleDeclRecord (restyle w loc brief) r m a x) = bareP (handleDeclRecord w r m a x) := by
  have hg : ∀ m : PropertyMap, bareP (m, handleDeclGeneric (restyle w loc brief) a x) = bareP (m, handleDeclGeneric w a x) :=
    fun m => by rw [bareP, bareP, style_generic]
  unfold handleDeclRecord
  cases a.constructor with
  | some c =>
    refine ite_related bareP Iff.rfl (fun _ => rfl) fun _ => ite_related bareP Iff.rfl (fun _ => ?_) fun _ => rfl
    have key : ∀ (ps qs : List FnParam) (e : Emitted) (f f' : FnParam → Emitted), ps = qs → (∀ p, bare (f p) = bare (f' p)) →
        bareP (match ps with | [] => (m, e) | p :: _ => (m, f p)) = bareP (match qs with | [] => (m, e) | p :: _ => (m, f' p)) := by
      intro ps qs e f f' h hf
      subst h
      cases ps with
      | nil => rfl
      | cons p _ => exact congrArg (Prod.mk m) (hf p)
    exact key _ _ _ _ _ rfl fun p => rfl
  | none =>
    dsimp only
    by_cases h1 : supportsOperator (w.info x) = true
    · rw [if_pos h1, if_pos (show supportsOperator ((restyle w loc brief).info x) = true from h1)]
      by_cases h2 : (w.fn x).isDeleted = true
      · rw [if_pos h2, if_pos (show ((restyle w loc brief).fn x).isDeleted = true from h2)]
      rw [if_neg h2, if_neg (show ¬ ((restyle w loc brief).fn x).isDeleted = true from h2)]
      rw [show isOstreamOperator (restyle w loc brief) x = isOstreamOperator w x from rfl,
        show selfParam (restyle w loc brief) r x = selfParam w r x from rfl]
      dsimp only [restyle]
      cases (w.info x).operator with
      | none => rfl
      | some kind =>
        cases isOstreamOperator w x with
        | none => rfl
        | some b =>
          cases b with
          | true => rfl
          | false =>
            dsimp only
            cases emitOperator r kind (selfParam w r x) ((w.fn x).params.map (·.type)) (w.fn x).returnType <;> rfl
    · rw [if_neg h1, if_neg (show ¬ supportsOperator ((restyle w loc brief).info x) = true from h1)]
      split
      · rfl
      · cases a.fieldOrVar with
        | some v => rfl
        | none => exact hg m

theorem bareE_emit {a b : Exposing} {e f : Emitted} (h : bareE a = bareE b) (h' : bare e = bare f) :
    bareE (a.emit e) = bareE (b.emit f) := by
  obtain ⟨s, p, st, d⟩ := a
  obtain ⟨s', p', st', d'⟩ := b
  obtain ⟨t, u⟩ := e
  obtain ⟨t', u'⟩ := f
  simp only [bareE, bare, Exposing.mk.injEq, Emitted.mk.injEq, Exposing.emit, List.map_append] at h h' ⊢
  obtain ⟨rfl, rfl, h1, rfl⟩ := h
  obtain ⟨h2, rfl⟩ := h'
  exact ⟨rfl, rfl, by rw [h1, h2], rfl⟩

theorem style_impl (e : Exposer) {st st' : Exposing} (h : bareE st' = bareE st) (a : DeclAttrs) (x : Nat) :
    bareE (e.handleDeclImpl (restyle w loc brief) st' a x) = bareE (e.handleDeclImpl w st a x) := by
  unfold Exposer.handleDeclImpl
  cases e with
  | plain => exact bareE_emit h (style_generic a x)
  | «namespace» n => exact bareE_emit h (style_generic a x)
  | enum n => exact bareE_emit h (style_enum n a x)
  | record n p =>
    dsimp only
    have hp : st'.properties = st.properties := congrArg (·.properties) h
    have hr := style_record (w := w) (loc := loc) (brief := brief) n st.properties a x
    have h1 : (handleDeclRecord (restyle w loc brief) n st.properties a x).1 = (handleDeclRecord w n st.properties a x).1 :=
      by have := congrArg Prod.fst hr; exact this
    have h2 : bare (handleDeclRecord (restyle w loc brief) n st.properties a x).2 =
      bare (handleDeclRecord w n st.properties a x).2 :=
      by have := congrArg Prod.snd hr; exact this
    rw [hp]
    refine bareE_emit ?_ h2
    rw [h1]
    have hs : st'.storage = st.storage := congrArg (·.storage) h
    have he : bare st'.emitted = bare st.emitted := congrArg (·.emitted) h
    simp only [bareE, hs, he]

theorem style_propose (e : Exposer) (v : Bool) {st st' : Exposing} (h : bareE st' = bareE st) (x : Nat) :
    bareE (e.propose (restyle w loc brief) v st' x) = bareE (e.propose w v st x) := by
  have hs : st'.storage = st.storage := congrArg (·.storage) h
  have hp : st'.properties = st.properties := congrArg (·.properties) h
  have he : bare st'.emitted = bare st.emitted := congrArg (·.emitted) h
  have he1 : st'.emitted.stmts.map undocumented = st.emitted.stmts.map undocumented := congrArg (·.stmts) he
  have he2 : st'.emitted.diags = st.emitted.diags := congrArg (·.diags) he
  unfold Exposer.propose
  dsimp only
  rw [hs]
  show bareE (e.handleDecl (restyle w loc brief) v { st' with
      storage := (st.storage.insert w.toDeclEnv x).1
      emitted := { st'.emitted with diags := st'.emitted.diags ++ (st.storage.insert w.toDeclEnv x).2 } } x) = _
  have hb : bareE { st' with
      storage := (st.storage.insert w.toDeclEnv x).1
      emitted := { st'.emitted with diags := st'.emitted.diags ++ (st.storage.insert w.toDeclEnv x).2 } } =
      bareE { st with
      storage := (st.storage.insert w.toDeclEnv x).1
      emitted := { st.emitted with diags := st.emitted.diags ++ (st.storage.insert w.toDeclEnv x).2 } } := by
    simp only [bareE, bare, hp, he1, he2]
  unfold Exposer.handleDecl
  dsimp only
  cases (st.storage.insert w.toDeclEnv x).1.entries x with
  | none => exact hb
  | some a =>
    dsimp only
    split
    · exact style_impl e hb a x
    · exact hb

theorem style_properties (m : PropertyMap) : emitProperties (restyle w loc brief) m = emitProperties w m := by
  induction m with
  | nil => rfl
  | cons e m ih =>
    rw [emitProperties, emitProperties, ih]
    rfl

theorem style_expose (h : SameOrder w.loc loc) (vis : Visibilities) (s : Storage) (e : Exposer) (c : Nat) :
    bareE (exposeContext (restyle w loc brief) vis s e c) = bareE (exposeContext w vis s e c) := by
  have hf : ∀ (l : List Nat) (st st' : Exposing), bareE st' = bareE st → ∀ v,
      bareE (l.foldl (e.propose (restyle w loc brief) v) st') = bareE (l.foldl (e.propose w v) st) := by
    intro l
    induction l with
    | nil => exact fun _ _ h _ => h
    | cons x l ih => exact fun st st' h v => ih _ _ (style_propose e v h x) v
  have h1 := hf (proposedDecls w e c) { storage := s } { storage := s } rfl ((vis c).getD false)
  unfold exposeContext
  rw [style_proposed h]
  revert h1
  generalize (proposedDecls w e c).foldl (e.propose w ((vis c).getD false)) { storage := s } = st
  generalize (proposedDecls w e c).foldl (e.propose (restyle w loc brief) ((vis c).getD false)) { storage := s } = st'
  intro h1
  unfold Exposer.finalizeDefinition
  cases e with
  | plain => exact bareE_emit h1 rfl
  | «namespace» n => exact bareE_emit h1 rfl
  | enum n =>
    dsimp only
    rw [show st'.storage = st.storage from congrArg (·.storage) h1]
    exact bareE_emit h1 rfl
  | record n p =>
    dsimp only
    rw [show st'.properties = st.properties from congrArg (·.properties) h1, style_properties]
    exact bareE_emit h1 rfl

/-- What is written to streams, without documentation. -/
def bareWrites (l : List (Nat × Line)) : List (Nat × Line) := l.map fun p => (p.1, undocumentedLine p.2)

theorem style_define (h : SameOrder w.loc loc) (g : Graph) (vis : Visibilities) (streams count : Nat) :
    ∀ (l : List WorklistItem) (d d' : Defining) (k : Nat), d'.storage = d.storage → d'.diags = d.diags →
    bareWrites d'.writes = bareWrites d.writes →
    let r := defineItems w g vis streams count d k l
    let r' := defineItems (restyle w loc brief) g vis streams count d' k l
    r'.diags = r.diags ∧ bareWrites r'.writes = bareWrites r.writes
  | [], _, _, _, _, h2, h3 => ⟨h2, h3⟩
  | item :: l, d, d', k, h1, h2, h3 => by
    have hx := style_expose (brief := brief) h vis d.storage item.exposer item.context
    have he : bare (exposeContext (restyle w loc brief) vis d.storage item.exposer item.context).emitted =
      bare (exposeContext w vis d.storage item.exposer item.context).emitted := congrArg (·.emitted) hx
    have hs : ∀ l : List Stmt, bareWrites ((l.map Line.stmt).map (k * streams / count, ·)) =
        ((l.map undocumented).map Line.stmt).map (k * streams / count, ·) := by
      intro l
      simp [bareWrites, undocumentedLine]
    have happ : ∀ a b, bareWrites (a ++ b) = bareWrites a ++ bareWrites b := fun a b => List.map_append
    have hcons : ∀ a b, bareWrites (a :: b) = (a.1, undocumentedLine a.2) :: bareWrites b := fun a b => rfl
    refine style_define h g vis streams count l _ _ (k + 1) ?_ ?_ ?_
    · show (exposeContext _ vis d'.storage item.exposer item.context).storage =
        (exposeContext _ vis d.storage item.exposer item.context).storage
      rw [h1]
      exact congrArg (·.storage) hx
    · show d'.diags ++ (exposeContext _ vis d'.storage item.exposer item.context).emitted.diags =
        d.diags ++ (exposeContext _ vis d.storage item.exposer item.context).emitted.diags
      rw [h1, h2]
      congr 1
      exact congrArg (·.diags) he
    · unfold defineItem
      dsimp only
      rw [h1]
      simp only [happ, List.map_append, List.map_cons, hs, hcons, h3]
      rw [show (exposeContext (restyle w loc brief) vis d.storage item.exposer item.context).emitted.stmts.map undocumented =
        (exposeContext w vis d.storage item.exposer item.context).emitted.stmts.map undocumented from congrArg (·.stmts) he]
      rfl

theorem style_main (s : Storage) (g : Graph) (parents : EnclosingScopes) (name : Str) (n : Naming) :
    bareWrites ((emitMain (restyle w loc brief) s g parents name n).map (0, ·)) =
      bareWrites ((emitMain w s g parents name n).map (0, ·)) := by
  have hi : ∀ parent (e : Exposer) identifier,
      undocumentedLine (.introduce identifier (e.introducer (restyle w loc brief) s g parent)) =
      undocumentedLine (.introduce identifier (e.introducer w s g parent)) := by
    intro parent e identifier
    unfold Exposer.introducer
    cases e <;> rfl
  unfold emitMain bareWrites
  simp only [List.map_append, List.map_map]
  congr 1
  congr 1
  congr 1
  congr 1
  congr 1
  refine List.map_congr_left fun item _ => ?_
  simp only [Function.comp_apply, hi]

theorem style_emit (h : SameOrder w.loc loc) (s : Storage) (g : Graph) (vis : Visibilities) (pick : Pick)
    (nodes : List Nat) (n : Nat) (name : Str) :
    (emitModule (restyle w loc brief) s g vis pick nodes n name).diags = (emitModule w s g vis pick nodes n name).diags ∧
    bareWrites (emitModule (restyle w loc brief) s g vis pick nodes n name).writes =
      bareWrites (emitModule w s g vis pick nodes n name).writes := by
  unfold emitModule
  dsimp only
  rw [show declContextsSortedByDependencies (restyle w loc brief).toWorld (restyle w loc brief).bases pick nodes g
      (findEnclosingScopes (restyle w loc brief).toWorld s g) =
    declContextsSortedByDependencies w.toWorld w.bases pick nodes g (findEnclosingScopes w.toWorld s g) from rfl]
  cases (declContextsSortedByDependencies w.toWorld w.bases pick nodes g (findEnclosingScopes w.toWorld s g)).2 with
  | some c => exact ⟨rfl, rfl⟩
  | none =>
    dsimp only
    rw [show nameContexts (restyle w loc brief) s = nameContexts w s from rfl]
    exact style_define h g vis n _ _ _ _ 0 rfl rfl (style_main ..)

/-! ### The same documentation -/

theorem move_expose (h : SameOrder w.loc loc) (vis : Visibilities) (s : Storage) (e : Exposer) (c : Nat) :
    exposeContext (restyle w loc w.brief) vis s e c = exposeContext w vis s e c := by
  unfold exposeContext
  rw [style_proposed h]
  unfold Exposer.finalizeDefinition
  rw [style_properties]
  rfl

theorem move_define (h : SameOrder w.loc loc) (g : Graph) (vis : Visibilities) (streams count : Nat) :
    ∀ (l : List WorklistItem) (d : Defining) (k : Nat),
    defineItems (restyle w loc w.brief) g vis streams count d k l = defineItems w g vis streams count d k l
  | [], _, _ => rfl
  | item :: l, d, k => by
    have e : defineItem (restyle w loc w.brief) g vis streams count d k item =
        defineItem w g vis streams count d k item := by
      unfold defineItem
      rw [move_expose h]
      rfl
    rw [defineItems, defineItems, e, move_define h]

theorem move_emit (h : SameOrder w.loc loc) (s : Storage) (g : Graph) (vis : Visibilities) (pick : Pick)
    (nodes : List Nat) (n : Nat) (name : Str) :
    emitModule (restyle w loc w.brief) s g vis pick nodes n name = emitModule w s g vis pick nodes n name := by
  unfold emitModule
  simp only [move_define h]
  rfl
end

end Verif
