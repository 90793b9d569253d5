import Verif.Spec.Reannotate
import Verif.Lemmas.AdditionsEmit
import Verif.Lemmas.AttrInv
import Verif.Lemmas.Properties
/-!
# Lemmas: the same code with other annotations
-/
namespace Verif
open Spec

theorem handlers_congr (e e' : DeclEnv) (x : Nat) (h : e'.info x = e.info x)
    (hn : e'.hasName = e.hasName) : handlers e' x = handlers e x := by
  have hr : processRecord e' x = processRecord e x := by
    funext a v
    have hs : ∀ names l, selectBases e' names l = selectBases e names l := by
      intro names l
      unfold selectBases
      simp only [hn]
    unfold processRecord
    rw [h]
    simp only [hs]
  unfold handlers
  rw [h, hr]

theorem applyAnnotations_congr (e e' : DeclEnv) (x : Nat) (h : e'.info x = e.info x)
    (hn : e'.hasName = e.hasName) (as : List Annotation) (a : DeclAttrs) :
    applyAnnotations e' x a as = applyAnnotations e x a as := by
  induction as generalizing a with
  | nil => rfl
  | cons b as ih =>
    have : applyAnnotation e' x a b = applyAnnotation e x a b := by
      unfold applyAnnotation reportInvalidAnnotation
      rw [handlers_congr e e' x h hn, h]
    simp only [applyAnnotations, this, ih]

theorem firstInsert_congr (e e' : DeclEnv) (x : Nat) (h : e'.info x = e.info x)
    (hn : e'.hasName = e.hasName) : firstInsert e' x = firstInsert e x := by
  unfold firstInsert
  dsimp only
  rw [h]
  simp only [applyAnnotations_congr e e' x h hn]

section
variable {w : EmitWorld} {D : Nat → Bool} {texts : Nat → List Str}

theorem reannotate_info (h : OnlyAnnotated w D texts) (x : Nat) (hx : D x = false) :
    (reannotate w texts).info x = w.info x := by
  show { w.info x with attrTexts := texts x } = w.info x
  rw [h.rest x hx]

theorem reannotate_insert (h : OnlyAnnotated w D texts) (x : Nat) (hx : D x = false) :
    firstInsert (reannotate w texts).toDeclEnv x = firstInsert w.toDeclEnv x :=
  firstInsert_congr _ _ x (reannotate_info h x hx) rfl

/-- Storages of both runs. -/
structure Off (w : EmitWorld) (D : Nat → Bool) (texts : Nat → List Str) (s s' : Storage) : Prop where
  off : ∀ x, D x = false → s'.entries x = s.entries x
  own : ∀ x a, D x = true → s.entries x = some a → a = (firstInsert w.toDeclEnv x).1
  own' : ∀ x a, D x = true → s'.entries x = some a →
    a = (firstInsert (reannotate w texts).toDeclEnv x).1

theorem off_insert (h : OnlyAnnotated w D texts) {s s' : Storage} (hs : Off w D texts s s') (x : Nat) :
    Off w D texts (s.insert w.toDeclEnv x).1 (s'.insert (reannotate w texts).toDeclEnv x).1 := by
  obtain ⟨a1, _⟩ := insert_result w.toWorld s x
  obtain ⟨b1, _⟩ := insert_result (reannotate w texts).toWorld s' x
  refine ⟨fun y hy => ?_, fun y a hy ha => ?_, fun y a hy ha => ?_⟩
  · rw [a1, b1]
    dsimp only
    by_cases hyx : y = x
    · subst hyx
      rw [hs.off y hy, reannotate_insert h y hy]
      rfl
    · rw [if_neg (fun e => hyx e.1), if_neg (fun e => hyx e.1)]
      exact hs.off y hy
  · rw [a1] at ha
    dsimp only at ha
    split at ha
    · rename_i e
      rw [e.1]
      exact (Option.some.inj ha).symm
    · exact hs.own y a hy ha
  · rw [b1] at ha
    dsimp only at ha
    split at ha
    · rename_i e
      rw [e.1]
      exact (Option.some.inj ha).symm
    · exact hs.own' y a hy ha

theorem off_insert_left {s s' : Storage} (hs : Off w D texts s s') (x : Nat) (hx : D x = true) :
    Off w D texts (s.insert w.toDeclEnv x).1 s' := by
  obtain ⟨a1, _⟩ := insert_result w.toWorld s x
  refine ⟨fun y hy => ?_, fun y a hy ha => ?_, hs.own'⟩
  · rw [a1]
    dsimp only
    rw [if_neg]
    · exact hs.off y hy
    · rintro ⟨rfl, _⟩
      rw [hx] at hy; cases hy
  · rw [a1] at ha
    dsimp only at ha
    split at ha
    · rename_i e
      rw [e.1]
      exact (Option.some.inj ha).symm
    · exact hs.own y a hy ha

theorem off_insert_right {s s' : Storage} (hs : Off w D texts s s') (x : Nat) (hx : D x = true) :
    Off w D texts s (s'.insert (reannotate w texts).toDeclEnv x).1 := by
  obtain ⟨b1, _⟩ := insert_result (reannotate w texts).toWorld s' x
  refine ⟨fun y hy => ?_, hs.own, fun y a hy ha => ?_⟩
  · rw [b1]
    dsimp only
    rw [if_neg]
    · exact hs.off y hy
    · rintro ⟨rfl, _⟩
      rw [hx] at hy; cases hy
  · rw [b1] at ha
    dsimp only at ha
    split at ha
    · rename_i e
      rw [e.1]
      exact (Option.some.inj ha).symm
    · exact hs.own' y a hy ha

theorem off_updateNamed {s s' : Storage} (hs : Off w D texts s s') (x : Nat) (hx : D x = false)
    (f : NamedDeclAttrs → NamedDeclAttrs) :
    Off w D texts (s.updateNamed x f) (s'.updateNamed x f) := by
  have key : ∀ (s : Storage) (y : Nat), y ≠ x → (s.updateNamed x f).entries y = s.entries y := by
    intro s y hy
    unfold Storage.updateNamed
    split <;> exact if_neg hy
  have hne : ∀ y, D y = true → y ≠ x := by
    rintro y hy rfl
    rw [hx] at hy; cases hy
  refine ⟨fun y hy => ?_, fun y a hy ha => ?_, fun y a hy ha => ?_⟩
  · by_cases e : y = x
    · subst e
      unfold Storage.updateNamed
      rw [hs.off y hy]
      split
      · exact (if_pos rfl).trans (if_pos rfl).symm
      · exact (if_pos rfl).trans (if_pos rfl).symm
    · rw [key s y e, key s' y e]
      exact hs.off y hy
  · rw [key s y (hne y hy)] at ha
    exact hs.own y a hy ha
  · rw [key s' y (hne y hy)] at ha
    exact hs.own' y a hy ha

theorem off_named {s s' : Storage} (hs : Off w D texts s s') (x : Nat) (hx : D x = false) :
    s'.lookupNamed x = s.lookupNamed x := by
  unfold Storage.lookupNamed
  rw [hs.off x hx]

/-! ### Collecting declarations -/

/-- Collectors of both runs. -/
structure OffC (w : EmitWorld) (D : Nat → Bool) (texts : Nat → List Str) (c c' : Collected) : Prop where
  storage : Off w D texts c.storage c'.storage
  contexts : c'.lookupContexts = c.lookupContexts
  aliases : c'.aliases = c.aliases

theorem off_visit (h : OnlyAnnotated w D texts) {c c' : Collected} (hc : OffC w D texts c c') (x : Nat) :
    OffC w D texts (visitDecl w.toWorld c x) (visitDecl (reannotate w texts).toWorld c' x) := by
  have hn : OffC w D texts (visitNamedDecl w.toWorld c x)
      (visitNamedDecl (reannotate w texts).toWorld c' x) := by
    unfold visitNamedDecl
    dsimp only
    cases hx : D x with
    | false =>
      rw [reannotate_info h x hx]
      have e : (reannotate w texts).dependentContext x = w.dependentContext x := rfl
      rw [e]
      split
      · exact hc
      · exact ⟨off_insert h hc.storage x, hc.contexts, hc.aliases⟩
    | true =>
      split <;> split
      · exact hc
      · exact ⟨off_insert_right hc.storage x hx, hc.contexts, hc.aliases⟩
      · exact ⟨off_insert_left hc.storage x hx, hc.contexts, hc.aliases⟩
      · exact ⟨off_insert h hc.storage x, hc.contexts, hc.aliases⟩
  unfold visitDecl
  dsimp only
  have ek : ((reannotate w texts).info x).kind = (w.info x).kind := rfl
  rw [ek]
  have hn' : OffC w D texts (if (w.info x).kind.isNamed = true then visitNamedDecl w.toWorld c x else c)
      (if (w.info x).kind.isNamed = true then visitNamedDecl (reannotate w texts).toWorld c' x else c') := by
    split
    · exact hn
    · exact hc
  generalize (if (w.info x).kind.isNamed = true then visitNamedDecl w.toWorld c x else c) = d at hn'
  generalize (if (w.info x).kind.isNamed = true then
    visitNamedDecl (reannotate w texts).toWorld c' x else c') = d' at hn'
  split
  · rename_i hk
    have hx : D x = false := by
      cases hx : D x with
      | false => rfl
      | true => exact absurd hk (h.member x hx).2.2.2.1
    unfold visitTypedefNameDecl
    rw [reannotate_info h x hx]
    have e : (reannotate w texts).dependentContext x = w.dependentContext x := rfl
    rw [e]
    split
    · exact hn'
    · exact ⟨hn'.storage, hn'.contexts, by show d'.aliases ++ [x] = d.aliases ++ [x]; rw [hn'.aliases]⟩
  · split
    · unfold visitContext
      have e : shouldSkip ((reannotate w texts).info x) = shouldSkip (w.info x) := rfl
      rw [e]
      split
      · exact hn'
      · exact ⟨hn'.storage, by show d'.lookupContexts ++ [x] = d.lookupContexts ++ [x]; rw [hn'.contexts],
          hn'.aliases⟩
    · exact hn'

theorem off_errorIf (w₁ : World) (c : Collected) (x : Nat) :
    (errorIfAnnotationsDoNotMatchFirstDecl w₁ c x).storage = c.storage ∧
    (errorIfAnnotationsDoNotMatchFirstDecl w₁ c x).lookupContexts = c.lookupContexts ∧
    (errorIfAnnotationsDoNotMatchFirstDecl w₁ c x).aliases = c.aliases := by
  unfold errorIfAnnotationsDoNotMatchFirstDecl
  split
  · exact ⟨rfl, rfl, rfl⟩
  · split <;> exact ⟨rfl, rfl, rfl⟩

theorem off_ite {c c' : Collected} (hc : OffC w D texts c c') (w₁ w₂ : World) (x : Nat) (p q : Prop)
    [Decidable p] [Decidable q] :
    OffC w D texts (if p then errorIfAnnotationsDoNotMatchFirstDecl w₁ c x else c)
      (if q then errorIfAnnotationsDoNotMatchFirstDecl w₂ c' x else c') := by
  obtain ⟨h1, h2, h3⟩ := off_errorIf w₁ c x
  obtain ⟨k1, k2, k3⟩ := off_errorIf w₂ c' x
  split <;> split
  · exact ⟨by rw [h1, k1]; exact hc.storage, by rw [h2, k2]; exact hc.contexts, by rw [h3, k3]; exact hc.aliases⟩
  · exact ⟨by rw [h1]; exact hc.storage, by rw [h2]; exact hc.contexts, by rw [h3]; exact hc.aliases⟩
  · exact ⟨by rw [k1]; exact hc.storage, by rw [k2]; exact hc.contexts, by rw [k3]; exact hc.aliases⟩
  · exact hc

mutual
theorem off_traverse (h : OnlyAnnotated w D texts) : ∀ (t : Tree) (c c' : Collected), OffC w D texts c c' →
    OffC w D texts (traverse w.toWorld c t) (traverse (reannotate w texts).toWorld c' t)
  | .node id children, c, c', hc => by
    have h1 := off_traverseAll h children _ _ (off_visit h hc id)
    simp only [traverse]
    have ek : ((reannotate w texts).info id).kind = (w.info id).kind := rfl
    have es : shouldSkip ((reannotate w texts).info id) = shouldSkip (w.info id) := rfl
    rw [ek, es]
    split
    · split
      · exact hc
      · exact off_ite h1 _ _ id _ _
    · exact h1
theorem off_traverseAll (h : OnlyAnnotated w D texts) : ∀ (ts : List Tree) (c c' : Collected),
    OffC w D texts c c' →
    OffC w D texts (traverseAll w.toWorld c ts) (traverseAll (reannotate w texts).toWorld c' ts)
  | [], c, c', hc => by simpa only [traverseAll] using hc
  | t :: ts, c, c', hc => by
    simp only [traverseAll]
    exact off_traverseAll h ts _ _ (off_traverse h t c c' hc)
end

/-! ### Building the graph -/

/-- Builders of both runs. -/
structure OffB (w : EmitWorld) (D : Nat → Bool) (texts : Nat → List Str) (b b' : Building) : Prop where
  storage : Off w D texts b.storage b'.storage
  graph : b'.graph = b.graph
  relocated : b'.relocated = b.relocated

theorem off_encourage (h : OnlyAnnotated w D texts) (x : Nat) (hx : D x = false) (p : Bool)
    {b b' : Building} (hb : OffB w D texts b b') :
    OffB w D texts
      (if p = true then { b with storage := b.storage.updateNamed x fun y => { y with visible := some true } } else b)
      (if p = true then { b' with storage := b'.storage.updateNamed x fun y => { y with visible := some true } } else b') := by
  split
  · exact ⟨off_updateNamed hb.storage x hx (fun y => { y with visible := some true }), hb.graph, hb.relocated⟩
  · exact hb

theorem off_expose (h : OnlyAnnotated w D texts) (a x : Nat) (ha : D a = false) (hx : D x = false)
    {e e' : Building} (h1 : OffB w D texts e e') :
    OffB w D texts
      (if (addEdgeForExposeHereAlias w.toWorld e a x).2 = true then
        { (addEdgeForExposeHereAlias w.toWorld e a x).1 with
          storage := (propagateAnnotations w.toWorld (addEdgeForExposeHereAlias w.toWorld e a x).1.storage a x).1
          diags := (addEdgeForExposeHereAlias w.toWorld e a x).1.diags ++
            (propagateAnnotations w.toWorld (addEdgeForExposeHereAlias w.toWorld e a x).1.storage a x).2 }
      else (addEdgeForExposeHereAlias w.toWorld e a x).1)
      (if (addEdgeForExposeHereAlias (reannotate w texts).toWorld e' a x).2 = true then
        { (addEdgeForExposeHereAlias (reannotate w texts).toWorld e' a x).1 with
          storage := (propagateAnnotations (reannotate w texts).toWorld
            (addEdgeForExposeHereAlias (reannotate w texts).toWorld e' a x).1.storage a x).1
          diags := (addEdgeForExposeHereAlias (reannotate w texts).toWorld e' a x).1.diags ++
            (propagateAnnotations (reannotate w texts).toWorld
              (addEdgeForExposeHereAlias (reannotate w texts).toWorld e' a x).1.storage a x).2 }
      else (addEdgeForExposeHereAlias (reannotate w texts).toWorld e' a x).1) := by
  have er := h1.relocated
  unfold addEdgeForExposeHereAlias
  rw [er]
  cases hr : e.relocated x with
  | some p => exact ⟨h1.storage, h1.graph, rfl⟩
  | none =>
    refine ⟨?_, ?_, ?_⟩
    · show Off w D texts (propagateAnnotations w.toWorld e.storage a x).1
        (propagateAnnotations (reannotate w texts).toWorld e'.storage a x).1
      unfold propagateAnnotations
      dsimp only
      rw [off_named h1.storage a ha]
      exact off_updateNamed h1.storage x hx _
    · show e'.graph.addEdge _ x = e.graph.addEdge _ x
      rw [h1.graph]
      rfl
    · rfl

theorem off_alias (h : OnlyAnnotated w D texts) (ht : ∀ a x, (w.info a).aliasTarget = some x → D x = false)
    (a : Nat) (ha : D a = false) {b b' : Building} (hb : OffB w D texts b b') :
    OffB w D texts (processAlias w.toWorld b a) (processAlias (reannotate w texts).toWorld b' a) := by
  unfold processAlias
  dsimp only
  rw [hb.storage.off a ha]
  generalize ((b.storage.entries a).bind (·.typedefName)).getD {} = attrs
  have et : ((reannotate w texts).info a).aliasTarget = (w.info a).aliasTarget := rfl
  rw [et]
  split
  · exact hb
  cases htg : (w.info a).aliasTarget with
  | none => exact ⟨hb.storage, hb.graph, hb.relocated⟩
  | some x =>
    have hx := ht a x htg
    have h1 : OffB w D texts
        { b with storage := (b.storage.insert w.toDeclEnv x).1
                 diags := b.diags ++ (b.storage.insert w.toDeclEnv x).2 }
        { b' with storage := (b'.storage.insert (reannotate w texts).toDeclEnv x).1
                  diags := b'.diags ++ (b'.storage.insert (reannotate w texts).toDeclEnv x).2 } :=
      ⟨off_insert h hb.storage x, hb.graph, hb.relocated⟩
    have h2 := off_encourage h x hx attrs.encourage h1
    dsimp only
    cases attrs.exposeHere with
    | true => exact off_expose h a x ha hx h2
    | false => exact h2

theorem off_aliases (h : OnlyAnnotated w D texts) (ht : ∀ a x, (w.info a).aliasTarget = some x → D x = false)
    (l : List Nat) (hl : ∀ a ∈ l, D a = false) {b b' : Building} (hb : OffB w D texts b b') :
    OffB w D texts (l.foldl (processAlias w.toWorld) b)
      (l.foldl (processAlias (reannotate w texts).toWorld) b') := by
  induction l generalizing b b' with
  | nil => exact hb
  | cons a l ih =>
    exact ih (fun x hx => hl x (List.mem_cons_of_mem _ hx)) (off_alias h ht a (hl a List.mem_cons_self) hb)

theorem off_start (w : EmitWorld) (D : Nat → Bool) (texts : Nat → List Str) : OffC w D texts {} {} :=
  ⟨⟨fun _ _ => rfl, fun _ _ _ h => (by cases h), fun _ _ _ h => (by cases h)⟩, rfl, rfl⟩

/-- The graph is the same. -/
theorem off_built (h : OnlyAnnotated w D texts) (tree : Tree) (wf : WellFormed w.toWorld tree)
    {g g' : Graph} {b b' : Building} (hb : buildGraph w.toWorld tree = (some g, b))
    (hb' : buildGraph (reannotate w texts).toWorld tree = (some g', b')) :
    g' = g ∧ OffB w D texts b b' := by
  have hc := off_traverse h tree {} {} (off_start w D texts)
  have ht : ∀ a x, (w.info a).aliasTarget = some x → D x = false := by
    intro a x hx
    cases hD : D x with
    | false => rfl
    | true =>
      have hm := h.member x hD
      rcases wf.target_tag a x hx with e | e
      · exact absurd e hm.2.1
      · exact absurd e hm.2.2.1
  have hal : ∀ a ∈ (traverse w.toWorld {} tree).aliases, D a = false := by
    intro a ha
    have hb := built _ _ wf g b hb
    rw [hb.coll.aliases] at ha
    have hk := (List.mem_filter.1 ha).2
    cases hD : D a with
    | false => rfl
    | true =>
      have hm := h.member a hD
      simp only [isAlias] at hk
      have hk : (w.info a).kind = .typedefName := by
        revert hk
        cases (w.info a).kind <;> simp
      exact absurd hk hm.2.2.2.1
  unfold buildGraph at hb hb'
  dsimp only at hb hb'
  rw [hc.aliases, hc.contexts] at hb'
  split at hb
  · cases hb
  split at hb'
  · cases hb'
  have hal := off_aliases (b := { graph := .start w.unit, storage := (traverse w.toWorld {} tree).storage, diags := (traverse w.toWorld {} tree).diags })
    (b' := { graph := .start w.unit, storage := (traverse (reannotate w texts).toWorld {} tree).storage, diags := (traverse (reannotate w texts).toWorld {} tree).diags })
    h ht _ hal ⟨hc.storage, rfl, rfl⟩
  split at hb
  · cases hb
  split at hb'
  · cases hb'
  cases hb
  cases hb'
  refine ⟨?_, hal⟩
  rw [show (reannotate w texts).unit = w.unit from rfl, hal.relocated, hal.graph]
  rfl
end

end Verif
