import Verif.Spec.Additions
import Verif.Lemmas.Additions
import Verif.Lemmas.AdditionsEmit
import Verif.Props.Reproducible
/-!
Further declarations that are not annotated: whole runs.
-/
namespace Verif
open Spec

/-- The input of the other run. -/
abbrev ToolInput.grown (i : ToolInput) (t : Tree) (f : Nat → List Found) (a : Nat → List Nat)
    (u : List Nat) (pick : Pick) (iterate : Graph → List Nat) : ToolInput :=
  { i with
    tree := t
    world := { i.world with found := f, associated := a, unitVars := u }
    pick := pick
    iterate := iterate }

theorem extends_imp {α : Type} {p q : α → Prop} (hpq : ∀ a, p a → q a) {l l' : List α}
    (h : Extends p l l') : Extends q l l' := by
  induction h with
  | nil => exact .nil
  | keep _ ih => exact .keep ih
  | add ha _ ih => exact .add (hpq _ ha) ih

theorem exposesHere_grown {w : World} {t t' : Tree} (h : Grown w t t') (a x : Nat) :
    ExposesHere w t' a x ↔ ExposesHere w t a x := by
  obtain ⟨h1, h2⟩ := visited_grown w t' t h
  unfold ExposesHere
  refine ⟨fun hh => ⟨?_, hh.2⟩, fun hh => ⟨occurs_grown h a hh.1, hh.2⟩⟩
  exact (mem_visited ..).1 (h2 a ((mem_visited ..).2 hh.1) ((annot_iff ..).2 hh.2.1))

theorem unannotated_annot (w : World) (x : Nat) (h : Unannotated w x) : annot w x = false := by
  unfold annot
  dsimp only
  rw [unannotated_has w x h true]
  simp

/-- What is stored for declarations without annotations that are no contexts. -/
theorem quiet_entries {w : World} {t : Tree} {g : Graph} {b : Building} (wf : WellFormed w t)
    (hb : Built w t g b) (x : Nat) (h : Quiet w x) : b.storage.entries x = none := by
  rw [hb.inv.entries, hb.coll.entries]
  have : touched w x ((visited w t).filter (isAlias w)) = false := by
    rw [Bool.eq_false_iff]
    intro ht
    have hk : ∀ a, (w.info a).aliasTarget = some x → False := by
      intro a ha
      have := h.2
      rcases wf.target_tag a x ha with e | e <;> rw [e] at this <;> cases this
    rcases (touched_iff ..).1 ht with ⟨a, ha⟩ | ⟨a, ha⟩
    · exact hk a ha.2.2.2.1
    · exact hk a ha.2.2.2.1
  rw [this]
  unfold entryOf
  rw [unannotated_annot w x h.1]
  simp

theorem alike_built {w : World} {t : Tree} {g : Graph} {b : Building} (wf : WellFormed w t)
    (hb : Built w t g b) : Alike w b.storage b.storage :=
  ⟨fun _ => .inl rfl, fun d hd a ha => by rw [quiet_entries wf hb d hd] at ha; cases ha⟩

/-- Types have no attributes of variables. -/
theorem unannotated_vars {w : World} {t : Tree} {g : Graph} {b : Building}
    (hb : Built w t g b) (x : Nat) (h : Unannotated w x) :
    ((b.storage.entries x).bind (·.fieldOrVar)).getD {} = {} := by
  have hbase : (base w x).fieldOrVar.getD {} = {} := by
    show (firstInsert w.toDeclEnv x).1.fieldOrVar.getD {} = {}
    rw [unannotated_insert w x h]
    unfold freshAttrs
    dsimp only
    split <;> rfl
  rw [hb.inv.entries, hb.coll.entries]
  split
  · exact hbase
  · split
    · unfold entryOf
      rw [unannotated_annot w x h]
      rfl
    · rfl

section
variable {i : ToolInput} {t : Tree} {f : Nat → List Found} {ad : Nat → List Nat} {u : List Nat}
  {pick : Pick} {iterate : Graph → List Nat}

theorem wider_built (ok : InputOK i) (ok' : WellFormed i.world.toWorld t)
    (h : OnlyIrrelevantAdded i (i.grown t f ad u pick iterate)) {g g' : Graph} {b : Building}
    (hb : buildGraph i.world.toWorld i.tree = (some g, b))
    (hb' : buildGraph i.world.toWorld t = (some g', b)) :
    Wider i.world.toWorld b.storage g g' (AddedContext i.world.toWorld i.tree t)
      i.world.toWorld.findLookupContextDecl := by
  have hg := built _ _ ok.unit g b hb
  have hg' := built _ _ ok' g' b hb'
  have hgrown : Grown i.world.toWorld i.tree t := h.tree
  have hscope : ∀ x, x ≠ i.world.unit → ScopeOf i.world.toWorld x (i.world.toWorld.findLookupContextDecl x) :=
    fun x hx => (scopeOf_find _ _ ok.unit x _ hx).2 rfl
  have hunit : ∀ x, AddedContext i.world.toWorld i.tree t x → x ≠ i.world.unit :=
    fun x hx => context_not_unit _ _ ok.unit x hx.1
  refine ⟨C23_graphs _ _ ok.unit g b hb, C23_graphs _ _ ok' g' b hb', by rw [hg.root, hg'.root],
    ?_, ?_, ?_, ?_, ?_⟩
  · intro p x
    rw [built_edge_iff hg, built_edge_iff hg']
    simp only [exposesHere_grown hgrown]
    constructor
    · rintro (e | ⟨e1, e2, e3, e4⟩)
      · exact .inl (.inl e)
      · by_cases hx : ∃ s, Occurs i.world.toWorld i.tree s ∧ s.id = x
        · exact .inl (.inr ⟨e1, hx, e3, e4⟩)
        · exact .inr ⟨⟨e3, e2, hx⟩, e4⟩
    · rintro ((e | ⟨e1, e2, e3, e4⟩) | ⟨e, e4⟩)
      · exact .inl e
      · exact .inr ⟨e1, occurs_grown hgrown x e2, e3, e4⟩
      · exact .inr ⟨fun ⟨a, ha⟩ => (h.targets a x e).1 ha, e.2.1, e.1, e4⟩
  · intro p x he
    rcases (built_edge_iff hg p x).1 he with ⟨a, ha, rfl⟩ | ⟨_, ⟨s, hs, rfl⟩, hc, rfl⟩
    · refine ⟨fun hx => (h.targets a x hx).1 ha, ?_⟩
      obtain ⟨s, hs, rfl⟩ := ha.1
      refine h.outside s _ hs (hscope _ ?_)
      intro e
      have h1 := (ok.unit.unit_kind s.id).2 e
      have h2 := ha.2.2.1
      rw [h1] at h2
      cases h2
    · exact ⟨fun hx => hx.2.2 ⟨s, hs, rfl⟩, h.outside s _ hs (hscope _ (context_not_unit _ _ ok.unit _ hc))⟩
  · intro hx
    exact hunit _ hx hg.root
  · intro x hx
    rw [hg.inv.entries, hg.coll.entries, if_neg, if_neg]
    · rw [mem_visited]; exact hx.2.2
    · rw [touched_iff]
      rintro (⟨a, ha⟩ | ⟨a, ha⟩)
      · exact (h.targets a x hx).1 ha
      · exact (h.targets a x hx).2 ha
  · intro x hx
    exact h.hidden g b hb x _ hx (hscope x (hunit x hx))

theorem found_members (h : OnlyIrrelevantAdded i (i.grown t f ad u pick iterate))
    (ok : InputOK i) {g : Graph} {b : Building}
    (hb : buildGraph i.world.toWorld i.tree = (some g, b)) (x : Nat)
    (hx : ¬ AddedContext i.world.toWorld i.tree t x) :
    HasVisibleMember b.storage (i.grown t f ad u pick iterate).members
        (EffVisible i.world.toWorld b.storage g) x ↔
      HasVisibleMember b.storage i.members (EffVisible i.world.toWorld b.storage g) x := by
  have hbt := built _ _ ok.unit g b hb
  have he : Extends (fun d => Quiet i.world.toWorld d ∧ ¬ EffVisible i.world.toWorld b.storage g x)
      (i.members.decls x) ((i.grown t f ad u pick iterate).members.decls x) := by
    refine extends_filterMap _ ?_ (h.found x hx)
    intro fd d hp hf
    obtain ⟨rfl, hk⟩ := found_offered i.world none fd d hf
    rcases hp with hp | hp
    · rw [notOffered_found i.world none fd hp] at hf; cases hf
    · exact ⟨⟨hp.1.1, hk⟩, hp.2 g b hb⟩
  unfold HasVisibleMember
  show (∃ d ∈ (i.grown t f ad u pick iterate).members.decls x, i.isImplicit d = false ∧ _) ↔
    ∃ d ∈ i.members.decls x, i.isImplicit d = false ∧ _
  revert he
  generalize (i.grown t f ad u pick iterate).members.decls x = l'
  generalize i.members.decls x = l
  intro he
  constructor
  · rintro ⟨d, hd, h1, h2⟩
    have : d ∈ l ∨ (Quiet i.world.toWorld d ∧ ¬ EffVisible i.world.toWorld b.storage g x) := by
      clear h1 h2
      induction he with
      | nil => exact .inl hd
      | keep _ ih =>
        rcases List.mem_cons.1 hd with rfl | hd
        · exact .inl (List.mem_cons_self ..)
        · exact (ih hd).imp (List.mem_cons_of_mem _) id
      | add ha _ ih =>
        rcases List.mem_cons.1 hd with rfl | hd
        · exact .inr ha
        · exact ih hd
    rcases this with hd | ⟨hq, hv⟩
    · exact ⟨d, hd, h1, h2⟩
    · rcases h2 with h2 | h2
      · unfold explicit at h2
        rw [quiet_entries ok.unit hbt d hq] at h2
        cases h2
      · exact absurd h2.2 hv
  · rintro ⟨d, hd, h1, h2⟩
    exact ⟨d, (extends_mem he d).1 hd, h1, h2⟩

theorem added_members (h : OnlyIrrelevantAdded i (i.grown t f ad u pick iterate))
    (ok : InputOK i) {g : Graph} {b : Building}
    (hb : buildGraph i.world.toWorld i.tree = (some g, b)) (x : Nat)
    (hx : AddedContext i.world.toWorld i.tree t x)
    (hv : ¬ EffVisible i.world.toWorld b.storage g x) :
    ¬ HasVisibleMember b.storage (i.grown t f ad u pick iterate).members
        (EffVisible i.world.toWorld b.storage g) x := by
  rintro ⟨d, hd, _, h2⟩
  have hbt := built _ _ ok.unit g b hb
  obtain ⟨fd, hfm, hf⟩ := List.mem_filterMap.1 hd
  obtain ⟨rfl, hk⟩ := found_offered i.world none fd d hf
  rcases h.inside x fd hx hfm with hp | hp
  · have := notOffered_found i.world none fd hp
    exact absurd (this.symm.trans hf) (by simp)
  · rcases h2 with h2 | h2
    · unfold explicit at h2
      rw [quiet_entries ok.unit hbt _ ⟨hp.1, hk⟩] at h2
      cases h2
    · exact hv h2.2

theorem sorted_congr (w : World) (bases : Bases) (pick : Pick) (nodes : List Nat) {g g' : Graph}
    (parents : EnclosingScopes) (hn : ∀ x, g'.hasNode x = g.hasNode x)
    (hl : g'.nodes.length = g.nodes.length) :
    declContextsSortedByDependencies w bases pick nodes g' parents =
      declContextsSortedByDependencies w bases pick nodes g parents := by
  unfold declContextsSortedByDependencies
  have : findPredecessors w bases g' parents = findPredecessors w bases g parents := by
    funext x
    unfold findPredecessors
    simp only [hn]
  rw [this, hl]

theorem handled_grown (ok : InputOK i) (ok' : InputOK (i.grown t f ad u pick iterate))
    (hd : DistinctPlaces i) (h : OnlyIrrelevantAdded i (i.grown t f ad u pick iterate)) (name : Str)
    (outputs : List Str) :
    handleTranslationUnit (i.grown t f ad u pick iterate) name outputs =
      handleTranslationUnit i name outputs := by
  have hbg := built_grown i.world.toWorld i.tree t h.tree
  unfold handleTranslationUnit
  dsimp only
  rcases hb : buildGraph i.world.toWorld i.tree with ⟨_ | g, b⟩
  · rcases hb' : buildGraph i.world.toWorld t with ⟨_ | g', b'⟩
    · rw [hb, hb'] at hbg
      obtain ⟨rfl, _⟩ := hbg
      rfl
    · rw [hb, hb'] at hbg
      cases hbg.2
  rcases hb' : buildGraph i.world.toWorld t with ⟨_ | g', b'⟩
  · rw [hb, hb'] at hbg
    cases hbg.2
  rw [hb, hb'] at hbg
  obtain ⟨hbb, _⟩ := hbg
  dsimp only at hbb
  subst hbb
  dsimp only
  have hbt := built _ _ ok.unit g b' hb
  have hbt' := built _ _ ok'.unit g' b' hb'
  have hcg := C23_graphs _ _ ok.unit g b' hb
  have hcg' := C23_graphs _ _ ok'.unit g' b' hb'
  have hw := wider_built ok ok'.unit h hb hb'
  have hsub : ∀ x, x ∈ g.nodes → x ∈ g'.nodes := by
    intro x hx
    rw [built_nodes hbt] at hx
    rw [built_nodes hbt']
    exact hx.imp id fun ⟨p, y, he, hy⟩ => ⟨p, y, (hw.edge p y).2 (.inl he), hy⟩
  have hrel : ∀ x a, b'.relocated x = some a → x ∈ g.nodes ∧ ¬ AddedContext i.world.toWorld i.tree t x := by
    intro x a hx
    have ha := (relocated_iff hbt a x).1 hx
    exact ⟨(built_nodes hbt x).2 (.inr ⟨_, x, (built_edge_iff hbt _ x).2 (.inl ⟨a, ha, rfl⟩), .inl rfl⟩),
      fun hA => (h.targets a x hA).1 ha⟩
  have placed : ∀ x a, b'.relocated x = some a → Placed i.world.toWorld i.tree x := fun x a hx =>
    .inl ⟨a, (relocated_iff hbt a x).1 hx⟩
  -- a list of the larger graph that only depends on the smaller one
  have hperm : ∀ (F F' : Nat → Option Nat), (∀ x ∈ g.nodes, F' x = F x) →
      (∀ x, x ∉ g.nodes → F' x = none) →
      ((iterate g').filterMap F').Perm ((i.iterate g).filterMap F) := by
    intro F F' h1 h2
    have p1 : (iterate g').Perm g'.nodes := ok'.iterate g'
    refine (p1.filterMap _).trans (.trans ?_ ((ok.iterate g).filterMap _).symm)
    have e1 : g'.nodes.filterMap F' = (g'.nodes.filter (· ∈ g.nodes)).filterMap F := by
      generalize g'.nodes = l
      induction l with
      | nil => rfl
      | cons x l ih =>
        rw [List.filterMap_cons, List.filter_cons]
        by_cases hx : x ∈ g.nodes
        · rw [h1 x hx, if_pos (by simpa using hx), List.filterMap_cons, ih]
        · rw [h2 x hx, if_neg (by simpa using hx), ih]
    rw [e1]
    refine List.Perm.filterMap _ ?_
    refine (List.perm_ext_iff_of_nodup (hbt'.nodup.filter _) hbt.nodup).2 fun x => ?_
    rw [List.mem_filter]
    exact ⟨fun hx => by simpa using hx.2, fun hx => ⟨hsub x hx, by simpa using hx⟩⟩
  -- cycles
  have e1 : reportExposeHereCycles i.world.toWorld (iterate g')
        (reachableDeclContexts (deriveEffectiveVisibility i.world.toWorld b'.storage g')) b'.relocated =
      reportExposeHereCycles i.world.toWorld (i.iterate g)
        (reachableDeclContexts (deriveEffectiveVisibility i.world.toWorld b'.storage g)) b'.relocated := by
    unfold reportExposeHereCycles cycleAliases
    rw [sortDecls_determined _ _ _ (hperm _ _ ?_ ?_)]
    · intro x hx y hy e
      rw [List.mem_filterMap] at hx hy
      obtain ⟨x', _, hx⟩ := hx
      obtain ⟨y', _, hy⟩ := hy
      split at hx
      · cases hx
      split at hy
      · cases hy
      exact hd.aliases x' y' x y (placed _ _ hx) (placed _ _ hy) (.inl ((relocated_iff hbt _ _).1 hx))
        (.inl ((relocated_iff hbt _ _).1 hy)) e
    · intro x _
      cases hr : b'.relocated x with
      | none => simp
      | some a =>
        have : reachableDeclContexts (deriveEffectiveVisibility i.world.toWorld b'.storage g') x =
            reachableDeclContexts (deriveEffectiveVisibility i.world.toWorld b'.storage g) x := by
          unfold reachableDeclContexts
          rw [Bool.eq_iff_iff, derive_reachable _ _ _ hcg'.toForest, derive_reachable _ _ _ hcg.toForest]
          exact wider_reach hw (hrel x a hr).2
        rw [this]
    · intro x hx
      cases hr : b'.relocated x with
      | none => simp
      | some a => exact absurd (hrel x a hr).1 hx
  rw [e1]
  split
  · rfl
  -- the analyses
  have hm := fun x hx => found_members h ok hb x hx
  have hm' := fun x hx => added_members h ok hb x hx fun hv => visible_old hw hv hx
  have ec := wider_contexts hw name hm hm'
  have ek := wider_kept hw name hm hm'
  have hnode : ∀ x, (analyze i.world.toWorld b'.storage (i.grown t f ad u pick iterate).members name g').pruned.hasNode x =
      (analyze i.world.toWorld b'.storage i.members name g).pruned.hasNode x := by
    intro x
    rw [Bool.eq_iff_iff]
    simpa [Graph.hasNode] using ek x
  rw [ec]
  have hx := exposedGraph hcg b'.storage i.members name
  have hx' := exposedGraph hcg' b'.storage (i.grown t f ad u pick iterate).members name
  -- warnings
  have key : ∀ x, x ∈ ((i.iterate g).filter (analyze i.world.toWorld b'.storage i.members name g).contexts).filterMap
        (fun id => if (!(i.world.info id).kind.isNamed ||
          (analyze i.world.toWorld b'.storage i.members name g).pruned.hasNode id) = true then none
          else some ((b'.relocated id).getD id)) →
        ∃ y, Placed i.world.toWorld i.tree y ∧ StandsFor i.world.toWorld i.tree x y := by
    intro x hx
    rw [List.mem_filterMap] at hx
    obtain ⟨y, hy, e⟩ := hx
    rw [List.mem_filter] at hy
    split at e
    · cases e
    rename_i hnm
    have hr := ((contexts_analysis hcg y).1 hy.2).1
    rcases edge_placed i ok g b' hb y hr with rfl | hpl
    · exact absurd (by rw [unit_not_named i ok]; rfl) hnm
    · refine ⟨y, hpl, ?_⟩
      cases hrel : b'.relocated y with
      | some a =>
        rw [hrel] at e
        cases e
        exact .inl ((relocated_iff hbt _ _).1 hrel)
      | none =>
        rw [hrel] at e
        cases e
        refine .inr ⟨fun ⟨a, ha⟩ => ?_, rfl⟩
        rw [(relocated_iff hbt _ _).2 ha] at hrel
        cases hrel
  have e3 : reportUnreachable i.world.toWorld
        (analyze i.world.toWorld b'.storage (i.grown t f ad u pick iterate).members name g').pruned
        ((iterate g').filter (analyze i.world.toWorld b'.storage i.members name g).contexts) b'.relocated =
      reportUnreachable i.world.toWorld (analyze i.world.toWorld b'.storage i.members name g).pruned
        ((i.iterate g).filter (analyze i.world.toWorld b'.storage i.members name g).contexts) b'.relocated := by
    unfold reportUnreachable
    dsimp only
    simp only [hnode]
    have hp : (((iterate g').filter
        (analyze i.world.toWorld b'.storage i.members name g).contexts).filterMap
        (fun id => if (!(i.world.info id).kind.isNamed ||
          (analyze i.world.toWorld b'.storage i.members name g).pruned.hasNode id) = true then none
          else some ((b'.relocated id).getD id))).Perm
        (((i.iterate g).filter
        (analyze i.world.toWorld b'.storage i.members name g).contexts).filterMap
        (fun id => if (!(i.world.info id).kind.isNamed ||
          (analyze i.world.toWorld b'.storage i.members name g).pruned.hasNode id) = true then none
          else some ((b'.relocated id).getD id))) := by
      rw [List.filterMap_filter, List.filterMap_filter]
      refine hperm _ _ (fun x _ => rfl) ?_
      intro x hx
      rw [if_neg]
      intro hc
      exact hx (reachable_node hcg.toGraphOK x ((contexts_analysis hcg x).1 hc).1)
    rw [sortDecls_determined _ _ _ hp]
    intro x hx y hy e
    rw [hp.mem_iff] at hx hy
    obtain ⟨x', px, sx⟩ := key x hx
    obtain ⟨y', py, sy⟩ := key y hy
    exact hd.aliases x' y' x y px py sx sy e
  rw [e3]
  -- the module
  have hroot : (analyze i.world.toWorld b'.storage (i.grown t f ad u pick iterate).members name g').pruned.root =
      (analyze i.world.toWorld b'.storage i.members name g).pruned.root := by
    have p1 : (analyze i.world.toWorld b'.storage (i.grown t f ad u pick iterate).members name g').pruned.root =
      g'.root := (prune_spec hcg'.toForest _ _).1
    have p2 : (analyze i.world.toWorld b'.storage i.members name g).pruned.root = g.root :=
      (prune_spec hcg.toForest _ _).1
    rw [p1, p2, hw.root]
  have hsc := scopes_congr (s := b'.storage) hx hx' hroot ek (wider_pruned_edge hw name hm hm')
  have hnp := wider_nodes hw name hm hm'
  have hin := emitInput i ok g b' hb name
  have hplaced : ∀ x ∈ (analyze i.world.toWorld b'.storage i.members name g).pruned.nodes,
      x = i.world.unit ∨ Placed i.world.toWorld i.tree x := by
    intro x hx
    obtain ⟨_, hroot, hedge, hreach⟩ := C26_places i.world.toWorld b'.storage i.members name g hcg
    cases (hreach x).1 hx with
    | root => exact .inl (hroot.trans hbt.root)
    | step _ _ he => exact .inr (C21_nothing_else _ _ ok.unit g b' hb _ x ((hedge _ x).1 he).1).2
  have hloc : ∀ x ∈ (analyze i.world.toWorld b'.storage i.members name g).pruned.nodes,
      ∀ y ∈ (analyze i.world.toWorld b'.storage i.members name g).pruned.nodes,
      i.world.loc x = i.world.loc y → x = y := fun x hx y hy e => by
    rcases hplaced x hx with rfl | px <;> rcases hplaced y hy with rfl | py
    · rfl
    · exact absurd e.symm (hd.unit y py)
    · exact absurd e (hd.unit x px)
    · exact hd.contexts x y px py e
  have hsort := (sorted_congr i.world.toWorld i.world.bases pick
      (iterate (analyze i.world.toWorld b'.storage (i.grown t f ad u pick iterate).members name g').pruned)
      (findEnclosingScopes i.world.toWorld b'.storage (analyze i.world.toWorld b'.storage i.members name g).pruned)
      hnode hnp.length_eq).trans
    (C31_determined_partial i.world.toWorld b'.storage _ hx _ hin.bases pick i.pick ok'.picks hin.picks
      hloc _ _ ((ok'.iterate _).trans hnp) hin.perm)
  have hvis : ∀ x ∈ (analyze i.world.toWorld b'.storage i.members name g).pruned.nodes,
      ((analyze i.world.toWorld b'.storage (i.grown t f ad u pick iterate).members name g').vis x).getD false =
      ((analyze i.world.toWorld b'.storage i.members name g).vis x).getD false :=
    fun x hx => wider_vis hw name x (kept_old hw name x hx)
  have hfa : ∀ x ∈ (analyze i.world.toWorld b'.storage i.members name g).pruned.nodes,
      FoundAlike i.world f ad (((analyze i.world.toWorld b'.storage i.members name g).vis x).getD false) x := by
    intro x hx
    have hA := kept_old hw name x hx
    refine ⟨extends_imp ?_ (h.found x hA), h.associated x hA⟩
    rintro fd (hp | ⟨hp, hv⟩)
    · exact .inl hp
    · refine .inr ⟨hp, ?_⟩
      have hv := hv g b' hb
      obtain ⟨b1, b2⟩ := hide_spec (w := i.world.toWorld) (s := b'.storage) (mod := name) hcg.toForest
        (declContextsWithVisibleNamedDecls i.world.toWorld b'.storage i.members
          (deriveEffectiveVisibility i.world.toWorld b'.storage g) g)
        (deriveEffectiveVisibility i.world.toWorld b'.storage g) x
      show ((hideNamespaces i.world.toWorld b'.storage name g _ _).2 x).getD false = false
      by_cases hc : Reachable g x ∧ InOther i.world.toWorld b'.storage name g x
      · rw [(b1 hc).2]; rfl
      · rw [(b2 hc).2, Bool.eq_false_iff]
        intro ht
        exact hv ((derive_getD hcg x).1 ht)
  have e4 := fun n => emitModule_alike i.world f ad u ok.emit.specialization b'.storage
    (alike_built ok.unit hbt)
    (analyze i.world.toWorld b'.storage i.members name g).vis
    (analyze i.world.toWorld b'.storage (i.grown t f ad u pick iterate).members name g').vis i.pick pick
    (i.iterate (analyze i.world.toWorld b'.storage i.members name g).pruned)
    (iterate (analyze i.world.toWorld b'.storage (i.grown t f ad u pick iterate).members name g').pruned)
    n name hnode hvis hfa h.variables (fun d hd => unannotated_vars hbt d hd) hsc hsort
    (fun order ho => by
      obtain ⟨st, hs, ⟨hc, hpm, he⟩ | ⟨hc, c, _, _, he⟩⟩ :=
        sort_cases (s := b'.storage) hx hin.bases i.pick hin.picks _ hin.perm
      · rw [he] at ho
        cases ho
        exact ⟨hpm, hpm.nodup_iff.2 hx.nodup⟩
      · rw [he] at ho
        cases ho)
  have ht : ∀ n k, (emitModule (i.world.more f ad u) b'.storage
        (analyze i.world.toWorld b'.storage (i.grown t f ad u pick iterate).members name g').pruned
        (analyze i.world.toWorld b'.storage (i.grown t f ad u pick iterate).members name g').vis pick
        (iterate (analyze i.world.toWorld b'.storage (i.grown t f ad u pick iterate).members name g').pruned)
        n name).text (i.world.more f ad u) k =
      (emitModule i.world b'.storage (analyze i.world.toWorld b'.storage i.members name g).pruned
        (analyze i.world.toWorld b'.storage i.members name g).vis i.pick
        (i.iterate (analyze i.world.toWorld b'.storage i.members name g).pruned) n name).text i.world k := by
    intro n k
    unfold ModuleOutput.text ModuleOutput.stream
    rw [(e4 n).2, line_more i.world f ad u]
  have ht1 := fun n => (e4 n).1
  dsimp only [EmitWorld.more] at ht ht1
  simp only [ht, ht1]

end

end Verif
