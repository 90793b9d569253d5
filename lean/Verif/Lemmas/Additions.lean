import Verif.Spec.Additions
import Verif.Lemmas.Pruning
import Verif.Lemmas.Sorting
/-!
# Lemmas about additions to the translation unit
-/
namespace Verif
open Spec

/-! ### Collecting annotations -/

/-- The collected annotations are the same (not necessarily the contexts). -/
structure CSame (c c' : Collected) : Prop where
  storage : c'.storage = c.storage
  first : c'.firstDecls = c.firstDecls
  aliases : c'.aliases = c.aliases
  diags : c'.diags = c.diags

theorem CSame.refl (c : Collected) : CSame c c := ⟨rfl, rfl, rfl, rfl⟩

theorem CSame.trans {a b c : Collected} (h : CSame a b) (h' : CSame b c) : CSame a c :=
  ⟨h'.storage.trans h.storage, h'.first.trans h.first, h'.aliases.trans h.aliases, h'.diags.trans h.diags⟩

theorem visitDecl_cong (w : World) {c c' : Collected} (h : CSame c c') (id : Nat) :
    CSame (visitDecl w c id) (visitDecl w c' id) := by
  obtain ⟨s, f, l, a, d⟩ := c
  obtain ⟨s', f', l', a', d'⟩ := c'
  obtain ⟨h1, h2, h3, h4⟩ := h
  simp only at h1 h2 h3 h4
  subst h1 h2 h3 h4
  unfold visitDecl visitNamedDecl visitTypedefNameDecl visitContext
  dsimp only
  cases (w.info id).kind <;> simp only [DeclKind.isNamed, DeclKind.isTag, if_true, if_false,
    reduceCtorEq, Bool.false_eq_true, Bool.or_false, Bool.or_true, decide_true, decide_false, Bool.true_and,
    Bool.false_and, Bool.false_or, Bool.or_self] <;> (repeat' split) <;> exact ⟨rfl, rfl, rfl, rfl⟩

theorem errorIf_cong (w : World) {c c' : Collected} (h : CSame c c') (id : Nat) :
    CSame (errorIfAnnotationsDoNotMatchFirstDecl w c id)
      (errorIfAnnotationsDoNotMatchFirstDecl w c' id) := by
  unfold errorIfAnnotationsDoNotMatchFirstDecl
  rw [h.first, h.storage, h.diags]
  cases c.firstDecls (w.canonical id) with
  | none => exact ⟨rfl, rfl, h.aliases, rfl⟩
  | some f =>
    dsimp only
    split
    · exact h
    · exact ⟨rfl, rfl, h.aliases, rfl⟩

/-- Nothing is collected from a declaration without annotations. -/
theorem visitDecl_silent (w : World) (c : Collected) (id : Nat) (h : annot w id = false) :
    CSame c (visitDecl w c id) := by
  unfold annot at h
  unfold visitDecl visitNamedDecl visitTypedefNameDecl visitContext
  dsimp only at h ⊢
  cases hk : (w.info id).kind <;> simp only [hk, DeclKind.isNamed, DeclKind.isTag, if_true, if_false,
    reduceCtorEq, Bool.false_eq_true, Bool.or_false, Bool.or_true, decide_true, decide_false, Bool.true_and,
    Bool.false_and, Bool.false_or, Bool.or_self] at h ⊢ <;> (repeat' split) <;>
    first
    | exact ⟨rfl, rfl, rfl, rfl⟩
    | (exfalso; revert h; simp_all)

mutual
theorem traverse_silent (w : World) : ∀ (t : Tree) (c : Collected),
    (∀ x ∈ visited w t, annot w x = false) → CSame c (traverse w c t)
  | .node id children, c, h => by
    simp only [traverse, visited] at h ⊢
    by_cases hsk : (w.info id).kind = .namespace ∧ shouldSkip (w.info id) = true
    · rw [if_pos hsk.1, if_pos hsk.2]; exact .refl c
    · have hs : skipNs w id = false := by
        simp only [skipNs]; simpa [not_and] using hsk
      rw [hs] at h
      simp only [Bool.false_eq_true, if_false] at h
      have h1 := visitDecl_silent w c id (h id (by simp))
      have h2 := h1.trans (traverseAll_silent w children (visitDecl w c id)
        fun x hx => h x (by simp [hx]))
      split
      · rename_i hk
        rw [if_neg fun e => hsk ⟨hk, e⟩]
        rw [if_neg (by rw [h2.storage]; simp)]
        exact h2
      · exact h2
theorem traverseAll_silent (w : World) : ∀ (ts : List Tree) (c : Collected),
    (∀ x ∈ visitedAll w ts, annot w x = false) → CSame c (traverseAll w c ts)
  | [], c, _ => .refl c
  | t :: ts, c, h => by
    simp only [traverseAll, visitedAll] at h ⊢
    exact (traverse_silent w t c fun x hx => h x (by simp [hx])).trans
      (traverseAll_silent w ts _ fun x hx => h x (by simp [hx]))
end

theorem irrelevant_silent (w : World) (t : Tree) (h : ¬ Relevant w t) :
    ∀ x ∈ visited w t, annot w x = false := by
  rw [relevant_iff] at h
  simpa using h

mutual
theorem traverse_grown (w : World) : ∀ (t' t : Tree) (c c' : Collected), Grown w t t' → CSame c c' →
    CSame (traverse w c t) (traverse w c' t')
  | .node id children', t, c, c', hg, hc => by
    cases hg with
    | @node _ children _ h =>
    simp only [traverse]
    have h1 := traverseAll_grown w children' children _ _ h (visitDecl_cong w hc id)
    split
    · split
      · exact hc
      · rw [h1.storage, hc.storage]
        split
        · exact errorIf_cong w h1 id
        · exact h1
    · exact h1
theorem traverseAll_grown (w : World) : ∀ (ts' ts : List Tree) (c c' : Collected), GrownAll w ts ts' →
    CSame c c' → CSame (traverseAll w c ts) (traverseAll w c' ts')
  | [], ts, c, c', hg, hc => by
    cases hg with
    | nil => exact hc
  | t' :: ts', ts, c, c', hg, hc => by
    cases hg with
    | keep h1 h2 =>
      simp only [traverseAll]
      exact traverseAll_grown w ts' _ _ _ h2 (traverse_grown w t' _ _ _ h1 hc)
    | add h1 h2 =>
      simp only [traverseAll]
      exact traverseAll_grown w ts' _ _ _ h2
        (hc.trans (traverse_silent w t' c' (irrelevant_silent w t' h1)))
end

mutual
/-- What is visited in the smaller tree is visited in the other one, which has no further annotated
declarations. -/
theorem visited_grown (w : World) : ∀ (t' t : Tree), Grown w t t' →
    (visited w t).Sublist (visited w t') ∧
    ∀ x ∈ visited w t', annot w x = true → x ∈ visited w t
  | .node id children', t, hg => by
    cases hg with
    | @node _ children _ h =>
    simp only [visited]
    obtain ⟨h1, h2⟩ := visitedAll_grown w children' children h
    split
    · exact ⟨List.Sublist.refl _, fun x hx _ => hx⟩
    · refine ⟨h1.cons_cons _, fun x hx ha => ?_⟩
      rcases List.mem_cons.1 hx with rfl | hx
      · exact List.mem_cons_self ..
      · exact List.mem_cons_of_mem _ (h2 x hx ha)
theorem visitedAll_grown (w : World) : ∀ (ts' ts : List Tree), GrownAll w ts ts' →
    (visitedAll w ts).Sublist (visitedAll w ts') ∧
    ∀ x ∈ visitedAll w ts', annot w x = true → x ∈ visitedAll w ts
  | [], ts, hg => by
    cases hg with
    | nil => exact ⟨List.Sublist.refl _, fun x hx _ => hx⟩
  | t' :: ts', ts, hg => by
    cases hg with
    | keep h1 h2 =>
      obtain ⟨a1, a2⟩ := visited_grown w t' _ h1
      obtain ⟨b1, b2⟩ := visitedAll_grown w ts' _ h2
      simp only [visitedAll, List.mem_append]
      exact ⟨a1.append b1, fun x hx ha => hx.imp (fun h => a2 x h ha) fun h => b2 x h ha⟩
    | add h1 h2 =>
      obtain ⟨b1, b2⟩ := visitedAll_grown w ts' _ h2
      simp only [visitedAll, List.mem_append]
      refine ⟨b1.trans (List.sublist_append_right ..), fun x hx ha => ?_⟩
      rcases hx with hx | hx
      · rw [irrelevant_silent w t' h1 x hx] at ha; cases ha
      · exact b2 x hx ha
end

theorem occurs_grown {w : World} {t t' : Tree} (h : Grown w t t') (x : Nat)
    (hx : ∃ s, Occurs w t s ∧ s.id = x) : ∃ s, Occurs w t' s ∧ s.id = x :=
  (mem_visited ..).1 ((visited_grown w t' t h).1.subset ((mem_visited ..).2 hx))

/-! ### Building the graph -/

/-- The same annotations, aliases and diagnostics lead to the same state. -/
theorem built_grown (w : World) (t t' : Tree) (h : Grown w t t') :
    (buildGraph w t').2 = (buildGraph w t).2 ∧
    ((buildGraph w t').1.isSome = (buildGraph w t).1.isSome) := by
  have hc := traverse_grown w t' t {} {} h (.refl _)
  unfold buildGraph
  dsimp only
  rw [hc.storage, hc.diags, hc.aliases]
  split
  · exact ⟨rfl, rfl⟩
  · split
    · exact ⟨rfl, rfl⟩
    · exact ⟨rfl, rfl⟩

/-! ### Graphs -/

/-- `g'` is `g` with further contexts `A` that are not visible. -/
structure Wider (w : World) (s : Storage) (g g' : Graph) (A : Nat → Prop) (scope : Nat → Nat) : Prop where
  small : ContextGraph w g
  large : ContextGraph w g'
  root : g'.root = g.root
  edge : ∀ p x, Edge g' p x ↔ Edge g p x ∨ A x ∧ p = scope x
  old : ∀ p x, Edge g p x → ¬ A x ∧ ¬ A p
  top : ¬ A g.root
  plain : ∀ x, A x → s.entries x = none
  hidden : ∀ x, A x → ¬ EffVisible w s g (scope x)

section
variable {w : World} {s : Storage} {g g' : Graph} {A : Nat → Prop} {scope : Nat → Nat}
  (h : Wider w s g g' A scope)
include h

theorem wider_edge {p x : Nat} (hx : ¬ A x) : Edge g' p x ↔ Edge g p x := by
  rw [h.edge]
  exact ⟨fun e => e.elim id fun e => absurd e.1 hx, .inl⟩

theorem wider_reach {x : Nat} (hx : ¬ A x) : Reachable g' x ↔ Reachable g x := by
  constructor
  · intro hr
    induction hr with
    | root => rw [h.root]; exact .root
    | step _ _ hE ih =>
      have hE' := (wider_edge h hx).1 hE
      exact .step (ih (h.old _ _ hE').2) trivial hE'
  · intro hr
    clear hx
    induction hr with
    | root => rw [← h.root]; exact .root
    | step _ _ hE ih => exact .step ih trivial ((h.edge _ _).2 (.inl hE))

theorem reach_old {x : Nat} (hx : Reachable g x) : ¬ A x := by
  cases hx with
  | root => exact h.top
  | step _ _ hE => exact (h.old _ _ hE).1

theorem wider_explicit {x : Nat} (hx : A x) : explicit s x = none := by
  unfold explicit
  rw [h.plain x hx]; rfl

theorem wider_visible (x : Nat) : EffVisible w s g' x ↔ EffVisible w s g x := by
  constructor
  · intro hv
    induction hv with
    | @explicit x hr hne he =>
      have hA : ¬ A x := fun hA => by rw [wider_explicit h hA] at he; cases he
      exact .explicit ((wider_reach h hA).1 hr) (by rw [← h.root]; exact hne) he
    | inherited _ hE he h1 h2 ih =>
      rcases (h.edge _ _).1 hE with hE | ⟨hA, rfl⟩
      · exact .inherited ih hE he h1 h2
      · exact absurd ih (h.hidden _ hA)
  · intro hv
    induction hv with
    | explicit hr hne he =>
      exact .explicit ((wider_reach h (reach_old h hr)).2 hr) (by rw [h.root]; exact hne) he
    | inherited _ hE he h1 h2 ih => exact .inherited ih ((h.edge _ _).2 (.inl hE)) he h1 h2

theorem visible_old {x : Nat} (hv : EffVisible w s g x) : ¬ A x := by
  intro hA
  cases hv with
  | explicit _ _ he => rw [wider_explicit h hA] at he; cases he
  | inherited _ hE => exact (h.old _ _ hE).1 hA

theorem wider_below {a x : Nat} (hx : ¬ A x) : Below g' a x ↔ Below g a x := by
  constructor
  · intro hb
    induction hb with
    | self => exact .self
    | step _ hE ih =>
      have hE' := (wider_edge h hx).1 hE
      exact .step (ih (h.old _ _ hE').2) hE'
  · intro hb
    clear hx
    induction hb with
    | self => exact .self
    | step _ hE ih => exact .step ih ((h.edge _ _).2 (.inl hE))

theorem wider_inOther {mod : Str} {x : Nat} (hx : ¬ A x) :
    InOther w s mod g' x ↔ InOther w s mod g x :=
  exists_congr fun _ => and_congr .rfl (wider_below h hx)

theorem wider_has {m m' : Members}
    (hm : ∀ x, ¬ A x → (HasVisibleMember s m' (EffVisible w s g) x ↔ HasVisibleMember s m (EffVisible w s g) x))
    (hm' : ∀ x, A x → ¬ HasVisibleMember s m' (EffVisible w s g) x) (x : Nat) :
    HasVisible w s m' (EffVisible w s g') g' x ↔ ¬ A x ∧ HasVisible w s m (EffVisible w s g) g x := by
  have hV : EffVisible w s g' = EffVisible w s g := funext fun x => propext (wider_visible h x)
  rw [hV]
  constructor
  · intro hh
    induction hh with
    | @member x hx =>
      have hA : ¬ A x := fun hA => hm' x hA hx
      exact ⟨hA, .member ((hm x hA).1 hx)⟩
    | type hE ht hv =>
      have hE' := (wider_edge h (visible_old h hv)).1 hE
      exact ⟨(h.old _ _ hE').2, .type hE' ht hv⟩
    | nested hE _ hv ih =>
      have hE' := (wider_edge h ih.1).1 hE
      exact ⟨(h.old _ _ hE').2, .nested hE' ih.2 hv⟩
  · rintro ⟨hA, hh⟩
    induction hh with
    | @member x hx => exact .member ((hm x hA).2 hx)
    | type hE ht hv => exact .type ((h.edge _ _).2 (.inl hE)) ht hv
    | nested hE _ hv ih => exact .nested ((h.edge _ _).2 (.inl hE)) (ih (h.old _ _ hE).1) hv

section
variable {m m' : Members} (mod : Str)
    (hm : ∀ x, ¬ A x → (HasVisibleMember s m' (EffVisible w s g) x ↔ HasVisibleMember s m (EffVisible w s g) x))
    (hm' : ∀ x, A x → ¬ HasVisibleMember s m' (EffVisible w s g) x)
include hm hm'

theorem wider_contexts : (analyze w s m' mod g').contexts = (analyze w s m mod g).contexts := by
  funext x
  rw [Bool.eq_iff_iff, contexts_analysis h.large, contexts_analysis h.small, wider_has h hm hm']
  constructor
  · rintro ⟨h1, ⟨h2, h3⟩, h4⟩
    exact ⟨(wider_reach h h2).1 h1, h3, fun h5 => h4 ((wider_inOther h h2).2 h5)⟩
  · rintro ⟨h1, h3, h4⟩
    have h2 := reach_old h h1
    exact ⟨(wider_reach h h2).2 h1, ⟨h2, h3⟩, fun h5 => h4 ((wider_inOther h h2).1 h5)⟩

theorem wider_kept (x : Nat) :
    x ∈ (analyze w s m' mod g').pruned.nodes ↔ x ∈ (analyze w s m mod g).pruned.nodes := by
  by_cases hr : x = g.root
  · have e1 := (exposedGraph h.large s m' mod).root
    have e2 := (exposedGraph h.small s m mod).root
    have p1 : (analyze w s m' mod g').pruned.root = g'.root := (prune_spec h.large.toForest _ _).1
    have p2 : (analyze w s m mod g).pruned.root = g.root := (prune_spec h.small.toForest _ _).1
    rw [p1, h.root, ← hr] at e1
    rw [p2, ← hr] at e2
    exact ⟨fun _ => e2, fun _ => e1⟩
  · rw [kept_analysis h.large x (by rw [h.root]; exact hr), kept_analysis h.small x hr,
      wider_has h hm hm']
    constructor
    · rintro ⟨h1, h2, h3, h4⟩
      have hA : ¬ A x := fun hA => by
        rcases h4 with h4 | h4
        · exact visible_old h ((wider_visible h x).1 (h3 x .self h4)) hA
        · exact h4.1 hA
      exact ⟨(wider_reach h hA).1 h1, fun a ha => h2 a ((wider_below h hA).2 ha),
        fun a ha ht => (wider_visible h a).1 (h3 a ((wider_below h hA).2 ha) ht), h4.imp id And.right⟩
    · rintro ⟨h1, h2, h3, h4⟩
      have hA := reach_old h h1
      exact ⟨(wider_reach h hA).2 h1, fun a ha => h2 a ((wider_below h hA).1 ha),
        fun a ha ht => (wider_visible h a).2 (h3 a ((wider_below h hA).1 ha) ht),
        h4.imp id fun h4 => ⟨hA, h4⟩⟩

omit hm hm' in
theorem kept_old (x : Nat) (hx : x ∈ (analyze w s m mod g).pruned.nodes) : ¬ A x := by
  by_cases hr : x = g.root
  · rw [hr]; exact h.top
  · exact reach_old h ((kept_analysis h.small x hr).1 hx).1

omit hm hm' in
theorem wider_vis (x : Nat) (hx : ¬ A x) :
    ((analyze w s m' mod g').vis x).getD false = ((analyze w s m mod g).vis x).getD false := by
  obtain ⟨a1, a2⟩ := hide_spec (w := w) (s := s) (mod := mod) h.large.toForest
    (declContextsWithVisibleNamedDecls w s m' (deriveEffectiveVisibility w s g') g')
    (deriveEffectiveVisibility w s g') x
  obtain ⟨b1, b2⟩ := hide_spec (w := w) (s := s) (mod := mod) h.small.toForest
    (declContextsWithVisibleNamedDecls w s m (deriveEffectiveVisibility w s g) g)
    (deriveEffectiveVisibility w s g) x
  show ((hideNamespaces w s mod g' _ _).2 x).getD false = ((hideNamespaces w s mod g _ _).2 x).getD false
  by_cases hc : Reachable g x ∧ InOther w s mod g x
  · rw [(b1 hc).2, (a1 ⟨(wider_reach h hx).2 hc.1, (wider_inOther h hx).2 hc.2⟩).2]
  · rw [(b2 hc).2, (a2 fun hc' => hc ⟨(wider_reach h hx).1 hc'.1, (wider_inOther h hx).1 hc'.2⟩).2,
      Bool.eq_iff_iff, derive_getD h.large, derive_getD h.small, wider_visible h]

theorem wider_pruned_edge (p x : Nat) :
    Edge (analyze w s m' mod g').pruned p x ↔ Edge (analyze w s m mod g).pruned p x := by
  have key : ∀ (m : Members) (g : Graph), ContextGraph w g →
      (Edge (analyze w s m mod g).pruned p x ↔ Edge g p x ∧ x ∈ (analyze w s m mod g).pruned.nodes) := by
    intro m g hg
    obtain ⟨_, h2, h3, _⟩ := prune_spec (w := w) hg.toForest (analyze w s m mod g).contexts
      (analyze w s m mod g).vis
    refine (h3 p x).trans ?_
    constructor
    · rintro ⟨ha, hb⟩; exact ⟨ha, (h2 x).2 (.inr hb)⟩
    · rintro ⟨ha, hb⟩
      refine ⟨ha, ((h2 x).1 hb).resolve_left ?_⟩
      rintro rfl
      exact hg.root_top p ha
  rw [key m' g' h.large, key m g h.small, wider_kept h mod hm hm']
  constructor
  · rintro ⟨h1, h2⟩
    exact ⟨(wider_edge h (kept_old h mod x h2)).1 h1, h2⟩
  · rintro ⟨h1, h2⟩
    exact ⟨(wider_edge h (kept_old h mod x h2)).2 h1, h2⟩

theorem wider_nodes : (analyze w s m' mod g').pruned.nodes.Perm (analyze w s m mod g).pruned.nodes :=
  (List.perm_ext_iff_of_nodup (exposedGraph h.large s m' mod).nodup (exposedGraph h.small s m mod).nodup).2
    (wider_kept h mod hm hm')

end
end

/-- Enclosing scopes are determined by the edges. -/
theorem scopes_congr {w : World} {s : Storage} {g g' : Graph} (hg : ExposedGraph w g)
    (hg' : ExposedGraph w g') (hr : g'.root = g.root) (hn : ∀ x, x ∈ g'.nodes ↔ x ∈ g.nodes)
    (he : ∀ p x, Edge g' p x ↔ Edge g p x) :
    findEnclosingScopes w s g' = findEnclosingScopes w s g := by
  have henc : ∀ q x, EnclosingScope s g' q x → EnclosingScope s g q x := by
    intro q x h
    induction h with
    | here hE hq => exact .here ((he _ _).1 hE) (by rw [← hr]; exact hq)
    | above _ hE h1 h2 ih => exact .above ih ((he _ _).1 hE) (by rw [← hr]; exact h1) h2
  funext x
  by_cases hx : x ∈ g.nodes
  · have hx' := (hn x).2 hx
    rcases scopes_spec (s := s) hg.toContextGraph x (hg.reach x hx) with ⟨e1, e2⟩ | ⟨e1, q, e2, e3⟩
    · rcases scopes_spec (s := s) hg'.toContextGraph x (hg'.reach x hx') with ⟨f1, f2⟩ | ⟨f1, _⟩
      · rw [e2, f2]
      · exact absurd (e1.trans hr.symm) f1
    · rcases scopes_spec (s := s) hg'.toContextGraph x (hg'.reach x hx') with ⟨f1, _⟩ | ⟨f1, q', f2, f3⟩
      · exact absurd (f1.trans hr) e1
      · rw [e2, f2, enclosing_unique hg.toForest e3 (henc _ _ f3)]
  · rw [scopes_none hg.toContextGraph x fun h => hx (reachable_node hg.toGraphOK x h),
      scopes_none hg'.toContextGraph x fun h => hx ((hn x).1 (reachable_node hg'.toGraphOK x h))]

end Verif
