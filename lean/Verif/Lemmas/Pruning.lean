import Verif.Lemmas.Processing
/-!
# Lemmas: hiding of namespaces and pruning
-/
namespace Verif
open Spec

/-! ### `only_expose_in` -/

theorem forOther_iff (w : World) (s : Storage) (mod : Str) (n : Nat) :
    isNamespaceForDifferentModule w s mod n = true ↔ ForOther w s mod n := by
  unfold isNamespaceForDifferentModule ForOther getNamespace
  cases hk : (w.info n).kind <;> simp [DeclKind.isNamed]
  cases s.entries n with
  | none => simp
  | some a =>
    cases ha : a.namespace_ with
    | none => simp [ha]
    | some ns =>
      simp only [Option.bind_some, ha, Bool.and_eq_true, Bool.not_eq_true', List.any_eq_false,
        decide_eq_true_eq, List.isEmpty_eq_false_iff, Option.some.injEq, exists_eq_left']
      refine and_congr .rfl ⟨fun h hm => h _ hm rfl, fun h x hx e => h (e ▸ hx)⟩

theorem inOther_path {w : World} {s : Storage} {mod : Str} {g : Graph} (hf : Forest g) (n : Nat)
    (o : List Nat) (hp : PathToRoot g (n :: o)) :
    InOther w s mod g n ↔ ∃ a ∈ n :: o, isNamespaceForDifferentModule w s mod a = true := by
  unfold InOther
  constructor
  · rintro ⟨a, h1, h2⟩; exact ⟨a, (mem_path_iff hf n o hp a).2 h2, (forOther_iff ..).2 h1⟩
  · rintro ⟨a, h1, h2⟩; exact ⟨a, (forOther_iff ..).1 h2, (mem_path_iff hf n o hp a).1 h1⟩

theorem hide_spec {w : World} {s : Storage} {mod : Str} {g : Graph} (hf : Forest g)
    (ctx : Nat → Bool) (vis : Visibilities) (x : Nat) :
    (Reachable g x ∧ InOther w s mod g x → (hideNamespaces w s mod g ctx vis).1 x = false ∧
      (hideNamespaces w s mod g ctx vis).2 x = some false) ∧
    (¬ (Reachable g x ∧ InOther w s mod g x) → (hideNamespaces w s mod g ctx vis).1 x = ctx x ∧
      (hideNamespaces w s mod g ctx vis).2 x = vis x) := by
  have hr := dfs_rule g hf.toGraphOK (k := {
    enter := fun _ id (h : Hiding) =>
      if h.dominator.isNone && !isNamespaceForDifferentModule w s mod id then h
      else { dominator := if h.dominator.isNone then some id else h.dominator
             contexts := fun x => if x = id then false else h.contexts x
             vis := assign h.vis id false }
    completed := fun id h => if h.dominator = some id then { h with dominator := none } else h })
    (I := fun v o h =>
      h.dominator = o.reverse.find? (isNamespaceForDifferentModule w s mod) ∧
      ∀ x, (x ∈ v ∧ InOther w s mod g x → h.contexts x = false ∧ h.vis x = some false) ∧
        (¬ (x ∈ v ∧ InOther w s mod g x) → h.contexts x = ctx x ∧ h.vis x = vis x))
    { contexts := ctx, vis } ?_ ?_ ?_
  · obtain ⟨v, ⟨_, h2⟩, _, h4⟩ := hr
    have h4' : ∀ x, x ∈ v ↔ Reachable g x := fun x => (h4 x).trans (reachable_iff g x)
    have := h2 x
    rw [h4' x] at this
    exact this
  · have hroot := inOther_path (w := w) (s := s) (mod := mod) hf g.root [] rfl
    simp only [List.mem_singleton, exists_eq_left] at hroot
    dsimp only
    simp only [Bool.false_eq_true, if_false, Option.isNone_none, Bool.true_and, if_true]
    cases hF : isNamespaceForDifferentModule w s mod g.root with
    | false =>
      simp only [Bool.not_false, if_true]
      refine ⟨by simp [hF], fun x => ⟨?_, fun _ => by simp⟩⟩
      rintro ⟨hx, hi⟩
      rw [List.mem_singleton.1 hx, hroot, hF] at hi
      exact absurd hi (by simp)
    | true =>
      simp only [Bool.not_true, Bool.false_eq_true, if_false]
      refine ⟨by simp [hF], fun x => ⟨?_, fun hx => ?_⟩⟩
      · rintro ⟨hx, _⟩
        rw [List.mem_singleton.1 hx]; simp [assign]
      · have hxr : x ≠ g.root := by rintro rfl; exact hx ⟨by simp, hroot.2 hF⟩
        simp [assign, hxr]
  · rintro v o n c h hfacts hE hv ⟨h1, h2⟩
    dsimp only at h1 h2 ⊢
    simp only [Bool.false_eq_true, if_false]
    have hpath : PathToRoot g (c :: n :: o) := ⟨hE, hfacts.path⟩
    have hin := inOther_path (w := w) (s := s) (mod := mod) hf c (n :: o) hpath
    have hdom : h.dominator.isNone = true ↔
        ∀ a ∈ n :: o, isNamespaceForDifferentModule w s mod a = false := by
      rw [h1, Option.isNone_iff_eq_none, List.find?_eq_none]
      simp only [List.mem_reverse, Bool.not_eq_true]
    have hfind : (c :: n :: o).reverse.find? (isNamespaceForDifferentModule w s mod) =
        (h.dominator.or (if isNamespaceForDifferentModule w s mod c then some c else none)) := by
      rw [List.reverse_cons, List.find?_append, ← h1]
      congr 1
      cases hc : isNamespaceForDifferentModule w s mod c <;> simp [hc]
    by_cases hcond : (h.dominator.isNone && !isNamespaceForDifferentModule w s mod c) = true
    · rw [if_pos hcond]
      simp only [Bool.and_eq_true, Bool.not_eq_true'] at hcond
      obtain ⟨hc1, hc2⟩ := hcond
      have hno : ¬ InOther w s mod g c := by
        rw [hin]
        rintro ⟨a, ha, hFa⟩
        rcases List.mem_cons.1 ha with rfl | ha
        · rw [hc2] at hFa; exact absurd hFa (by simp)
        · rw [hdom.1 hc1 a ha] at hFa; exact absurd hFa (by simp)
      refine ⟨?_, fun x => ?_⟩
      · rw [hfind, hc2]
        simp
      · have hiff : x ∈ c :: v ∧ InOther w s mod g x ↔ x ∈ v ∧ InOther w s mod g x := by
          constructor
          · rintro ⟨hx, hi⟩
            rcases List.mem_cons.1 hx with rfl | hx
            · exact absurd hi hno
            · exact ⟨hx, hi⟩
          · rintro ⟨hx, hi⟩; exact ⟨by simp [hx], hi⟩
        rw [hiff]; exact h2 x
    · rw [if_neg hcond]
      have hyes : InOther w s mod g c := by
        rw [hin]
        cases hd : h.dominator.isNone with
        | true =>
          rw [hd] at hcond
          exact ⟨c, by simp, by simpa using hcond⟩
        | false =>
          have : ¬ ∀ a ∈ n :: o, isNamespaceForDifferentModule w s mod a = false := by
            rw [← hdom, hd]; simp
          have : ∃ a, a ∈ n :: o ∧ isNamespaceForDifferentModule w s mod a = true := by
            apply Classical.byContradiction
            intro hno
            apply this
            intro a ha
            rw [Bool.eq_false_iff]
            exact fun h => hno ⟨a, ha, h⟩
          obtain ⟨a, ha, hFa⟩ := this
          exact ⟨a, List.mem_cons_of_mem _ ha, hFa⟩
      refine ⟨?_, fun x => ?_⟩
      · rw [hfind]
        dsimp only
        cases hd : h.dominator with
        | none =>
          rw [hd] at hcond
          simp only [Option.isNone_none, Bool.true_and, Bool.not_eq_true', Bool.not_eq_false] at hcond
          simp [hcond]
        | some d => simp
      · dsimp only
        by_cases hxc : x = c
        · subst hxc
          refine ⟨fun _ => by simp [assign], fun hx => absurd ⟨by simp, hyes⟩ hx⟩
        · have hiff : x ∈ c :: v ∧ InOther w s mod g x ↔ x ∈ v ∧ InOther w s mod g x := by
            simp [hxc]
          rw [hiff, if_neg hxc]
          unfold assign
          rw [if_neg hxc]
          exact h2 x
  · rintro v o n h hfacts hall ⟨h1, h2⟩
    dsimp only at h1 h2 ⊢
    have hnd := List.nodup_cons.1 hfacts.open_nodup
    rw [List.reverse_cons, List.find?_append] at h1
    split
    · rename_i hd
      refine ⟨?_, h2⟩
      dsimp only
      cases hfo : o.reverse.find? (isNamespaceForDifferentModule w s mod) with
      | none => rfl
      | some a =>
        exfalso
        rw [hfo, hd] at h1
        simp only [Option.some_or, Option.some.injEq] at h1
        subst h1
        exact hnd.1 (List.mem_reverse.1 (List.mem_of_find?_eq_some hfo))
    · rename_i hd
      refine ⟨?_, h2⟩
      rw [h1]
      cases hfo : o.reverse.find? (isNamespaceForDifferentModule w s mod) with
      | some a => simp
      | none =>
        rw [hfo] at h1
        cases hc : isNamespaceForDifferentModule w s mod n with
        | false => simp [hc]
        | true =>
          simp [hc] at h1
          exact absurd h1 hd

/-! ### Pruning -/

theorem mem_getOrInsertNode (g : Graph) (x y : Nat) :
    y ∈ (g.getOrInsertNode x).nodes ↔ y ∈ g.nodes ∨ y = x := by
  unfold Graph.getOrInsertNode
  split
  · constructor
    · exact .inl
    · rintro (h | rfl) <;> assumption
  · simp

theorem getOrInsertNode_rest (g : Graph) (x : Nat) : (g.getOrInsertNode x).root = g.root ∧
    (g.getOrInsertNode x).children = g.children := by
  unfold Graph.getOrInsertNode; split <;> exact ⟨rfl, rfl⟩

theorem addEdge_spec (g : Graph) (p c : Nat) : (g.addEdge p c).root = g.root ∧
    (∀ y, y ∈ (g.addEdge p c).nodes ↔ y ∈ g.nodes ∨ y = p ∨ y = c) ∧
    ∀ y, (g.addEdge p c).children y = if y = p then g.children y ++ [c] else g.children y := by
  unfold Graph.addEdge
  dsimp only
  obtain ⟨h1, h2⟩ := getOrInsertNode_rest g p
  obtain ⟨h3, h4⟩ := getOrInsertNode_rest (g.getOrInsertNode p) c
  refine ⟨by rw [h3, h1], fun y => ?_, fun y => by rw [h4, h2]⟩
  rw [mem_getOrInsertNode, mem_getOrInsertNode, or_assoc]

/-- Kept by pruning: the node and all nodes above are to be preserved. -/
def Kept (g : Graph) (P : Nat → Bool) (x : Nat) : Prop :=
  Reachable g x ∧ ∀ a, Below g a x → P a = true

theorem kept_iff {g : Graph} (hf : Forest g) (P : Nat → Bool) (x : Nat) :
    ReachVia g (fun p => (!P p) = false) x ∧ P x = true ↔ Kept g P x := by
  constructor
  · rintro ⟨h1, h2⟩
    refine ⟨?_, ?_⟩
    · clear h2
      induction h1 with
      | root => exact .root
      | step _ _ hE ih => exact .step ih trivial hE
    · induction h1 with
      | root => intro a ha; rw [below_root hf ha]; exact h2
      | step _ hp hE ih =>
        intro a ha
        rcases (below_parent hf hE).1 ha with rfl | ha
        · exact h2
        · exact ih (by simpa using hp) a ha
  · rintro ⟨h1, h2⟩
    refine ⟨?_, h2 x .self⟩
    induction h1 with
    | root => exact .root
    | @step p c hp _ hE ih =>
      have : ∀ a, Below g a p → P a = true := fun a ha => h2 a (.step ha hE)
      exact .step (ih this) (by simp [this p .self]) hE

theorem kept_parent {g : Graph} {P : Nat → Bool} {p x : Nat}
    (hf : Forest g) (hE : Edge g p x) (h : Kept g P x) : Kept g P p :=
  ⟨reachable_parent hf h.1 hE, fun a ha => h.2 a (.step ha hE)⟩

theorem prune_spec {w : World} {g : Graph} (hf : Forest g) (ctx : Nat → Bool) (vis : Visibilities) :
    let pg := pruneGraph w g ctx vis
    let K := Kept g (shouldBePreserved w ctx vis)
    pg.root = g.root ∧ (∀ x, x ∈ pg.nodes ↔ x = g.root ∨ K x) ∧
    (∀ p x, Edge pg p x ↔ Edge g p x ∧ K x) ∧ (∀ p, (pg.children p).Nodup) := by
  have hr := dfs_rule g hf.toGraphOK (k := {
    skip := fun id => !shouldBePreserved w ctx vis id
    enter := fun parent id (pruned : Graph) =>
      if shouldBePreserved w ctx vis id then
        match parent with
        | some p => ((pruned.getOrInsertNode id).getOrInsertNode p).addEdge p id
        | none => pruned
      else pruned })
    (I := fun v _ (pg : Graph) => pg.root = g.root ∧
      (∀ x, x ∈ pg.nodes ↔ x = g.root ∨ (x ∈ v ∧ shouldBePreserved w ctx vis x = true)) ∧
      (∀ p x, Edge pg p x ↔ Edge g p x ∧ x ∈ v ∧ shouldBePreserved w ctx vis x = true) ∧
      (∀ p, (pg.children p).Nodup))
    (.start g.root) ?_ ?_ ?_
  · obtain ⟨v, ⟨h1, h2, h3, h5⟩, _, h4⟩ := hr
    have h4' : ∀ x, x ∈ v ∧ shouldBePreserved w ctx vis x = true ↔
        Kept g (shouldBePreserved w ctx vis) x := by
      intro x
      rw [h4 x]
      exact kept_iff hf _ x
    refine ⟨h1, fun x => ?_, fun p x => ?_, h5⟩
    · rw [← h4' x]; exact h2 x
    · rw [← h4' x]; exact h3 p x
  · have h0 : (if shouldBePreserved w ctx vis g.root then Graph.start g.root else Graph.start g.root)
        = Graph.start g.root := by split <;> rfl
    dsimp only
    rw [h0]
    refine ⟨rfl, fun x => ?_, fun p x => ?_, fun p => .nil⟩
    · simp only [Graph.start, List.mem_singleton]
      exact ⟨.inl, fun h => h.elim id (·.1)⟩
    · constructor
      · intro h; exact absurd h (by simp [Edge, Graph.start])
      · rintro ⟨hE, hx, _⟩
        rw [List.mem_singleton.1 hx] at hE
        exact absurd hE (hf.root_top p)
  · rintro v o n c pg hfacts hE hv ⟨h1, h2, h3, h5⟩
    dsimp only at hfacts ⊢
    by_cases hP : shouldBePreserved w ctx vis c = true
    · rw [if_pos hP]
      have hn : n ∈ pg.nodes := by
        rw [h2]
        exact .inr ⟨hfacts.open_visited n (by simp), by simpa using hfacts.open_kept n (by simp)⟩
      obtain ⟨a1, a2, a3⟩ := addEdge_spec ((pg.getOrInsertNode c).getOrInsertNode n) n c
      obtain ⟨b1, b2⟩ := getOrInsertNode_rest (pg.getOrInsertNode c) n
      obtain ⟨c1, c2⟩ := getOrInsertNode_rest pg c
      have hch : ∀ y, (((pg.getOrInsertNode c).getOrInsertNode n).addEdge n c).children y =
          if y = n then pg.children y ++ [c] else pg.children y := by
        intro y; rw [a3, b2, c2]
      refine ⟨by rw [a1, b1, c1, h1], fun x => ?_, fun p x => ?_, fun p => ?_⟩
      · rw [a2, mem_getOrInsertNode, mem_getOrInsertNode]
        constructor
        · rintro (((h | rfl) | rfl) | rfl | rfl)
          · rcases (h2 x).1 h with h | ⟨h, h'⟩
            · exact .inl h
            · exact .inr ⟨by simp [h], h'⟩
          · exact .inr ⟨by simp, hP⟩
          · rcases (h2 x).1 hn with h | ⟨h, h'⟩
            · exact .inl h
            · exact .inr ⟨by simp [h], h'⟩
          · rcases (h2 x).1 hn with h | ⟨h, h'⟩
            · exact .inl h
            · exact .inr ⟨by simp [h], h'⟩
          · exact .inr ⟨by simp, hP⟩
        · rintro (h | ⟨h, h'⟩)
          · exact .inl (.inl (.inl ((h2 x).2 (.inl h))))
          · rcases List.mem_cons.1 h with rfl | h
            · exact .inr (.inr rfl)
            · exact .inl (.inl (.inl ((h2 x).2 (.inr ⟨h, h'⟩))))
      · unfold Edge at h3 ⊢
        rw [hch]
        by_cases hpn : p = n
        · subst hpn
          rw [if_pos rfl, List.mem_append, List.mem_singleton, h3]
          constructor
          · rintro (⟨ha, hb, hc⟩ | rfl)
            · exact ⟨ha, by simp [hb], hc⟩
            · exact ⟨hE, by simp, hP⟩
          · rintro ⟨ha, hb, hc⟩
            rcases List.mem_cons.1 hb with h | hb
            · exact .inr h
            · exact .inl ⟨ha, hb, hc⟩
        · rw [if_neg hpn, h3]
          constructor
          · rintro ⟨ha, hb, hc⟩; exact ⟨ha, by simp [hb], hc⟩
          · rintro ⟨ha, hb, hc⟩
            rcases List.mem_cons.1 hb with rfl | hb
            · exact absurd (hf.unique _ _ _ ha hE) hpn
            · exact ⟨ha, hb, hc⟩
      · rw [hch]
        split
        · rename_i hpn
          subst hpn
          refine List.nodup_append.2 ⟨h5 p, by simp, ?_⟩
          intro a ha b hb e
          rw [List.mem_singleton.1 hb] at e
          rw [e] at ha
          exact hv ((h3 p c).1 ha).2.1
        · exact h5 p
    · rw [if_neg hP]
      have hiff : ∀ x, (x ∈ c :: v ∧ shouldBePreserved w ctx vis x = true) ↔
          (x ∈ v ∧ shouldBePreserved w ctx vis x = true) := by
        intro x
        constructor
        · rintro ⟨h, h'⟩
          rcases List.mem_cons.1 h with rfl | h
          · exact absurd h' hP
          · exact ⟨h, h'⟩
        · rintro ⟨h, h'⟩; exact ⟨by simp [h], h'⟩
      refine ⟨h1, fun x => ?_, fun p x => ?_, h5⟩
      · rw [hiff]; exact h2 x
      · rw [hiff]; exact h3 p x
  · intro v o n pg _ _ h; exact h

theorem prune_contextGraph {w : World} {g : Graph} (hg : ContextGraph w g) (ctx : Nat → Bool)
    (vis : Visibilities) : ContextGraph w (pruneGraph w g ctx vis) := by
  obtain ⟨h1, h2, h3, h4⟩ := prune_spec (w := w) hg.toForest ctx vis
  refine ⟨⟨⟨?_, fun p c hE => ?_, fun p c hE => ?_⟩, fun p q c hE hE' => ?_, h4, fun p hE => ?_⟩,
    ?_, fun x hx hne => ?_⟩
  · rw [h1, h2]; exact .inl rfl
  · rw [h2]; exact .inr ((h3 p c).1 hE).2
  · obtain ⟨ha, hb⟩ := (h3 p c).1 hE
    rw [h2]; exact .inr (kept_parent hg.toForest ha hb)
  · exact hg.unique p q c ((h3 p c).1 hE).1 ((h3 q c).1 hE').1
  · rw [h1] at hE; exact hg.root_top p ((h3 _ _).1 hE).1
  · rw [h1]; exact hg.root_kind
  · rw [h1] at hne
    rcases (h2 x).1 hx with h | h
    · exact absurd h hne
    · exact hg.node_kind x (reachable_node hg.toGraphOK x h.1) hne

theorem prune_reachable {w : World} {g : Graph} (hf : Forest g) (ctx : Nat → Bool)
    (vis : Visibilities) (x : Nat) :
    x ∈ (pruneGraph w g ctx vis).nodes ↔ Reachable (pruneGraph w g ctx vis) x := by
  obtain ⟨h1, h2, h3, h4⟩ := prune_spec (w := w) hf ctx vis
  constructor
  · intro h
    rcases (h2 x).1 h with rfl | ⟨hx, hP⟩
    · rw [← h1]; exact .root
    · clear h
      induction hx with
      | root =>
        have : Reachable (pruneGraph w g ctx vis) (pruneGraph w g ctx vis).root := .root
        rwa [h1] at this
      | @step p c hp _ hE ih =>
        exact .step (ih fun a ha => hP a (.step ha hE)) trivial
          ((h3 p c).2 ⟨hE, .step hp trivial hE, hP⟩)
  · intro h
    rw [h2]
    cases h with
    | root => exact .inl h1
    | step _ _ hE => exact .inr ((h3 _ _).1 hE).2

/-! ### Built graphs -/

theorem built_contextGraph {w : World} {root : Tree} (wf : WellFormed w root) {g : Graph}
    {b : Building} (h : Built w root g b) : ContextGraph w g := by
  refine ⟨built_forest wf h, ?_, fun x hx hne => ?_⟩
  · rw [h.root]; exact (wf.unit_kind _).2 rfl
  · rw [h.root] at hne
    have scope : ∀ y, y ≠ w.unit → x = w.findLookupContextDecl y →
        (w.info x).kind = .namespace ∨ (w.info x).kind = .enum ∨ (w.info x).kind = .record := by
      intro y hy hxy
      obtain ⟨_, _, _, hk, _⟩ := (scopeOf_find w root wf y x hy).2 hxy.symm
      rcases hk with hk | hk | hk | hk
      · exact .inl hk
      · exact .inr (.inl hk)
      · exact .inr (.inr hk)
      · exact absurd ((wf.unit_kind x).1 hk) hne
    rcases (built_nodes h x).1 hx with rfl | ⟨p, c, hE, hc⟩
    · exact absurd rfl hne
    · rcases (built_edge_iff h p c).1 hE with ⟨a, ha, hp⟩ | ⟨_, _, hctx, hp⟩
      · rcases hc with rfl | rfl
        · exact .inr (wf.target_tag a _ ha.2.2.2.1)
        · refine scope a ?_ hp
          rintro rfl
          have h1 := ha.2.2.1
          rw [(wf.unit_kind w.unit).2 rfl] at h1
          exact absurd h1 (by simp)
      · rcases hc with rfl | rfl
        · rcases hctx with h | ⟨h, _⟩
          · exact .inl h
          · exact .inr h
        · exact scope c (context_not_unit w root wf c hctx) hp

/-! ### The analyses together -/

theorem hasVisible_above {w : World} {s : Storage} {m : Members} {V : Nat → Prop} {g : Graph}
    {a x : Nat} (h : Below g a x) (hx : HasVisible w s m V g x)
    (ht : ∀ b, Below g b x → Below g a b → b ≠ a → IsType w b → V b) : HasVisible w s m V g a := by
  induction h with
  | self => exact hx
  | @step p c hp hE ih =>
    by_cases hca : c = a
    · rw [← hca]; exact hx
    · refine ih (.nested hE hx (ht c .self (.step hp hE) hca)) fun b hb => ht b (.step hb hE)

theorem kept_analysis {w : World} {s : Storage} {m : Members} {mod : Str} {g : Graph}
    (hg : ContextGraph w g) (x : Nat) (hne : x ≠ g.root) :
    x ∈ (analyze w s m mod g).pruned.nodes ↔
      Reachable g x ∧ (∀ a, Below g a x → ¬ ForOther w s mod a) ∧
      (∀ a, Below g a x → IsType w a → EffVisible w s g a) ∧
      (IsType w x ∨ HasVisible w s m (EffVisible w s g) g x) := by
  have hf := hg.toForest
  have hV := derive_getD (s := s) hg
  have hctx := withVisible_spec (w := w) (s := s) (m := m) hf hV
  have hhide := hide_spec (w := w) (s := s) (mod := mod) hf
    (declContextsWithVisibleNamedDecls w s m (deriveEffectiveVisibility w s g) g)
    (deriveEffectiveVisibility w s g)
  obtain ⟨_, h2, _, _⟩ := prune_spec (w := w) hf (analyze w s m mod g).contexts
    (analyze w s m mod g).vis
  have hpr : (analyze w s m mod g).pruned = pruneGraph w g (analyze w s m mod g).contexts
    (analyze w s m mod g).vis := rfl
  have hP : ∀ a, Reachable g a → (shouldBePreserved w (analyze w s m mod g).contexts
      (analyze w s m mod g).vis a = true ↔ ¬ InOther w s mod g a ∧
        (IsType w a → EffVisible w s g a) ∧
        (¬ IsType w a → HasVisible w s m (EffVisible w s g) g a)) := by
    intro a ha
    unfold shouldBePreserved
    obtain ⟨e1, e2⟩ := hhide a
    by_cases hio : InOther w s mod g a
    · obtain ⟨e3, e4⟩ := e1 ⟨ha, hio⟩
      have e3' : (analyze w s m mod g).contexts a = false := e3
      have e4' : (analyze w s m mod g).vis a = some false := e4
      rw [e3', e4']
      simp [hio]
    · obtain ⟨e3, e4⟩ := e2 (fun h => hio h.2)
      have e3' : (analyze w s m mod g).contexts a = _ := e3
      have e4' : (analyze w s m mod g).vis a = _ := e4
      rw [e3', e4']
      by_cases ht : IsType w a
      · rw [if_pos ((isType_iff ..).2 ht), hV]
        simp [hio, ht]
      · rw [if_neg (fun h => ht ((isType_iff ..).1 h)), hctx]
        simp [hio, ht, ha]
  rw [hpr, h2]
  constructor
  · rintro (h | ⟨hr, hk⟩)
    · exact absurd h hne
    · have hk' : ∀ a, Below g a x → _ := fun a ha => (hP a (reachable_above hf hr ha)).1 (hk a ha)
      refine ⟨hr, fun a ha ho => (hk' a ha).1 ⟨a, ho, .self⟩, fun a ha => (hk' a ha).2.1, ?_⟩
      by_cases ht : IsType w x
      · exact .inl ht
      · exact .inr ((hk' x .self).2.2 ht)
  · rintro ⟨hr, ho, ht, hx⟩
    refine .inr ⟨hr, fun a ha => (hP a (reachable_above hf hr ha)).2 ⟨?_, ht a ha, fun hta => ?_⟩⟩
    · rintro ⟨n, hn, hna⟩
      exact ho n (below_trans hna ha) hn
    · by_cases hxa : HasVisible w s m (EffVisible w s g) g x
      · exact hasVisible_above ha hxa fun b hb _ _ => ht b hb
      · have hxt : IsType w x := hx.resolve_right hxa
        rcases below_cases ha with rfl | ⟨p, hE, hap⟩
        · exact absurd hxt hta
        · exact hasVisible_above hap (.type hE hxt (ht x .self hxt)) fun b hb _ _ =>
            ht b (.step hb hE)

theorem contexts_analysis {w : World} {s : Storage} {m : Members} {mod : Str} {g : Graph}
    (hg : ContextGraph w g) (x : Nat) : (analyze w s m mod g).contexts x = true ↔
      Reachable g x ∧ HasVisible w s m (EffVisible w s g) g x ∧ ¬ InOther w s mod g x := by
  have hf := hg.toForest
  have hctx := withVisible_spec (w := w) (s := s) (m := m) hf (derive_getD (s := s) hg)
  obtain ⟨e1, e2⟩ := hide_spec (w := w) (s := s) (mod := mod) hf
    (declContextsWithVisibleNamedDecls w s m (deriveEffectiveVisibility w s g) g)
    (deriveEffectiveVisibility w s g) x
  show (hideNamespaces w s mod g _ _).1 x = true ↔ _
  by_cases h : Reachable g x ∧ InOther w s mod g x
  · rw [(e1 h).1]
    simp only [Bool.false_eq_true, false_iff]
    exact fun h' => h'.2.2 h.2
  · rw [(e2 h).1, hctx]
    constructor
    · rintro ⟨h1, h2⟩; exact ⟨h1, h2, fun h3 => h ⟨h1, h3⟩⟩
    · rintro ⟨h1, h2, _⟩; exact ⟨h1, h2⟩

theorem mem_reportUnreachable (w : World) (g : Graph) (l : List Nat) (rel : Nat → Option Nat)
    (y : Nat) : (∃ d ∈ reportUnreachable w g l rel, d.decl = y) ↔
      ∃ x ∈ l, (w.info x).kind.isNamed = true ∧ x ∉ g.nodes ∧ y = (rel x).getD x := by
  unfold reportUnreachable
  simp only [List.mem_map, mem_sortDecls, List.mem_filterMap]
  constructor
  · rintro ⟨d, ⟨a, ⟨x, hx, h⟩, rfl⟩, rfl⟩
    split at h
    · exact absurd h (by simp)
    · rename_i hc
      simp only [Graph.hasNode, Bool.or_eq_true, Bool.not_eq_true', decide_eq_true_eq, not_or,
        Bool.not_eq_false] at hc
      exact ⟨x, hx, hc.1, hc.2, by simpa using h.symm⟩
  · rintro ⟨x, hx, h1, h2, rfl⟩
    refine ⟨_, ⟨_, ⟨x, hx, ?_⟩, rfl⟩, rfl⟩
    rw [if_neg (by simp [Graph.hasNode, h1, h2])]
    cases rel x <;> rfl

end Verif
