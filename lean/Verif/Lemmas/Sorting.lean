import Verif.Lemmas.TopoSort
import Verif.Lemmas.Pruning
/-!
# Lemmas: dependencies between exposed contexts
-/
namespace Verif
open Spec

/-! ### Enclosing scopes -/

theorem isTransparent_iff {w : World} {s : Storage} {g : Graph} (hg : ContextGraph w g) (x : Nat)
    (hx : x ∈ g.nodes) : isTransparent w s x = true ↔ x ≠ g.root ∧ PassedOver s x := by
  unfold isTransparent getNamespace PassedOver
  by_cases hr : x = g.root
  · subst hr
    rw [hg.root_kind]
    simp [DeclKind.isNamed]
  · rw [named_of_node hg x hx hr]
    cases he : s.entries x with
    | none => simp
    | some a =>
      cases hn : a.namespace_ with
      | none => simp [hn]
      | some ns => simp [hn, hr]

theorem scopes_spec {w : World} {s : Storage} {g : Graph} (hg : ContextGraph w g) (x : Nat)
    (hx : Reachable g x) :
    (x = g.root ∧ findEnclosingScopes w s g x = some none) ∨
    (x ≠ g.root ∧ ∃ q, findEnclosingScopes w s g x = some (some q) ∧ EnclosingScope s g q x) := by
  rw [scopes_eq]
  have hm := assigner_spec g hg.toGraphOK hg.root_top
    (fun p (_ : Nat) => match p with
      | none => (none : Option Nat)
      | some (p, r) => if isTransparent w s p then r.getD none else some p)
  simp only at hm
  generalize hd : dfs g (assigner fun p (_ : Nat) => match p with
      | none => (none : Option Nat)
      | some (p, r) => if isTransparent w s p then r.getD none else some p) (fun _ => none)
    = m at hm ⊢
  obtain ⟨h1, _, h3⟩ := hm
  clear hd
  induction hx with
  | root => exact .inl ⟨rfl, h1⟩
  | @step p c hp _ hE ih =>
    have hc : Reachable g c := .step hp trivial hE
    have hne : c ≠ g.root := by rintro rfl; exact hg.root_top p hE
    obtain ⟨q, hqE, _, hmc⟩ := h3 c hc hne
    rw [← hg.unique _ _ _ hE hqE] at hmc
    refine .inr ⟨hne, ?_⟩
    have ht := isTransparent_iff (s := s) hg p (hg.parent _ _ hE)
    cases htp : isTransparent w s p with
    | false =>
      rw [htp] at hmc
      refine ⟨p, by simpa using hmc, .here hE ?_⟩
      rw [htp] at ht
      by_cases hr : p = g.root
      · exact .inl hr
      · exact .inr fun h => by simpa using ht.2 ⟨hr, h⟩
    | true =>
      rw [htp] at hmc
      obtain ⟨hr, hpo⟩ := ht.1 htp
      rcases ih with ⟨rfl, _⟩ | ⟨_, q', hq', hs⟩
      · exact absurd rfl hr
      · refine ⟨q', ?_, .above hs hE hr hpo⟩
        rw [hmc, hq']; rfl

theorem scopes_none {w : World} {s : Storage} {g : Graph} (hg : ContextGraph w g) (x : Nat)
    (hx : ¬ Reachable g x) : findEnclosingScopes w s g x = none := by
  rw [scopes_eq]
  have hm := (assigner_spec g hg.toGraphOK hg.root_top
    (fun p (_ : Nat) => match p with
      | none => (none : Option Nat)
      | some (p, r) => if isTransparent w s p then r.getD none else some p)).2.1 x
  exact Option.not_isSome_iff_eq_none.1 fun h => hx (hm.1 h)

theorem enclosing_unique {s : Storage} {g : Graph} (hf : Forest g) {q q' x : Nat}
    (h : EnclosingScope s g q x) (h' : EnclosingScope s g q' x) : q = q' := by
  induction h with
  | here hE hq =>
    cases h' with
    | here hE' _ => exact hf.unique _ _ _ hE hE'
    | above _ hE' hr hp =>
      rw [← hf.unique _ _ _ hE hE'] at hr hp
      rcases hq with hq | hq
      · exact absurd hq hr
      · exact absurd hp hq
  | above _ hE hr hp ih =>
    cases h' with
    | here hE' hq =>
      rw [← hf.unique _ _ _ hE hE'] at hq
      rcases hq with hq | hq
      · exact absurd hq hr
      · exact absurd hp hq
    | above h'' hE' _ _ =>
      rw [← hf.unique _ _ _ hE hE'] at h''
      exact ih h''

theorem enclosing_below {s : Storage} {g : Graph} {q x : Nat} (h : EnclosingScope s g q x) :
    ∃ p, Below g q p ∧ Edge g p x := by
  induction h with
  | here hE _ => exact ⟨_, .self, hE⟩
  | above _ hE _ _ ih =>
    obtain ⟨p', hb, hE'⟩ := ih
    exact ⟨_, .step hb hE', hE⟩

theorem below_depth {g : Graph} (hf : Forest g) {d : Nat → Nat}
    (hd : ∀ p x, Reachable g x → Edge g p x → d p < d x) {a x : Nat} (hx : Reachable g x)
    (h : Below g a x) : d a ≤ d x := by
  induction h with
  | self => exact Nat.le_refl _
  | step _ hE ih =>
    have := ih (reachable_parent hf hx hE)
    have := hd _ _ hx hE
    omega

theorem enclosing_ne {s : Storage} {g : Graph} (hf : Forest g) {q x : Nat} (hx : Reachable g x)
    (h : EnclosingScope s g q x) : q ≠ x ∧ Reachable g q := by
  obtain ⟨p, hb, hE⟩ := enclosing_below h
  obtain ⟨d, hd⟩ := reachable_depth hf
  have hp := reachable_parent hf hx hE
  have h1 := below_depth hf hd hp hb
  have h2 := hd _ _ hx hE
  refine ⟨?_, reachable_above hf hp hb⟩
  rintro rfl
  omega

/-! ### Graphs to be sorted -/

theorem getOrInsertNode_nodup (g : Graph) (x : Nat) (h : g.nodes.Nodup) :
    (g.getOrInsertNode x).nodes.Nodup := by
  unfold Graph.getOrInsertNode
  split
  · exact h
  · rename_i hx
    refine List.nodup_append.2 ⟨h, by simp, ?_⟩
    intro a ha b hb e
    rw [List.mem_singleton.1 hb] at e
    exact hx (e ▸ ha)

theorem prune_nodup {w : World} {g : Graph} (hf : Forest g) (ctx : Nat → Bool)
    (vis : Visibilities) : (pruneGraph w g ctx vis).nodes.Nodup := by
  unfold pruneGraph
  have hstep : ∀ (n c : Nat) (pg : Graph), pg.nodes.Nodup →
      (if shouldBePreserved w ctx vis c then
        ((pg.getOrInsertNode c).getOrInsertNode n).addEdge n c else pg).nodes.Nodup := by
    intro n c pg h
    split
    · unfold Graph.addEdge
      exact getOrInsertNode_nodup _ _ (getOrInsertNode_nodup _ _
        (getOrInsertNode_nodup _ _ (getOrInsertNode_nodup _ _ h)))
    · exact h
  have hr := dfs_rule g hf.toGraphOK {
      skip := fun id => !shouldBePreserved w ctx vis id
      enter := fun parent id (pruned : Graph) =>
        if shouldBePreserved w ctx vis id then
          match parent with
          | some p => ((pruned.getOrInsertNode id).getOrInsertNode p).addEdge p id
          | none => pruned
        else pruned } (fun _ _ (pg : Graph) => pg.nodes.Nodup) (.start g.root) ?_ ?_ ?_
  · obtain ⟨v, h, _⟩ := hr
    exact h
  · dsimp only
    split <;> exact (List.nodup_cons.2 ⟨by simp, .nil⟩)
  · intro v o n c pg _ _ _ h
    exact hstep n c pg h
  · intro v o n pg _ _ h; exact h

theorem exposedGraph {w : World} {g : Graph} (hg : ContextGraph w g) (s : Storage) (m : Members)
    (mod : Str) : ExposedGraph w (analyze w s m mod g).pruned where
  toContextGraph := prune_contextGraph hg _ _
  reach := fun x hx => (prune_reachable hg.toForest _ _ x).1 hx
  nodup := prune_nodup hg.toForest _ _

/-! ### Dependencies -/

theorem mem_findPredecessors {w : World} {s : Storage} {bases : Bases} {g : Graph}
    (hg : ExposedGraph w g) (p x : Nat) (hx : x ∈ g.nodes) :
    p ∈ findPredecessors w bases g (findEnclosingScopes w s g) x ↔ Depends w s bases g p x := by
  unfold findPredecessors Depends
  rw [List.mem_append]
  have h1 : p ∈ (match findEnclosingScopes w s g x with
      | some (some p) => [p]
      | _ => []) ↔ EnclosingScope s g p x := by
    rcases scopes_spec (s := s) hg.toContextGraph x (hg.reach x hx) with ⟨hr, hm⟩ | ⟨hr, q, hm, hq⟩
    · rw [hm]
      simp only [List.not_mem_nil, false_iff]
      intro h
      obtain ⟨_, _, hE⟩ := enclosing_below h
      rw [hr] at hE
      exact hg.root_top _ hE
    · rw [hm]
      simp only [List.mem_singleton]
      constructor
      · rintro rfl; exact hq
      · intro h; exact enclosing_unique hg.toForest h hq
  have h2 : p ∈ (if (w.info x).kind = .record then
      (bases x).filterMap fun b => if b.1 = .public ∧ g.hasNode b.2 then some b.2 else none
      else []) ↔ (w.info x).kind = .record ∧ p ∈ g.nodes ∧ (.public, p) ∈ bases x := by
    split
    · rename_i hk
      rw [List.mem_filterMap]
      constructor
      · rintro ⟨⟨a, b⟩, hb, he⟩
        simp only [Graph.hasNode, decide_eq_true_eq] at he
        split at he
        · rename_i hc
          obtain ⟨ha, hn⟩ := hc
          simp only [Option.some.injEq] at he
          subst ha; subst he
          exact ⟨hk, hn, hb⟩
        · simp at he
      · rintro ⟨_, hn, hb⟩
        exact ⟨_, hb, by simp [Graph.hasNode, hn]⟩
    · rename_i hk; simp [hk]
  refine (or_congr h1 h2).trans ?_
  simp [hx]

theorem depends_node {w : World} {s : Storage} {bases : Bases} {g : Graph}
    (hg : ExposedGraph w g) {p x : Nat} (h : Depends w s bases g p x) : p ∈ g.nodes := by
  rcases h with ⟨hx, h | h⟩
  · exact reachable_node hg.toGraphOK p (enclosing_ne hg.toForest (hg.reach x hx) h).2
  · exact h.2.1

theorem depends_irrefl {w : World} {s : Storage} {bases : Bases} {g : Graph}
    (hg : ExposedGraph w g) (hb : ∀ x a, (a, x) ∉ bases x) (x : Nat) :
    ¬ Depends w s bases g x x := by
  rintro ⟨hx, h | h⟩
  · exact (enclosing_ne hg.toForest (hg.reach x hx) h).1 rfl
  · exact hb x _ h.2.2

theorem steps_iff {w : World} {s : Storage} {bases : Bases} {g : Graph}
    (hg : ExposedGraph w g) (a x : Nat) (hx : x ∈ g.nodes) :
    DependsOn (findPredecessors w bases g (findEnclosingScopes w s g)) a x ↔
      Steps (Depends w s bases g) a x := by
  constructor
  · intro h
    induction h with
    | direct h => exact .one ((mem_findPredecessors hg _ _ hx).1 h)
    | step _ hp ih =>
      have := (mem_findPredecessors hg _ _ hx).1 hp
      exact .more (ih (depends_node hg this)) this
  · intro h
    induction h with
    | one h => exact .direct ((mem_findPredecessors hg _ _ hx).2 h)
    | more _ hp ih =>
      exact .step (ih (depends_node hg hp)) ((mem_findPredecessors hg _ _ hx).2 hp)

theorem dependencyGraph {w : World} {s : Storage} {bases : Bases} {g : Graph}
    (hg : ExposedGraph w g) (nodes : List Nat) (hn : nodes.Perm g.nodes) :
    DependencyGraph nodes (findPredecessors w bases g (findEnclosingScopes w s g)) where
  nodup := hn.nodup_iff.2 hg.nodup
  inside := fun x hx p hp => hn.mem_iff.2
    (depends_node hg ((mem_findPredecessors hg p x (hn.mem_iff.1 hx)).1 hp))

theorem cyclic_iff {w : World} {s : Storage} {bases : Bases} {g : Graph}
    (hg : ExposedGraph w g) (nodes : List Nat) (hn : nodes.Perm g.nodes) :
    Cyclic nodes (findPredecessors w bases g (findEnclosingScopes w s g)) ↔
      ∃ x, Steps (Depends w s bases g) x x := by
  constructor
  · rintro ⟨x, hx, h⟩; exact ⟨x, (steps_iff hg x x (hn.mem_iff.1 hx)).1 h⟩
  · rintro ⟨x, h⟩
    have hx : x ∈ g.nodes := by
      cases h with
      | one h => exact h.1
      | more _ h => exact h.1
    exact ⟨x, hn.mem_iff.2 hx, (steps_iff hg x x hx).2 h⟩

/-! ### Result of sorting -/

/-- The two possible outcomes. -/
theorem sort_cases {w : World} {s : Storage} {bases : Bases} {g : Graph} (hg : ExposedGraph w g)
    (hb : ∀ x a, (a, x) ∉ bases x) (pick : Pick) (hp : PicksTop w.loc pick) (nodes : List Nat)
    (hn : nodes.Perm g.nodes) :
    ∃ st, Sorted w.loc nodes (findPredecessors w bases g (findEnclosingScopes w s g)) st ∧
    ((¬ (∃ x, Steps (Depends w s bases g) x x) ∧ st.result.Perm g.nodes ∧
      declContextsSortedByDependencies w bases pick nodes g (findEnclosingScopes w s g) =
        (st.result, none)) ∨
     ((∃ x, Steps (Depends w s bases g) x x) ∧ ∃ c, c ∈ st.successors.map (·.1) ∧
      (∀ x ∈ st.successors.map (·.1), w.loc c ≤ w.loc x) ∧
      declContextsSortedByDependencies w bases pick nodes g (findEnclosingScopes w s g) =
        ([], some c))) := by
  refine ⟨_, sorting w.loc pick hp nodes _ (hn.nodup_iff.2 hg.nodup), ?_⟩
  have hs := sorting w.loc pick hp nodes (findPredecessors w bases g (findEnclosingScopes w s g))
    (hn.nodup_iff.2 hg.nodup)
  have hdg := dependencyGraph (s := s) (bases := bases) hg nodes hn
  have hk := keys_empty hdg hs
  have hcy := cyclic_iff (s := s) (bases := bases) hg nodes hn
  unfold declContextsSortedByDependencies lexicographicalTopologicalSort
  dsimp only
  generalize sortLoop pick (nodes.length + 1) (nodes.foldl (countPredecessors
    (findPredecessors w bases g (findEnclosingScopes w s g))) {}) = st at hs hk ⊢
  by_cases hc : ∃ x, Steps (Depends w s bases g) x x
  · refine .inr ⟨hc, ?_⟩
    have hne : ¬ st.successors.isEmpty = true := fun h => hk.1 h (hcy.2 hc)
    have hne' : st.successors.map (·.1) ≠ [] := by
      intro h; apply hne; rw [List.isEmpty_iff]; simpa using h
    obtain ⟨p1, p2⟩ := hp st.result.length (st.ready ++ st.successors.map (·.1)) (by
      rw [hs.done]; exact hne')
    rw [if_neg hne]
    rw [hs.done, List.nil_append] at p1 p2 ⊢
    refine ⟨_, p1, p2, ?_⟩
    have hlen := result_short hdg hs (fun x hx hxp =>
      depends_irrefl hg hb x ((mem_findPredecessors hg x x (hn.mem_iff.1 hx)).1 hxp)) (hcy.2 hc)
    rw [hn.length_eq] at hlen
    rw [if_pos (by rw [List.length_append, List.length_singleton]; omega)]
    simp
  · refine .inl ⟨hc, ?_⟩
    have hall := result_all hdg hs (fun h => hc (hcy.1 h))
    have he : st.successors.isEmpty = true := hk.2 (fun h => hc (hcy.1 h))
    rw [if_pos he]
    have hp' := hall.trans hn
    refine ⟨hp', ?_⟩
    rw [if_neg (by rw [hp'.length_eq]; simp)]

/-! ### Uniqueness -/

theorem greedy_least (loc : Nat → Nat) (nodes : List Nat) (preds : Nat → List Nat)
    (hinj : ∀ x ∈ nodes, ∀ y ∈ nodes, loc x = loc y → x = y) (r o : List Nat)
    (hr : r.Perm nodes) (ho : o.Perm nodes) (hnd : nodes.Nodup)
    (hgreedy : ∀ pre x post, r = pre ++ x :: post → ∀ y ∈ nodes, y ∉ pre →
      (∀ p ∈ preds y, p ∈ pre) → loc x ≤ loc y)
    (hos : ∀ pre x post, o = pre ++ x :: post → ∀ p ∈ preds x, p ∈ pre) :
    o = r ∨ ∃ pre x y post post', r = pre ++ x :: post ∧ o = pre ++ y :: post' ∧
      loc x < loc y := by
  have main : ∀ (a b pre : List Nat), r = pre ++ a → o = pre ++ b → o = r ∨
      ∃ pre x y post post', r = pre ++ x :: post ∧ o = pre ++ y :: post' ∧ loc x < loc y := by
    intro a
    induction a with
    | nil =>
      intro b pre h1 h2
      have := hr.length_eq.trans ho.length_eq.symm
      rw [h1, h2] at this
      have hb : b = [] := by
        cases b with
        | nil => rfl
        | cons _ _ => simp at this
      subst hb
      exact .inl (h2.trans h1.symm)
    | cons x a ih =>
      intro b pre h1 h2
      cases b with
      | nil =>
        have := hr.length_eq.trans ho.length_eq.symm
        rw [h1, h2] at this
        simp at this
      | cons y b =>
        by_cases hxy : x = y
        · subst hxy
          exact ih b (pre ++ [x]) (by rw [h1]; simp) (by rw [h2]; simp)
        · right
          refine ⟨pre, x, y, a, b, h1, h2, ?_⟩
          have hyN : y ∈ nodes := ho.mem_iff.1 (by rw [h2]; simp)
          have hxN : x ∈ nodes := hr.mem_iff.1 (by rw [h1]; simp)
          have hond := ho.nodup_iff.2 hnd
          rw [h2] at hond
          have hy : y ∉ pre := fun h => (List.nodup_append.1 hond).2.2 y h y (by simp) rfl
          have hle := hgreedy pre x a h1 y hyN hy (hos pre y b h2)
          rcases Nat.lt_or_eq_of_le hle with h | h
          · exact h
          · exact absurd (hinj x hxN y hyN h) hxy
  exact main r o [] rfl rfl

theorem left_iff {loc : Nat → Nat} {nodes : List Nat} {preds : Nat → List Nat} {s : Sorting}
    (hg : DependencyGraph nodes preds) (h : Sorted loc nodes preds s) (x : Nat) :
    Left nodes s x ↔ x ∈ nodes ∧ ∃ c, DependsOn preds c c ∧ (c = x ∨ DependsOn preds c x) := by
  constructor
  · intro hx
    obtain ⟨c, _, h2, h3⟩ := cycle_above preds nodes (Left nodes s) (left_pred hg h) x hx
    exact ⟨hx.1, c, h2, h3⟩
  · rintro ⟨hx, c, hc, rfl | hcx⟩
    · exact ⟨hx, cycle_left h c hc⟩
    · refine ⟨hx, fun hR => ?_⟩
      obtain ⟨pre, post, he⟩ := List.append_of_mem hR
      have := listed_deps h c x hcx pre post he
      exact cycle_left h c hc (by rw [he]; simp [this])

end Verif
