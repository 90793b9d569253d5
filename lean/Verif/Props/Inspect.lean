import Verif.Model.Inspect
import Verif.Props.Processing
import Verif.Lemmas.Sorting
/-!
# C64: what `--dump-graph` shows
-/
namespace Verif
open Spec

/-- Indentation of a line. -/
def DumpLine.depth (l : DumpLine) : Nat := l.columns.length

theorem dumpChildren_mono (g : Graph) (vis : Visibilities) (label : Nat → Str) :
    ∀ (n m : Nat) (columns : List Bool) (cs : List Nat) (ls : List DumpLine), n ≤ m →
      dumpChildren g vis label n columns cs = some ls → dumpChildren g vis label m columns cs = some ls
  | 0, _, _, _, _, _, h => by cases h
  | n + 1, 0, _, _, _, hle, _ => by omega
  | n + 1, m + 1, columns, [], ls, _, h => h
  | n + 1, m + 1, columns, c :: cs, ls, hle, h => by
    rw [dumpChildren] at h ⊢
    cases h1 : dumpChildren g vis label n (columns ++ [cs.isEmpty]) (g.children c) with
    | none => rw [h1] at h; cases h
    | some below =>
      cases h2 : dumpChildren g vis label n columns cs with
      | none => rw [h1, h2] at h; cases h
      | some rest =>
        rw [h1, h2] at h
        rw [dumpChildren_mono g vis label n m _ _ below (by omega) h1,
          dumpChildren_mono g vis label n m _ _ rest (by omega) h2]
        exact h

theorem below_first {g : Graph} {a x : Nat} (h : Below g a x) : x = a ∨ ∃ c, Edge g a c ∧ Below g c x := by
  induction h with
  | self => exact .inl rfl
  | @step p x hp hE ih =>
    rcases ih with rfl | ⟨c, hc, hb⟩
    · exact .inr ⟨x, hE, .self⟩
    · exact .inr ⟨c, hc, .step hb hE⟩

/-- Number of nodes that are deeper. -/
private def deeper (g : Graph) (d : Nat → Nat) (x : Nat) : Nat := g.nodes.countP fun y => decide (d x < d y)

private theorem deeper_lt {g : Graph} {d : Nat → Nat} {p x : Nat} (h : d p < d x) (hx : x ∈ g.nodes) :
    deeper g d x < deeper g d p := by
  unfold deeper
  have mono : ∀ l : List Nat, l.countP (fun y => decide (d x < d y)) ≤ l.countP (fun y => decide (d p < d y)) := by
    intro l
    refine List.countP_mono_left fun y _ hy => ?_
    simp only [decide_eq_true_eq] at hy ⊢
    omega
  generalize g.nodes = l at hx
  induction l with
  | nil => cases hx
  | cons a l ih =>
    rw [List.countP_cons, List.countP_cons]
    rcases List.mem_cons.1 hx with e | h'
    · subst e
      have := mono l
      simp [h]
      omega
    · have := ih h'
      have : (if decide (d x < d a) = true then 1 else 0) ≤ (if decide (d p < d a) = true then 1 else 0) := by
        by_cases h1 : d x < d a
        · have : d p < d a := by omega
          simp [h1, this]
        · simp [h1]
      omega

/-- The dump ends. -/
theorem dumpChildren_total {g : Graph} (hf : Forest g) (vis : Visibilities) (label : Nat → Str)
    (columns : List Bool) (cs : List Nat) (hcs : ∀ c ∈ cs, Reachable g c) :
    ∃ n ls, dumpChildren g vis label n columns cs = some ls := by
  obtain ⟨d, hd⟩ := reachable_depth hf
  have key : ∀ k (columns : List Bool) (cs : List Nat), (∀ c ∈ cs, Reachable g c ∧ deeper g d c < k) →
      ∃ n ls, dumpChildren g vis label n columns cs = some ls := by
    intro k
    induction k with
    | zero =>
      intro columns cs h
      cases cs with
      | nil => exact ⟨1, [], rfl⟩
      | cons c cs => exact absurd (h c (by simp)).2 (by omega)
    | succ k ih =>
      intro columns cs
      induction cs generalizing columns with
      | nil => exact fun _ => ⟨1, [], rfl⟩
      | cons c cs ihc =>
        intro h
        obtain ⟨hr, hk⟩ := h c (by simp)
        obtain ⟨n1, below, h1⟩ := ih (columns ++ [cs.isEmpty]) (g.children c) fun x hx =>
          have hxr : Reachable g x := .step hr trivial hx
          ⟨hxr, Nat.lt_of_lt_of_le (deeper_lt (hd c x hxr hx) (hf.child c x hx)) (by omega)⟩
        obtain ⟨n2, rest, h2⟩ := ihc columns fun x hx => h x (List.mem_cons_of_mem _ hx)
        refine ⟨max n1 n2 + 1, (⟨c, columns, cs.isEmpty, label c, vis c⟩ : DumpLine) :: below ++ rest, ?_⟩
        rw [dumpChildren, dumpChildren_mono g vis label n1 (max n1 n2) _ _ below (by omega) h1,
          dumpChildren_mono g vis label n2 (max n1 n2) _ _ rest (by omega) h2]
  exact key (g.nodes.length + 1) columns cs fun c hc => ⟨hcs c hc, by
    have : deeper g d c ≤ g.nodes.length := List.countP_le_length
    omega⟩

/-- The lines for the children of a node. -/
theorem dumpChildren_cons {g : Graph} {vis : Visibilities} {label : Nat → Str} {n : Nat}
    {columns : List Bool} {c : Nat} {cs : List Nat} {ls : List DumpLine}
    (h : dumpChildren g vis label (n + 1) columns (c :: cs) = some ls) :
    ∃ below rest, dumpChildren g vis label n (columns ++ [cs.isEmpty]) (g.children c) = some below ∧
      dumpChildren g vis label n columns cs = some rest ∧
      ls = { node := c, columns, isLast := cs.isEmpty, label := label c, description := vis c } ::
        below ++ rest := by
  rw [dumpChildren] at h
  cases h1 : dumpChildren g vis label n (columns ++ [cs.isEmpty]) (g.children c) with
  | none => rw [h1] at h; cases h
  | some below =>
    cases h2 : dumpChildren g vis label n columns cs with
    | none => rw [h1, h2] at h; cases h
    | some rest =>
      rw [h1, h2] at h
      exact ⟨below, rest, rfl, rfl, (Option.some.inj h).symm⟩

theorem dumpChildren_line (g : Graph) (vis : Visibilities) (label : Nat → Str) :
    ∀ (n : Nat) (columns : List Bool) (cs : List Nat) (ls : List DumpLine),
      dumpChildren g vis label n columns cs = some ls →
      ∀ l ∈ ls, l.label = label l.node ∧ l.description = vis l.node ∧ columns.length ≤ l.depth
  | 0, _, _, _, h => by cases h
  | n + 1, columns, [], ls, h => by cases h; simp
  | n + 1, columns, c :: cs, ls, h => by
    obtain ⟨below, rest, h1, h2, rfl⟩ := dumpChildren_cons h
    intro l hl
    rw [List.cons_append, List.mem_cons, List.mem_append] at hl
    rcases hl with rfl | hl | hl
    · exact ⟨rfl, rfl, Nat.le_refl _⟩
    · obtain ⟨a, b, c⟩ := dumpChildren_line g vis label n _ _ _ h1 l hl
      rw [List.length_append, List.length_singleton] at c
      exact ⟨a, b, by omega⟩
    · exact dumpChildren_line g vis label n _ _ _ h2 l hl

theorem dumpChildren_nodes (g : Graph) (vis : Visibilities) (label : Nat → Str) (x : Nat) :
    ∀ (n : Nat) (columns : List Bool) (cs : List Nat) (ls : List DumpLine),
      dumpChildren g vis label n columns cs = some ls →
      (x ∈ ls.map (·.node) ↔ ∃ c ∈ cs, Below g c x)
  | 0, _, _, _, h => by cases h
  | n + 1, columns, [], ls, h => by cases h; simp
  | n + 1, columns, c :: cs, ls, h => by
    obtain ⟨below, rest, h1, h2, rfl⟩ := dumpChildren_cons h
    have ih1 := dumpChildren_nodes g vis label x n _ _ _ h1
    have ih2 := dumpChildren_nodes g vis label x n _ _ _ h2
    rw [List.cons_append, List.map_cons, List.map_append, List.mem_cons, List.mem_append, ih1, ih2]
    constructor
    · rintro (rfl | ⟨c', hc', hb⟩ | ⟨c', hc', hb⟩)
      · exact ⟨_, by simp, .self⟩
      · exact ⟨c, by simp, below_trans (.step .self hc') hb⟩
      · exact ⟨c', List.mem_cons_of_mem _ hc', hb⟩
    · rintro ⟨c', hc', hb⟩
      rcases List.mem_cons.1 hc' with rfl | hc'
      · rcases below_first hb with rfl | ⟨c'', hE, hb'⟩
        · exact .inl rfl
        · exact .inr (.inl ⟨c'', hE, hb'⟩)
      · exact .inr (.inr ⟨c', hc', hb⟩)

/-- The closest line above that is indented less. -/
def lineAbove (before : List DumpLine) (l : DumpLine) : Option DumpLine :=
  before.reverse.find? fun k => decide (k.depth < l.depth)

theorem dumpChildren_parent (g : Graph) (vis : Visibilities) (label : Nat → Str) :
    ∀ (n : Nat) (columns : List Bool) (cs : List Nat) (ls : List DumpLine),
      dumpChildren g vis label n columns cs = some ls →
      ∀ before l after, ls = before ++ l :: after →
      match lineAbove before l with
      | some k => Edge g k.node l.node ∧ l.depth = k.depth + 1
      | none => l.node ∈ cs ∧ l.depth = columns.length
  | 0, _, _, _, h => by cases h
  | n + 1, columns, [], ls, h => by
    cases h
    intro before l after he
    simp at he
  | n + 1, columns, c :: cs, ls, h => by
    obtain ⟨below, rest, h1, h2, rfl⟩ := dumpChildren_cons h
    intro before l after he
    rw [List.cons_append] at he
    cases before with
    | nil =>
      rw [List.nil_append, List.cons.injEq] at he
      rw [← he.1]
      exact ⟨by simp, rfl⟩
    | cons b before =>
      rw [List.cons_append, List.cons.injEq] at he
      obtain ⟨rfl, he⟩ := he
      unfold lineAbove
      rw [List.reverse_cons, List.find?_append]
      rcases List.append_eq_append_iff.1 he.symm with ⟨m, hb, hl⟩ | ⟨m, hb, hl⟩
      · -- in `below`, or the first of `rest`
        cases m with
        | nil =>
          have ih := dumpChildren_parent g vis label n _ _ _ h2 [] l after (by simpa using hl.symm)
          have hd := ih.2
          have hnone : before.reverse.find? (fun k => decide (k.depth < l.depth)) = none := by
            rw [List.find?_eq_none]
            intro k hk
            have hk' : k ∈ below := by
              rw [hb]; simpa using hk
            have := (dumpChildren_line g vis label n _ _ _ h1 k hk').2.2
            rw [List.length_append] at this
            simp; omega
          rw [hnone]
          have : ¬ columns.length < l.depth := by omega
          simp only [Option.none_or, List.find?_cons, DumpLine.depth] at this ⊢
          simp only [this, decide_false]
          exact ⟨List.mem_cons_of_mem _ ih.1, ih.2⟩
        | cons a m =>
          rw [List.cons_append, List.cons.injEq] at hl
          obtain ⟨rfl, hl⟩ := hl
          have ih := dumpChildren_parent g vis label n _ _ _ h1 before l m hb
          unfold lineAbove at ih
          cases hf : before.reverse.find? (fun k => decide (k.depth < l.depth)) with
          | some k => rw [hf] at ih; exact ih
          | none =>
            rw [hf] at ih
            obtain ⟨hm, hd⟩ := ih
            rw [List.length_append, List.length_singleton] at hd
            have : columns.length < l.depth := by omega
            simp only [Option.none_or, List.find?_cons, DumpLine.depth] at this ⊢
            simp only [this, decide_true]
            exact ⟨hm, hd⟩
      · have ih := dumpChildren_parent g vis label n _ _ _ h2 m l after hl
        rw [hb]
        unfold lineAbove at ih
        rw [List.reverse_append, List.find?_append]
        cases hf : m.reverse.find? (fun k => decide (k.depth < l.depth)) with
        | some k => rw [hf] at ih; exact ih
        | none =>
          rw [hf] at ih
          obtain ⟨hm, hd⟩ := ih
          have hnone : below.reverse.find? (fun k => decide (k.depth < l.depth)) = none := by
            rw [List.find?_eq_none]
            intro k hk
            have := (dumpChildren_line g vis label n _ _ _ h1 k (by simpa using hk)).2.2
            rw [List.length_append] at this
            simp; omega
          rw [hnone]
          have : ¬ columns.length < l.depth := by omega
          simp only [Option.none_or, List.find?_cons, DumpLine.depth] at this ⊢
          simp only [this, decide_false]
          exact ⟨List.mem_cons_of_mem _ hm, hd⟩

theorem below_comparable {g : Graph} (hf : Forest g) {a b x : Nat} (h : Below g a x) :
    Below g b x → Below g a b ∨ Below g b a := by
  induction h with
  | self => exact fun hb => .inr hb
  | @step p x hp hE ih =>
    intro hb
    rcases (below_parent hf hE).1 hb with h | h
    · subst h; exact .inl (.step hp hE)
    · exact ih h

theorem dumpChildren_nodup {g : Graph} (hf : Forest g) (vis : Visibilities) (label : Nat → Str)
    (d : Nat → Nat) (hd : ∀ p x, Reachable g x → Edge g p x → d p < d x) :
    ∀ (n : Nat) (p : Nat) (columns : List Bool) (cs : List Nat) (ls : List DumpLine),
      dumpChildren g vis label n columns cs = some ls → Reachable g p → (∀ c ∈ cs, Edge g p c) → cs.Nodup →
      (ls.map (·.node)).Nodup
  | 0, _, _, _, _, h => by cases h
  | n + 1, _, columns, [], ls, h => by cases h; simp
  | n + 1, p, columns, c :: cs, ls, h => by
    intro hp hE hnd
    obtain ⟨below, rest, h1, h2, rfl⟩ := dumpChildren_cons h
    have hc : Reachable g c := .step hp trivial (hE c (by simp))
    have ih1 := dumpChildren_nodup hf vis label d hd n c _ _ _ h1 hc (fun x hx => hx) (hf.once c)
    have ih2 := dumpChildren_nodup hf vis label d hd n p _ _ _ h2 hp
      (fun x hx => hE x (List.mem_cons_of_mem _ hx)) (List.nodup_cons.1 hnd).2
    have hle : ∀ a x, Reachable g x → Below g a x → d a ≤ d x := by
      intro a x hx hb
      induction hb with
      | self => exact Nat.le_refl _
      | @step q y hq hE' ih =>
        have := ih (reachable_parent hf hx hE')
        have := hd q y hx hE'
        omega
    -- siblings are not below each other
    have hsib : ∀ a b, Edge g p a → Edge g p b → Below g a b → a = b := by
      intro a b ha hb hab
      rcases (below_parent hf hb).1 hab with h | h
      · exact h.symm
      · have h1 := hle a p hp h
        have h2 := hd p a (.step hp trivial ha) ha
        omega
    rw [List.cons_append, List.map_cons, List.nodup_cons, List.map_append]
    refine ⟨?_, List.nodup_append.2 ⟨ih1, ih2, fun x hx y hy hxy => ?_⟩⟩
    · rw [List.mem_append, dumpChildren_nodes g vis label c n _ _ _ h1,
        dumpChildren_nodes g vis label c n _ _ _ h2]
      rintro (⟨c', hc', hb⟩ | ⟨c', hc', hb⟩)
      · have h1 := hle c' c hc hb
        have h2 := hd c c' (.step hc trivial hc') hc'
        omega
      · have := hsib c' c (hE c' (List.mem_cons_of_mem _ hc')) (hE c (by simp)) hb
        subst this
        exact (List.nodup_cons.1 hnd).1 hc'
    · subst hxy
      obtain ⟨c1, hc1, hb1⟩ := (dumpChildren_nodes g vis label x n _ _ _ h1).1 hx
      obtain ⟨c2, hc2, hb2⟩ := (dumpChildren_nodes g vis label x n _ _ _ h2).1 hy
      have hE2 := hE c2 (List.mem_cons_of_mem _ hc2)
      have hEc := hE c (by simp)
      have : c = c2 := (below_comparable hf (below_trans (.step .self hc1) hb1) hb2).elim
        (hsib c c2 hEc hE2) (fun h => (hsib c2 c hE2 hEc h).symm)
      subst this
      exact (List.nodup_cons.1 hnd).1 hc2

/-- C64: the dump ends, and shows every reachable context exactly once, with the given
visibility; the closest line above that is indented less is the context it is placed in. -/
theorem C64_dump (g : Graph) (hf : Forest g) (vis : Visibilities) (label : Nat → Str) :
    ∃ steps ls, dumpGraph g vis label steps = some ls ∧
      (∀ m ls', dumpGraph g vis label m = some ls' → ls' = ls) ∧
      (ls.map (·.node)).Nodup ∧
      (∀ x, x ∈ ls.map (·.node) ↔ Reachable g x ∧ x ≠ g.root) ∧
      (∀ l ∈ ls, l.label = label l.node ∧ l.description = vis l.node) ∧
      (∀ before l after, ls = before ++ l :: after →
        match lineAbove before l with
        | some k => Edge g k.node l.node ∧ l.depth = k.depth + 1
        | none => Edge g g.root l.node ∧ l.depth = 0) := by
  obtain ⟨n, ls, h⟩ := dumpChildren_total hf vis label [] (g.children g.root)
    fun c hc => .step .root trivial hc
  obtain ⟨d, hd⟩ := reachable_depth hf
  refine ⟨n, ls, h, fun m ls' h' => ?_, ?_, fun x => ?_, fun l hl => ?_, ?_⟩
  · have e1 := dumpChildren_mono g vis label n (max n m) _ _ _ (by omega) h
    have e2 := dumpChildren_mono g vis label m (max n m) _ _ _ (by omega) h'
    rw [e1] at e2
    exact (Option.some.inj e2).symm
  · exact dumpChildren_nodup hf vis label d hd n g.root _ _ _ h .root (fun c hc => hc) (hf.once _)
  · rw [dumpChildren_nodes g vis label x n _ _ _ h]
    constructor
    · rintro ⟨c, hc, hb⟩
      refine ⟨reachable_of_below (.step .root trivial hc) hb, ?_⟩
      rintro rfl
      have := below_root hf hb
      subst this
      exact hf.root_top _ hc
    · rintro ⟨hx, hne⟩
      rcases below_first (root_above hx) with h | ⟨c, hE, hb⟩
      · exact absurd h hne
      · exact ⟨c, hE, hb⟩
  · obtain ⟨a, b, _⟩ := dumpChildren_line g vis label n _ _ _ h l hl
    exact ⟨a, b⟩
  · exact dumpChildren_parent g vis label n _ _ _ h

theorem mapM_describe (ls : List DumpLine) (h : ∀ l ∈ ls, ∃ b, l.description = some b) :
    ls.mapM (fun l => l.description.map fun b => '\n' :: l.text b) =
      some (ls.map fun l => '\n' :: l.text (l.description.getD false)) := by
  induction ls with
  | nil => rfl
  | cons l ls ih =>
    obtain ⟨b, hb⟩ := h l (by simp)
    rw [List.mapM_cons, ih fun k hk => h k (List.mem_cons_of_mem _ hk), hb]
    simp [hb]

/-- The text for lines `ls`: the title, then every line after a newline. -/
def dumpedText (g : Graph) (title : Str) (ls : List DumpLine) : Str :=
  title ++ (ls.map fun l => '\n' :: l.text (l.description.getD false)).flatten ++ t%"\n" ++
    (if g.nodes.length = 1 then t%"<no children>\n" else [])

/-- C64: before pruning, every reachable context is described by its effective visibility; no
visibility is missing, so the text is well defined. -/
theorem C64_visibility (w : World) (s : Storage) (g : Graph) (hg : ContextGraph w g) (label : Nat → Str)
    (title : Str) (steps : Nat) (ls : List DumpLine)
    (h : dumpGraph g (deriveEffectiveVisibility w s g) label steps = some ls) :
    (∀ l ∈ ls, (l.description = some true ↔ EffVisible w s g l.node) ∧
      (l.description = some false ↔ ¬ EffVisible w s g l.node)) ∧
    dumpText g title ls = some (dumpedText g title ls) := by
  obtain ⟨_, ls', _, hu, _, hr, hd, _⟩ := C64_dump g hg.toForest (deriveEffectiveVisibility w s g) label
  have := hu steps ls h
  subst this
  have hline : ∀ l ∈ ls, (l.description = some true ↔ EffVisible w s g l.node) ∧
      (l.description = some false ↔ ¬ EffVisible w s g l.node) := by
    intro l hl
    have hre := ((hr l.node).1 (List.mem_map.2 ⟨l, hl, rfl⟩)).1
    obtain ⟨h1, h2, _⟩ := C23_visibility w s g hg l.node
    rw [(hd l hl).2]
    exact ⟨h1, h2.trans ⟨(·.2), fun h => ⟨hre, h⟩⟩⟩
  refine ⟨hline, ?_⟩
  unfold dumpText
  rw [mapM_describe]
  · rfl
  · intro l hl
    by_cases hv : EffVisible w s g l.node
    · exact ⟨_, (hline l hl).1.2 hv⟩
    · exact ⟨_, (hline l hl).2.2 hv⟩

/-- C64: after pruning, exactly the contexts that will be exposed are shown, with their effective
visibility; `<no children>` is printed iff there are none. -/
theorem C64_pruned (w : World) (s : Storage) (m : Members) (moduleName : Str) (g : Graph)
    (hg : ContextGraph w g) (label : Nat → Str) (title : Str) :
    let a := analyze w s m moduleName g
    ∃ steps ls, dumpGraph a.pruned a.vis label steps = some ls ∧
      (∀ x, x ∈ ls.map (·.node) ↔ x ∈ a.pruned.nodes ∧ x ≠ g.root) ∧
      (∀ l ∈ ls, (l.description = some true ↔ EffVisible w s g l.node) ∧
        (l.description = some false ↔ ¬ EffVisible w s g l.node)) ∧
      dumpText a.pruned title ls = some (dumpedText a.pruned title ls) ∧
      (a.pruned.nodes.length = 1 ↔ ls = []) := by
  intro a
  obtain ⟨hcg, hroot, hedge, hreach⟩ := C26_places w s m moduleName g hg
  obtain ⟨n, ls, h, _, _, hr, hd, _⟩ := C64_dump a.pruned hcg.toForest a.vis label
  have hnodes : ∀ x, x ∈ ls.map (·.node) ↔ x ∈ a.pruned.nodes ∧ x ≠ g.root := by
    intro x
    rw [hr, ← hreach x, hroot]
  have hline : ∀ l ∈ ls, (l.description = some true ↔ EffVisible w s g l.node) ∧
      (l.description = some false ↔ ¬ EffVisible w s g l.node) := by
    intro l hl
    obtain ⟨hm, hne⟩ := (hnodes l.node).1 (List.mem_map.2 ⟨l, hl, rfl⟩)
    have hx : Reachable g l.node ∧ ¬ InOther w s moduleName g l.node := by
      rcases hcg.node_kind l.node hm (by rw [hroot]; exact hne) with hk | hk
      · obtain ⟨a, b, _⟩ := (C26_namespaces w s m moduleName g hg l.node hk).1 hm
        exact ⟨a, b⟩
      · obtain ⟨a, b, _⟩ := (C26_types w s m moduleName g hg l.node hk).1 hm
        exact ⟨a, b⟩
    have hv : a.vis l.node = deriveEffectiveVisibility w s g l.node :=
      ((C24_hides_exactly w s moduleName g hg _ _ l.node hx.1).2 hx.2).2
    obtain ⟨h1, h2, _⟩ := C23_visibility w s g hg l.node
    rw [(hd l hl).2, hv]
    exact ⟨h1, h2.trans ⟨(·.2), fun h => ⟨hx.1, h⟩⟩⟩
  refine ⟨n, ls, h, hnodes, hline, ?_, ?_⟩
  · unfold dumpText
    rw [mapM_describe]
    · rfl
    · intro l hl
      by_cases hv : EffVisible w s g l.node
      · exact ⟨_, (hline l hl).1.2 hv⟩
      · exact ⟨_, (hline l hl).2.2 hv⟩
  · have hr' : g.root ∈ a.pruned.nodes := hroot ▸ hcg.root
    constructor
    · intro h1
      cases ls with
      | nil => rfl
      | cons l ls =>
        obtain ⟨hm, hne⟩ := (hnodes l.node).1 (by simp)
        obtain ⟨y, hy⟩ := List.length_eq_one_iff.1 h1
        rw [hy, List.mem_singleton] at hm hr'
        exact absurd (hm.trans hr'.symm) hne
    · rintro rfl
      have hnd : a.pruned.nodes.Nodup := prune_nodup hg.toForest _ _
      generalize a.pruned.nodes = l at *
      have hall : ∀ x ∈ l, x = g.root := by
        intro x hx
        false_or_by_contra
        rename_i hne
        exact absurd ((hnodes x).2 ⟨hx, hne⟩) (by simp)
      cases l with
      | nil => cases hr'
      | cons x l =>
        cases l with
        | nil => rfl
        | cons y l =>
          have h1 := hall x (by simp)
          have h2 := hall y (by simp)
          subst h1
          simp [h2] at hnd

/-- The name in Python of a declaration with these attributes. -/
inductive NamedAs (d : DeclInfo) (a : DeclAttrs) : Str → Prop where
  | given : a.named.spelling ≠ [] → NamedAs d a a.named.spelling
  | derived : a.named.spelling = [] → NamedAs d a (getSpelling d)

/-- C64: a context is described by its kind and name in C++, and its name in Python if it
has annotations and its name is a different one. -/
theorem C64_label (w : World) (kindName display : Nat → Str) (s : Storage) (x : Nat) :
    ((w.info x).kind.isNamed = false → nodeLabel w kindName display s x = kindName x) ∧
    ((w.info x).kind.isNamed = true →
      let own := kindName x ++ t%" '" ++ display x ++ t%"'"
      (s.entries x = none → nodeLabel w kindName display s x = own) ∧
      ∀ a n, s.entries x = some a → NamedAs (w.info x) a n →
        (n = (w.info x).name → nodeLabel w kindName display s x = own) ∧
        (n ≠ (w.info x).name → nodeLabel w kindName display s x = own ++ t%" as '" ++ n ++ t%"'")) := by
  unfold nodeLabel
  refine ⟨fun h => by simp [h], fun h => ⟨fun he => by simp [h, he], fun a n he hn => ?_⟩⟩
  have hs : (if a.named.spelling.isEmpty then getSpelling (w.info x) else a.named.spelling) = n := by
    cases hn with
    | given h => simp [h]
    | derived h => simp [h]
  simp only [h, he, hs]
  exact ⟨fun e => by simp [e], fun e => by simp [e]⟩

/-- A class `S` annotated with `expose_as(T)`. -/
example : let w : World := { exVis with info := fun _ => { kind := .record, name := t%"S" } }
    let s : Storage := { entries := fun _ => some { named := { spelling := t%"T" } }, size := 1 }
    nodeLabel w (fun _ => t%"CXXRecord") (fun _ => t%"S") s 5 = t%"CXXRecord 'S' as 'T'" ∧
    NamedAs (w.info 5) { named := { spelling := t%"T" } } t%"T" :=
  ⟨by decide +kernel, .given (by decide)⟩

/-- The dump of the graph of the example for C23. -/
example : ((dumpGraph exVisGraph (fun x => some (x = 1 || x = 4)) (fun _ => t%"X") 9).bind
    (dumpText exVisGraph t%"Title")).map (String.ofList ·) = some "Title
`-X: visible
  |-X: hidden
  | `-X: hidden
  |-X: visible
  | `-X: hidden
  `-X: hidden
    `-X: hidden
" := by decide +kernel

end Verif
