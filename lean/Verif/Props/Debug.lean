import Verif.Spec.Debug
import Verif.Props.Inspect
import Verif.Props.Options
import Verif.Props.Run
/-!
# C101: options for debugging
-/
namespace Verif
open Spec

/-- C101: the styles of a context tell what its own annotations say about its visibility, and whether it
is a namespace or the translation unit. -/
theorem C101_style (w : World) (s : Storage) (x : Nat) (hu : (w.info x).kind.isNamed = false → s.entries x = none) :
    (t%"dashed" ∈ stylesIn (dotAttributes w s x) ↔ explicit s x = some false) ∧
    (t%"dotted" ∈ stylesIn (dotAttributes w s x) ↔ Undecided w s x) ∧
    (t%"bold" ∈ stylesIn (dotAttributes w s x) ↔
      (w.info x).kind = .translationUnit ∨ (w.info x).kind = .namespace) ∧
    (t%"shape=diamond" ∈ attributesAfter (dotAttributes w s x) ↔ (w.info x).kind = .translationUnit) := by
  have key : ∀ (v : Option (Option Bool)) (k : DeclKind),
      let text := t%"style=\"" ++
        (match v with
          | some none => t%"dotted"
          | some (some false) => t%"dashed"
          | some (some true) => []
          | none => []) ++
        (if k = .translationUnit then t%",filled,bold\",shape=diamond,fillcolor=Seashell2"
         else if k = .namespace then t%",filled,bold\",fillcolor=Seashell1" else t%"\"")
      (t%"dashed" ∈ stylesIn text ↔ v = some (some false)) ∧ (t%"dotted" ∈ stylesIn text ↔ v = some none) ∧
      (t%"bold" ∈ stylesIn text ↔ k = .translationUnit ∨ k = .namespace) ∧
      (t%"shape=diamond" ∈ attributesAfter text ↔ k = .translationUnit) := by
    intro v k
    by_cases h1 : k = .translationUnit
    · subst h1
      rcases v with _ | _ | b
      · decide +kernel
      · decide +kernel
      · cases b <;> decide +kernel
    · by_cases h2 : k = .namespace
      · subst h2
        rcases v with _ | _ | b
        · decide +kernel
        · decide +kernel
        · cases b <;> decide +kernel
      · simp only [h1, h2, if_false, or_self, iff_false]
        rcases v with _ | _ | b
        · decide +kernel
        · decide +kernel
        · cases b <;> decide +kernel
  have := key ((getNamed w s x).map (·.visible)) (w.info x).kind
  have he : dotAttributes w s x = t%"style=\"" ++
        (match (getNamed w s x).map (·.visible) with
          | some none => t%"dotted"
          | some (some false) => t%"dashed"
          | some (some true) => []
          | none => []) ++
        (if (w.info x).kind = .translationUnit then t%",filled,bold\",shape=diamond,fillcolor=Seashell2"
         else if (w.info x).kind = .namespace then t%",filled,bold\",fillcolor=Seashell1" else t%"\"") := by
    unfold dotAttributes
    cases getNamed w s x with
    | none => rfl
    | some a =>
      simp only [Option.map_some]
      rcases a.visible with _ | b
      · rfl
      · cases b <;> rfl
  rw [he]
  refine ⟨this.1.trans ?_, this.2.1.trans ?_, this.2.2⟩
  · unfold getNamed explicit
    cases hk : (w.info x).kind.isNamed with
    | true => cases s.entries x <;> simp
    | false => simp [hu hk]
  · unfold getNamed Undecided
    cases hk : (w.info x).kind.isNamed with
    | true => cases s.entries x <;> simp
    | false => simp

theorem explicit_hides {w : World} {s : Storage} {g : Graph} {x : Nat} (h : explicit s x = some false) :
    ¬ EffVisible w s g x := by
  intro hv
  cases hv with
  | explicit _ _ he => rw [h] at he; cases he
  | inherited _ _ he => rw [h] at he; cases he

/-- C101, in part: contexts with dashed lines are hidden.  Contexts with dotted or solid lines are
visible in some cases and hidden in others, see `C101_ambiguous`. -/
theorem C101_hidden_partial (w : World) (s : Storage) (g : Graph) (x : Nat)
    (hu : (w.info x).kind.isNamed = false → s.entries x = none)
    (h : t%"dashed" ∈ stylesIn (dotAttributes w s x)) : ¬ EffVisible w s g x :=
  explicit_hides (((C101_style w s x hu).1).1 h)

/-- C101: dotted lines, or solid ones, do not tell whether a context is visible.  In the example for C23, 2 is
a class that is visible because the namespace it is in is, 3 is private, and both are shown in the same
way, as is class 7, which is annotated with `visible`. -/
theorem C101_ambiguous :
    dotAttributes exVis exVisStorage 2 = dotAttributes exVis exVisStorage 3 ∧
    dotAttributes exVis exVisStorage 7 = dotAttributes exVis exVisStorage 3 ∧
    EffVisible exVis exVisStorage exVisGraph 2 ∧ EffVisible exVis exVisStorage exVisGraph 7 ∧
    ¬ EffVisible exVis exVisStorage exVisGraph 3 := by
  have r1 : Reachable exVisGraph 1 := .step .root trivial (by simp [Edge, exVisGraph])
  have e1 : EffVisible exVis exVisStorage exVisGraph 1 := .explicit r1 (by decide) rfl
  refine ⟨by decide +kernel, by decide +kernel, .inherited e1 (by simp [Edge, exVisGraph]) rfl (by decide) (by decide),
    .explicit (.step (.step r1 trivial (p := 1) (c := 6) (by simp [Edge, exVisGraph])) trivial (by simp [Edge, exVisGraph])) (by decide) rfl, ?_⟩
  intro h
  cases h with
  | explicit _ _ he => cases he
  | inherited _ _ _ hp => exact hp rfl

/-- C101: the view contains all nodes of the graph, once, and the edges of the graph.  The translation unit
is shown as `*`, and everything else by its name in C++, with the name given by annotations. -/
theorem C101_view (w : World) (kindName display : Nat → Str) (s : Storage) (g : Graph) (hg : ContextGraph w g)
    (nodes : List Nat) (hn : nodes.Perm g.nodes) (hd : g.nodes.Nodup) :
    let l := viewGraph w kindName display s g nodes
    (l.map (·.node)).Nodup ∧ (∀ x, x ∈ l.map (·.node) ↔ x ∈ g.nodes) ∧
    ∀ n ∈ l, (∀ y, y ∈ n.edges ↔ Edge g n.node y) ∧ n.attributes = dotAttributes w s n.node ∧
      (n.node = g.root → n.label = t%"*" ∧ n.description = []) ∧
      (n.node ≠ g.root → display n.node ≠ [] → n.label = display n.node) ∧
      (n.node ≠ g.root → display n.node = [] → n.label = t%"<" ++ kindName n.node ++ t%">") ∧
      (n.node ≠ g.root → ∀ a, s.entries n.node = some a → n.description = a.named.spelling) := by
  intro l
  have hm : l.map (·.node) = nodes := by
    show (nodes.map _).map _ = nodes
    simp [List.map_map, Function.comp_def]
  rw [hm]
  refine ⟨hn.nodup_iff.2 hd, fun x => hn.mem_iff, fun n hn' => ?_⟩
  obtain ⟨x, hx, rfl⟩ := List.mem_map.1 hn'
  have hkind : x ≠ g.root → (w.info x).kind ≠ .translationUnit ∧ (w.info x).kind.isNamed = true := by
    intro hne
    rcases hg.node_kind x (hn.mem_iff.1 hx) hne with h | h | h <;> rw [h] <;> decide
  refine ⟨fun y => Iff.rfl, rfl, ?_, ?_, ?_, ?_⟩
  · rintro rfl
    refine ⟨by simp [dotLabel], ?_⟩
    simp [dotDescription, getNamed, hg.root_kind, DeclKind.isNamed]
  · intro hne hdis
    have h2 : (display x).isEmpty = false := by
      cases h : display x with
      | nil => exact absurd h hdis
      | cons => rfl
    have h1 := (hkind hne).1
    have h0 : x ≠ g.root := hne
    simp only [dotLabel, h0, h1, h2, if_false, Bool.false_eq_true]
  · intro hne hdis
    have h1 := (hkind hne).1
    have h0 : x ≠ g.root := hne
    have h2 : display x = [] := hdis
    simp only [dotLabel, h0, h1, h2, if_false, List.isEmpty_nil, if_true]
  · intro hne a ha
    have h1 := (hkind hne).2
    have ha : s.entries x = some a := ha
    simp [dotDescription, getNamed, h1, ha]

theorem parseSettings_append (l r : List Str) :
    ∀ x, parseSettings l = some x → parseSettings (l ++ r) = (parseSettings r).map (x ++ ·) := by
  have hmm : ∀ (o : Option (List Setting)) (s : Setting) (y : List Setting),
      (o.map (y ++ ·)).map (s :: ·) = o.map ((s :: y) ++ ·) := by
    intro o s y
    cases o <;> rfl
  induction l using parseSettings.induct with
  | case1 =>
    intro x hx
    cases hx
    simp
  | case2 arg args hb ih =>
    intro x hx
    rw [parseSettings, hb] at hx
    obtain ⟨y, hy, rfl⟩ := Option.map_eq_some_iff.1 hx
    rw [List.cons_append, parseSettings, hb]
    dsimp only
    rw [ih y hy, hmm]
  | case3 arg args body hb hk =>
    intro x hx
    rw [parseSettings, hb] at hx
    simp only [hk] at hx
    cases hx
  | case4 arg args body hb o hk hf =>
    intro x hx
    rw [parseSettings, hb] at hx
    simp only [hk, hf] at hx
    cases hx
  | case5 arg args body hb o hk on hf ih =>
    intro x hx
    rw [parseSettings, hb] at hx
    simp only [hk, hf] at hx
    obtain ⟨y, hy, rfl⟩ := Option.map_eq_some_iff.1 hx
    rw [List.cons_append, parseSettings, hb]
    simp only [hk, hf]
    rw [ih y hy, hmm]
  | case6 arg args body hb o text ht hk ha ih =>
    intro x hx
    rw [parseSettings, hb] at hx
    simp only [hk, ht, ha, if_true] at hx
    obtain ⟨y, hy, rfl⟩ := Option.map_eq_some_iff.1 hx
    rw [List.cons_append, parseSettings, hb]
    simp only [hk, ht, ha, if_true]
    rw [ih y hy, hmm]
  | case7 arg args body hb o text ht hk ha =>
    intro x hx
    rw [parseSettings, hb] at hx
    simp only [hk, ht, ha] at hx
    cases hx
  | case8 arg body hb o ht hk =>
    intro x hx
    rw [parseSettings, hb] at hx
    simp only [hk, ht] at hx
    cases hx
  | case9 arg body hb o ht hk text args ha ih =>
    intro x hx
    rw [parseSettings, hb] at hx
    simp only [hk, ht, ha, if_true] at hx
    obtain ⟨y, hy, rfl⟩ := Option.map_eq_some_iff.1 hx
    rw [List.cons_append, parseSettings, hb]
    simp only [hk, ht, List.cons_append, ha, if_true]
    rw [ih y hy, hmm]
    rfl
  | case10 arg body hb o ht hk text args ha =>
    intro x hx
    rw [parseSettings, hb] at hx
    simp only [hk, ht, ha] at hx
    cases hx

theorem debugging_values (o : ValueOption) (ho : o ≠ .inspectGraph) (ho' : o ≠ .dumpGraph) (ds : List Setting)
    (h : ∀ d ∈ ds, forDebugging d = true) : valuesOf o ds = [] := by
  unfold valuesOf
  rw [List.filterMap_eq_nil_iff]
  intro d hd
  have := h d hd
  cases d with
  | value o' text => cases o <;> cases o' <;> simp_all [forDebugging]
  | flag => rfl
  | source => rfl

theorem debugging_flags (o : FlagOption) (ho : o ≠ .dumpAst) (ds : List Setting)
    (h : ∀ d ∈ ds, forDebugging d = true) : flagsOf o ds = [] := by
  unfold flagsOf
  rw [List.filterMap_eq_nil_iff]
  intro d hd
  have := h d hd
  cases d with
  | value o' text => rfl
  | flag o' on => cases o <;> cases o' <;> simp_all [forDebugging]
  | source => rfl

theorem debugging_sources (ds : List Setting) (h : ∀ d ∈ ds, forDebugging d = true) : sourcesOf ds = [] := by
  unfold sourcesOf
  rw [List.filterMap_eq_nil_iff]
  intro d hd
  have := h d hd
  cases d with
  | value => rfl
  | flag => rfl
  | source => simp [forDebugging] at this

theorem settings_between {before debug own : List Str} {x ds : List Setting}
    (hx : SpelledOut x before) (hds : SpelledOut ds debug) :
    parseSettings (before ++ debug ++ own) = (parseSettings own).map (fun y => x ++ (ds ++ y)) ∧
    parseSettings (before ++ own) = (parseSettings own).map (x ++ ·) := by
  have h1 := (C82_read before x).2 hx
  have h2 := (C82_read debug ds).2 hds
  refine ⟨?_, parseSettings_append before own x h1⟩
  rw [List.append_assoc, parseSettings_append before _ x h1, parseSettings_append debug own ds h2]
  cases parseSettings own <;> rfl

/-- C101: options for debugging, in between other options, do not change what is done. -/
theorem C101_ignored (before debug after : List Str) (x ds : List Setting)
    (hb : t%"--" ∉ before) (hd : t%"--" ∉ debug) (hx : SpelledOut x before) (hds : SpelledOut ds debug)
    (hdebug : ∀ d ∈ ds, forDebugging d = true) (c : CommandLine)
    (hc : parseCommandLine (before ++ debug ++ after) = some c) :
    ∃ c', parseCommandLine (before ++ after) = some c' ∧ SameRequest c c' := by
  obtain ⟨own, tail, rfl, ho, ht⟩ := own_exists after
  obtain ⟨h1, h2⟩ := settings_between (own := own) hx hds
  obtain ⟨a1, a2⟩ := own_args (before ++ debug ++ own) tail (by simp [hb, hd, ho]) ht
  obtain ⟨b1, b2⟩ := own_args (before ++ own) tail (by simp [hb, ho]) ht
  rw [show before ++ debug ++ (own ++ tail) = before ++ debug ++ own ++ tail by simp] at hc
  rw [show before ++ (own ++ tail) = before ++ own ++ tail by simp]
  unfold parseCommandLine at hc ⊢
  rw [a1, h1, a2] at hc
  rw [b1, h2, b2]
  cases hy : parseSettings own with
  | none => rw [hy] at hc; cases hc
  | some y =>
    rw [hy] at hc
    simp only [Option.map_some] at hc ⊢
    have hv : ∀ o, o ≠ .inspectGraph → o ≠ .dumpGraph → valuesOf o (x ++ (ds ++ y)) = valuesOf o (x ++ y) := by
      intro o ho ho'
      have := debugging_values o ho ho' ds hdebug
      unfold valuesOf at this ⊢
      simp only [List.filterMap_append, this, List.nil_append]
    have hf : ∀ o, o ≠ .dumpAst → flagsOf o (x ++ (ds ++ y)) = flagsOf o (x ++ y) := by
      intro o ho
      have := debugging_flags o ho ds hdebug
      unfold flagsOf at this ⊢
      simp only [List.filterMap_append, this, List.nil_append]
    have hs : sourcesOf (x ++ (ds ++ y)) = sourcesOf (x ++ y) := by
      have := debugging_sources ds hdebug
      unfold sourcesOf at this ⊢
      simp only [List.filterMap_append, this, List.nil_append]
    have hast : (flagsOf .dumpAst (x ++ y)).length ≤ (flagsOf .dumpAst (x ++ (ds ++ y))).length := by
      unfold flagsOf
      simp only [List.filterMap_append, List.length_append]
      omega
    rw [hs, hv .moduleName (by decide) (by decide), hv .buildPath (by decide) (by decide),
      hv .output (by decide) (by decide), hv .extraArg (by decide) (by decide),
      hv .extraArgBefore (by decide) (by decide),
      hf .keepOutputFiles (by decide), hf .expectFailure (by decide), hf .verbose (by decide)] at hc
    split at hc
    · cases hc
    · rename_i hlim
      rw [if_neg]
      · split at hc
        · rename_i source hsrc
          refine ⟨_, rfl, ?_⟩
          cases hc
          exact ⟨rfl, rfl, rfl, rfl, rfl, rfl, rfl⟩
        · cases hc
      · intro hbad
        apply hlim
        simp only [Bool.or_eq_true, decide_eq_true_eq] at hbad ⊢
        omega

/-- C101: the outcome of a run is the same with and without options for debugging. -/
theorem C101_run (before debug after : List Str) (x ds : List Setting)
    (hb : t%"--" ∉ before) (hd : t%"--" ∉ debug) (hx : SpelledOut x before) (hds : SpelledOut ds debug)
    (hdebug : ∀ d ∈ ds, forDebugging d = true) (unit : CommandLine → ToolInput)
    (hunit : ∀ c c', SameRequest c c' → unit c = unit c') (files : Files)
    (hc : ∃ c, parseCommandLine (before ++ debug ++ after) = some c) :
    runMain (before ++ debug ++ after) unit files = runMain (before ++ after) unit files := by
  obtain ⟨c, hc⟩ := hc
  obtain ⟨c', hc', hs⟩ := C101_ignored before debug after x ds hb hd hx hds hdebug c hc
  unfold runMain
  rw [hc, hc']
  dsimp only
  rw [← hs.options, hunit c c' hs]

/-- C101: the command line with options for debugging is accepted if the one without them is and
`--dump-ast` is not repeated. -/
theorem C101_accepted (before debug after : List Str) (x ds : List Setting)
    (hb : t%"--" ∉ before) (hd : t%"--" ∉ debug) (hx : SpelledOut x before) (hds : SpelledOut ds debug)
    (hdebug : ∀ d ∈ ds, forDebugging d = true) (hast : ∀ on, Setting.flag .dumpAst on ∉ ds) (c' : CommandLine)
    (hc : parseCommandLine (before ++ after) = some c') :
    ∃ c, parseCommandLine (before ++ debug ++ after) = some c := by
  obtain ⟨own, tail, rfl, ho, ht⟩ := own_exists after
  rw [show before ++ (own ++ tail) = before ++ own ++ tail by simp] at hc
  rw [show before ++ debug ++ (own ++ tail) = before ++ debug ++ own ++ tail by simp]
  obtain ⟨l, source, hl, hal⟩ :=
    ((C82_accepted (before ++ own) tail (by simp [hb, ho]) ht).1).1 ⟨c', hc⟩
  obtain ⟨h1, h2⟩ := settings_between (own := own) hx hds
  have hl' := (C82_read _ _).2 hl
  rw [h2] at hl'
  obtain ⟨y, hy, rfl⟩ := Option.map_eq_some_iff.1 hl'
  rw [hy, Option.map_some] at h1
  refine ((C82_accepted (before ++ debug ++ own) tail (by simp [hb, hd, ho]) ht).1).2
    ⟨_, source, (C82_read _ _).1 h1, ?_⟩
  have hdrop : ∀ p : Setting → Bool, (∀ d ∈ ds, p d = false) →
      (x ++ (ds ++ y)).filter p = (x ++ y).filter p := by
    intro p hp
    have : ds.filter p = [] := List.filter_eq_nil_iff.2 fun d hd => by simp [hp d hd]
    simp [List.filter_append, this]
  have hno : ∀ d ∈ ds, isValueOf .moduleName d = false ∧ isValueOf .buildPath d = false ∧
      (∀ o, isFlagOf o d = false) ∧ isSource d = false := by
    intro d hd'
    have := hdebug d hd'
    cases d with
    | value o text =>
      cases o <;> simp [forDebugging] at this <;> simp [isValueOf, isFlagOf, isSource]
    | flag o on =>
      cases o <;> simp [forDebugging] at this
      exact absurd hd' (hast on)
    | source => simp [forDebugging] at this
  refine ⟨?_, ?_, fun o => ?_, ?_⟩
  · rw [hdrop _ fun d hd => (hno d hd).1]; exact hal.moduleName
  · rw [hdrop _ fun d hd => (hno d hd).2.1]; exact hal.buildPath
  · rw [hdrop _ fun d hd => (hno d hd).2.2.1 o]; exact hal.flags o
  · rw [hdrop _ fun d hd => (hno d hd).2.2.2]; exact hal.source

/-- C101: what is shown.  Nothing but the AST is shown if there are errors in annotations or cycles.
Otherwise, there is a view and a dump for each stage that is asked for: of the graph with all contexts, and
of the one with those contexts that are exposed. -/
theorem C101_shown (c : CommandLine) (i : ToolInput) (d : Display) (steps : Nat) (name : Str) :
    (Shown.ast ∈ debugOutput c i d steps name ↔ c.dumpAst = true) ∧
    ((buildGraph i.world.toWorld i.tree).1 = none → ∀ s ∈ debugOutput c i d steps name, s = .ast) ∧
    ∀ g b, buildGraph i.world.toWorld i.tree = (some g, b) →
      let vis := deriveEffectiveVisibility i.world.toWorld b.storage g
      let p := analyze i.world.toWorld b.storage i.members name g
      let view := fun h => viewGraph i.world.toWorld d.kindName d.name b.storage h (i.iterate h)
      let found := (reportExposeHereCycles i.world.toWorld (i.iterate g) (reachableDeclContexts vis)
        b.relocated).1
      (∀ l, Shown.view l ∈ debugOutput c i d steps name ↔ found = false ∧
        (t%"visibility" ∈ c.inspectGraph ∧ l = view g ∨ t%"pruned" ∈ c.inspectGraph ∧ l = view p.pruned)) ∧
      (∀ text, Shown.dump text ∈ debugOutput c i d steps name ↔ found = false ∧
        (t%"visibility" ∈ c.dumpGraph ∧ text = (dumpGraph g vis
            (nodeLabel i.world.toWorld d.kindName d.name b.storage) steps).bind
            (dumpText g t%"Declaration context graph (unpruned) with visibility of all nodes:") ∨
         t%"pruned" ∈ c.dumpGraph ∧ text = (dumpGraph p.pruned p.vis
            (nodeLabel i.world.toWorld d.kindName d.name b.storage) steps).bind
            (dumpText p.pruned t%"Declaration context graph after pruning:"))) := by
  refine ⟨?_, ?_, ?_⟩
  · unfold debugOutput
    simp only [List.mem_append]
    constructor
    · rintro (h | h)
      · split at h
        · assumption
        · cases h
      · exfalso
        split at h
        · cases h
        · split at h
          · cases h
          · rcases List.mem_append.1 h with h | h <;>
            · unfold inspectGraph at h
              rcases List.mem_append.1 h with h | h <;>
              · split at h <;> simp at h
    · intro h
      simp [h]
  · intro hn s hs
    unfold debugOutput at hs
    dsimp only at hs
    rw [hn] at hs
    simp only [List.append_nil] at hs
    split at hs
    · exact List.mem_singleton.1 hs
    · cases hs
  · intro g b hb vis p view found
    have hmem : ∀ (l : List Str) (stage : Stage), l.contains stage.name = true ↔ stage.name ∈ l := by
      intro l stage
      simp
    unfold debugOutput
    dsimp only
    rw [hb]
    dsimp only
    constructor
    · intro l
      rw [List.mem_append]
      constructor
      · rintro (h | h)
        · split at h <;> simp at h
        · split at h
          · cases h
          · rename_i hf
            refine ⟨by simpa using hf, ?_⟩
            rcases List.mem_append.1 h with h | h <;>
            · unfold inspectGraph at h
              rcases List.mem_append.1 h with h | h
              · split at h
                · rename_i hi
                  rw [hmem] at hi
                  simp only [List.mem_singleton, Shown.view.injEq] at h
                  first | exact .inl ⟨hi, h⟩ | exact .inr ⟨hi, h⟩
                · cases h
              · split at h <;> simp at h
      · rintro ⟨hf, h⟩
        refine .inr ?_
        rw [if_neg (fun e => Bool.false_ne_true (hf.symm.trans e))]
        rcases h with ⟨hi, rfl⟩ | ⟨hi, rfl⟩
        · refine List.mem_append.2 (.inl (List.mem_append.2 (.inl ?_)))
          rw [if_pos ((hmem _ .visibility).2 hi)]
          simp [view]
        · refine List.mem_append.2 (.inr (List.mem_append.2 (.inl ?_)))
          rw [if_pos ((hmem _ .pruned).2 hi)]
          simp [view, p]
    · intro text
      rw [List.mem_append]
      constructor
      · rintro (h | h)
        · split at h <;> simp at h
        · split at h
          · cases h
          · rename_i hf
            refine ⟨by simpa using hf, ?_⟩
            rcases List.mem_append.1 h with h | h <;>
            · unfold inspectGraph at h
              rcases List.mem_append.1 h with h | h
              · split at h <;> simp at h
              · split at h
                · rename_i hi
                  rw [hmem] at hi
                  simp only [List.mem_singleton, Shown.dump.injEq] at h
                  first | exact .inl ⟨hi, h⟩ | exact .inr ⟨hi, h⟩
                · cases h
      · rintro ⟨hf, h⟩
        refine .inr ?_
        rw [if_neg (fun e => Bool.false_ne_true (hf.symm.trans e))]
        rcases h with ⟨hi, rfl⟩ | ⟨hi, rfl⟩
        · refine List.mem_append.2 (.inl (List.mem_append.2 (.inr ?_)))
          rw [if_pos ((hmem _ .visibility).2 hi)]
          simp [vis, graphTitle]
        · refine List.mem_append.2 (.inr (List.mem_append.2 (.inr ?_)))
          rw [if_pos ((hmem _ .pruned).2 hi)]
          simp [p, graphTitle]

/-- The command line of the example for C82, with options for debugging. -/
example : SpelledOut [.value .dumpGraph t%"pruned", .flag .dumpAst true, .value .inspectGraph t%"visibility"]
      [t%"--dump-graph=pruned", t%"-dump-ast", t%"--inspect-graph", t%"visibility"] ∧
    SpelledOut [.value .buildPath t%"build", .value .moduleName t%"m"] (exArguments.take 3) ∧
    (∃ c, parseCommandLine (exArguments.take 3 ++
      [t%"--dump-graph=pruned", t%"-dump-ast", t%"--inspect-graph", t%"visibility"] ++
      exArguments.drop 3) = some c) := by
  refine ⟨(C82_read _ _).1 (by decide +kernel), (C82_read _ _).1 (by decide +kernel), ?_⟩
  exact Option.isSome_iff_exists.1 (by decide +kernel)

/-- Repeating `--dump-ast` is an error, repeating the others is not. -/
example : (parseCommandLine [t%"x.h", t%"--dump-ast", t%"--dump-ast"]).isNone ∧
    (parseCommandLine [t%"x.h", t%"--dump-graph=pruned", t%"--dump-graph=pruned"]).isSome := by
  decide +kernel

/-- The view of the graph of the example for C23: a namespace annotated with `visible`, a class, and a
namespace annotated with `expose_in`. -/
example : ((viewGraph exVis (fun _ => t%"K") (fun x => if x = 2 then [] else t%"n") exVisStorage exVisGraph
      [0, 1, 2, 6]).map fun n => (n.node, String.ofList n.label, String.ofList n.attributes, n.edges)) =
    [(0, "*", "style=\",filled,bold\",shape=diamond,fillcolor=Seashell2", [1]),
     (1, "n", "style=\",filled,bold\",fillcolor=Seashell1", [2, 4, 6]),
     (2, "<K>", "style=\"\"", [3]),
     (6, "n", "style=\"dotted,filled,bold\",fillcolor=Seashell1", [7])] := by
  decide +kernel

/-- It meets the requirements of `C101_view`, and one of `C101_hidden_partial`. -/
example : ContextGraph exVis exVisGraph ∧ exVisGraph.nodes.Nodup ∧
    (t%"dashed" ∈ stylesIn (dotAttributes exVis
      { entries := fun _ => some { named := { visible := some false } }, size := 1 } 5)) :=
  ⟨exVis_ok, by decide, by decide +kernel⟩

end Verif
