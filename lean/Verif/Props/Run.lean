import Verif.Spec.Run
import Verif.Props.Import
import Verif.Props.Tool
import Verif.Props.ToolExamples
/-!
# C28, C61, C69: the module that results from a run
-/
namespace Verif
open Spec

/-- Every context has an object. -/
theorem refers_exists (w : EmitWorld) (s : Storage) (g : Graph) (hg : ExposedGraph w.toWorld g)
    (order : List Nat) (hv : ValidOrder w.toWorld s w.bases g order) (x : Nat) (hx : x ∈ g.nodes) :
    ∃ path, Refers w s g order x path := by
  have key : ∀ n pre x post, pre.length < n → order = pre ++ x :: post →
      ∃ path, Refers w s g order x path := by
    intro n
    induction n with
    | zero => intro pre x post hn; cases hn
    | succ n ihn =>
      intro pre x post hn ho
      have ih : ∀ y ∈ pre, ∃ path, Refers w s g order y path := by
        intro y hy
        obtain ⟨p1, p2, rfl⟩ := List.append_of_mem hy
        refine ihn p1 y (p2 ++ x :: post) ?_ (by rw [ho]; simp)
        simp only [List.length_append, List.length_cons] at hn
        omega
      have hxn : x ∈ g.nodes := hv.perm.mem_iff.1 (by rw [ho]; simp)
      by_cases he : x = g.root
      · rw [he]
        exact ⟨[], .root⟩
      · obtain ⟨r, hr⟩ := representative_isSome w order x (by rw [ho]; simp)
        by_cases e : r = x
        · subst e
          obtain ⟨q, hq⟩ := (C29_scope w.toWorld s g hg r hxn).2.2.2 he
          obtain ⟨pq, hpq⟩ := ih q (hv.sorted pre r post ho q ⟨hxn, .inl hq⟩)
          cases h : hasObject w s r with
          | true => exact ⟨_, .own hr hq hpq h⟩
          | false => exact ⟨_, .inside hr hq hpq h⟩
        · have hm : r ∈ pre := by
            unfold representative at hr
            rw [ho, List.find?_append] at hr
            cases hp : pre.find? (sameContext w x) with
            | some z =>
              rw [hp] at hr
              cases hr
              exact List.mem_of_find?_eq_some hp
            | none =>
              rw [hp, List.find?_cons, sameContext_refl] at hr
              cases hr
              exact absurd rfl e
          obtain ⟨path, hp⟩ := ih r hm
          exact ⟨path, .again hr e hp⟩
  obtain ⟨pre, post, ho⟩ := List.append_of_mem (hv.perm.mem_iff.2 hx)
  exact key _ pre x post (Nat.lt_succ_self _) ho

/-- Namespaces of the graph are where they are declared. -/
theorem namespace_scope (w : EmitWorld) (root : Tree) (wf : WellFormed w.toWorld root) (g : Graph)
    (b : Building) (h : buildGraph w.toWorld root = (some g, b)) (p x : Nat) (hE : Edge g p x)
    (hk : (w.info x).kind = .namespace) :
    (∃ t, Occurs w.toWorld root t ∧ t.id = x) ∧ ScopeOf w.toWorld x p := by
  have hb := built w.toWorld root wf g b h
  have hne : ∀ a, ¬ ExposesHere w.toWorld root a x := by
    intro a ha
    rcases wf.target_tag a x ha.2.2.2.1 with h | h <;> rw [hk] at h <;> cases h
  rcases (built_edge_iff hb p x).1 hE with ⟨a, ha, _⟩ | ⟨_, ho, _, rfl⟩
  · exact absurd ha (hne a)
  · refine ⟨ho, (scopeOf_find w.toWorld root wf x _ ?_).2 rfl⟩
    rintro rfl
    rw [(wf.unit_kind _).2 rfl] at hk
    cases hk

/-- Annotations of namespaces do not change after they have been read. -/
theorem namespace_entry (w : EmitWorld) (root : Tree) (wf : WellFormed w.toWorld root) (g : Graph)
    (b : Building) (h : buildGraph w.toWorld root = (some g, b)) (x : Nat)
    (hk : (w.info x).kind = .namespace) :
    b.storage.entries x = (traverse w.toWorld {} root).storage.entries x := by
  refine C53_others w.toWorld root wf g b h x ?_ ?_
  · rintro ⟨a, ha⟩
    rcases wf.target_tag a x ha.2.2.2.1 with h | h <;> rw [hk] at h <;> cases h
  · rintro ⟨a, ha⟩
    rcases wf.target_tag a x ha.2.2.2.1 with h | h <;> rw [hk] at h <;> cases h

/-- Declarations of the same namespace have the same annotations. -/
theorem same_entries (w : EmitWorld) (root : Tree) (wf : WellFormed w.toWorld root)
    (hu : NoBareReopening w.toWorld root) (g : Graph) (b : Building)
    (h : buildGraph w.toWorld root = (some g, b)) (p q x y : Nat) (hp : Edge g p x) (hq : Edge g q y)
    (hxy : SameNamespace w.toWorld x y) : b.storage.entries x = b.storage.entries y := by
  have hok : hasErrors (traverse w.toWorld {} root).diags = false := by
    cases he : hasErrors (traverse w.toWorld {} root).diags with
    | false => rfl
    | true =>
      unfold buildGraph at h
      simp only [he, if_true] at h
      cases h
  obtain ⟨h1, h2, h3⟩ := hxy
  obtain ⟨⟨s, hs, rfl⟩, _⟩ := namespace_scope w root wf g b h p _ hp h1
  obtain ⟨⟨t, ht, rfl⟩, _⟩ := namespace_scope w root wf g b h q _ hq h2
  rw [namespace_entry w root wf g b h _ h1, namespace_entry w root wf g b h _ h2]
  by_cases hann : Annotated w.toWorld s.id ∨ Annotated w.toWorld t.id
  · have hrel : Relevant w.toWorld s ∧ Relevant w.toWorld t := by
      rcases hann with ha | ha
      · exact ⟨hu s s hs hs ⟨h1, h1, rfl⟩ ha, hu s t hs ht ⟨h1, h2, h3⟩ ha⟩
      · exact ⟨hu t s ht hs ⟨h2, h1, h3.symm⟩ ha, hu t t ht ht ⟨h2, h2, rfl⟩ ha⟩
    exact C20_agree w.toWorld root wf.distinct hok s t hs ht h1 h2 h3 hrel.1 hrel.2
  · rw [not_or] at hann
    rw [(C20_attributes w.toWorld root wf.distinct s hs).2 hann.1,
      (C20_attributes w.toWorld root wf.distinct t ht).2 hann.2]

theorem sameContext_cases (w : EmitWorld) (x y : Nat) (hxy : sameContext w x y = true) :
    x = y ∨ SameNamespace w.toWorld x y := by
  unfold sameContext at hxy
  simp only [Bool.or_eq_true, Bool.and_eq_true, decide_eq_true_eq] at hxy
  rcases hxy with h | ⟨⟨h1, h2⟩, h3⟩
  · exact .inl h
  · exact .inr ⟨h1, h2, h3⟩

/-- A reachable namespace has a parent. -/
theorem namespace_parent (w : EmitWorld) (g : Graph) (hcg : ContextGraph w.toWorld g) (x : Nat)
    (hx : Reachable g x) (hk : (w.info x).kind = .namespace) : ∃ p, Edge g p x := by
  cases hx with
  | root =>
    rw [hcg.root_kind] at hk
    cases hk
  | step _ _ hE => exact ⟨_, hE⟩

/-- C28: declarations of the same namespace agree if none is free of annotations, as
disagreement would have been reported (C20). -/
theorem C28_agree (w : EmitWorld) (root : Tree) (wf : WellFormed w.toWorld root)
    (re : Reopening w.toWorld) (hu : NoBareReopening w.toWorld root) (g : Graph) (b : Building)
    (h : buildGraph w.toWorld root = (some g, b)) (m : Members) (name : Str) :
    Agree w b.storage (analyze w.toWorld b.storage m name g).pruned := by
  have hcg := C23_graphs w.toWorld root wf g b h
  obtain ⟨hpg, hroot, hedge, hreach⟩ := C26_places w.toWorld b.storage m name g hcg
  have hns := namespace_scope w root wf g b h
  have hparent : ∀ x ∈ (analyze w.toWorld b.storage m name g).pruned.nodes,
      (w.info x).kind = .namespace → ∃ p, Edge g p x := by
    intro x hx hk
    obtain ⟨p, hp⟩ := namespace_parent w _ hpg x ((hreach x).1 hx) hk
    exact ⟨p, ((hedge p x).1 hp).1⟩
  have hsame := sameContext_cases w
  have hent : ∀ x ∈ (analyze w.toWorld b.storage m name g).pruned.nodes,
      ∀ y ∈ (analyze w.toWorld b.storage m name g).pruned.nodes, SameNamespace w.toWorld x y →
      b.storage.entries x = b.storage.entries y := by
    intro x hx y hy hxy
    obtain ⟨p, hp⟩ := hparent x hx hxy.1
    obtain ⟨q, hq⟩ := hparent y hy hxy.2.1
    exact same_entries w root wf hu g b h p q x y hp hq hxy
  constructor
  · intro x hx y hy hxy
    rcases hsame x y hxy with rfl | hn
    · rfl
    · unfold hasObject
      rw [hn.1, hn.2.1, hent x hx y hy hn]
  · intro x hx y hy hxy
    rcases hsame x y hxy with rfl | hn
    · rfl
    · obtain ⟨e1, e2, e3⟩ := re.name x y hn
      unfold exposedName getSpelling
      rw [hent x hx y hy hn, e1, e2, e3]
  · intro p x q y hp hq hxy
    have hp' := ((hedge _ _).1 hp).1
    have hq' := ((hedge _ _).1 hq).1
    rcases hsame x y hxy with rfl | hn
    · rw [hcg.unique _ _ _ hp' hq']
      exact sameContext_refl w q
    · rcases re.scope x y p q hn (hns p x hp' hn.1).2 (hns q y hq' hn.2.1).2 with rfl | ⟨h1, h2, h3⟩
      · exact sameContext_refl w p
      · unfold sameContext
        simp [h1, h2, h3]

/-- As `C69_module`, along with the contents of the files and all submodules. -/
theorem run_modules (o : ToolOptions) (i : ToolInput) (ok : InputOK i) (files : Files) (r : ToolResult)
    (hr : runTool o i files = some r) (hx : o.expectFailure = false) (h0 : r.exitCode = 0)
    (hnd : o.outputFiles.Nodup) :
    ∃ name g b order place, moduleNameFor o.moduleName i.mainFile = some name ∧
      buildGraph i.world.toWorld i.tree = (some g, b) ∧
      let a := analyze i.world.toWorld b.storage i.members name g
      ValidOrder i.world.toWorld b.storage i.world.bases a.pruned order ∧
      (∀ x ∈ a.pruned.nodes, Refers i.world b.storage a.pruned order x (place x)) ∧
      ∃ lines : List (List Line), lines = ((List.range o.outputFiles.length).map fun k =>
          fileLines i.world b.storage a.pruned a.vis name order o.outputFiles.length k) ∧
        lines.length = o.outputFiles.length ∧
        (∀ (k : Nat) path ls, o.outputFiles[k]? = some path → lines[k]? = some ls →
          (path ≠ ['-'] → r.files path = some (fileText i ls)) ∧
          (path = ['-'] → r.printed = [fileText i ls])) ∧
        ((∃ st, importModule lines = .ok st) ↔
          (identifiersOf i.world order).Nodup ∧ Importable i.world b.storage a.pruned order place) ∧
        ∀ st, importModule lines = .ok st →
          st.executed = executionsOf i.world b.storage a.vis order place ∧
          ∃ types : List Nat, types.Nodup ∧
            (∀ x, x ∈ types ↔ Exposed i.world.toWorld b.storage name g x) ∧
            (st.types = types.map fun x => (i.world.typeName x, place x)) ∧
            st.modules = modulesOf i.world b.storage order place := by
  obtain ⟨name, g, b, order, hn, hb, hs, hv, hf, hp, _⟩ := run_sorted o i ok files r hr hx h0 hnd
  have hi := emitInput i ok g b hb name
  have hcg := C23_graphs i.world.toWorld i.tree ok.unit g b hb
  let a := analyze i.world.toWorld b.storage i.members name g
  have hex : ∀ x, ∃ path, x ∈ a.pruned.nodes → Refers i.world b.storage a.pruned order x path := by
    intro x
    by_cases hx : x ∈ a.pruned.nodes
    · obtain ⟨path, h⟩ := refers_exists i.world b.storage a.pruned hi.graph order hv x hx
      exact ⟨path, fun _ => h⟩
    · exact ⟨[], fun h => absurd h hx⟩
  let place := fun x => Classical.choose (hex x)
  have hpl : ∀ x ∈ a.pruned.nodes, Refers i.world b.storage a.pruned order x (place x) :=
    fun x => Classical.choose_spec (hex x)
  have hpos : 0 < o.outputFiles.length := by
    unfold ToolOptions.outputFiles
    cases o.outputs <;> simp
  have himp := C61_import i.world ok.emit b.storage a.pruned a.vis i.pick _ hi o.outputFiles.length hpos
    name order hs place hpl
  have hgen : generatedFiles (emitModule i.world b.storage a.pruned a.vis i.pick
      (i.iterate a.pruned) o.outputFiles.length name) o.outputFiles.length =
      (List.range o.outputFiles.length).map fun k => fileLines i.world b.storage a.pruned a.vis name order
        o.outputFiles.length k := by
    unfold generatedFiles
    refine List.map_congr_left fun k _ => ?_
    rw [stream_eq i.world ok.emit b.storage a.pruned a.vis i.pick _ hi _ name order hs]
    rfl
  rw [hgen] at himp
  refine ⟨name, g, b, order, place, hn, hb, hv, hpl, (List.range o.outputFiles.length).map fun k =>
    fileLines i.world b.storage a.pruned a.vis name order o.outputFiles.length k, rfl, by simp, ?_, ?_, ?_⟩
  · intro k path ls hk hl
    rw [List.getElem?_map, Option.map_eq_some_iff] at hl
    obtain ⟨k', hk', rfl⟩ := hl
    rw [List.getElem?_eq_some_iff] at hk'
    obtain ⟨_, hk'⟩ := hk'
    rw [List.getElem_range] at hk'
    subst hk'
    exact ⟨fun h => hf k path hk h, fun h => hp k (h ▸ hk)⟩
  · constructor
    · rintro ⟨st, hst⟩
      false_or_by_contra
      rename_i hne
      obtain ⟨e, he⟩ := himp.2 hne
      rw [hst] at he
      cases he
    · intro h
      obtain ⟨st, h, _⟩ := himp.1 h
      exact ⟨st, h⟩
  · intro st hst
    have hyes : (identifiersOf i.world order).Nodup ∧
        Importable i.world b.storage a.pruned order place := by
      false_or_by_contra
      rename_i hne
      obtain ⟨e, he⟩ := himp.2 hne
      rw [hst] at he
      cases he
    obtain ⟨st', h1, h2, h3, h4⟩ := himp.1 hyes
    rw [hst] at h1
    cases h1
    have hnd' : order.Nodup := hv.perm.nodup_iff.2 hi.graph.nodup
    refine ⟨h3, (contextsOf i.world order).filter (isTypeContext i.world),
      List.Nodup.sublist List.filter_sublist (contextsOf_nodup i.world order hnd'), fun x => ?_, h2, h4⟩
    have htype : isTypeContext i.world x = true ↔ IsType i.world.toWorld x := by
      unfold isTypeContext IsType
      simp only [Bool.or_eq_true, decide_eq_true_eq]
      exact Or.comm
    rw [List.mem_filter, htype]
    constructor
    · rintro ⟨hc, ht⟩
      have hm : x ∈ a.pruned.nodes := hv.perm.mem_iff.1 (List.mem_filter.1 hc).1
      exact ⟨ht, (C26_types i.world.toWorld b.storage i.members name g hcg x ht).1 hm⟩
    · rintro ⟨ht, h⟩
      have hm := (C26_types i.world.toWorld b.storage i.members name g hcg x ht).2 h
      refine ⟨own_representative i.world order x (hv.perm.mem_iff.2 hm) ?_, ht⟩
      rcases ht with h | h <;> rw [h] <;> decide

/-- As `C69_module`, along with the contents of the files. -/
theorem run_module (o : ToolOptions) (i : ToolInput) (ok : InputOK i) (files : Files) (r : ToolResult)
    (hr : runTool o i files = some r) (hx : o.expectFailure = false) (h0 : r.exitCode = 0)
    (hnd : o.outputFiles.Nodup) :
    ∃ name g b order place, moduleNameFor o.moduleName i.mainFile = some name ∧
      buildGraph i.world.toWorld i.tree = (some g, b) ∧
      let a := analyze i.world.toWorld b.storage i.members name g
      ValidOrder i.world.toWorld b.storage i.world.bases a.pruned order ∧
      (∀ x ∈ a.pruned.nodes, Refers i.world b.storage a.pruned order x (place x)) ∧
      ∃ lines : List (List Line), lines = ((List.range o.outputFiles.length).map fun k =>
          fileLines i.world b.storage a.pruned a.vis name order o.outputFiles.length k) ∧
        lines.length = o.outputFiles.length ∧
        (∀ (k : Nat) path ls, o.outputFiles[k]? = some path → lines[k]? = some ls →
          (path ≠ ['-'] → r.files path = some (fileText i ls)) ∧
          (path = ['-'] → r.printed = [fileText i ls])) ∧
        ((∃ st, importModule lines = .ok st) ↔
          (identifiersOf i.world order).Nodup ∧ Importable i.world b.storage a.pruned order place) ∧
        ∀ st, importModule lines = .ok st →
          st.executed = executionsOf i.world b.storage a.vis order place ∧
          ∃ types : List Nat, types.Nodup ∧
            (∀ x, x ∈ types ↔ Exposed i.world.toWorld b.storage name g x) ∧
            st.types = types.map fun x => (i.world.typeName x, place x) := by
  obtain ⟨name, g, b, order, place, h1, h2, h3, h4, lines, h5, h6, h7, h8, h9⟩ :=
    run_modules o i ok files r hr hx h0 hnd
  refine ⟨name, g, b, order, place, h1, h2, h3, h4, lines, h5, h6, h7, h8, fun st hst => ?_⟩
  obtain ⟨he, types, ht1, ht2, ht3, _⟩ := h9 st hst
  exact ⟨he, types, ht1, ht2, ht3⟩

/-- C69: if the tool succeeds, the files can be compiled, linked and imported exactly if no
names clash; the classes and enums of the resulting module are exactly those that are
exposed, each one is created once, before any other statement is executed, and afterwards
the statements of each context are applied to its object. -/
theorem C69_module (o : ToolOptions) (i : ToolInput) (ok : InputOK i) (files : Files) (r : ToolResult)
    (hr : runTool o i files = some r) (hx : o.expectFailure = false) (h0 : r.exitCode = 0)
    (hnd : o.outputFiles.Nodup) :
    ∃ name g b order place, moduleNameFor o.moduleName i.mainFile = some name ∧
      buildGraph i.world.toWorld i.tree = (some g, b) ∧
      let a := analyze i.world.toWorld b.storage i.members name g
      ValidOrder i.world.toWorld b.storage i.world.bases a.pruned order ∧
      (∀ x ∈ a.pruned.nodes, Refers i.world b.storage a.pruned order x (place x)) ∧
      ∃ lines : List (List Line), lines.length = o.outputFiles.length ∧
        (∀ (k : Nat) path ls, o.outputFiles[k]? = some path → lines[k]? = some ls →
          (path ≠ ['-'] → r.files path = some (fileText i ls)) ∧
          (path = ['-'] → r.printed = [fileText i ls])) ∧
        ((∃ st, importModule lines = .ok st) ↔
          (identifiersOf i.world order).Nodup ∧ Importable i.world b.storage a.pruned order place) ∧
        ∀ st, importModule lines = .ok st →
          st.executed = executionsOf i.world b.storage a.vis order place ∧
          ∃ types : List Nat, types.Nodup ∧
            (∀ x, x ∈ types ↔ Exposed i.world.toWorld b.storage name g x) ∧
            st.types = types.map fun x => (i.world.typeName x, place x) := by
  obtain ⟨name, g, b, order, place, h1, h2, h3, h4, lines, _, h5⟩ := run_module o i ok files r hr hx h0 hnd
  exact ⟨name, g, b, order, place, h1, h2, h3, h4, lines, h5⟩

/-- C69: if no declaration of an annotated namespace is free of annotations, objects are
where the scopes around the declaration say. -/
theorem C69_placed (i : ToolInput) (ok : InputOK i) (re : Reopening i.world.toWorld)
    (hu : NoBareReopening i.world.toWorld i.tree) (g : Graph) (b : Building)
    (h : buildGraph i.world.toWorld i.tree = (some g, b)) (name : Str) (order : List Nat)
    (hp : order.Perm (analyze i.world.toWorld b.storage i.members name g).pruned.nodes) (x : Nat)
    (path : List Str)
    (hx : x ∈ (analyze i.world.toWorld b.storage i.members name g).pruned.nodes)
    (hr : Refers i.world b.storage (analyze i.world.toWorld b.storage i.members name g).pruned order x path) :
    PlacedAt i.world b.storage (analyze i.world.toWorld b.storage i.members name g).pruned x path :=
  refers_placed i.world b.storage (derived_built i.world i.tree ok.unit g b h) _
    (emitInput i ok g b h name).graph order hp
    (C28_agree i.world i.tree ok.unit re hu g b h i.members name) hr hx

/-! ### Cases -/

example : InputOK exInput ∧ ∃ r, runTool exOptions exInput (fun _ => none) = some r ∧
    exOptions.expectFailure = false ∧ r.exitCode = 0 ∧ exOptions.outputFiles.Nodup :=
  ⟨exInput_ok, exInput_run⟩

/-- `namespace module 1 { struct visible 2 {}; } namespace module 3 { struct visible 4 {}; }`,
where 3 re-opens the namespace 1. -/
def exTwice : EmitWorld := { exUnit with
  info := fun
    | 0 => { kind := .translationUnit }
    | 1 => { kind := .namespace, name := t%"n", attrTexts := [lozenge ++ t%"module"] }
    | 2 => { kind := .record, name := t%"A", attrTexts := [lozenge ++ t%"visible"] }
    | 3 => { kind := .namespace, name := t%"n", attrTexts := [lozenge ++ t%"module"] }
    | 4 => { kind := .record, name := t%"B", attrTexts := [lozenge ++ t%"visible"] }
    | _ => { kind := .other }
  ancestors := fun | 0 => [] | 2 => [1, 0] | 4 => [3, 0] | _ => [0]
  canonical := fun | 3 => 1 | x => x
  access := fun _ => .none
  fn := fun _ => exPlain t%"f" 0
  typeName := fun | 2 => t%"::n::A" | _ => t%"::n::B"
  found := fun _ => [] }

def exTwiceInput : ToolInput where
  mainFile := t%"/src/my-lib.h"
  world := exTwice
  tree := .node 0 [.node 1 [.node 2 []], .node 3 [.node 4 []]]
  pick := fun _ => lastSmallest exTwice.loc
  iterate := fun g => g.nodes

theorem exTwice_ok : InputOK exTwiceInput where
  unit := by
    refine ⟨rfl, fun id => ?_, by decide +kernel, fun id p ps => ?_, fun id h => ?_, rfl,
      fun a x => ?_, fun a x => ?_, fun a => ?_⟩
    all_goals simp only [exTwiceInput, exTwice]
    · split <;> simp_all [exUnit]
    · split <;> simp <;> rintro rfl rfl <;> rfl
    · split <;> simp_all [exTwice, exUnit, exTwiceInput]
    · split <;> simp
    · split <;> simp
    · split <;> simp
  emit := by
    refine ⟨by simp [exTwiceInput, exTwice, exUnit], by simp [exTwiceInput, exTwice, exUnit], ?_,
      fun _ _ => rfl⟩
    intro d
    simp only [exTwiceInput, exTwice]
    split <;> rfl
  bases := by
    intro x a
    simp [exTwiceInput, exTwice, exUnit, EmitWorld.bases, Hierarchy.direct]
  picks := lastSmallest_ok _
  iterate := fun _ => .refl _

theorem exTwice_same (x y : Nat) (h : SameNamespace exTwice.toWorld x y) :
    (x = 1 ∨ x = 3) ∧ (y = 1 ∨ y = 3) := by
  have key : ∀ x, (exTwice.info x).kind = .namespace → x = 1 ∨ x = 3 := by
    intro x
    simp only [exTwice]
    split <;> simp
  exact ⟨key x h.1, key y h.2.1⟩

example : SameNamespace exTwice.toWorld 1 3 := ⟨rfl, rfl, rfl⟩

example : Reopening exTwiceInput.world.toWorld := by
  have hsc : ∀ x p, x = 1 ∨ x = 3 → ScopeOf exTwice.toWorld x p → p = 0 := by
    rintro x p (rfl | rfl) ⟨pre, post, h, _, _⟩
    all_goals
      have : ([0] : List Nat) = pre ++ p :: post := h
      cases pre with
      | nil => cases this; rfl
      | cons a l => simp at this
  refine ⟨fun x y h => ?_, fun x y p q h hp hq => ?_, fun _ _ => rfl⟩
  · rcases (exTwice_same x y h) with ⟨rfl | rfl, rfl | rfl⟩ <;> exact ⟨rfl, rfl, rfl⟩
  · obtain ⟨h1, h2⟩ := exTwice_same x y h
    exact .inl ((hsc x p h1 hp).trans (hsc y q h2 hq).symm)

example : NoBareReopening exTwiceInput.world.toWorld exTwiceInput.tree := by
  intro s t _ ht h _
  refine ⟨t, .here ?_, ?_⟩
  · rcases (exTwice_same _ _ h).2 with e | e <;> rw [e] <;> simp [Implementation, exTwiceInput, exTwice]
  · rcases (exTwice_same _ _ h).2 with e | e <;> rw [e] <;>
      exact ⟨by decide, by decide, ⟨_, List.mem_singleton.2 rfl, ⟨t%"module", rfl⟩⟩, rfl, by decide⟩

/-- Rewrites a run to a form that can be evaluated. -/
local macro "eval_run" : tactic => `(tactic| (
  simp only [handleTranslationUnit, emitModule, findEnclosingScopes, analyze, pruneGraph, hideNamespaces,
    declContextsWithVisibleNamedDecls, deriveEffectiveVisibility, dfs_fuel]
  decide +kernel))

/-- The tool succeeds: there are no diagnostics. -/
example : (handleTranslationUnit exTwiceInput t%"my_lib" [t%"/a"]).diags = [] ∧
    (handleTranslationUnit exTwiceInput t%"my_lib" [t%"/a"]).ioError = false := by
  constructor <;> eval_run

/-- `namespace visible 1 { namespace 2 { struct 3 {}; } namespace module 4 { struct 5 {}; } }`,
where 4 re-opens the namespace 2. -/
def exBare : EmitWorld := { exTwice with
  info := fun
    | 0 => { kind := .translationUnit }
    | 1 => { kind := .namespace, name := t%"o", attrTexts := [lozenge ++ t%"visible"] }
    | 2 => { kind := .namespace, name := t%"a" }
    | 3 => { kind := .record, name := t%"Y" }
    | 4 => { kind := .namespace, name := t%"a", attrTexts := [lozenge ++ t%"module"] }
    | 5 => { kind := .record, name := t%"X" }
    | _ => { kind := .other }
  ancestors := fun | 0 => [] | 2 => [1, 0] | 4 => [1, 0] | 3 => [2, 1, 0] | 5 => [4, 1, 0] | _ => [0]
  canonical := fun | 4 => 2 | x => x
  qualifiedName := fun | 1 => t%"o" | _ => t%"o::a"
  typeName := fun | 3 => t%"::o::a::Y" | _ => t%"::o::a::X" }

def exBareInput : ToolInput where
  mainFile := t%"/src/my-lib.h"
  world := exBare
  tree := .node 0 [.node 1 [.node 2 [.node 3 []], .node 4 [.node 5 []]]]
  pick := fun _ => lastSmallest exBare.loc
  iterate := fun g => g.nodes

set_option maxRecDepth 4000 in
/-- C28 for a run: there is no submodule `a`, and no diagnostic either. -/
theorem C28_reopened_run :
    (handleTranslationUnit exBareInput t%"my_lib" [t%"/a"]).diags = [] ∧
    (handleTranslationUnit exBareInput t%"my_lib" [t%"/a"]).outputs = [(t%"/a", t%"#include \"/src/my-lib.h\"
#include <genpybind/binding-helpers.h>
#include <pybind11/pybind11.h>

void expose_context(::pybind11::module& context);
void expose_context_o(::pybind11::module& context);
void expose_context_o_a(::pybind11::module& context);
void expose_context_o_a_Y(::pybind11::class_<::o::a::Y>& context);
void expose_context_o_a_X(::pybind11::class_<::o::a::X>& context);

PYBIND11_MODULE(my_lib, root) {
auto context = root;
auto context_o = context;
auto context_o_a = context;
auto context_o_a_Y = ::pybind11::class_<::o::a::Y>(context_o_a, \"Y\");
auto context_o_a_X = ::pybind11::class_<::o::a::X>(context_o_a, \"X\");

expose_context(context);
expose_context_o(context_o);
expose_context_o_a(context_o_a);
expose_context_o_a_Y(context_o_a_Y);
expose_context_o_a_X(context_o_a_X);
}

void expose_context(::pybind11::module& context) {
(void)context;
}

void expose_context_o(::pybind11::module& context) {
(void)context;
}

void expose_context_o_a(::pybind11::module& context) {
(void)context;
}

void expose_context_o_a_Y(::pybind11::class_<::o::a::Y>& context) {
}

void expose_context_o_a_X(::pybind11::class_<::o::a::X>& context) {
}

")] := by
  constructor <;> eval_run

end Verif
