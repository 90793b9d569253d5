import Verif.Lemmas.Modules
/-!
# C79: several modules from the same headers
-/
namespace Verif
open Spec

/-- What a successful run gives, see C69. -/
theorem module_written (i : ToolInput) (ok : InputOK i) (g : Graph) (b : Building)
    (hb : buildGraph i.world.toWorld i.tree = (some g, b)) (o : ToolOptions) (name : Str)
    (r : ToolResult) (h : Succeeds o i name r) :
    ∃ lines : List (List Line), WrittenBy o i r lines ∧ ∀ st, importModule lines = .ok st →
      ∀ t, t ∈ st.types.map (·.1) ↔
        ∃ x, Exposed i.world.toWorld b.storage name g x ∧ t = i.world.typeName x := by
  obtain ⟨files, hr⟩ := h.run
  obtain ⟨name', g', b', order, place, hn, hb', _, _, lines, hl, hw, _, hst⟩ :=
    C69_module o i ok files r hr h.plain h.exitCode h.outputs
  rw [h.name] at hn
  cases hn
  rw [hb] at hb'
  cases hb'
  refine ⟨lines, ⟨hl, hw⟩, fun st h => ?_⟩
  obtain ⟨_, types, _, ht, e⟩ := hst st h
  intro t
  rw [e, List.map_map, List.mem_map]
  constructor
  · rintro ⟨x, hx, rfl⟩
    exact ⟨x, (ht x).1 hx, rfl⟩
  · rintro ⟨x, hx, rfl⟩
    exact ⟨x, (ht x).2 hx, rfl⟩

/-- C79: modules generated from the same headers, each of which can be imported on its own,
can be imported into the same interpreter exactly if no class or enum is exposed in two of
them.  All types are known afterwards, and each module has been filled in the same way as
on its own. -/
theorem C79_together (i : ToolInput) (ok : InputOK i) (g : Graph) (b : Building)
    (hb : buildGraph i.world.toWorld i.tree = (some g, b)) (hp : PrintedApart i.world g)
    (modules : List (ToolOptions × Str × ToolResult))
    (h : ∀ m ∈ modules, Succeeds m.1 i m.2.1 m.2.2) (hn : (modules.map (·.2.1)).Nodup) :
    ∃ lines : ToolOptions × Str × ToolResult → List (List Line),
      (∀ m ∈ modules, WrittenBy m.1 i m.2.2 (lines m)) ∧
      ∀ alone : ToolOptions × Str × ToolResult → Importing,
        (∀ m ∈ modules, importModule (lines m) = .ok (alone m)) →
        ((∃ st, importAll {} (modules.map fun m => (m.2.1, lines m)) = .ok st) ↔
          modules.Pairwise fun m m' => ∀ x, ¬ (Exposed i.world.toWorld b.storage m.2.1 g x ∧
            Exposed i.world.toWorld b.storage m'.2.1 g x)) ∧
        ∀ st, importAll {} (modules.map fun m => (m.2.1, lines m)) = .ok st →
          (∀ t, t ∈ st.types.map (·.1) ↔ ∃ m ∈ modules, ∃ x,
            Exposed i.world.toWorld b.storage m.2.1 g x ∧ t = i.world.typeName x) ∧
          st.executed.map (fun e => (e.object, e.stmt)) = modules.flatMap fun m =>
            (alone m).executed.map fun e => (m.2.1 :: e.object, e.stmt) := by
  have hex : ∀ m : ToolOptions × Str × ToolResult, ∃ lines : List (List Line), m ∈ modules →
      WrittenBy m.1 i m.2.2 lines ∧ ∀ st, importModule lines = .ok st →
        ∀ t, t ∈ st.types.map (·.1) ↔
          ∃ x, Exposed i.world.toWorld b.storage m.2.1 g x ∧ t = i.world.typeName x := by
    intro m
    by_cases hm : m ∈ modules
    · obtain ⟨l, hl⟩ := module_written i ok g b hb m.1 m.2.1 m.2.2 (h m hm)
      exact ⟨l, fun _ => hl⟩
    · exact ⟨[], fun h => absurd h hm⟩
  let lines := fun m => Classical.choose (hex m)
  have hl : ∀ m ∈ modules, _ := fun m => Classical.choose_spec (hex m)
  refine ⟨lines, fun m hm => (hl m hm).1, fun alone ha => ?_⟩
  have ht := fun m hm => (hl m hm).2 (alone m) (ha m hm)
  have key := all_follow (modules.map fun m => (m.2.1, lines m, alone m)) {}
    (by
      intro m hm
      obtain ⟨m', hm', rfl⟩ := List.mem_map.1 hm
      exact ha m' hm')
    (by rw [List.map_map]; exact hn)
    (fun m _ => ⟨fun t ht => (by cases ht), fun t ht => (by cases ht)⟩)
  rw [List.map_map] at key
  refine ⟨key.1.trans ?_, ?_⟩
  · rw [List.pairwise_map]
    constructor
    · rintro ⟨_, h2⟩
      refine h2.imp_of_mem fun {m m'} hm hm' hs x hx => ?_
      have := (ht m' hm' (i.world.typeName x)).2 ⟨x, hx.2, rfl⟩
      obtain ⟨t, h3, h4⟩ := List.mem_map.1 this
      exact hs t h3 (h4 ▸ (ht m hm (i.world.typeName x)).2 ⟨x, hx.1, rfl⟩)
    · intro h2
      refine ⟨fun m _ t _ hin => (by cases hin), h2.imp_of_mem fun {m m'} hm hm' hs t h3 h4 => ?_⟩
      obtain ⟨x, hx, e⟩ := (ht m hm t.1).1 h4
      obtain ⟨y, hy, e'⟩ := (ht m' hm' t.1).1 (List.mem_map.2 ⟨t, h3, rfl⟩)
      have hxy : x = y := hp x y hx.1 hy.1 hx.2.1 hy.2.1 (e.symm.trans e')
      subst hxy
      exact hs x ⟨hx, hy⟩
  · intro st hst
    obtain ⟨h2, h3⟩ := key.2 st hst
    refine ⟨fun t => ?_, ?_⟩
    · rw [h2]
      simp only [List.nil_append, List.mem_map, List.mem_flatMap, qualify]
      constructor
      · rintro ⟨u, ⟨_, ⟨m, hm, rfl⟩, ⟨v, hv, rfl⟩⟩, rfl⟩
        obtain ⟨x, hx⟩ := (ht m hm v.1).1 (List.mem_map.2 ⟨v, hv, rfl⟩)
        exact ⟨m, hm, x, hx⟩
      · rintro ⟨m, hm, x, hx⟩
        obtain ⟨v, hv, e⟩ := List.mem_map.1 ((ht m hm t).2 ⟨x, hx⟩)
        exact ⟨_, ⟨_, ⟨m, hm, rfl⟩, ⟨v, hv, rfl⟩⟩, e⟩
    · rw [h3, List.flatMap_map]
      rfl

/-- A class or enum that is assigned to a module is in no other. -/
theorem C79_elsewhere (w : World) (s : Storage) (g : Graph) (x : Nat) (name other : Str)
    (ha : Assigned w s g x name) (hx : Exposed w s other g x) : other = name := by
  obtain ⟨n, attrs, ns, hb, hk, he, hns, ho⟩ := ha
  false_or_by_contra
  rename_i hne
  refine hx.2.2.1 ⟨n, ⟨hk, attrs, ns, he, hns, by rw [ho]; simp, ?_⟩, hb⟩
  rw [ho, List.mem_singleton]
  exact hne

/-- C79: a class or enum is in two modules exactly if it is in one of them and none of the
namespaces around it are for modules other than the second one. -/
theorem C79_shared (w : World) (s : Storage) (g : Graph) (x : Nat) (name other : Str) :
    Exposed w s name g x ∧ Exposed w s other g x ↔
      Exposed w s name g x ∧ ∀ n attrs ns, Below g n x → (w.info n).kind = .namespace →
        s.entries n = some attrs → attrs.namespace_ = some ns → ns.onlyExposeIn ≠ [] →
        other ∈ ns.onlyExposeIn := by
  constructor
  · rintro ⟨h1, h2⟩
    refine ⟨h1, fun n attrs ns hb hk he hns ho => ?_⟩
    false_or_by_contra
    rename_i hne
    exact h2.2.2.1 ⟨n, ⟨hk, attrs, ns, he, hns, ho, hne⟩, hb⟩
  · rintro ⟨h1, h2⟩
    refine ⟨h1, h1.1, h1.2.1, ?_, h1.2.2.2⟩
    rintro ⟨n, ⟨hk, attrs, ns, he, hns, ho, hne⟩, hb⟩
    exact hne (h2 n attrs ns hb hk he hns ho)

/-- C79: if every class and enum is assigned to a module, all modules can be imported
together, in any order. -/
theorem C79_assigned (i : ToolInput) (ok : InputOK i) (g : Graph) (b : Building)
    (hb : buildGraph i.world.toWorld i.tree = (some g, b)) (hp : PrintedApart i.world g)
    (modules : List (ToolOptions × Str × ToolResult))
    (h : ∀ m ∈ modules, Succeeds m.1 i m.2.1 m.2.2) (hn : (modules.map (·.2.1)).Nodup)
    (ha : ∀ m ∈ modules, ∀ x, Exposed i.world.toWorld b.storage m.2.1 g x →
      ∃ name, Assigned i.world.toWorld b.storage g x name) :
    ∃ lines : ToolOptions × Str × ToolResult → List (List Line),
      (∀ m ∈ modules, WrittenBy m.1 i m.2.2 (lines m)) ∧
      ((∀ m ∈ modules, ∃ st, importModule (lines m) = .ok st) →
        ∃ st, importAll {} (modules.map fun m => (m.2.1, lines m)) = .ok st) := by
  obtain ⟨lines, hw, hl⟩ := C79_together i ok g b hb hp modules h hn
  refine ⟨lines, hw, fun him => ?_⟩
  have hex : ∀ m, ∃ st, m ∈ modules → importModule (lines m) = .ok st := by
    intro m
    by_cases hm : m ∈ modules
    · obtain ⟨st, hst⟩ := him m hm
      exact ⟨st, fun _ => hst⟩
    · exact ⟨{}, fun h => absurd h hm⟩
  refine (hl (fun m => Classical.choose (hex m)) fun m => Classical.choose_spec (hex m)).1.2 ?_
  rw [List.Nodup, List.pairwise_map] at hn
  refine hn.imp_of_mem fun {m m'} hm _ hne x hx => ?_
  obtain ⟨name, hname⟩ := ha m hm x hx.1
  exact hne ((C79_elsewhere _ _ _ _ _ _ hname hx.1).trans (C79_elsewhere _ _ _ _ _ _ hname hx.2).symm)

/-- Listed bases are contexts. -/
theorem emittedBases_nodes (g : Graph) (p : InliningPolicy) (h : Hierarchy) :
    ∀ b ∈ emittedBases g p h, b ∈ g.nodes := by
  induction h with
  | nil => intro b hb; cases hb
  | cons c above rest ih1 ih2 =>
    intro b hb
    rw [emittedBases, List.mem_append] at hb
    rcases hb with hb | hb
    · split at hb
      · cases hb
      · split at hb
        · exact ih1 b hb
        · split at hb
          · rename_i hn
            rw [List.mem_singleton] at hb
            subst hb
            simpa [Graph.hasNode] using hn
          · cases hb
    · exact ih2 b hb

/-- C79 (what is missing): the bases listed for a class are those exposed in the same
module.  A base that is only exposed in another module is left out, even if this module is
imported before. -/
theorem C79_bases (i : ToolInput) (ok : InputOK i) (g : Graph) (b : Building)
    (hb : buildGraph i.world.toWorld i.tree = (some g, b)) (name : Str) (x base : Nat)
    (ht : IsType i.world.toWorld base)
    (h : base ∈ listedBases i.world b.storage
      (analyze i.world.toWorld b.storage i.members name g).pruned x) :
    Exposed i.world.toWorld b.storage name g base := by
  have hcg := C23_graphs i.world.toWorld i.tree ok.unit g b hb
  refine ⟨ht, (C26_types i.world.toWorld b.storage i.members name g hcg base ht).1 ?_⟩
  unfold listedBases at h
  split at h
  · exact emittedBases_nodes _ _ _ _ h
  · cases h

/-- C79: if no declaration of an annotated namespace is free of annotations, a class or enum in
any declaration of a namespace for other modules is left out. -/
theorem C79_reopened_partial (i : ToolInput) (ok : InputOK i)
    (hu : NoBareReopening i.world.toWorld i.tree) (g : Graph) (b : Building)
    (hb : buildGraph i.world.toWorld i.tree = (some g, b)) (name : Str) (n n' x : Nat)
    (hn : Reachable g n) (hf : ForOther i.world.toWorld b.storage name n)
    (hs : SameNamespace i.world.toWorld n n') (hx : Below g n' x) :
    ¬ Exposed i.world.toWorld b.storage name g x := by
  intro h
  have hcg := C23_graphs i.world.toWorld i.tree ok.unit g b hb
  obtain ⟨p, hp⟩ := namespace_parent i.world g hcg n hn hs.1
  obtain ⟨q, hq⟩ := namespace_parent i.world g hcg n' (reachable_above hcg.toForest h.2.1 hx) hs.2.1
  have e := same_entries i.world i.tree ok.unit hu g b hb p q n n' hp hq hs
  obtain ⟨_, attrs, ns, he, hns, h1, h2⟩ := hf
  exact h.2.2.1 ⟨n', ⟨hs.2.1, attrs, ns, e ▸ he, hns, h1, h2⟩, hx⟩

/-! ### Cases -/

/-- `namespace only_expose_in(common) 1 { struct visible 2 {}; }
namespace only_expose_in(down) 3 { struct visible 4 : 2 {}; }` and, in a variant of it,
`struct visible 5 {};`. -/
def exParts (extra : List Str) : EmitWorld := { exUnit with
  info := fun
    | 0 => { kind := .translationUnit }
    | 1 => { kind := .namespace, name := t%"c", attrTexts := [lozenge ++ t%"only_expose_in(common)"] }
    | 2 => { kind := .record, name := t%"B", attrTexts := [lozenge ++ t%"visible"] }
    | 3 => { kind := .namespace, name := t%"d", attrTexts := [lozenge ++ t%"only_expose_in(down)"] }
    | 4 => { kind := .record, name := t%"D", attrTexts := [lozenge ++ t%"visible"] }
    | 5 => { kind := .record, name := t%"E", attrTexts := extra }
    | _ => { kind := .other }
  ancestors := fun | 0 => [] | 2 => [1, 0] | 4 => [3, 0] | _ => [0]
  access := fun _ => .none
  fn := fun _ => exPlain t%"f" 0
  typeName := fun | 2 => t%"::c::B" | 4 => t%"::d::D" | _ => t%"::E"
  hierarchy := fun | 4 => .cons { id := 2, access := .public } .nil .nil | _ => .nil
  found := fun _ => [] }

def exPartsInput (extra : List Str) : ToolInput where
  mainFile := t%"/src/common.h"
  world := exParts extra
  tree := .node 0 [.node 1 [.node 2 []], .node 3 [.node 4 []], .node 5 []]
  pick := fun _ => lastSmallest (exParts extra).loc
  iterate := fun g => g.nodes

theorem exParts_ok (extra : List Str) : InputOK (exPartsInput extra) where
  unit := by
    refine ⟨rfl, fun id => ?_, by simp only [exPartsInput]; decide +kernel, fun id p ps => ?_,
      fun id h => ?_, rfl,
      fun a x => ?_, fun a x => ?_, fun a => ?_⟩
    all_goals simp only [exPartsInput, exParts]
    · split <;> simp_all [exUnit]
    · split <;> simp <;> rintro rfl rfl <;> rfl
    · split <;> simp_all [exParts, exUnit, exPartsInput]
    · split <;> simp
    · split <;> simp
    · split <;> simp
  emit := by
    refine ⟨by simp [exPartsInput, exParts, exUnit], by simp [exPartsInput, exParts, exUnit], ?_,
      fun _ _ => rfl⟩
    intro d
    simp only [exPartsInput, exParts]
    split <;> rfl
  bases := by
    intro x a
    simp only [exPartsInput, exParts, exUnit, EmitWorld.bases]
    split <;> simp [Hierarchy.direct]
  picks := lastSmallest_ok _
  iterate := fun _ => .refl _

/-- Different types are printed differently. -/
example (extra : List Str) (g : Graph) : PrintedApart (exPartsInput extra).world g := by
  have key : ∀ x, IsType (exPartsInput extra).world.toWorld x → x = 2 ∨ x = 4 ∨ x = 5 := by
    intro x
    unfold IsType
    simp only [exPartsInput, exParts]
    split <;> simp
  intro x y hx hy _ _ h
  rcases key x hx with rfl | rfl | rfl <;> rcases key y hy with rfl | rfl | rfl <;>
    first | rfl | exact absurd h (by simp [exPartsInput, exParts])

/-- Rewrites a run to a form that can be evaluated. -/
local macro "eval_run" : tactic => `(tactic| (
  simp only [handleTranslationUnit, emitModule, findEnclosingScopes, analyze, pruneGraph, hideNamespaces,
    declContextsWithVisibleNamedDecls, deriveEffectiveVisibility, dfs_fuel]
  decide +kernel))

/-- The lines of a module generated into one file. -/
def linesFor (i : ToolInput) (name : Str) : Str × List (List Line) :=
  match buildGraph i.world.toWorld i.tree with
  | (none, _) => (name, [])
  | (some g, b) =>
    let a := analyze i.world.toWorld b.storage i.members name g
    (name, generatedFiles (emitModule i.world b.storage a.pruned a.vis i.pick (i.iterate a.pruned) 1 name) 1)

/-- What is left of an import: the types, or the reason it fails. -/
def outcome : Except ImportProblem Importing → Sum ImportProblem (List (Str × List Str))
  | .ok st => .inr st.types
  | .error e => .inl e

set_option maxRecDepth 4000 in
/-- There are no diagnostics. -/
theorem exParts_diags : (handleTranslationUnit (exPartsInput []) t%"common" [t%"/a"]).diags = [] ∧
    (handleTranslationUnit (exPartsInput []) t%"common" [t%"/a"]).ioError = false ∧
    (handleTranslationUnit (exPartsInput []) t%"down" [t%"/a"]).diags = [] ∧
    (handleTranslationUnit (exPartsInput []) t%"down" [t%"/a"]).ioError = false := by
  refine ⟨?_, ?_, ?_, ?_⟩ <;> eval_run

/-- Both runs succeed. -/
example : (∃ r, Succeeds { moduleName := t%"common", outputs := [t%"/a"] } (exPartsInput []) t%"common" r) ∧
    ∃ r, Succeeds { moduleName := t%"down", outputs := [t%"/a"] } (exPartsInput []) t%"down" r := by
  have key : ∀ name : Str, name.isEmpty = false →
      (handleTranslationUnit (exPartsInput []) name [t%"/a"]).diags = [] →
      (handleTranslationUnit (exPartsInput []) name [t%"/a"]).ioError = false →
      ∃ r, Succeeds { moduleName := name, outputs := [t%"/a"] } (exPartsInput []) name r := by
    intro name hne hd hio
    have hm : moduleNameFor name (exPartsInput []).mainFile = some name := by
      unfold moduleNameFor
      rw [hne]
      rfl
    obtain ⟨name', r, hn, hr⟩ := C50_total { moduleName := name, outputs := [t%"/a"] } (exPartsInput [])
      fun _ => none
    cases hn.symm.trans hm
    refine ⟨r, ⟨_, hr⟩, rfl, ?_, by simp [ToolOptions.outputFiles], hm⟩
    rw [C50_exit _ _ _ _ _ hm hr]
    refine ⟨fun h => ?_, by simp⟩
    rw [← errorOccurred_iff] at h
    have h0 : errorOccurred (exPartsInput []) (handleTranslationUnit (exPartsInput []) name [t%"/a"]) = true := h
    unfold errorOccurred at h0
    rw [hd, hio] at h0
    exact absurd h0 (by decide +kernel)
  exact ⟨key _ (by decide) exParts_diags.1 exParts_diags.2.1,
    key _ (by decide) exParts_diags.2.2.1 exParts_diags.2.2.2⟩

set_option maxRecDepth 4000 in
/-- Both modules can be imported, in any order. -/
example : outcome (importAll {} [linesFor (exPartsInput []) t%"common", linesFor (exPartsInput []) t%"down"]) =
      .inr [(t%"::c::B", [t%"common", t%"B"]), (t%"::d::D", [t%"down", t%"D"])] ∧
    outcome (importAll {} [linesFor (exPartsInput []) t%"down", linesFor (exPartsInput []) t%"common"]) =
      .inr [(t%"::d::D", [t%"down", t%"D"]), (t%"::c::B", [t%"common", t%"B"])] := by
  simp only [linesFor]
  constructor <;> eval_run

set_option maxRecDepth 4000 in
/-- A class that is not in one of these namespaces is in both modules: the second one cannot be
imported. -/
theorem C79_everywhere :
    outcome (importAll {} [linesFor (exPartsInput [lozenge ++ t%"visible"]) t%"common",
      linesFor (exPartsInput [lozenge ++ t%"visible"]) t%"down"]) =
      .inl (.alreadyRegistered t%"::E") := by
  simp only [linesFor]
  eval_run

/-- The base classes listed in a module. -/
def basesListed : Str × List (List Line) → List (Str × List Str)
  | (_, files) => (files.headD []).filterMap fun
    | .introduce _ (.type (.record name bases _) _ _ _ _) => some (name, bases)
    | _ => none

set_option maxRecDepth 4000 in
/-- C79 (what is missing): the base class is exposed in the other module, and derived classes
do not refer to it; there is no diagnostic. -/
theorem C79_base_lost :
    (exPartsInput []).world.hierarchy 4 = .cons { id := 2, access := .public } .nil .nil ∧
    basesListed (linesFor (exPartsInput []) t%"common") = [(t%"::c::B", [])] ∧
    basesListed (linesFor (exPartsInput []) t%"down") = [(t%"::d::D", [])] := by
  refine ⟨rfl, ?_, ?_⟩
  all_goals
    simp only [linesFor]
    eval_run

/-- `namespace only_expose_in(down) 1 { struct visible 2 {}; } namespace only_expose_in(down) 3 {
struct visible 4 {}; }`, where 3 re-opens the namespace 1. -/
def exDown : EmitWorld := { exTwice with
  info := fun
    | 1 => { kind := .namespace, name := t%"n", attrTexts := [lozenge ++ t%"only_expose_in(down)"] }
    | 3 => { kind := .namespace, name := t%"n", attrTexts := [lozenge ++ t%"only_expose_in(down)"] }
    | x => exTwice.info x }

example : NoBareReopening exDown.toWorld exTwiceInput.tree := by
  have key : ∀ x, (exDown.info x).kind = .namespace → x = 1 ∨ x = 3 := by
    intro x
    simp only [exDown, exTwice]
    split
    · simp
    · simp
    · split <;> simp
  intro s t _ ht h _
  refine ⟨t, .here ?_, ?_⟩
  · rcases key _ h.2.1 with e | e <;> rw [e] <;> simp [Implementation, exDown]
  · rcases key _ h.2.1 with e | e <;> rw [e] <;>
      exact ⟨by decide, by decide, ⟨_, List.mem_singleton.2 rfl, ⟨t%"only_expose_in(down)", rfl⟩⟩, rfl, by decide⟩

set_option maxRecDepth 4000 in
example : SameNamespace exDown.toWorld 1 3 ∧
    outcome (importAll {} [linesFor { exTwiceInput with world := exDown } t%"common",
      linesFor { exTwiceInput with world := exDown } t%"down"]) =
      .inr [(t%"::n::A", [t%"down", t%"A"]), (t%"::n::B", [t%"down", t%"B"])] := by
  refine ⟨⟨rfl, rfl, rfl⟩, ?_⟩
  simp only [linesFor]
  eval_run

/-- `namespace visible 1 { namespace 2 { struct 3 {}; } namespace only_expose_in(down) 4 {
struct 5 {}; } }`, where 4 re-opens the namespace 2. -/
def exLeakInput : ToolInput := { exBareInput with
  world := { exBare with
    info := fun
      | 4 => { kind := .namespace, name := t%"a", attrTexts := [lozenge ++ t%"only_expose_in(down)"] }
      | x => exBare.info x } }

set_option maxRecDepth 4000 in
/-- C79 (what is missing): not all declarations nested in a namespace with `only_expose_in`
are left out of other modules, if the namespace is also opened without annotations. -/
theorem C79_leak :
    SameNamespace exLeakInput.world.toWorld 2 4 ∧
    (handleTranslationUnit exLeakInput t%"common" [t%"/a"]).diags = [] ∧
    (handleTranslationUnit exLeakInput t%"down" [t%"/a"]).diags = [] ∧
    outcome (importAll {} [linesFor exLeakInput t%"common"]) =
      .inr [(t%"::o::a::Y", [t%"common", t%"Y"])] ∧
    outcome (importAll {} [linesFor exLeakInput t%"common", linesFor exLeakInput t%"down"]) =
      .inl (.alreadyRegistered t%"::o::a::Y") := by
  refine ⟨⟨rfl, rfl, rfl⟩, ?_, ?_, ?_, ?_⟩
  · eval_run
  · eval_run
  all_goals
    simp only [linesFor]
    eval_run

end Verif
