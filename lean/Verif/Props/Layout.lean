import Verif.Lemmas.Layout
import Verif.Props.ModuleName
/-!
# C90: layout and comments of the source code
-/
namespace Verif
open Spec

theorem style_cycles {w : EmitWorld} {loc : Nat → Nat} {brief : Nat → Str} (h : SameOrder w.loc loc) (l : List Nat)
    (r : Nat → Bool) (m : Nat → Option Nat) :
    reportExposeHereCycles (restyle w loc brief).toWorld l r m = reportExposeHereCycles w.toWorld l r m := by
  unfold reportExposeHereCycles cycleAliases
  simp only [style_sort h]

theorem style_unreachable {w : EmitWorld} {loc : Nat → Nat} {brief : Nat → Str} (h : SameOrder w.loc loc) (g : Graph)
    (l : List Nat) (r : Nat → Option Nat) :
    reportUnreachable (restyle w loc brief).toWorld g l r = reportUnreachable w.toWorld g l r := by
  unfold reportUnreachable
  simp only [style_sort h]
  rfl

theorem move_handle (i : ToolInput) {loc : Nat → Nat} (h : SameOrder i.world.loc loc) (name : Str) (outputs : List Str) :
    handleTranslationUnit (restyled i loc i.world.brief) name outputs = handleTranslationUnit i name outputs := by
  have hb : buildGraph (restyled i loc i.world.brief).world.toWorld (restyled i loc i.world.brief).tree =
      buildGraph i.world.toWorld i.tree := style_build i.tree
  have hm : (restyled i loc i.world.brief).members = i.members := rfl
  have ht : ∀ o k, ModuleOutput.text (restyled i loc i.world.brief).world o k = ModuleOutput.text i.world o k := by
    intro o k
    unfold ModuleOutput.text
    rfl
  unfold handleTranslationUnit
  dsimp only
  rw [hb]
  cases (buildGraph i.world.toWorld i.tree).1 with
  | none => rfl
  | some g =>
    have hc := fun l r m => style_cycles (brief := i.world.brief) h l r m
    have hu := fun g l r => style_unreachable (brief := i.world.brief) h g l r
    have he := fun s g vis pick nodes n => move_emit h s g vis pick nodes n name
    simp only [restyled] at hm ht ⊢
    simp only [hc, hu, he, ht, hm]
    rfl

/-- C90: moving declarations around without changing their order has no effect at all. -/
theorem C90_moved (o : ToolOptions) (i : ToolInput) (files : Files) (loc : Nat → Nat) (h : SameOrder i.world.loc loc) :
    runTool o (restyled i loc i.world.brief) files = runTool o i files := by
  have hh := fun name => move_handle i h name o.outputFiles
  unfold runTool
  show (match moduleNameFor o.moduleName i.mainFile with
    | none => none
    | some name => _) = _
  cases moduleNameFor o.moduleName i.mainFile with
  | none => rfl
  | some name =>
    dsimp only
    rw [hh name]
    rfl

theorem lines_of_writes (a b : List (Nat × Line)) (h : bareWrites b = bareWrites a) (k : Nat) :
    ((b.filter (·.1 = k)).map (·.2)).map undocumentedLine = ((a.filter (·.1 = k)).map (·.2)).map undocumentedLine := by
  have key : ∀ l : List (Nat × Line), ((l.filter (·.1 = k)).map (·.2)).map undocumentedLine =
      ((bareWrites l).filter (·.1 = k)).map (·.2) := by
    intro l
    induction l with
    | nil => rfl
    | cons p l ih =>
      unfold bareWrites
      by_cases hp : p.1 = k
      · rw [List.filter_cons_of_pos (by simpa using hp), List.map_cons, List.map_cons, List.map_cons,
          List.filter_cons_of_pos (by simpa using hp), List.map_cons, ih]
        rfl
      · rw [List.filter_cons_of_neg (by simpa using hp), List.map_cons, List.filter_cons_of_neg (by simpa using hp), ih]
        rfl
  rw [key, key, h]

theorem header_text (i : ToolInput) (o : ModuleOutput) (k : Nat) :
    fileHeader i.mainFile (handlePragmas i.pragmas).includes ++ o.text i.world k = fileText i (o.stream k) := by
  unfold fileText fileHeader includeLines ModuleOutput.text
  simp [List.flatMap_map]

theorem style_handle (i : ToolInput) {loc : Nat → Nat} {brief : Nat → Str} (h : SameOrder i.world.loc loc) (name : Str)
    (outputs : List Str) :
    (handleTranslationUnit (restyled i loc brief) name outputs).diags = (handleTranslationUnit i name outputs).diags ∧
    (handleTranslationUnit (restyled i loc brief) name outputs).ioError = (handleTranslationUnit i name outputs).ioError ∧
    ForEach (fun a b => a.1 = b.1 ∧ SameCode i a.2 b.2) (handleTranslationUnit i name outputs).outputs
      (handleTranslationUnit (restyled i loc brief) name outputs).outputs := by
  have refl : ∀ l : List (Str × Str), ForEach (fun a b => a.1 = b.1 ∧ SameCode i a.2 b.2) l l := by
    intro l
    have := forEach_map (fun a b => a.1 = b.1 ∧ SameCode i a.2 b.2) id id l fun a => ⟨rfl, .inl rfl⟩
    rwa [List.map_id] at this
  have hb : buildGraph (restyled i loc brief).world.toWorld (restyled i loc brief).tree =
      buildGraph i.world.toWorld i.tree := style_build i.tree
  have ht : ∀ o k, ModuleOutput.text (restyled i loc brief).world o k = ModuleOutput.text i.world o k := by
    intro o k
    unfold ModuleOutput.text
    rfl
  unfold handleTranslationUnit
  dsimp only
  rw [hb]
  cases (buildGraph i.world.toWorld i.tree).1 with
  | none => exact ⟨rfl, rfl, .nil⟩
  | some g =>
    have hc := fun l r m => style_cycles (brief := brief) h l r m
    have hu := fun g l r => style_unreachable (brief := brief) h g l r
    have ha : ∀ s, analyze (restyle i.world loc brief).toWorld s (restyled i loc brief).members name g =
      analyze i.world.toWorld s i.members name g := fun s => rfl
    have hv : ∀ s, deriveEffectiveVisibility (restyle i.world loc brief).toWorld s g =
      deriveEffectiveVisibility i.world.toWorld s g := fun s => rfl
    dsimp only
    simp only [restyled] at ht ha ⊢
    simp only [hc, hu, ht, ha, hv]
    split
    · exact ⟨rfl, rfl, .nil⟩
    · split
      · exact ⟨rfl, rfl, refl _⟩
      · split
        · exact ⟨rfl, rfl, .nil⟩
        · dsimp only
          have he := style_emit (w := i.world) (brief := brief) h (buildGraph i.world.toWorld i.tree).2.storage
            (analyze i.world.toWorld (buildGraph i.world.toWorld i.tree).2.storage i.members name g).pruned
            (analyze i.world.toWorld (buildGraph i.world.toWorld i.tree).2.storage i.members name g).vis i.pick
            (i.iterate (analyze i.world.toWorld (buildGraph i.world.toWorld i.tree).2.storage i.members name g).pruned)
            (createOutputFiles i.creatable outputs).2.length name
          refine ⟨by rw [he.1], rfl, forEach_map _ _ _ _ fun p => ⟨rfl, .inr ?_⟩⟩
          exact ⟨_, _, header_text i _ _, header_text i _ _, lines_of_writes _ _ he.2 _⟩

/-- C90: comments only have an effect on documentation. -/
theorem C90_comments (o : ToolOptions) (i : ToolInput) (files : Files) (loc : Nat → Nat) (brief : Nat → Str)
    (h : SameOrder i.world.loc loc) (r r' : ToolResult) (hr : runTool o i files = some r)
    (hr' : runTool o (restyled i loc brief) files = some r') : SameUpToDocumentation i r r' := by
  unfold runTool at hr hr'
  rw [show (restyled i loc brief).mainFile = i.mainFile from rfl] at hr'
  cases hn : moduleNameFor o.moduleName i.mainFile with
  | none => rw [hn] at hr; cases hr
  | some name =>
    rw [hn] at hr hr'
    dsimp only at hr hr'
    cases hr
    cases hr'
    obtain ⟨hd, hi, ho⟩ := style_handle i (brief := brief) h name o.outputFiles
    have he : errorOccurred (restyled i loc brief) (handleTranslationUnit (restyled i loc brief) name o.outputFiles) =
        errorOccurred i (handleTranslationUnit i name o.outputFiles) := by
      unfold errorOccurred
      rw [hd, hi]
      rfl
    refine ⟨?_, hd, ?_, ?_⟩
    · dsimp only
      rw [he]
    · dsimp only
      unfold shouldEraseOutputFiles
      rw [he]
      exact clear_related _ _ _ _ ho files files fun p => .inl rfl
    · exact printed_related _ _ _ ho

/-- C90: what is assumed about an input does not depend on layout and comments either. -/
theorem C90_input (i : ToolInput) (loc : Nat → Nat) (brief : Nat → Str) (h : SameOrder i.world.loc loc)
    (ok : InputOK i) : InputOK (restyled i loc brief) where
  unit := { ok.unit with }
  emit := { ok.emit with }
  bases := ok.bases
  picks := by
    intro k l hl
    exact ⟨(ok.picks k l hl).1, fun y hy => (h _ _).2 ((ok.picks k l hl).2 y hy)⟩
  iterate := ok.iterate

/-- Blank lines have been added, and a comment. -/
def exRestyled : ToolInput := restyled exInput (fun x => 2 * x + 5) fun | 2 => t%"Does it." | _ => []

example : SameOrder exInput.world.loc fun x => 2 * x + 5 := by
  intro x y
  show 2 * x + 5 ≤ 2 * y + 5 ↔ x ≤ y
  omega

local macro "eval_run" : tactic => `(tactic| (
  simp only [handleTranslationUnit, emitModule, findEnclosingScopes, analyze, pruneGraph, hideNamespaces,
    declContextsWithVisibleNamedDecls, deriveEffectiveVisibility, dfs_fuel]
  decide +kernel))

set_option maxRecDepth 4000 in
/-- The documentation is part of the output: the results are not simply equal. -/
theorem C90_documented : (handleTranslationUnit exRestyled t%"m" [t%"/a"]).outputs ≠
    (handleTranslationUnit exInput t%"m" [t%"/a"]).outputs := by eval_run

/-- The declarations in the opposite order. -/
def exReordered : ToolInput :=
  { exInput with world := restyle exInput.world (fun x => 10 - x) exInput.world.brief
                 pick := fun _ => lastSmallest fun x => 10 - x }

set_option maxRecDepth 4000 in
/-- C90: the order matters. -/
theorem C90_order : (handleTranslationUnit exReordered t%"m" [t%"/a"]).outputs ≠
    (handleTranslationUnit exInput t%"m" [t%"/a"]).outputs := by eval_run

end Verif
