import Verif.Spec.ModuleName
import Verif.Props.Introducer
import Verif.Props.Modules
/-!
# C89: the name of the module
-/
namespace Verif
open Spec

theorem different_same (w : EmitWorld) (s : Storage) (hd : Derived w s) (name name' : Str)
    (h : ∀ x, (w.info x).kind = .namespace → (OnlyExposedIn w x name ↔ OnlyExposedIn w x name')) (x : Nat) :
    isNamespaceForDifferentModule w.toWorld s name x = isNamespaceForDifferentModule w.toWorld s name' x := by
  unfold isNamespaceForDifferentModule
  by_cases hk : (w.info x).kind = .namespace
  · congr 1
    cases hg : getNamespace w.toWorld s x with
    | none => rfl
    | some n =>
      dsimp only
      congr 2
      unfold getNamespace at hg
      rw [if_pos (by rw [hk]; rfl)] at hg
      obtain ⟨a, ha, hn⟩ := Option.bind_eq_some_iff.1 hg
      have hs := (stored_settings w s hd x a ha).1.onlyExposeIn n hn
      have key := h x hk
      unfold OnlyExposedIn at key
      rw [← hs, ← hs] at key
      rw [Bool.eq_iff_iff]
      simp only [List.any_eq_true, decide_eq_true_eq, exists_eq_right]
      exact key
  · rw [decide_eq_false hk]; rfl

theorem analyze_name (w : World) (s : Storage) (m : Members) (name name' : Str) (g : Graph)
    (h : ∀ x, isNamespaceForDifferentModule w s name x = isNamespaceForDifferentModule w s name' x) :
    analyze w s m name g = analyze w s m name' g := by
  unfold analyze hideNamespaces
  simp only [h]

/-- Two lists of lines for streams are equal, except for the name in the definition of the module. -/
def LinesBut (name name' : Str) (a b : List (Nat × Line)) : Prop :=
  a = b ∨ ∃ pre post, a = pre ++ (0, .moduleBegin name) :: post ∧ b = pre ++ (0, .moduleBegin name') :: post

theorem define_after (w : EmitWorld) (g : Graph) (vis : Visibilities) (streams count : Nat) :
    ∀ (l : List WorklistItem) (s : Storage) (ds : List Diag) (k : Nat),
    ∃ s' ds' post, ∀ a, defineItems w g vis streams count { storage := s, diags := ds, writes := a } k l =
      { storage := s', diags := ds', writes := a ++ post }
  | [], s, ds, k => ⟨s, ds, [], fun a => by rw [defineItems, List.append_nil]⟩
  | item :: l, s, ds, k => by
    let r := exposeContext w vis s item.exposer item.context
    obtain ⟨s', ds', post, h⟩ := define_after w g vis streams count l r.storage (ds ++ r.emitted.diags) (k + 1)
    let type := item.exposer.contextType w s g
    refine ⟨s', ds', ((if k * streams / count ≠ 0 then [Line.declare item.identifier type] else []) ++
       Line.defineBegin item.identifier type :: r.emitted.stmts.map Line.stmt ++
       [Line.defineEnd]).map (k * streams / count, ·) ++ post, fun a => ?_⟩
    rw [defineItems, defineItem]
    dsimp only
    rw [h, List.append_assoc]

theorem emit_name (w : EmitWorld) (s : Storage) (g : Graph) (vis : Visibilities) (pick : Pick) (nodes : List Nat)
    (n : Nat) (name name' : Str) :
    (emitModule w s g vis pick nodes n name').diags = (emitModule w s g vis pick nodes n name).diags ∧
    LinesBut name name' (emitModule w s g vis pick nodes n name).writes (emitModule w s g vis pick nodes n name').writes := by
  unfold emitModule
  dsimp only
  cases (declContextsSortedByDependencies w.toWorld w.bases pick nodes g (findEnclosingScopes w.toWorld s g)).2 with
  | some c => exact ⟨rfl, .inl rfl⟩
  | none =>
    dsimp only
    generalize nameContexts w s _ = nm
    obtain ⟨s', ds', post, h⟩ := define_after w g vis n nm.worklist.length nm.worklist s [] 0
    rw [h, h]
    refine ⟨rfl, .inr ?_⟩
    unfold emitMain
    simp only [List.append_assoc, List.cons_append, List.nil_append, List.map_append, List.map_cons]
    exact ⟨_ ++ [_], _, (List.append_assoc _ [_] _).symm, (List.append_assoc _ [_] _).symm⟩

theorem text_name (w : EmitWorld) (name name' : Str) (o o' : ModuleOutput) (h : LinesBut name name' o.writes o'.writes)
    (k : Nat) (header : Str) : EqualBut name name' (header ++ o.text w k) (header ++ o'.text w k) := by
  unfold ModuleOutput.text ModuleOutput.stream
  rcases h with h | ⟨pre, post, h, h'⟩
  · rw [h]; exact .inl rfl
  · rw [h, h']
    by_cases hk : 0 = k
    · subst hk
      refine .inr ⟨header ++ ((pre.filter (·.1 = 0)).map (·.2)).flatMap (Line.emit w),
        ((post.filter (·.1 = 0)).map (·.2)).flatMap (Line.emit w), ?_, ?_⟩ <;>
      simp [moduleLine, Line.emit]
    · simp [hk]
      exact .inl rfl

/-- The contents of files after a run whose outputs are related. -/
theorem clear_related (R : Str → Str → Prop) (erase : Bool) (out out' : List (Str × Str))
    (h : ForEach (fun a b => a.1 = b.1 ∧ R a.2 b.2) out out') :
    ∀ files files' : Files,
    (∀ p, files p = files' p ∨ ∃ a b, files p = some a ∧ files' p = some b ∧ R a b) →
    ∀ p, clearOutputFiles erase files out p = clearOutputFiles erase files' out' p ∨
      ∃ a b, clearOutputFiles erase files out p = some a ∧ clearOutputFiles erase files' out' p = some b ∧
        R a b := by
  induction h with
  | nil => intro files files' hf; exact hf
  | @cons x y l l' hxy _ ih =>
    intro files files' hf
    obtain ⟨path, text⟩ := x
    obtain ⟨path', text'⟩ := y
    obtain ⟨e, ht⟩ := hxy
    dsimp only at e ht
    subst e
    rw [clearOutputFiles, clearOutputFiles]
    refine ih _ _ fun p => ?_
    by_cases hp : path = ['-']
    · rw [if_pos hp, if_pos hp]; exact hf p
    · rw [if_neg hp, if_neg hp]
      by_cases hq : p = path
      · rw [if_pos hq, if_pos hq]
        cases erase with
        | true => exact .inl rfl
        | false => exact .inr ⟨text, text', rfl, rfl, ht⟩
      · rw [if_neg hq, if_neg hq]
        exact hf p

theorem printed_related (R : Str → Str → Prop) (out out' : List (Str × Str))
    (h : ForEach (fun a b => a.1 = b.1 ∧ R a.2 b.2) out out') :
    ForEach R ((out.filter fun p => p.1 = ['-']).map (·.2)) ((out'.filter fun p => p.1 = ['-']).map (·.2)) := by
  induction h with
  | nil => exact .nil
  | @cons x y l l' hxy _ ih =>
    by_cases hp : x.1 = ['-']
    · rw [List.filter_cons_of_pos (by simpa using hp), List.filter_cons_of_pos (by simpa using hxy.1 ▸ hp)]
      exact .cons hxy.2 ih
    · rw [List.filter_cons_of_neg (by simpa using hp), List.filter_cons_of_neg (by simpa using hxy.1 ▸ hp)]
      exact ih

theorem forEach_map {α β : Type} (R : β → β → Prop) (f g : α → β) (l : List α) (h : ∀ a, R (f a) (g a)) :
    ForEach R (l.map f) (l.map g) := by
  induction l with
  | nil => exact .nil
  | cons a l ih => exact .cons (h a) ih

theorem handle_name (i : ToolInput) (name name' : Str) (outputs : List Str)
    (h : ∀ g, (buildGraph i.world.toWorld i.tree).1 = some g → ∀ x,
      isNamespaceForDifferentModule i.world.toWorld (buildGraph i.world.toWorld i.tree).2.storage name x =
      isNamespaceForDifferentModule i.world.toWorld (buildGraph i.world.toWorld i.tree).2.storage name' x) :
    (handleTranslationUnit i name' outputs).diags = (handleTranslationUnit i name outputs).diags ∧
    (handleTranslationUnit i name' outputs).ioError = (handleTranslationUnit i name outputs).ioError ∧
    ForEach (fun a b => a.1 = b.1 ∧ EqualBut name name' a.2 b.2) (handleTranslationUnit i name outputs).outputs
      (handleTranslationUnit i name' outputs).outputs := by
  have refl : ∀ l : List (Str × Str), ForEach (fun a b => a.1 = b.1 ∧ EqualBut name name' a.2 b.2) l l := by
    intro l
    have := forEach_map (fun a b => a.1 = b.1 ∧ EqualBut name name' a.2 b.2) id id l fun a => ⟨rfl, .inl rfl⟩
    rwa [List.map_id] at this
  unfold handleTranslationUnit
  dsimp only
  cases hb : (buildGraph i.world.toWorld i.tree).1 with
  | none => exact ⟨rfl, rfl, .nil⟩
  | some g =>
    dsimp only
    split
    · exact ⟨rfl, rfl, .nil⟩
    · rw [analyze_name _ _ i.members name' name g fun x => (h g hb x).symm]
      split
      · exact ⟨rfl, rfl, refl _⟩
      · split
        · exact ⟨rfl, rfl, .nil⟩
        · dsimp only
          refine ⟨?_, rfl, ?_⟩
          · rw [(emit_name i.world _ _ _ i.pick _ _ name name').1]
          · exact forEach_map _ _ _ _ fun p => ⟨rfl, text_name i.world name name' _ _
              (emit_name i.world _ _ _ i.pick _ _ name name').2 p.2 _⟩

/-- C89: if two names are both given or both not given in the `only_expose_in` annotations of each
namespace, the runs for both names are the same, except for the line that defines the module. -/
theorem C89_run (o : ToolOptions) (i : ToolInput) (files : Files) (ok : WellFormed i.world.toWorld i.tree)
    (name name' : Str) (r r' : ToolResult) (h1 : name ≠ []) (h2 : name' ≠ [])
    (hn : ∀ x, (i.world.info x).kind = .namespace → (OnlyExposedIn i.world x name ↔ OnlyExposedIn i.world x name'))
    (hr : runTool { o with moduleName := name } i files = some r)
    (hr' : runTool { o with moduleName := name' } i files = some r') : SameUpToName name name' r r' := by
  obtain ⟨hd, hi, ho⟩ := handle_name i name name' o.outputFiles fun g hg =>
    different_same i.world _ (derived_built i.world i.tree ok g _ (by rw [← hg])) name name' hn
  have e1 : moduleNameFor name i.mainFile = some name := by unfold moduleNameFor; simp [h1]
  have e2 : moduleNameFor name' i.mainFile = some name' := by unfold moduleNameFor; simp [h2]
  have he : errorOccurred i (handleTranslationUnit i name' o.outputFiles) =
      errorOccurred i (handleTranslationUnit i name o.outputFiles) := by
    unfold errorOccurred
    rw [hd, hi]
  unfold runTool at hr hr'
  dsimp only at hr hr'
  rw [e1] at hr
  rw [e2] at hr'
  cases hr
  cases hr'
  have hs : shouldEraseOutputFiles { o with moduleName := name' } i (handleTranslationUnit i name' o.outputFiles) =
      shouldEraseOutputFiles { o with moduleName := name } i (handleTranslationUnit i name o.outputFiles) := by
    unfold shouldEraseOutputFiles
    rw [he]
  refine ⟨?_, hd, ?_, ?_⟩
  · dsimp only
    rw [show ToolOptions.outputFiles { o with moduleName := name' } = o.outputFiles from rfl,
      show ToolOptions.outputFiles { o with moduleName := name } = o.outputFiles from rfl, he]
  · dsimp only
    rw [show ToolOptions.outputFiles { o with moduleName := name' } = o.outputFiles from rfl,
      show ToolOptions.outputFiles { o with moduleName := name } = o.outputFiles from rfl, hs]
    exact clear_related _ _ _ _ ho files files fun p => .inl rfl
  · exact printed_related _ _ _ ho

/-- C89: without `only_expose_in`, the name does not matter for anything else. -/
theorem C89_unannotated (o : ToolOptions) (i : ToolInput) (files : Files) (ok : WellFormed i.world.toWorld i.tree)
    (name name' : Str) (r r' : ToolResult) (h1 : name ≠ []) (h2 : name' ≠ [])
    (hn : ∀ x, (i.world.info x).kind = .namespace → ∀ a ∈ annotationsOf i.world x, a.kind ≠ .onlyExposeIn)
    (hr : runTool { o with moduleName := name } i files = some r)
    (hr' : runTool { o with moduleName := name' } i files = some r') : SameUpToName name name' r r' :=
  C89_run o i files ok name name' r r' h1 h2
    (fun x hx => ⟨fun ⟨_, h, _⟩ => absurd rfl (hn x hx _ h.1), fun ⟨_, h, _⟩ => absurd rfl (hn x hx _ h.1)⟩) hr hr'

/-- C89: with it, it does. -/
theorem C89_matters :
    (linesFor (exPartsInput []) t%"common").2 ≠ (linesFor (exPartsInput []) t%"down").2 := by
  obtain ⟨_, h1, h2⟩ := C79_base_lost
  intro h
  unfold basesListed at h1 h2
  dsimp only at h1 h2
  rw [h, h2] at h1
  exact absurd h1 (by decide +kernel)

/-- Two names that are not given, and a module without any. -/
example : ∀ x, ((exPartsInput []).world.info x).kind = .namespace →
    (OnlyExposedIn (exPartsInput []).world x t%"a" ↔ OnlyExposedIn (exPartsInput []).world x t%"b") := by
  have key : ∀ x, ∀ a ∈ annotationsOf (exPartsInput []).world x,
      LiteralValue.string t%"a" ∉ a.arguments ∧ LiteralValue.string t%"b" ∉ a.arguments := by
    intro x
    match x with
    | 0 | 1 | 2 | 3 | 4 | 5 | 6 => decide +kernel
    | n + 7 => exact fun a ha => by cases ha
  intro x _
  exact ⟨fun ⟨_, h, h'⟩ => absurd h' (key x _ h.1).1, fun ⟨_, h, h'⟩ => absurd h' (key x _ h.1).2⟩

example : ∀ x, (exInput.world.info x).kind = .namespace → ∀ a ∈ annotationsOf exInput.world x, a.kind ≠ .onlyExposeIn := by
  intro x _
  match x with
  | 0 | 1 | 2 | 3 | 4 | 5 | 6 => decide +kernel
  | n + 7 => exact fun a ha => by cases ha

end Verif
