import Verif.Lemmas.ReannotateEmit
/-!
# Lemmas: annotations that have the same effect lead to the same run
-/
namespace Verif
open Spec

/-- The effect of annotations on the storage. -/
structure SameEffect (w : EmitWorld) (texts : Nat → List Str) : Prop where
  annotated : ∀ x, hasAnnotations ((reannotate w texts).info x) = hasAnnotations (w.info x)
  insert : ∀ s x, Storage.insert (reannotate w texts).toDeclEnv s x = Storage.insert w.toDeclEnv s x

section
variable {w : EmitWorld} {texts : Nat → List Str}

theorem respell_visit (h : SameEffect w texts) (c : Collected) (x : Nat) :
    visitDecl (reannotate w texts).toWorld c x = visitDecl w.toWorld c x := by
  have h1 : ∀ c, visitNamedDecl (reannotate w texts).toWorld c x = visitNamedDecl w.toWorld c x := by
    intro c
    unfold visitNamedDecl
    dsimp only
    rw [h.annotated x, h.insert]
    rfl
  have h2 : ∀ c, visitTypedefNameDecl (reannotate w texts).toWorld c x = visitTypedefNameDecl w.toWorld c x := by
    intro c
    unfold visitTypedefNameDecl
    rw [h.annotated x]
    rfl
  unfold visitDecl
  dsimp only
  rw [h1, h2]
  rfl

mutual
theorem respell_traverse (h : SameEffect w texts) : ∀ (t : Tree) (c : Collected),
    traverse (reannotate w texts).toWorld c t = traverse w.toWorld c t
  | .node x l, c => by
    rw [traverse, traverse, respell_visit h, respell_traverseAll h l]
    rfl
theorem respell_traverseAll (h : SameEffect w texts) : ∀ (l : List Tree) (c : Collected),
    traverseAll (reannotate w texts).toWorld c l = traverseAll w.toWorld c l
  | [], _ => by rw [traverseAll, traverseAll]
  | t :: l, c => by rw [traverseAll, traverseAll, respell_traverse h t, respell_traverseAll h l]
end

theorem respell_build (h : SameEffect w texts) (tree : Tree) :
    buildGraph (reannotate w texts).toWorld tree = buildGraph w.toWorld tree := by
  have ha : processAlias (reannotate w texts).toWorld = processAlias w.toWorld := by
    funext b a
    unfold processAlias
    simp only [h.insert]
    rfl
  unfold buildGraph
  rw [respell_traverse h, ha]
  rfl

theorem respell_properties (m : PropertyMap) : emitProperties (reannotate w texts) m = emitProperties w m := by
  induction m with
  | nil => rfl
  | cons e m ih =>
    rw [emitProperties, emitProperties, ih]
    rfl

theorem respell_expose (h : SameEffect w texts) (vis : Visibilities) (s : Storage) (e : Exposer) (c : Nat) :
    exposeContext (reannotate w texts) vis s e c = exposeContext w vis s e c := by
  have hp : ∀ v, Exposer.propose (reannotate w texts) e v = Exposer.propose w e v := by
    intro v
    funext st x
    unfold Exposer.propose
    rw [h.insert]
    rfl
  unfold exposeContext
  rw [off_proposed, hp]
  unfold Exposer.finalizeDefinition
  rw [respell_properties]
  rfl

theorem respell_define (h : SameEffect w texts) (g : Graph) (vis : Visibilities) (streams count : Nat) :
    ∀ (l : List WorklistItem) (d : Defining) (k : Nat),
    defineItems (reannotate w texts) g vis streams count d k l = defineItems w g vis streams count d k l
  | [], _, _ => rfl
  | item :: l, d, k => by
    have e : defineItem (reannotate w texts) g vis streams count d k item =
        defineItem w g vis streams count d k item := by
      unfold defineItem
      rw [respell_expose h]
      rfl
    rw [defineItems, defineItems, e, respell_define h]

theorem respell_emit (h : SameEffect w texts) (s : Storage) (g : Graph) (vis : Visibilities) (pick : Pick)
    (nodes : List Nat) (n : Nat) (name : Str) :
    emitModule (reannotate w texts) s g vis pick nodes n name = emitModule w s g vis pick nodes n name := by
  unfold emitModule
  simp only [respell_define h]
  rfl

theorem respell_handle (i : ToolInput) (h : SameEffect i.world texts) (name : Str) (outputs : List Str) :
    handleTranslationUnit (reannotated i texts) name outputs = handleTranslationUnit i name outputs := by
  have hb : buildGraph (reannotated i texts).world.toWorld (reannotated i texts).tree =
      buildGraph i.world.toWorld i.tree := respell_build h i.tree
  have hm : (reannotated i texts).members = i.members := rfl
  have ht : ∀ o k, ModuleOutput.text (reannotated i texts).world o k = ModuleOutput.text i.world o k := by
    intro o k
    unfold ModuleOutput.text
    rfl
  unfold handleTranslationUnit
  dsimp only
  rw [hb]
  cases (buildGraph i.world.toWorld i.tree).1 with
  | none => rfl
  | some g =>
    have hc : ∀ l r m, reportExposeHereCycles (reannotated i texts).world.toWorld l r m =
        reportExposeHereCycles i.world.toWorld l r m := by
      intro l r m
      unfold reportExposeHereCycles cycleAliases
      simp only [reannotated, off_sort]
    have hu : ∀ g l r, reportUnreachable (reannotated i texts).world.toWorld g l r =
        reportUnreachable i.world.toWorld g l r := by
      intro g l r
      unfold reportUnreachable
      simp only [reannotated, off_sort]
      rfl
    have he : ∀ s g vis pick nodes n, emitModule (reannotated i texts).world s g vis pick nodes n name =
        emitModule i.world s g vis pick nodes n name := fun s g vis pick nodes n => respell_emit h s g vis pick nodes n name
    simp only [hc, hu, he, ht, hm]
    rfl
end

end Verif
