import Verif.Lemmas.ReannotateEmit
import Verif.Props.Additions
/-!
# C85: annotations only affect what they are attached to
-/
namespace Verif
open Spec

section
variable {w : EmitWorld} {D : Nat → Bool} {texts : Nat → List Str} {P : Str → Bool}

/-- Lines that are not about the members. -/
def unconcerned (D : Nat → Bool) (P : Str → Bool) (l : List Line) : List Line :=
  l.filter fun x => !concerns D P x

theorem unconcerned_append (l m : List Line) :
    unconcerned D P (l ++ m) = unconcerned D P l ++ unconcerned D P m := List.filter_append ..

theorem unconcerned_flatMap {α : Type} (l : List α) (f f' : α → List Line)
    (h : ∀ a ∈ l, unconcerned D P (f' a) = unconcerned D P (f a)) :
    unconcerned D P (l.flatMap f') = unconcerned D P (l.flatMap f) := by
  induction l with
  | nil => rfl
  | cons a l ih =>
    rw [List.flatMap_cons, List.flatMap_cons, unconcerned_append, unconcerned_append,
      h a List.mem_cons_self, ih fun b hb => h b (List.mem_cons_of_mem _ hb)]

theorem off_contextType (h : OnlyAnnotated w D texts) {s s' : Storage} (hs : Off w D texts s s') (g : Graph)
    (x : Nat) : contextTypeOf (reannotate w texts) s' g x = contextTypeOf w s g x := by
  unfold contextTypeOf
  rw [off_create h hs]
  unfold Exposer.contextType
  rw [off_record h hs]
  rfl

theorem off_introducer (h : OnlyAnnotated w D texts) {s s' : Storage} (hs : Off w D texts s s') (g : Graph)
    (x : Nat) (hx : D x = false) (parent : Str) :
    (Exposer.create (reannotate w texts) s' x).introducer (reannotate w texts) s' g parent =
      (Exposer.create w s x).introducer w s g parent := by
  have ht := off_contextType h hs g x
  unfold contextTypeOf at ht
  rw [off_create h hs] at ht ⊢
  have hi : ∀ y, Exposer.create w s x = .namespace y ∨ Exposer.create w s x = .enum y ∨
      (∃ p, Exposer.create w s x = .record y p) → y = x := by
    intro y hy
    unfold Exposer.create at hy
    split at hy <;> simp at hy <;> first | exact hy.symm | exact hy.1.symm
  revert ht hi
  generalize Exposer.create w s x = e
  intro ht hi
  have hn : ((reannotate w texts).info x) = w.info x := reannotate_info h x hx
  cases e with
  | plain => rfl
  | «namespace» y =>
    obtain rfl := hi y (.inl rfl)
    unfold Exposer.introducer
    dsimp only
    rw [hs.off y hx, off_named hs y hx, hn]
  | enum y =>
    obtain rfl := hi y (.inr (.inl rfl))
    unfold Exposer.introducer
    dsimp only
    rw [ht, hs.off y hx, off_named hs y hx, hn]
    rfl
  | record y p =>
    obtain rfl := hi y (.inr (.inr ⟨p, rfl⟩))
    unfold Exposer.introducer
    dsimp only
    rw [ht, off_record h hs, off_named hs y hx, hn]
    rfl

theorem off_postamble {s s' : Storage} (hs : Off w D texts s s') (l : List Nat) :
    unconcerned D P (l.filterMap fun v => (postambleLambda s' v).map (Line.postamble v)) =
      unconcerned D P (l.filterMap fun v => (postambleLambda s v).map (Line.postamble v)) := by
  unfold unconcerned
  induction l with
  | nil => rfl
  | cons v l ih =>
    have key : ∀ o : Option Nat, D v = true →
        (((match o.map (Line.postamble v) with | none => [] | some b => [b]) : List Line).filter
          fun x => !concerns D P x) = [] := by
      intro o hv
      cases o with
      | none => rfl
      | some b =>
        rw [Option.map_some]
        dsimp only
        rw [List.filter_cons, show concerns D P (Line.postamble v b) = true from hv]
        rfl
    have split : ∀ (f : Nat → Option Line), (List.filterMap f (v :: l)) =
        (match f v with | none => [] | some b => [b]) ++ List.filterMap f l := by
      intro f
      rw [List.filterMap_cons]
      cases f v <;> rfl
    rw [split, split, List.filter_append, List.filter_append, ih]
    congr 1
    cases hv : D v with
    | true => rw [key _ hv, key _ hv]
    | false =>
      have : postambleLambda s' v = postambleLambda s v := by
        unfold postambleLambda
        rw [hs.off v hv]
      rw [this]

theorem off_definition (h : OnlyAnnotated w D texts) (hc : Covers w D texts P) {s s' : Storage}
    (hs : Off w D texts s s') (g : Graph) (vis : Visibilities) (k x : Nat) (hx : D x = false)
    (identifier : Str) :
    unconcerned D P (definitionOf (reannotate w texts) s' g vis k x identifier) =
      unconcerned D P (definitionOf w s g vis k x identifier) := by
  unfold definitionOf
  rw [off_contextType h hs, off_create h hs]
  simp only [unconcerned_append]
  congr 2
  have hm : ∀ l : List Stmt, unconcerned D P (l.map Line.stmt) = (otherStmts D P l).map Line.stmt := by
    intro l
    unfold unconcerned otherStmts
    rw [List.filter_map]
    rfl
  rw [hm, hm, off_context h hc hs]
  intro e he
  unfold Exposer.create at he
  split at he <;> simp at he
  rw [← he]; exact hx

theorem off_main (h : OnlyAnnotated w D texts) {s s' : Storage}
    (hs : Off w D texts s s') {g : Graph} (hg : ContextGraph w.toWorld g) (name : Str) (order : List Nat)
    (ho : ∀ x ∈ order, D x = false) :
    unconcerned D P (mainOf (reannotate w texts) s' g name order) =
      unconcerned D P (mainOf w s g name order) := by
  have hp : ∀ x, parentIdentifier (reannotate w texts) s' g order x = parentIdentifier w s g order x := by
    intro x
    unfold parentIdentifier
    rw [off_scopes h hg hs]
    rfl
  unfold mainOf
  dsimp only
  rw [show contextsOf (reannotate w texts) order = contextsOf w order from rfl,
    show identifiersOf (reannotate w texts) order = identifiersOf w order from rfl,
    show (reannotate w texts).unitVars = w.unitVars from rfl]
  simp only [unconcerned_append, hp]
  congr 1
  · congr 3
    · congr 2
      refine List.map_congr_left fun p _ => ?_
      rw [off_contextType h hs]
    · congr 1
      refine List.map_congr_left fun p hpm => ?_
      rw [off_introducer h hs g p.1 (ho p.1 ?_)]
      exact (List.mem_filter.1 (List.of_mem_zip hpm).1).1
  · congr 1
    exact off_postamble hs _

/-- What is written to a file. -/
theorem off_stream (h : OnlyAnnotated w D texts) (hc : Covers w D texts P) (ok : EmitOK w) {s s' : Storage}
    (hs : Off w D texts s s') {g : Graph} (vis : Visibilities) (pick : Pick) (nodes : List Nat)
    (hi : EmitInput w g pick nodes) (n : Nat) (name : Str) (k : Nat) :
    unconcerned D P ((emitModule (reannotate w texts) s' g vis pick nodes n name).stream k) =
      unconcerned D P ((emitModule w s g vis pick nodes n name).stream k) := by
  have hg := hi.graph.toContextGraph
  have ok' : EmitOK (reannotate w texts) := ⟨ok.specialization, ok.operator, ok.params, ok.self⟩
  have hg' : ExposedGraph (reannotate w texts).toWorld g :=
    { toContextGraph := ⟨hg.toForest, hg.root_kind, hg.node_kind⟩, reach := hi.graph.reach, nodup := hi.graph.nodup }
  have hi' : EmitInput (reannotate w texts) g pick nodes := ⟨hg', hi.bases, hi.picks, hi.perm⟩
  have hsort : declContextsSortedByDependencies (reannotate w texts).toWorld (reannotate w texts).bases pick
      nodes g (findEnclosingScopes (reannotate w texts).toWorld s' g) =
      declContextsSortedByDependencies w.toWorld w.bases pick nodes g (findEnclosingScopes w.toWorld s g) := by
    rw [off_scopes h hg hs]
    rfl
  cases hr : declContextsSortedByDependencies w.toWorld w.bases pick nodes g
      (findEnclosingScopes w.toWorld s g) with
  | mk order cycle =>
  cases cycle with
  | some c =>
    have h1 : ∀ (u : EmitWorld) (t : Storage), declContextsSortedByDependencies u.toWorld u.bases pick nodes g
        (findEnclosingScopes u.toWorld t g) = (order, some c) →
        (emitModule u t g vis pick nodes n name).stream k = [] := by
      intro u t hu
      unfold emitModule
      dsimp only
      rw [hu]
      rfl
    rw [h1 w s hr, h1 _ s' (hsort.trans hr)]
  | none =>
    have ho := C29_order w.toWorld s g hi.graph w.bases hi.bases pick hi.picks nodes hi.perm _ hr
    have hn : ∀ x ∈ order, D x = false := fun x hx => off_nodes h hg x (ho.perm.mem_iff.1 hx)
    rw [stream_eq w ok s g vis pick nodes hi n name order hr,
      stream_eq (reannotate w texts) ok' s' g vis pick nodes hi' n name order (hsort.trans hr),
      unconcerned_append, unconcerned_append,
      show contextsOf (reannotate w texts) order = contextsOf w order from rfl,
      show identifiersOf (reannotate w texts) order = identifiersOf w order from rfl]
    congr 1
    · split
      · exact off_main h hs hg name order hn
      · rfl
    · refine unconcerned_flatMap _ _ _ fun p hp => ?_
      refine off_definition h hc hs g vis k p.1.1 (hn _ ?_) _
      have := (List.mem_filter.1 hp).1
      have hz := List.fst_mem_of_mem_zipIdx this
      exact (List.mem_filter.1 (List.of_mem_zip hz).1).1
end

/-- C85: if two translation units only differ in the annotations of some members, the generated code
only differs in what is written for these members and for the properties they contribute to.  This holds
unless one of them is the only thing a namespace contains (see `C85_empty_namespace`). -/
theorem C85_lines_partial (i : ToolInput) (ok : InputOK i) (D : Nat → Bool) (texts : Nat → List Str)
    (P : Str → Bool) (h : OnlyAnnotated i.world D texts) (hc : Covers i.world D texts P)
    (g g' : Graph) (b b' : Building) (hb : buildGraph i.world.toWorld i.tree = (some g, b))
    (hb' : buildGraph (reannotate i.world texts).toWorld i.tree = (some g', b'))
    (hp : ∀ x, ¬ IsType i.world.toWorld x →
      (Populated (reannotate i.world texts).toWorld b'.storage i.members g x ↔
        Populated i.world.toWorld b.storage i.members g x)) (name : Str) (n k : Nat) :
    (linesOf (reannotated i texts) name n k).filter (fun l => !concerns D P l) =
      (linesOf i name n k).filter (fun l => !concerns D P l) := by
  obtain ⟨rfl, ho⟩ := off_built h i.tree ok.unit hb hb'
  have hg := C23_graphs _ _ ok.unit _ _ hb
  obtain ⟨h1, h2⟩ := off_analyze h hg ho.storage i.members name hp
  unfold linesOf
  rw [show (reannotated i texts).world = reannotate i.world texts from rfl,
    show (reannotated i texts).tree = i.tree from rfl, hb, hb']
  dsimp only
  rw [show (reannotated i texts).members = i.members from rfl,
    show (reannotated i texts).pick = i.pick from rfl,
    show (reannotated i texts).iterate = i.iterate from rfl, h1, h2]
  exact off_stream h hc ok.emit ho.storage _ i.pick _
    ⟨exposedGraph hg _ _ _, ok.bases, ok.picks, ok.iterate _⟩ n name k

/-- C85: annotations of members of classes and enums are of no relevance for anything else. -/
theorem C85_members (i : ToolInput) (ok : InputOK i) (D : Nat → Bool) (texts : Nat → List Str)
    (P : Str → Bool) (h : OnlyAnnotated i.world D texts) (hc : Covers i.world D texts P)
    (hD : ∀ x, ¬ IsType i.world.toWorld x → ∀ d ∈ i.members.decls x, D d = false)
    (hb : (buildGraph i.world.toWorld i.tree).1.isSome = true)
    (hb' : (buildGraph (reannotate i.world texts).toWorld i.tree).1.isSome = true)
    (name : Str) (n k : Nat) :
    (linesOf (reannotated i texts) name n k).filter (fun l => !concerns D P l) =
      (linesOf i name n k).filter (fun l => !concerns D P l) := by
  cases e : buildGraph i.world.toWorld i.tree with
  | mk g b =>
  cases e' : buildGraph (reannotate i.world texts).toWorld i.tree with
  | mk g' b' =>
  cases g with
  | none => rw [e] at hb; cases hb
  | some g =>
  cases g' with
  | none => rw [e'] at hb'; cases hb'
  | some g' =>
  refine C85_lines_partial i ok D texts P h hc g g' b b' e e' (fun x hx => ?_) name n k
  have ho := (off_built h i.tree ok.unit e e').2
  have hg := C23_graphs _ _ ok.unit _ _ e
  have hV : EffVisible (reannotate i.world texts).toWorld b'.storage g = EffVisible i.world.toWorld b.storage g :=
    funext fun x => propext (off_effVisible h hg ho.storage x)
  unfold Populated
  rw [hV]
  refine or_congr ?_ Iff.rfl
  have he : ∀ d ∈ i.members.decls x, explicit b'.storage d = explicit b.storage d := by
    intro d hd
    unfold explicit
    rw [ho.storage.off d (hD x hx d hd)]
  constructor
  · rintro ⟨d, h1, h2, h3⟩
    exact ⟨d, h1, h2, by rw [← he d h1]; exact h3⟩
  · rintro ⟨d, h1, h2, h3⟩
    exact ⟨d, h1, h2, by rw [he d h1]; exact h3⟩

theorem filter_noop {α : Type} (f : α → Bool) (l : List α) (h : ∀ x ∈ l, f x = false) :
    l.filter (fun x => !f x) = l :=
  List.filter_eq_self.2 fun x hx => by rw [h x hx]; rfl

/-- Nothing is written for hidden members. -/
theorem hidden_stream {w : EmitWorld} {D : Nat → Bool} (ok : EmitOK w)
    (hh : ∀ d, D d = true → (firstInsert w.toDeclEnv d).1.named.visible = some false)
    (hv : ∀ d, D d = true → ∀ v, (firstInsert w.toDeclEnv d).1.fieldOrVar = some v → v.postamble = false)
    {s : Storage} (hs : ∀ d a, D d = true → s.entries d = some a → a = (firstInsert w.toDeclEnv d).1)
    {g : Graph} (vis : Visibilities) (pick : Pick) (nodes : List Nat) (hi : EmitInput w g pick nodes)
    (n : Nat) (name : Str) (k : Nat) :
    ∀ l ∈ (emitModule w s g vis pick nodes n name).stream k, concerns D (fun _ => false) l = false := by
  intro l hl
  rcases C34_outcome w s g vis pick nodes hi n name with ⟨_, order, _, he⟩ | ⟨_, c, he⟩
  · rw [stream_eq w ok s g vis pick nodes hi n name order he, List.mem_append] at hl
    rcases hl with hl | hl
    · split at hl
      · unfold mainOf at hl
        dsimp only at hl
        simp only [List.mem_append, List.mem_cons, List.not_mem_nil, or_false, List.mem_map,
          List.mem_filterMap] at hl
        rcases hl with ((((⟨_, _, rfl⟩ | rfl | rfl) | ⟨_, _, rfl⟩) | rfl) | ⟨_, _, rfl⟩) | ⟨v, _, hm⟩ | rfl
        any_goals rfl
        cases hp : postambleLambda s v with
        | none => rw [hp] at hm; cases hm
        | some lam =>
          rw [hp] at hm
          cases hm
          show D v = false
          cases hd : D v with
          | false => rfl
          | true =>
            unfold postambleLambda at hp
            cases ha : s.entries v with
            | none => rw [ha] at hp; cases hp
            | some a =>
              rw [ha, hs v a hd ha, Option.bind_some] at hp
              cases hf : (firstInsert w.toDeclEnv v).1.fieldOrVar with
              | none => rw [hf] at hp; cases hp
              | some x =>
                rw [hf] at hp
                dsimp only at hp
                rw [hv v hd x hf] at hp
                cases hp
      · cases hl
    · obtain ⟨p, _, hl⟩ := List.mem_flatMap.1 hl
      unfold definitionOf at hl
      simp only [List.mem_append, List.mem_cons, List.not_mem_nil, or_false, List.mem_map] at hl
      rcases hl with ((hl | rfl) | ⟨st, hst, rfl⟩) | rfl
      · split at hl
        · rw [List.mem_singleton.1 hl]; rfl
        · cases hl
      · rfl
      · exact hidden_context hh hs vis _ _ st hst
      · rfl
  · rw [he] at hl
    cases hl

/-- C85: annotating members of classes with `hidden` removes exactly what is written for them. -/
theorem C85_hidden (i : ToolInput) (ok : InputOK i) (D : Nat → Bool)
    (hk : ∀ d, D d = true → IsMember (i.world.info d).kind)
    (hD : ∀ x, ¬ IsType i.world.toWorld x → ∀ d ∈ i.members.decls x, D d = false)
    (ha : ∀ d, D d = true → accessedBy d (i.world.info d).attrTexts = [])
    (hb : (buildGraph i.world.toWorld i.tree).1.isSome = true)
    (hb' : (buildGraph (reannotate i.world (hideOnly i.world D)).toWorld i.tree).1.isSome = true)
    (name : Str) (n k : Nat) :
    linesOf (reannotated i (hideOnly i.world D)) name n k =
      (linesOf i name n k).filter (fun l => !concerns D (fun _ => false) l) := by
  have h : OnlyAnnotated i.world D (hideOnly i.world D) := ⟨hk, fun x hx => by simp [hideOnly, hx]⟩
  have ht : ∀ d, D d = true → hideOnly i.world D d = [lozenge ++ t%"hidden"] := fun d hd => by
    simp [hideOnly, hd]
  have hc : Covers i.world D (hideOnly i.world D) (fun _ => false) := by
    refine ⟨fun d hd n hn => ?_, fun d hd n hn => ?_⟩
    · rw [ha d hd] at hn; cases hn
    · rw [ht d hd] at hn
      unfold accessedBy at hn
      rw [parse_hidden] at hn
      cases hn
  rw [← C85_members i ok D _ _ h hc hD hb hb' name n k]
  refine (filter_noop _ _ fun l hl => ?_).symm
  cases e : buildGraph i.world.toWorld i.tree with
  | mk g b =>
  cases e' : buildGraph (reannotate i.world (hideOnly i.world D)).toWorld i.tree with
  | mk g' b' =>
  cases g with
  | none => rw [e] at hb; cases hb
  | some g =>
  cases g' with
  | none => rw [e'] at hb'; cases hb'
  | some g' =>
  obtain ⟨rfl, ho⟩ := off_built h i.tree ok.unit e e'
  have hg := C23_graphs _ _ ok.unit _ _ e
  have hg' : ContextGraph (reannotate i.world (hideOnly i.world D)).toWorld g' :=
    ⟨hg.toForest, hg.root_kind, hg.node_kind⟩
  unfold linesOf at hl
  rw [show (reannotated i (hideOnly i.world D)).world = reannotate i.world (hideOnly i.world D) from rfl,
    show (reannotated i (hideOnly i.world D)).tree = i.tree from rfl, e'] at hl
  dsimp only at hl
  have hid := fun d hd => firstInsert_hidden (reannotate i.world (hideOnly i.world D)).toDeclEnv d (ht d hd)
  refine hidden_stream (w := reannotate i.world (hideOnly i.world D))
    ⟨ok.emit.specialization, ok.emit.operator, ok.emit.params, ok.emit.self⟩ (fun d hd => (hid d hd).1)
    (fun d hd => (hid d hd).2) (fun d a hd h => ho.storage.own' d a hd h) _ _ _ ?_ n name k l hl
  exact ⟨exposedGraph hg' _ _ _, ok.bases, ok.picks, ok.iterate _⟩

/-- C85: either the generated files are the same, or they are the same ones and consist of the same
includes followed by the lines compared above. -/
theorem C85_files (i : ToolInput) (ok : InputOK i) (D : Nat → Bool) (texts : Nat → List Str)
    (h : OnlyAnnotated i.world D texts)
    (hb : (buildGraph i.world.toWorld i.tree).1.isSome = true)
    (hb' : (buildGraph (reannotate i.world texts).toWorld i.tree).1.isSome = true)
    (name : Str) (outputs : List Str) :
    (handleTranslationUnit (reannotated i texts) name outputs).outputs =
      (handleTranslationUnit i name outputs).outputs ∨
    ∃ (names : List Str) (header : Str),
      (handleTranslationUnit i name outputs).outputs = names.zipIdx.map (fun p =>
        (p.1, header ++ (linesOf i name names.length p.2).flatMap (Line.emit i.world))) ∧
      (handleTranslationUnit (reannotated i texts) name outputs).outputs = names.zipIdx.map (fun p =>
        (p.1, header ++ (linesOf (reannotated i texts) name names.length p.2).flatMap (Line.emit i.world))) := by
  cases e : buildGraph i.world.toWorld i.tree with
  | mk g b =>
  cases e' : buildGraph (reannotate i.world texts).toWorld i.tree with
  | mk g' b' =>
  cases g with
  | none => rw [e] at hb; cases hb
  | some g =>
  cases g' with
  | none => rw [e'] at hb'; cases hb'
  | some g' =>
  obtain ⟨rfl, ho⟩ := off_built h i.tree ok.unit e e'
  have hg := C23_graphs _ _ ok.unit _ _ e
  have hw : Line.emit (reannotate i.world texts) = Line.emit i.world := by
    funext l
    cases l with
    | stmt st => cases st <;> rfl
    | _ => rfl
  have hcy : (reportExposeHereCycles (reannotate i.world texts).toWorld (i.iterate g')
      (reachableDeclContexts (deriveEffectiveVisibility (reannotate i.world texts).toWorld b'.storage g'))
      b'.relocated).1 = (reportExposeHereCycles i.world.toWorld (i.iterate g')
      (reachableDeclContexts (deriveEffectiveVisibility i.world.toWorld b.storage g')) b.relocated).1 := by
    rw [off_vis h hg ho.storage, ho.relocated]
    unfold reportExposeHereCycles cycleAliases
    rw [off_sort]
  unfold handleTranslationUnit linesOf
  dsimp only
  rw [show (reannotated i texts).world = reannotate i.world texts from rfl,
    show (reannotated i texts).tree = i.tree from rfl, e, e']
  dsimp only
  rw [show (reannotated i texts).iterate = i.iterate from rfl, hcy]
  by_cases hc : (reportExposeHereCycles i.world.toWorld (i.iterate g')
      (reachableDeclContexts (deriveEffectiveVisibility i.world.toWorld b.storage g')) b.relocated).1 = true
  · rw [if_pos hc, if_pos hc]
    exact .inl rfl
  rw [if_neg hc, if_neg hc, show (reannotated i texts).creatable = i.creatable from rfl]
  by_cases h1 : (!(createOutputFiles i.creatable outputs).1) = true
  · rw [if_pos h1, if_pos h1]
    exact .inl rfl
  rw [if_neg h1, if_neg h1]
  by_cases h2 : (createOutputFiles i.creatable outputs).2.isEmpty = true
  · rw [if_pos h2, if_pos h2]
    exact .inl rfl
  rw [if_neg h2, if_neg h2]
  refine .inr ⟨(createOutputFiles i.creatable outputs).2, fileHeader i.mainFile (handlePragmas i.pragmas).includes,
    rfl, ?_⟩
  unfold ModuleOutput.text
  rw [hw]
  rfl

/-! ### Cases -/

/-- The method 2 of the example is renamed, and 3 is exposed as a property. -/
def exTexts : Nat → List Str
  | 2 => [lozenge ++ t%"expose_as(h)"]
  | 3 => [lozenge ++ t%"getter_for(p)"]
  | x => (exUnit.info x).attrTexts

def exChanged (x : Nat) : Bool := x = 2 || x = 3

theorem exChanged_only : OnlyAnnotated exInput.world exChanged exTexts := by
  refine ⟨fun d hd => ?_, fun x hx => ?_⟩
  · simp only [exChanged, Bool.or_eq_true, decide_eq_true_eq] at hd
    rcases hd with rfl | rfl <;> exact ⟨by simp [exInput, exUnit], by simp [exInput, exUnit],
      by simp [exInput, exUnit], by simp [exInput, exUnit], by simp [exInput, exUnit], by simp [exInput, exUnit]⟩
  · simp only [exChanged, Bool.or_eq_false_iff, decide_eq_false_iff_not] at hx
    unfold exTexts
    split
    · exact absurd rfl hx.1
    · exact absurd rfl hx.2
    · rfl

theorem exChanged_covers : Covers exInput.world exChanged exTexts (fun n => n = t%"p" || n = []) := by
  have hp : accessedBy 3 (exTexts 3) = [[], t%"p"] := by decide +kernel
  have h2 : accessedBy 2 (exTexts 2) = [] := by decide +kernel
  have h3 : accessedBy 2 (exInput.world.info 2).attrTexts = [] := by decide +kernel
  have h4 : accessedBy 3 (exInput.world.info 3).attrTexts = [] := by decide +kernel
  refine ⟨fun d hd n hn => ?_, fun d hd n hn => ?_⟩
  all_goals
    simp only [exChanged, Bool.or_eq_true, decide_eq_true_eq] at hd
    rcases hd with rfl | rfl
  · rw [h3] at hn; cases hn
  · rw [h4] at hn; cases hn
  · rw [h2] at hn; cases hn
  · rw [hp] at hn
    simp at hn
    rcases hn with rfl | rfl <;> simp

local macro "eval_run" : tactic => `(tactic| (
  simp only [handleTranslationUnit, linesOf, emitModule, findEnclosingScopes, analyze, pruneGraph, hideNamespaces,
    declContextsWithVisibleNamedDecls, deriveEffectiveVisibility, dfs_fuel]
  decide +kernel))

theorem exChanged_class (x : Nat) (hx : ¬ IsType exInput.world.toWorld x) :
    ∀ d ∈ exInput.members.decls x, exChanged d = false := by
  intro d hd
  by_cases h1 : x = 1
  · subst h1
    exact absurd (.inr rfl) hx
  by_cases h5 : x = 5
  · subst h5
    exact absurd (.inl rfl) hx
  have hf : exInput.world.found x = [] := by
    simp only [exInput, exUnit]
  simp only [ToolInput.members] at hd
  rw [hf] at hd
  cases hd

set_option maxRecDepth 4000 in
/-- C85: the hypotheses of `C85_members` hold for the example, and the lines concerned are different. -/
example : InputOK exInput ∧ OnlyAnnotated exInput.world exChanged exTexts ∧
    Covers exInput.world exChanged exTexts (fun n => n = t%"p" || n = []) ∧
    (∀ x, ¬ IsType exInput.world.toWorld x → ∀ d ∈ exInput.members.decls x, exChanged d = false) ∧
    (buildGraph exInput.world.toWorld exInput.tree).1.isSome = true ∧
    (buildGraph (reannotate exInput.world exTexts).toWorld exInput.tree).1.isSome = true :=
  ⟨exInput_ok, exChanged_only, exChanged_covers, exChanged_class, (by decide +kernel), (by decide +kernel)⟩

set_option maxRecDepth 4000 in
example : (linesOf exInput t%"m" 1 0).filter (concerns exChanged fun n => n = t%"p" || n = []) =
      [.stmt (.function 2 false t%"f" (emitFunctionPointer exUnit 2) [] [⟨t%"x", false, false, none⟩] [])] ∧
    (linesOf (reannotated exInput exTexts) t%"m" 1 0).filter (concerns exChanged fun n => n = t%"p" || n = []) =
      [.stmt (.function 2 false t%"h" (emitFunctionPointer exUnit 2) [] [⟨t%"x", false, false, none⟩] []),
       .stmt (.property t%"p" (emitFunctionPointer exUnit 3) none)] := by
  constructor <;> eval_run

set_option maxRecDepth 4000 in
/-- C85: those of `C85_hidden` hold, too. -/
example : (∀ d, (fun d => decide (d = 2)) d = true → accessedBy d (exInput.world.info d).attrTexts = []) ∧
    (buildGraph (reannotate exInput.world (hideOnly exInput.world fun d => d = 2)).toWorld exInput.tree).1.isSome =
      true ∧
    (linesOf exInput t%"m" 1 0).length = (linesOf (reannotated exInput (hideOnly exInput.world fun d => d = 2)) t%"m" 1 0).length + 1 := by
  refine ⟨fun d hd => ?_, by decide +kernel, by eval_run⟩
  simp only [decide_eq_true_eq] at hd
  subst hd
  decide +kernel

/-- `namespace visible module 4 { void 5(); }` -/
def exLonely : ToolInput := { exInput with
  world := { exUnit with
    info := fun
      | 0 => { kind := .translationUnit }
      | 4 => { kind := .namespace, name := t%"n", attrTexts := [lozenge ++ t%"module", lozenge ++ t%"visible"] }
      | 5 => { kind := .function, name := t%"f" }
      | _ => { kind := .other }
    fn := fun _ => exPlain t%"n::f" 0
    ancestors := fun | 0 => [] | 5 => [4, 0] | _ => [0]
    found := fun
      | 4 => [⟨5, none, false, .none, false, false, none, none⟩]
      | _ => [] }
  tree := .node 0 [.node 4 [.node 5 []]] }

theorem exLonely_ok : InputOK exLonely where
  unit := by
    refine ⟨rfl, fun id => ?_, by decide +kernel, fun id p ps => ?_, fun id h => ?_, rfl,
      fun a x => ?_, fun a x => ?_, fun a => ?_⟩
    all_goals simp only [exLonely, exUnit]
    · split <;> simp_all
    · split <;> simp <;> rintro rfl rfl <;> rfl
    · split <;> simp_all [exLonely, exInput, exUnit]
    · split <;> simp
    · split <;> simp
    · split <;> simp
  emit := by
    refine ⟨by simp [exLonely, exInput, exUnit], by simp [exLonely, exInput, exUnit], ?_, fun _ _ => rfl⟩
    intro d
    simp only [exLonely, exInput, exUnit]
    split <;> rfl
  bases := exInput_ok.bases
  picks := exInput_ok.picks
  iterate := exInput_ok.iterate

set_option maxRecDepth 4000 in
/-- C85: in general it is not only the lines for a member that change, since namespaces without anything
visible are left out: if the only function in a namespace is hidden, there is no module for the
namespace. -/
theorem C85_empty_namespace : InputOK exLonely ∧
    (∀ d, (fun d => decide (d = 5)) d = true → IsMember (exLonely.world.info d).kind) ∧
    (linesOf (reannotated exLonely (hideOnly exLonely.world fun d => d = 5)) t%"m" 1 0).filter
        (fun l => !concerns (fun d => d = 5) (fun _ => false) l) ≠
      (linesOf exLonely t%"m" 1 0).filter (fun l => !concerns (fun d => d = 5) (fun _ => false) l) ∧
    Line.introduce t%"context_n" (.submodule t%"context" t%"n") ∈ linesOf exLonely t%"m" 1 0 ∧
    Line.introduce t%"context_n" (.submodule t%"context" t%"n") ∉
      linesOf (reannotated exLonely (hideOnly exLonely.world fun d => d = 5)) t%"m" 1 0 := by
  refine ⟨exLonely_ok, fun d hd => ?_, ?_, ?_, ?_⟩
  · simp only [decide_eq_true_eq] at hd
    subst hd
    exact ⟨by decide, by decide, by decide, by decide, by decide, by decide⟩
  all_goals eval_run

end Verif
