import Verif.Spec.Introducer
import Verif.Props.Settings
import Verif.Props.Exposer
import Verif.Props.ToolExamples
/-!
# C68: how classes, enums and namespaces are introduced
-/
namespace Verif
open Spec

theorem parseAll_none (id : Nat) (acc : List Annotation) (texts : List Str)
    (h : ∀ t ∈ texts, ¬ marker <+: t) : parseAllTexts id acc texts = (acc, []) := by
  induction texts with
  | nil => rfl
  | cons t texts ih =>
    have ht : consumeFront lozenge t = none := by
      have := h t (by simp)
      unfold consumeFront
      rw [if_neg]
      rw [List.isPrefixOf_iff_prefix]
      exact this
    rw [parseAllTexts, ht]
    exact ih fun t ht => h t (by simp [ht])

/-- A context has an entry, or no annotations at all. -/
theorem context_entry (w : World) (root : Tree) (wf : WellFormed w root) (g : Graph) (b : Building)
    (h : buildGraph w root = (some g, b)) (p x : Nat) (hx : x ∈ g.children p)
    (hd : Context w x → w.dependentContext x = false) :
    (∃ a, b.storage.entries x = some a) ∨
      (b.storage.entries x = none ∧ shouldSkip (w.info x) = false ∧
        ∀ t ∈ (w.info x).attrTexts, ¬ marker <+: t) := by
  have hb := built w root wf g b h
  rw [hb.inv.entries]
  split
  · exact .inl ⟨_, rfl⟩
  rename_i hnt
  rcases (C21_nothing_else w root wf g b h p x hx).2 with ⟨a, ha⟩ | ⟨t, ht, rfl, hc⟩
  · exact absurd ((touched_iff w root x).2 (.inl ⟨a, ha⟩)) hnt
  have hv := occurs_visited w root t ht
  rw [hb.coll.entries, if_pos hv]
  unfold entryOf
  split
  · exact .inl ⟨_, rfl⟩
  rename_i hna
  refine .inr ⟨rfl, ?_, ?_⟩
  · have hs := visited_not_skip w root _ hv
    unfold skipNs at hs
    rcases hc with hk | ⟨hk, h1, h2⟩
    · simpa [hk] using hs
    · unfold shouldSkip
      rw [h1, h2]
      rcases hk with hk | hk <;> simp [hk]
  · intro text htext hm
    refine hna ((annot_iff ..).2 ⟨?_, ?_, ⟨text, htext, hm⟩, hd hc, ?_⟩)
    · rcases hc with hk | ⟨hk | hk, _⟩ <;> rw [hk] <;> simp
    · rcases hc with hk | ⟨hk | hk, _⟩ <;> rw [hk] <;> simp
    · rcases hc with hk | ⟨hk, h⟩
      · rw [hk]; simp
      · exact fun _ => h

theorem settings_named {env : DeclEnv} {d : DeclInfo} {as : List Annotation} {x : DeclAttrs}
    (h : Settings env d as x) (n : NamedDeclAttrs) : Settings env d as { x with named := n } :=
  ⟨h.module, h.onlyExposeIn, h.arithmetic, h.exportValues, h.dynamicAttr, h.holderType, h.hideBase,
    h.inlineBase, h.encourage, h.exposeHere, h.readonly, h.manual, h.postamble, h.getterFor,
    h.setterFor, h.implicitConversion⟩

theorem stored_settings (w : EmitWorld) (s : Storage) (hd : Derived w s) (x : Nat) (a : DeclAttrs)
    (ha : s.entries x = some a) :
    Settings w.toDeclEnv (w.info x) (annotationsOf w x) a ∧ Shape (w.info x) a := by
  obtain ⟨o, n, ho, rfl⟩ := hd x a ha
  rw [ownAttrs_eq] at ho
  split at ho
  · rename_i hs
    obtain ⟨y, hy, h⟩ := C67_settings w.toDeclEnv .empty x hs rfl
    rw [insert_eq _ _ _ hs rfl] at hy
    simp only [Storage.set, if_pos] at hy
    rw [hy] at ho
    cases ho
    cases hy
    exact ⟨settings_named h n, shape_of_eq (firstInsert_shape w.toDeclEnv x) n⟩
  · cases ho

theorem own_unannotated (w : EmitWorld) (x : Nat) (hs : shouldSkip (w.info x) = false)
    (h : ∀ t ∈ (w.info x).attrTexts, ¬ marker <+: t) :
    annotationsOf w x = [] ∧ ownAttrs w.toWorld x = some (freshAttrs (w.info x)) := by
  have hp := parseAll_none x [] _ h
  have hn : hasAnnotations (w.info x) (allowEmpty := false) = false := by
    unfold hasAnnotations
    rw [List.any_eq_false]
    intro t ht
    rw [(consumeFront_none lozenge t).2 (by rw [lozenge_eq]; exact h t ht)]
    simp
  refine ⟨by rw [annotationsOf, hp], ?_⟩
  rw [ownAttrs_eq, if_pos hs]
  unfold firstInsert
  dsimp only
  rw [hp, hn]
  simp [applyAnnotations]

theorem context_name (w : EmitWorld) (s : Storage) (x : Nat) (hf : (w.info x).kind.isFunction = false)
    (h : s.entries x = none → ownAttrs w.toWorld x = some (freshAttrs (w.info x))) :
    emitSpelling (w.info x) (s.lookupNamed x) = pythonName w s x := by
  unfold Storage.lookupNamed
  cases he : s.entries x with
  | some a =>
    rw [pythonName_eq w s x a (by rw [attrsOf, he]), hf]
    simp
  | none =>
    rw [pythonName_eq w s x _ (by rw [attrsOf, he]; exact h he), hf]
    simp [freshAttrs]

/-- C68: how a context of the translation unit is introduced. -/
theorem C68_introduced (w : EmitWorld) (root : Tree) (wf : WellFormed w.toWorld root) (g : Graph)
    (b : Building) (h : buildGraph w.toWorld root = (some g, b)) (p x : Nat) (hx : x ∈ g.children p)
    (hd : Context w.toWorld x → w.dependentContext x = false) (pruned : Graph) (parent : Str) :
    Introduces w b.storage pruned x parent
      ((Exposer.create w b.storage x).introducer w b.storage pruned parent) := by
  have hder := derived_built w root wf g b h
  have hkind : (w.info x).kind = .namespace ∨ (w.info x).kind = .enum ∨ (w.info x).kind = .record := by
    rcases (C21_nothing_else w.toWorld root wf g b h p x hx).2 with ⟨a, ha⟩ | ⟨_, _, _, hc⟩
    · exact .inr (wf.target_tag a x ha.2.2.2.1)
    · rcases hc with hk | ⟨hk, _⟩
      · exact .inl hk
      · exact .inr hk
  have hcase : (∃ a, b.storage.entries x = some a ∧
        Settings w.toDeclEnv (w.info x) (annotationsOf w x) a ∧ Shape (w.info x) a) ∨
      (b.storage.entries x = none ∧ annotationsOf w x = [] ∧
        ownAttrs w.toWorld x = some (freshAttrs (w.info x))) := by
    rcases context_entry w.toWorld root wf g b h p x hx hd with ⟨a, ha⟩ | ⟨hn, hs, ht⟩
    · exact .inl ⟨a, ha, stored_settings w _ hder x a ha⟩
    · exact .inr ⟨hn, own_unannotated w x hs ht⟩
  have hname : emitSpelling (w.info x) (b.storage.lookupNamed x) = pythonName w b.storage x := by
    refine context_name w _ x ?_ ?_
    · rcases hkind with hk | hk | hk <;> rw [hk] <;> rfl
    · intro hn
      rcases hcase with ⟨a, ha, _⟩ | ⟨_, _, ho⟩
      · rw [hn] at ha; cases ha
      · exact ho
  rcases hkind with hk | hk | hk
  · have he : Exposer.create w b.storage x = .namespace x := by unfold Exposer.create; rw [hk]
    rw [he]
    unfold Exposer.introducer
    dsimp only
    rw [hname]
    rcases hcase with ⟨a, ha, hset, hsh⟩ | ⟨hn, has, _⟩
    · obtain ⟨n, hn⟩ := Option.isSome_iff_exists.1 (hsh.namespace_.2 hk)
      rw [ha]
      simp only [Option.bind_some, hn]
      by_cases hm : n.module = true
      · obtain ⟨args, hg⟩ := (hset.module n hn).1 hm
        rw [if_pos hm]
        exact .submodule args hk hg
      · rw [if_neg hm]
        exact .namespace hk fun args hg => hm ((hset.module n hn).2 ⟨args, hg⟩)
    · rw [hn]
      simp only [Option.bind_none]
      refine .namespace hk fun args hg => ?_
      rw [has] at hg
      exact absurd hg.1 (by simp)
  · have he : Exposer.create w b.storage x = .enum x := by unfold Exposer.create; rw [hk]
    rw [he]
    unfold Exposer.introducer Exposer.contextType
    dsimp only
    rw [hname]
    have hflag : (match (b.storage.entries x).bind (·.enum) with
        | some attrs => if attrs.arithmetic then some t%"::pybind11::arithmetic()" else none
        | none => none) = flagOf (annotationsOf w x) .arithmetic t%"::pybind11::arithmetic()" := by
      rcases hcase with ⟨a, ha, hset, hsh⟩ | ⟨hn, has, _⟩
      · obtain ⟨e, hn⟩ := Option.isSome_iff_exists.1 (hsh.enum.2 hk)
        rw [ha]
        simp only [Option.bind_some, hn]
        rw [hset.arithmetic e hn]
        unfold flagOf
        cases lastSwitch .arithmetic (annotationsOf w x) <;> simp
      · rw [hn, has]
        rfl
    have := Introduces.enum (s := b.storage) (g := pruned) (parent := parent) hk
    rw [← hflag] at this
    exact this
  · have he : Exposer.create w b.storage x =
        .record x (createFromAnnotations b.storage (w.hierarchy x) x) := by
      unfold Exposer.create; rw [hk]
    rw [he]
    unfold Exposer.introducer Exposer.contextType getRecord
    dsimp only
    rw [hname]
    have hflag : (match (b.storage.entries x).bind (·.record) with
        | some attrs => if attrs.dynamicAttr then some t%"::pybind11::dynamic_attr()" else none
        | none => none) = flagOf (annotationsOf w x) .dynamicAttr t%"::pybind11::dynamic_attr()" ∧
        (((b.storage.entries x).bind (·.record)).getD {}).holderType =
          (lastGiven .holderType (annotationsOf w x)).getD [] := by
      rcases hcase with ⟨a, ha, hset, hsh⟩ | ⟨hn, has, _⟩
      · obtain ⟨r, hn⟩ := Option.isSome_iff_exists.1 (hsh.record.2 hk)
        rw [ha]
        simp only [Option.bind_some, hn, Option.getD_some]
        rw [hset.dynamicAttr r hn, hset.holderType r hn]
        unfold flagOf
        cases lastSwitch .dynamicAttr (annotationsOf w x) <;> simp
      · rw [hn, has]
        exact ⟨rfl, rfl⟩
    have := Introduces.record (s := b.storage) (g := pruned) (parent := parent) hk
    rw [← hflag.1, ← hflag.2] at this
    exact this

/-- C68 for whole runs: the first file introduces every context of the module (in an
order in which parents and bases come first) as told by its annotations. -/
theorem C68_run (o : ToolOptions) (i : ToolInput) (ok : InputOK i) (files : Files) (r : ToolResult)
    (hr : runTool o i files = some r) (hx : o.expectFailure = false) (h0 : r.exitCode = 0)
    (hnd : o.outputFiles.Nodup)
    (hd : ∀ x, Context i.world.toWorld x → i.world.dependentContext x = false) :
    ∃ name g b order, moduleNameFor o.moduleName i.mainFile = some name ∧
      buildGraph i.world.toWorld i.tree = (some g, b) ∧
      let pruned := (analyze i.world.toWorld b.storage i.members name g).pruned
      order.Perm pruned.nodes ∧
      ∃ (lines : List Line) (introduced : List (Nat × Line)),
        (∀ path, o.outputFiles[0]? = some path → path ≠ ['-'] → r.files path = some (fileText i lines)) ∧
        (o.outputFiles[0]? = some ['-'] → r.printed = [fileText i lines]) ∧
        lines.filter (fun l => (introducedOf l).isSome) = introduced.map (·.2) ∧
        introduced.map (·.1) = contextsOf i.world order ∧
        ∀ x l, (x, l) ∈ introduced → ∃ e, l = .introduce (identifierOf i.world order x) e ∧
          Introduces i.world b.storage pruned x (parentIdentifier i.world b.storage pruned order x) e := by
  obtain ⟨name, g, b, order, hn, hb, hv, hf, hp, _⟩ := C55_run o i ok files r hr hx h0 hnd
  let a := analyze i.world.toWorld b.storage i.members name g
  let l := (contextsOf i.world order).zip (identifiersOf i.world order)
  refine ⟨name, g, b, order, hn, hb, hv.perm, fileLines i.world b.storage a.pruned a.vis name order
    o.outputFiles.length 0, l.map fun p => (p.1, .introduce p.2 ((Exposer.create i.world b.storage p.1).introducer
      i.world b.storage a.pruned (parentIdentifier i.world b.storage a.pruned order p.1))),
    fun path h1 h2 => hf 0 path h1 h2, fun h => hp 0 h, ?_, ?_, ?_⟩
  · rw [List.map_map]
    have hdef : ∀ (q : List ((Nat × Str) × Nat)),
        (q.flatMap fun p => definitionOf i.world b.storage a.pruned a.vis 0 p.1.1 p.1.2).filter
          (fun l => (introducedOf l).isSome) = [] := by
      intro q
      rw [List.filter_eq_nil_iff]
      intro x hx
      obtain ⟨p, _, hp⟩ := List.mem_flatMap.1 hx
      unfold definitionOf at hp
      simp only [List.mem_append, List.mem_singleton, List.mem_map] at hp
      rcases hp with ((hp | rfl) | ⟨t, _, rfl⟩) | rfl
      · split at hp
        · simp only [List.mem_singleton] at hp
          subst hp
          simp [introducedOf]
        · cases hp
      all_goals simp [introducedOf]
    unfold fileLines
    rw [if_pos rfl, List.filter_append, hdef, List.append_nil]
    unfold mainOf
    simp only [List.filter_append, List.filter_map, List.filter_cons, List.filter_nil]
    have e1 : l.filter ((fun l => (introducedOf l).isSome) ∘ fun p : Nat × Str =>
        Line.declare p.2 (contextTypeOf i.world b.storage a.pruned p.1)) = [] := by
      rw [List.filter_eq_nil_iff]; simp [introducedOf]
    have e2 : l.filter ((fun l => (introducedOf l).isSome) ∘ fun p : Nat × Str =>
        Line.introduce p.2 ((Exposer.create i.world b.storage p.1).introducer i.world b.storage a.pruned
          (parentIdentifier i.world b.storage a.pruned order p.1))) = l := by
      rw [List.filter_eq_self]; simp [introducedOf]
    have e3 : l.filter ((fun l => (introducedOf l).isSome) ∘ fun p : Nat × Str => Line.call p.2) = [] := by
      rw [List.filter_eq_nil_iff]; simp [introducedOf]
    have e4 : (i.world.unitVars.filterMap fun v => (postambleLambda b.storage v).map
        (Line.postamble v)).filter (fun l => (introducedOf l).isSome) = [] := by
      rw [List.filter_eq_nil_iff]
      intro x hx
      obtain ⟨v, _, hv⟩ := List.mem_filterMap.1 hx
      obtain ⟨y, _, rfl⟩ := Option.map_eq_some_iff.1 hv
      simp [introducedOf]
    rw [e1, e2, e3, e4]
    simp [introducedOf, l, Function.comp_def]
  · rw [List.map_map]
    exact zip_contexts i.world order
  · intro x line hl
    obtain ⟨p, hp, he⟩ := List.mem_map.1 hl
    cases he
    have hin := (emitInput i ok g b hb name).graph
    have hnd' : order.Nodup := hv.perm.nodup_iff.2 hin.nodup
    refine ⟨_, by rw [identifierOf_zip i.world order hnd' p hp], ?_⟩
    have hmem : p.1 ∈ a.pruned.nodes := by
      refine hv.perm.mem_iff.1 ?_
      have : p.1 ∈ contextsOf i.world order := by
        rw [← zip_contexts]
        exact List.mem_map_of_mem hp
      exact (List.mem_filter.1 this).1
    have hcg := C23_graphs i.world.toWorld i.tree ok.unit g b hb
    obtain ⟨_, hroot, hedge, hreach⟩ := C26_places i.world.toWorld b.storage i.members name g hcg
    have := (hreach p.1).1 hmem
    generalize p.1 = x at *
    cases this with
    | root =>
      have hk : (i.world.info a.pruned.root).kind = .translationUnit := by
        rw [hroot]; exact hcg.root_kind
      have he : Exposer.create i.world b.storage a.pruned.root = .plain := by
        unfold Exposer.create; rw [hk]
      rw [he]
      exact .unit hk
    | step _ _ hx =>
      exact C68_introduced i.world i.tree ok.unit g b hb _ _ ((hedge _ _).1 hx).1 (hd _) a.pruned _

/-- `exUnit` with more annotations, in several places. -/
def exIntro : EmitWorld := { exUnit with
  info := fun
    | 0 => { kind := .translationUnit }
    | 1 => { kind := .record, name := t%"S", attrTexts := [lozenge ++ t%"dynamic_attr(false)",
        lozenge ++ t%"expose_as(T), holder_type(H), dynamic_attr"] }
    | 4 => { kind := .namespace, name := t%"n", attrTexts := [lozenge ++ t%"module(m)"] }
    | 5 => { kind := .enum, name := t%"E", attrTexts := [lozenge ++ t%"arithmetic"] }
    | 6 => { kind := .enumConstant, name := t%"A" }
    | _ => { kind := .other }
  brief := fun | 5 => t%"Text." | _ => [] }

theorem exIntro_wellFormed : WellFormed exIntro.toWorld exUnitTree := by
  refine ⟨rfl, fun id => ?_, by decide +kernel, fun id p ps => ?_, fun id h => ?_, rfl,
    fun a x => ?_, fun a x => ?_, fun a => ?_⟩
  all_goals simp only [exIntro, exUnit]
  · split <;> simp_all
  · split <;> simp <;> rintro rfl rfl <;> rfl
  · split <;> simp_all [exIntro, exUnit]
  · split <;> simp
  · split <;> simp
  · split <;> simp

/-- C68: the class, enum and namespace are part of the graph, and introduced as told. -/
example : let r := buildGraph exIntro.toWorld exUnitTree
    (∀ x, exIntro.dependentContext x = false) ∧
    r.1.map (fun g => [g.children 0, g.children 4]) = some [[1, 4], [5]] ∧
    [1, 4, 5].map (fun x => (Exposer.create exIntro r.2.storage x).introducer exIntro r.2.storage
      { root := 0, nodes := [0, 1, 4, 5], children := fun _ => [] } t%"p") =
    [.type (.record t%"::S" [] t%"H") t%"p" t%"T" [] (some t%"::pybind11::dynamic_attr()"),
     .submodule t%"p" t%"m",
     .type (.enum t%"::n::E") t%"p" t%"E" t%"Text." (some t%"::pybind11::arithmetic()")] :=
  ⟨fun _ => rfl, by decide +kernel⟩

end Verif
