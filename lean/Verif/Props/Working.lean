import Verif.Spec.Working
import Verif.Props.Mro
import Verif.Props.Convert
import Verif.Props.Distinct
/-!
# C100: modules that can be imported
-/
namespace Verif
open Spec

/-- The contexts for which statements can be written are fine if there are no errors. -/
theorem run_contexts (o : ToolOptions) (i : ToolInput) (ok : InputOK i) (lk : LookupOK i.world)
    (mo : MembersOK i.world) (re : Reopening i.world.toWorld) (hu : NoBareReopening i.world.toWorld i.tree)
    (files : Files) (r : ToolResult) (hr : runTool o i files = some r) (hx : o.expectFailure = false)
    (h0 : r.exitCode = 0) (name : Str) (hn : moduleNameFor o.moduleName i.mainFile = some name)
    (g : Graph) (b : Building) (hb : buildGraph i.world.toWorld i.tree = (some g, b)) :
    ∀ x, Contributes i.world.toWorld b.storage name g x →
      ((i.world.info x).kind = .namespace →
        HasVisible i.world.toWorld b.storage i.members (EffVisible i.world.toWorld b.storage g) g x) →
      ContextOK i.world b.storage g x := by
  have hout : o.outputFiles ≠ [] := by
    unfold ToolOptions.outputFiles
    cases o.outputs <;> simp
  have hno : ¬ ErrorReported i (handleTranslationUnit i name o.outputFiles) := by
    rw [(C50_exit o i files name r hn hr).1 h0, hx]
    simp
  obtain ⟨_, _, _, g', b', hb', _, _, hc⟩ :=
    (C72_success_iff i ok lk mo re hu name o.outputFiles hout).1 hno
  rw [hb] at hb'
  cases hb'
  exact hc

/-- C100: a generated module can be imported exactly if all conditions of C61, C97, C98 and C99 are met. -/
theorem C100_run (custom : Str → Bool) (needs : Str → List Str) (others : List Str) (o : ToolOptions)
    (i : ToolInput) (ok : InputOK i) (co : ClassesOK i.world) (lk : LookupOK i.world) (mo : MembersOK i.world)
    (re : Reopening i.world.toWorld) (hu : NoBareReopening i.world.toWorld i.tree) (files : Files)
    (r : ToolResult) (hr : runTool o i files = some r) (hx : o.expectFailure = false) (h0 : r.exitCode = 0)
    (hnd : o.outputFiles.Nodup)
    (hd : ∀ x, Context i.world.toWorld x → i.world.dependentContext x = false) :
    ∃ name g b order place, moduleNameFor o.moduleName i.mainFile = some name ∧
      Placement i name g b order place ∧
      let p := (analyze i.world.toWorld b.storage i.members name g).pruned
      ∃ lines : List (List Line), lines.length = o.outputFiles.length ∧
        (∀ (k : Nat) path ls, o.outputFiles[k]? = some path → lines[k]? = some ls →
          (path ≠ ['-'] → r.files path = some (fileText i ls)) ∧
          (path = ['-'] → r.printed = [fileText i ls])) ∧
        ((∃ st mros, Starts custom needs others lines st mros) ↔
          (identifiersOf i.world order).Nodup ∧ Importable i.world b.storage p order place ∧
          UniformHolders custom i b.storage name g p ∧
          (∃ mro : Str → List Str, ∀ x, Exposed i.world.toWorld b.storage name g x →
            Linearized i.world.typeName (listedBases i.world b.storage p) mro x) ∧
          ValuesAvailable needs others i b.storage name g place) := by
  obtain ⟨name, g, b, order, place, hn, hb, hv, hpl, lines, hl, h5, h6, h7, h8⟩ :=
    run_module o i ok files r hr hx h0 hnd
  have pl : Placement i name g b order place := ⟨hb, hv, hpl⟩
  refine ⟨name, g, b, order, place, hn, pl, lines, h5, h6, ?_⟩
  have hc := run_contexts o i ok lk mo re hu files r hr hx h0 name hn g b hb
  have hhold := holders_module custom o i ok co hd name g b order place hb hv lines hl h7
  obtain ⟨ht, hcr⟩ := mro_module o i ok name g b order hb hv lines hl
  have hval := C99_values needs others i ok lk re hu name g b order place pl hc
  constructor
  · rintro ⟨st, mros, h1, h2, h3, h4⟩
    obtain ⟨hid, him, hh⟩ := hhold.1 ⟨⟨st, h1⟩, h2⟩
    refine ⟨hid, him, hh, ?_, ?_⟩
    · simp only [← ht]
      exact (mros_iff _ _ lines _ hcr st h1).1 ⟨mros, h3⟩
    · refine hval.1 fun e he => h4 e ?_
      rw [(h8 st h1).1]
      exact he
  · rintro ⟨hid, him, hh, hm, hval'⟩
    obtain ⟨⟨st, h1⟩, h2⟩ := hhold.2 ⟨hid, him, hh⟩
    simp only [← ht] at hm
    obtain ⟨mros, h3⟩ := (mros_iff _ _ lines _ hcr st h1).2 hm
    refine ⟨st, mros, h1, h2, h3, fun e he => hval.2 hval' e ?_⟩
    rw [(h8 st h1).1] at he
    exact he

/-! ### Conditions on the source code -/

/-- Numbered identifiers are distinct. -/
theorem fit_identifiers (w : EmitWorld) (order : List Nat)
    (h : ∀ x ∈ order, ∀ y ∈ order, ∀ k, 2 ≤ k → identifierBase w y ≠ identifierBase w x ++ '_' :: printNat k) :
    (identifiersOf w order).Nodup := by
  unfold identifiersOf
  rw [C09_distinct_iff_partial]
  intro n hn k hk _ hm
  obtain ⟨x, hx, rfl⟩ := List.mem_map.1 hn
  obtain ⟨y, hy, e⟩ := List.mem_map.1 hm
  exact h x (List.mem_filter.1 hx).1 y (List.mem_filter.1 hy).1 k hk e

/-- Conditions C61 names follow from those on the source code. -/
theorem fit_importable {custom : Str → Bool} {needs : Str → List Str} {others : List Str} (i : ToolInput)
    (ok : InputOK i) (co : ClassesOK i.world) (name : Str) (g : Graph) (b : Building) (order : List Nat)
    (place : Nat → List Str) (pl : Placement i name g b order place)
    (f : Fit custom needs others i b.storage name g
      (analyze i.world.toWorld b.storage i.members name g).pruned place) :
    (identifiersOf i.world order).Nodup ∧ Importable i.world b.storage
      (analyze i.world.toWorld b.storage i.members name g).pruned order place := by
  obtain ⟨hb, hv, hpl⟩ := pl
  have hcg := C23_graphs i.world.toWorld i.tree ok.unit g b hb
  have hnb : NamesBases b.storage (directBases i.world) :=
    C42_annotations i.world.toWorld i.tree ok.unit g b hb (directBases i.world) co.all
  have hnode : ∀ x ∈ order, x ∈ (analyze i.world.toWorld b.storage i.members name g).pruned.nodes :=
    fun x hx => hv.perm.mem_iff.1 hx
  have hctx : ∀ x ∈ contextsOf i.world order,
      x ∈ (analyze i.world.toWorld b.storage i.members name g).pruned.nodes :=
    fun x hx => hnode x (List.mem_filter.1 hx).1
  have hex : ∀ x ∈ contextsOf i.world order, isTypeContext i.world x = true →
      Exposed i.world.toWorld b.storage name g x := by
    intro x hx ht
    have ht' : IsType i.world.toWorld x := by
      unfold isTypeContext at ht
      simp only [Bool.or_eq_true, decide_eq_true_eq] at ht
      exact ht.symm
    exact ⟨ht', (C26_types i.world.toWorld b.storage i.members name g hcg x ht').1 (hctx x hx)⟩
  refine ⟨fit_identifiers i.world order fun x hx y hy k hk => f.identifiers x (hnode x hx) y (hnode y hy) k hk,
    ?_, ?_, ?_⟩
  · intro x hx y hy hne ht ho
    exact f.places x y (hex x hx ht) (hctx y hy) ho hne
  · intro x hx y hy htx hty e
    exact f.types x y (hex x hx htx) (hex y hy hty) e
  · intro pre x post he c hc
    refine bases_valid i.world b.storage _ order hv co.records co.unfolds (fun x c hi => ?_) pre x post he c hc
    obtain ⟨_, q, hq, _⟩ := (shouldInline_iff hnb (co.unfolds x) c).1 hi
    have hk : (i.world.info x).kind = .record := by
      have hne : directBases i.world x ≠ [] := by
        intro h0
        have hu := co.unfolds x
        rw [h0] at hu
        cases hh : i.world.hierarchy x with
        | nil =>
          rw [hh] at hq
          cases hq
        | cons s above rest =>
          rw [hh] at hu
          obtain ⟨_, h, _⟩ := hu
          cases h
      cases hdb : directBases i.world x with
      | nil => exact absurd hdb hne
      | cons s l => exact (co.records x s (by rw [hdb]; simp)).1
    obtain ⟨ht, h⟩ := f.inlined x c ⟨hk, hi⟩
    exact (C26_types i.world.toWorld b.storage i.members name g hcg c ht).2 h

/-- Subclasses in Python. -/
theorem subclass_ascends (i : ToolInput) (listed : Nat → List Nat) (cs : List Nat)
    (hin : ∀ x ∈ cs, ∀ y ∈ listed x, y ∈ cs)
    (hinj : ∀ x ∈ cs, ∀ y ∈ cs, i.world.typeName x = i.world.typeName y → x = y) (files : List (List Line))
    (hc : creations files = cs.map fun x => (i.world.typeName x, (listed x).map i.world.typeName))
    (x : Nat) (hx : x ∈ cs) (U : Str) (h : IsSubclass (files.headD []) (i.world.typeName x) U) :
    ∃ y ∈ cs, i.world.typeName y = U ∧ Ascends listed x y := by
  induction h with
  | refl => exact ⟨x, hx, rfl, .refl⟩
  | step _ hs ih =>
    obtain ⟨y, hy, rfl, ha⟩ := ih
    obtain ⟨v, bases, holder, parent, nm, doc, flag, hl, hU⟩ := hs
    have hm : (i.world.typeName y, bases) ∈ creations files := List.mem_filterMap.2 ⟨_, hl, rfl⟩
    rw [hc] at hm
    obtain ⟨z, hz, e⟩ := List.mem_map.1 hm
    simp only [Prod.mk.injEq] at e
    cases hinj z hz y hy e.1
    rw [← e.2] at hU
    obtain ⟨c, hc', rfl⟩ := List.mem_map.1 hU
    exact ⟨c, hin y hy c hc', rfl, .step ha hc'⟩

/-- C100: if identifiers, places and types of all classes and enums are distinct, inlined bases are exposed,
holders are uniform, no class is a base in two ways, the types of default arguments and constants are
available and names are distinct, the generated module can be imported, and its objects have got all
attributes one would expect. -/
theorem C100_works (custom : Str → Bool) (needs : Str → List Str) (others : List Str) (o : ToolOptions)
    (i : ToolInput) (ok : InputOK i) (co : ClassesOK i.world) (lk : LookupOK i.world) (mo : MembersOK i.world)
    (re : Reopening i.world.toWorld) (hu : NoBareReopening i.world.toWorld i.tree)
    (oo : ∀ r, (i.world.info r).kind = .record → OperatorsOK i.world r) (eo : EnumeratorsOnce i.world)
    (no : NamespacesOutside i.world.toWorld) (files : Files)
    (r : ToolResult) (hr : runTool o i files = some r) (hx : o.expectFailure = false) (h0 : r.exitCode = 0)
    (hnd : o.outputFiles.Nodup)
    (hd : ∀ x, Context i.world.toWorld x → i.world.dependentContext x = false) :
    ∃ name g b order place, moduleNameFor o.moduleName i.mainFile = some name ∧
      Placement i name g b order place ∧
      let p := (analyze i.world.toWorld b.storage i.members name g).pruned
      ∃ lines : List (List Line), lines.length = o.outputFiles.length ∧
        (∀ (k : Nat) path ls, o.outputFiles[k]? = some path → lines[k]? = some ls →
          (path ≠ ['-'] → r.files path = some (fileText i ls)) ∧
          (path = ['-'] → r.printed = [fileText i ls])) ∧
        (Fit custom needs others i b.storage name g p place →
          ∃ st mros, Works custom needs others lines st mros
            (expectedNames (.start (st.types.map (·.2)) st.modules)
              (definitions (fun o => decide (o ∈ st.types.map (·.2))) [] st.executed))) := by
  obtain ⟨name, g, b, order, place, hn, hb, hv, hpl, lines, hl, h5, h6, h7, h8⟩ :=
    run_modules o i ok files r hr hx h0 hnd
  have pl : Placement i name g b order place := ⟨hb, hv, hpl⟩
  refine ⟨name, g, b, order, place, hn, pl, lines, h5, h6, fun f => ?_⟩
  have hc := run_contexts o i ok lk mo re hu files r hr hx h0 name hn g b hb
  have hhold := holders_module custom o i ok co hd name g b order place hb hv lines hl h7
  obtain ⟨ht, hcr⟩ := mro_module o i ok name g b order hb hv lines hl
  have hval := C99_values needs others i ok lk re hu name g b order place pl hc
  obtain ⟨hid, him⟩ := fit_importable i ok co name g b order place pl f
  have hcg := C23_graphs i.world.toWorld i.tree ok.unit g b hb
  have hnb : NamesBases b.storage (directBases i.world) :=
    C42_annotations i.world.toWorld i.tree ok.unit g b hb (directBases i.world) co.all
  obtain ⟨⟨st, h1⟩, h2⟩ := hhold.2 ⟨hid, him, f.holders⟩
  obtain ⟨he, types, _, hty, hts, hmod⟩ := h8 st h1
  -- method resolution orders
  obtain ⟨tok, hnames, hfirst⟩ := import_spec lines st h1
  have hcn : ((createdTypes i.world order).map i.world.typeName).Nodup := by
    have := hnames ▸ tok.names
    rw [hcr, List.map_map] at this
    exact this
  have hinj : ∀ x ∈ createdTypes i.world order, ∀ y ∈ createdTypes i.world order,
      i.world.typeName x = i.world.typeName y → x = y :=
    fun x hx y hy e => f.types x y ((ht x).1 hx) ((ht y).1 hy) e
  have hin : ∀ x ∈ createdTypes i.world order, ∀ y ∈ listedBases i.world b.storage
      (analyze i.world.toWorld b.storage i.members name g).pruned x, y ∈ createdTypes i.world order := by
    intro x _ y hy
    obtain ⟨hyg, q, hq, ⟨c, hl, rfl⟩, _⟩ := C93_listed i.world co b.storage hnb _ x y hy
    have hk := (inlined_records i.world co x q hq).2 c (List.mem_of_getLast? hl)
    refine (ht _).2 ⟨.inr hk, ?_⟩
    exact (C26_types i.world.toWorld b.storage i.members name g hcg _ (.inr hk)).1 hyg
  have hbf : BasesFirst i.world.typeName (listedBases i.world b.storage
      (analyze i.world.toWorld b.storage i.members name g).pruned) (createdTypes i.world order) := by
    refine ⟨List.Pairwise.of_map _ (fun a b h e => h (e ▸ rfl)) hcn, hinj, ?_⟩
    intro pre x post hpre y hy
    have hyt := hin x (by rw [hpre]; simp) y hy
    have := hfirst _ (i.world.typeName x, (listedBases i.world b.storage _ x).map i.world.typeName) _
      (by rw [hcr, hpre, List.map_append, List.map_cons]) (i.world.typeName y) (List.mem_map_of_mem hy)
    rw [List.map_map] at this
    obtain ⟨z, hz, e⟩ := List.mem_map.1 this
    have := hinj z (by rw [hpre]; simp [hz]) y hyt e
    exact this ▸ hz
  obtain ⟨mros, h3⟩ := (mros_iff _ _ lines _ hcr st h1).2
    (mro_joined _ _ _ hbf fun x hx => f.diamonds x ((ht x).1 hx))
  refine ⟨st, mros, ⟨h1, h2, h3, fun e he' => hval.2 f.values e ?_⟩, ?_⟩
  · rw [he] at he'
    exact he'
  -- names
  have hts' : st.types.map (·.2) = types.map place := by
    rw [hts, List.map_map]
    rfl
  have hobj := (own_objects i ok no name g b order place pl him).types types hty
  have hmroOK := C98_mro lines st h1 mros h3
  have hdist := f.names (mroAt st.types mros) (.start (st.types.map (·.2)) st.modules) ?_ ?_
  · refine C73_names _ _ st.modules _ ?_
    have hsrc := C73_source (mro := mroAt st.types mros) ⟨ok, lk, re, hu, oo, pl, fun x h1 h2 => hc x h1 ?_, hobj⟩
      mo eo _ hdist
    · rw [he, hts'] at *
      exact hsrc
    · intro h
      rw [h] at h2
      cases h2
  · intro a b' hb'
    have ha : a ∈ st.types.map (·.2) := by
      unfold mroAt at hb'
      split at hb'
      · cases hb'
      · rename_i q hq
        have := List.find?_some hq
        simp only [decide_eq_true_eq] at this
        exact this ▸ List.mem_map_of_mem (List.mem_of_find?_eq_some hq)
    obtain ⟨T, U, hT, hU, hs⟩ := (hmroOK.members a ha b').1 (by simp [hb'])
    rw [hts] at hT hU
    obtain ⟨x, hx, e⟩ := List.mem_map.1 hT
    obtain ⟨u, hu', e'⟩ := List.mem_map.1 hU
    cases e
    cases e'
    obtain ⟨y, hy, e, has⟩ := subclass_ascends i _ _ hin hinj lines hcr x ((ht x).2 ((hty x).1 hx)) _ hs
    cases hinj y hy u ((ht u).2 ((hty u).1 hu')) e
    exact ⟨x, _, (hty x).1 hx, rfl, has, rfl⟩
  · intro o' n hs
    unfold PyNames.start at hs
    split at hs
    · rename_i hm
      rw [hts'] at hm
      obtain ⟨y, hy, e⟩ := List.mem_map.1 hm
      obtain ⟨hk, h⟩ := (hty y).1 hy
      refine ⟨y, (C26_types i.world.toWorld b.storage i.members name g hcg y hk).2 h, ?_, e⟩
      refine type_hasObject i.world b.storage y ?_
      unfold isTypeContext
      simp only [Bool.or_eq_true, decide_eq_true_eq]
      exact hk.symm
    · split at hs
      · rename_i hm
        rw [hmod] at hm
        obtain ⟨y, hy, e⟩ := List.mem_map.1 hm
        obtain ⟨hy1, hy2⟩ := List.mem_filter.1 hy
        simp only [Bool.and_eq_true] at hy2
        exact ⟨y, hv.perm.mem_iff.1 (List.mem_filter.1 hy1).1, hy2.2, e⟩
      · exact absurd rfl hs

/-! ### Examples -/

local macro "eval_run" : tactic => `(tactic| (
  simp only [handleTranslationUnit, emitModule, findEnclosingScopes, analyze, pruneGraph, hideNamespaces,
    declContextsWithVisibleNamedDecls, deriveEffectiveVisibility, dfs_fuel]
  decide +kernel))

theorem exInput_classes : ClassesOK exInput.world where
  unfolds := fun _ => rfl
  records := by
    intro x b hb
    cases hb
  all := by
    intro x c hc
    revert hc
    simp only [exInput, exUnit]
    split <;> simp

/-- The contexts that become part of the module, those inside of them, and their objects. -/
def exInputParts : Option (List Nat × List (List Nat) × List (Bool × Str)) :=
  match buildGraph exInput.world.toWorld exInput.tree with
  | (some g, b) =>
    let p := (analyze exInput.world.toWorld b.storage exInput.members t%"my_lib" g).pruned
    some (p.nodes, [p.root] :: [0, 4].map p.children, [1, 4, 5].map fun x =>
      (hasObject exInput.world b.storage x, exposedName exInput.world b.storage x))
  | _ => none

set_option maxRecDepth 8000 in
theorem exInput_parts : exInputParts = some ([0, 1, 4, 5], [[0], [1, 4], [5]],
    [(true, t%"S"), (true, t%"n"), (true, t%"E")]) := by
  unfold exInputParts
  eval_run

/-- The identifiers end with letters. -/
theorem exInput_identifiers : ∀ x ∈ [0, 1, 4, 5], ∃ c, (identifierBase exInput.world x).getLast? = some c ∧
    ¬ Digit c := by
  intro x hx
  unfold identifierBase contextLabel
  simp only [List.mem_cons, List.not_mem_nil, or_false] at hx
  rcases hx with rfl | rfl | rfl | rfl
  · exact ⟨'t', by decide +kernel, by unfold Digit; decide⟩
  · exact ⟨'S', by decide +kernel, by unfold Digit; decide⟩
  · exact ⟨'n', by decide +kernel, by unfold Digit; decide⟩
  · exact ⟨'E', by decide +kernel, by unfold Digit; decide⟩

/-- The objects of the example are where one would expect. -/
theorem exInput_places (g : Graph) (b : Building) (order : List Nat) (place : Nat → List Str)
    (pl : Placement exInput t%"my_lib" g b order place) :
    (analyze exInput.world.toWorld b.storage exInput.members t%"my_lib" g).pruned.nodes = [0, 1, 4, 5] ∧
    place 1 = [t%"S"] ∧ place 4 = [t%"n"] ∧ place 5 = [t%"n", t%"E"] := by
  have h := exInput_parts
  unfold exInputParts at h
  rw [pl.graph] at h
  simp only [Option.some.injEq, Prod.mk.injEq, List.map_cons, List.map_nil, List.cons.injEq, and_true] at h
  obtain ⟨hn, ⟨hroot, h0, h4⟩, ⟨ho1, hn1⟩, ⟨ho4, hn4⟩, ho5, hn5⟩ := h
  have hcg := C23_graphs _ _ exInput_ok.unit g b pl.graph
  obtain ⟨hpg, _⟩ := C26_places exInput.world.toWorld b.storage exInput.members t%"my_lib" g hcg
  have hp : ∀ x ∈ [0, 1, 4, 5], PlacedAt exInput.world b.storage
      (analyze exInput.world.toWorld b.storage exInput.members t%"my_lib" g).pruned x (place x) := by
    intro x hx
    rw [← hn] at hx
    exact C69_placed exInput exInput_ok exInput_reopening exInput_bare g b pl.graph _ order pl.sorted.perm x _ hx
      (pl.objects x hx)
  have p0 : PlacedAt exInput.world b.storage
      (analyze exInput.world.toWorld b.storage exInput.members t%"my_lib" g).pruned 0 [] := hroot ▸ .root
  have p1 := placed_own exInput.world b.storage _ 0 1 [] t%"S" (by unfold Edge; rw [h0]; simp) p0 ho1 hn1
  have p4 := placed_own exInput.world b.storage _ 0 4 [] t%"n" (by unfold Edge; rw [h0]; simp) p0 ho4 hn4
  have p5 := placed_own exInput.world b.storage _ 4 5 _ t%"E" (by unfold Edge; rw [h4]; simp) p4 ho5 hn5
  exact ⟨hn, placed_unique _ _ _ hpg.toForest (hp 1 (by simp)) p1,
    placed_unique _ _ _ hpg.toForest (hp 4 (by simp)) p4, placed_unique _ _ _ hpg.toForest (hp 5 (by simp)) p5⟩

theorem exInput_type (x : Nat) (h : IsType exInput.world.toWorld x) : x = 1 ∨ x = 5 := by
  have hx : (exUnit.info x).kind = .enum ∨ (exUnit.info x).kind = .record := h
  revert hx
  simp only [exUnit]
  split <;> simp

theorem exInput_listed (s : Storage) (g : Graph) (x : Nat) : listedBases exInput.world s g x = [] := by
  unfold listedBases
  split <;> rfl

/-- The example meets all conditions. -/
theorem exInput_fit (custom : Str → Bool) (others : List Str) (g : Graph) (b : Building) (order : List Nat)
    (place : Nat → List Str) (pl : Placement exInput t%"my_lib" g b order place) :
    Fit custom (fun _ => []) others exInput b.storage t%"my_lib" g
      (analyze exInput.world.toWorld b.storage exInput.members t%"my_lib" g).pruned place := by
  obtain ⟨hn, h1, h4, h5⟩ := exInput_places g b order place pl
  have hattr := exUnit_attrs g t%"my_lib" place h1 h5
  rw [pl.graph] at hattr
  dsimp only at hattr
  constructor
  · intro x hx y hy k _ e
    rw [hn] at hx hy
    obtain ⟨c, hc, ha⟩ := exInput_identifiers y hy
    obtain ⟨hp1, hp2, _⟩ := printNat_spec k
    rw [e, ← List.singleton_append, ← List.append_assoc, List.getLast?_append] at hc
    cases hk : (printNat k).getLast? with
    | none => exact hp1 (List.getLast?_eq_none_iff.1 hk)
    | some d =>
    rw [hk] at hc
    cases hc
    exact ha (hp2 _ (List.mem_of_getLast? hk))
  · intro x y hx hy _ hne e
    rw [hn] at hy
    simp only [List.mem_cons, List.not_mem_nil, or_false] at hy
    rcases exInput_type x hx.1 with rfl | rfl
    · rw [h1] at e
      rcases hy with rfl | rfl | rfl | rfl
      · cases ‹hasObject _ _ 0 = true›
      · exact hne rfl
      · rw [h4] at e
        exact absurd e (by decide)
      · rw [h5] at e
        exact absurd e (by decide)
    · rw [h5] at e
      rcases hy with rfl | rfl | rfl | rfl
      · cases ‹hasObject _ _ 0 = true›
      · rw [h1] at e
        exact absurd e (by decide)
      · rw [h4] at e
        exact absurd e (by decide)
      · exact hne rfl
  · intro x y hx hy e
    rcases exInput_type x hx.1 with rfl | rfl <;> rcases exInput_type y hy.1 with rfl | rfl
    · rfl
    · exact absurd e (by decide)
    · exact absurd e (by decide)
    · rfl
  · rintro x c ⟨_, h⟩
    have hnb : NamesBases b.storage (directBases exInput.world) :=
      C42_annotations exInput.world.toWorld exInput.tree exInput_ok.unit g b pl.graph (directBases exInput.world)
        exInput_classes.all
    obtain ⟨_, q, hq, _⟩ := (shouldInline_iff hnb (exInput_classes.unfolds x) c).1 h
    cases hq
  · rintro x y _ hy
    have hnb : NamesBases b.storage (directBases exInput.world) :=
      C42_annotations exInput.world.toWorld exInput.tree exInput_ok.unit g b pl.graph (directBases exInput.world)
        exInput_classes.all
    rw [← listed_iff exInput.world exInput_classes b.storage hnb, exInput_listed] at hy
    cases hy
  · intro x _
    rw [exInput_listed]
    simp
  · intro x object _
    constructor
    · intro d e _ _ t ht
      cases ht
    · intro d _ t ht
      cases ht
  · intro mro start hm hs
    have hself : ∀ o, ∀ o' ∈ mro o, o' = o := by
      intro o o' ho
      obtain ⟨x, y, _, rfl, ha, rfl⟩ := hm o o' ho
      cases ha with
      | refl => rfl
      | step _ h =>
        rw [exInput_listed] at h
        cases h
    have hstart : ∀ o n, o ++ [n] ∉ [[t%"S"], [t%"n"], [t%"n", t%"E"]] → start o n = none := by
      intro o n hne
      false_or_by_contra
      rename_i h
      obtain ⟨y, hy, ho, e⟩ := hs o n h
      rw [hn] at hy
      refine hne ?_
      rw [← e]
      simp only [List.mem_cons, List.not_mem_nil, or_false] at hy
      rcases hy with rfl | rfl | rfl | rfl
      · cases ho
      · rw [h1]; simp
      · rw [h4]; simp
      · rw [h5]; simp
    have hfresh : ∀ o n w r, HasAttr exInput b.storage g t%"my_lib" place o n w r → start o n = none := by
      intro o n w r h
      have h1 := hattr _ _ _ _ h
      simp only [List.mem_cons, Prod.mk.injEq, List.not_mem_nil, or_false] at h1
      refine hstart o n ?_
      rcases h1 with ⟨rfl, rfl, rfl, rfl⟩ | ⟨rfl, rfl, rfl, rfl⟩ | ⟨rfl, rfl, rfl, rfl⟩ | ⟨rfl, rfl, rfl, rfl⟩ <;> decide
    have hnames : ∀ o n w w' r r', HasAttr exInput b.storage g t%"my_lib" place o n w r →
        HasAttr exInput b.storage g t%"my_lib" place o n w' r' →
        r = r' ∧ w = w' ∨ ∃ k, w = .function k ∧ w' = .function k := by
      intro o n w w' r r' h h'
      have h1 := hattr _ _ _ _ h
      have h2 := hattr _ _ _ _ h'
      simp only [List.mem_cons, Prod.mk.injEq, List.not_mem_nil, or_false] at h1 h2
      rcases h1 with ⟨rfl, rfl, rfl, rfl⟩ | ⟨rfl, rfl, rfl, rfl⟩ | ⟨rfl, rfl, rfl, rfl⟩ | ⟨rfl, rfl, rfl, rfl⟩ <;>
        simp at h2 <;> simp [h2]
    refine ⟨hnames, hfresh, ?_, ?_⟩
    · intro o n k r h _ o' ho
      cases hself o o' ho
      refine ⟨hfresh _ _ _ _ h, fun w' r' h' => ?_⟩
      rcases hnames _ _ _ _ _ _ h h' with ⟨_, e⟩ | ⟨k, _, e⟩
      · exact ⟨k, e.symm⟩
      · exact ⟨k, e⟩
    · intro o n w r h hw o' ho r' h'
      cases hself o o' ho
      rcases hnames _ _ _ _ _ _ h h' with ⟨_, e⟩ | ⟨k, _, e⟩
      · exact hw e
      · cases e

/-- C100: the module for the example can be imported. -/
example (custom : Str → Bool) (others : List Str) : ∃ r lines, runTool exOptions exInput (fun _ => none) = some r ∧
    r.files t%"/a" = some (fileText exInput (lines.headD [])) ∧
    ∃ st mros, Works custom (fun _ => []) others lines st mros
      (expectedNames (.start (st.types.map (·.2)) st.modules)
        (definitions (fun o => decide (o ∈ st.types.map (·.2))) [] st.executed)) := by
  obtain ⟨r, hr, hx, h0, hnd⟩ := exInput_run
  obtain ⟨name, g, b, order, place, hn, pl, lines, hl, hf, h⟩ := C100_works custom (fun _ => []) others exOptions
    exInput exInput_ok exInput_classes exInput_lookup exInput_members exInput_reopening exInput_bare
    exInput_operators exInput_once exInput_outside _ r hr hx h0 hnd (by intro x _; rfl)
  have hn' : moduleNameFor [] exInput.mainFile = some t%"my_lib" :=
    (makeValidIdentifier_eq _).trans (by decide +kernel)
  cases hn.symm.trans hn'
  match lines, hl with
  | [l1, l2], _ =>
  exact ⟨r, [l1, l2], hr, (hf 0 t%"/a" l1 rfl rfl).1 (by decide),
    h (exInput_fit custom others g b order place pl)⟩

end Verif
