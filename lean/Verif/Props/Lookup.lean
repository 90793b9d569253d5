import Verif.Spec.Lookup
import Verif.Props.Subclass
import Verif.Props.Names
/-!
# C95: methods of derived classes
-/
namespace Verif
open Spec

/-! ### Lookup in C++ -/

theorem derives_trans {w : EmitWorld} {x y z : Nat} (h : DerivesFrom w x y) (h' : DerivesFrom w y z) :
    DerivesFrom w x z := by
  rcases h with rfl | ⟨p, hp, hl⟩
  · exact h'
  · rcases h' with rfl | ⟨q, hq, hl'⟩
    · exact .inr ⟨p, hp, hl⟩
    · refine .inr ⟨p ++ q, ?_, ?_⟩
      · clear hl'
        induction hp with
        | direct hb =>
          obtain ⟨s, hs, rfl⟩ := hl
          cases hs
          exact .step hb hq
        | step hb hp ih =>
          refine .step hb (ih ?_)
          obtain ⟨s, hs, rfl⟩ := hl
          refine ⟨s, ?_, rfl⟩
          cases hp <;> simpa using hs
      · obtain ⟨s, hs, rfl⟩ := hl'
        exact ⟨s, by rw [List.getLast?_append, hs]; rfl, rfl⟩

theorem derives_base {w : EmitWorld} {x : Nat} {b : BaseSpec} (h : b ∈ directBases w x) : DerivesFrom w x b.id :=
  .inr ⟨[b], .direct h, b, rfl, rfl⟩

theorem found_derives {w : EmitWorld} {n : Str} {x c : Nat} (h : FoundAlong w n x c) :
    DerivesFrom w x c ∧ Declares w c n := by
  induction h with
  | here h => exact ⟨.inl rfl, h⟩
  | base _ hb _ ih => exact ⟨derives_trans (derives_base hb) ih.1, ih.2⟩

/-- On the way to a class with such a member, something is found. -/
theorem found_before {w : EmitWorld} {n : Str} {x y : Nat} (h : DerivesFrom w x y) (hy : Declares w y n) :
    ∃ f, FoundAlong w n x f ∧ DerivesFrom w f y := by
  rcases h with rfl | ⟨p, hp, hl⟩
  · exact ⟨y, .here hy, .inl rfl⟩
  · induction hp with
    | direct hb =>
      rename_i x b
      obtain ⟨s, hs, rfl⟩ := hl
      cases hs
      by_cases hx : Declares w x n
      · exact ⟨x, .here hx, derives_base hb⟩
      · exact ⟨b.id, .base hx hb (.here hy), .inl rfl⟩
    | step hb hp ih =>
      rename_i x b p
      have hl' : LeadsTo p y := by
        obtain ⟨s, hs, rfl⟩ := hl
        refine ⟨s, ?_, rfl⟩
        cases hp <;> simpa using hs
      by_cases hx : Declares w x n
      · exact ⟨x, .here hx, derives_trans (derives_base hb) (.inr ⟨p, hp, hl'⟩)⟩
      · obtain ⟨f, hf, hfy⟩ := ih hl'
        exact ⟨f, .base hx hb hf, hfy⟩

/-! ### Lookup in Python -/

/-- The attribute of a class is found if the class is a subclass of all others that have one. -/
theorem find_first (lines : List Line) (types : List (Str × List Str)) (names : PyNames) (n : Str) (c : List Str)
    (hc : names c n ≠ none) : ∀ l : List (List Str),
    l.Pairwise (fun a b => SubclassAt lines types b a → b = a) → c ∈ l →
    (∀ b ∈ l, names b n ≠ none → SubclassAt lines types c b) → l.findSome? (names · n) = names c n := by
  intro l
  induction l with
  | nil => intro _ h; cases h
  | cons a l ih =>
    intro hp hm hs
    rw [List.pairwise_cons] at hp
    rw [List.findSome?_cons]
    cases ha : names a n with
    | none =>
      dsimp only
      refine ih hp.2 ?_ (fun b hb => hs b (by simp [hb]))
      rcases List.mem_cons.1 hm with rfl | h
      · exact absurd ha hc
      · exact h
    | some v =>
      dsimp only
      rcases List.mem_cons.1 hm with rfl | h
      · exact ha.symm
      · rw [hp.1 c h (hs a (by simp) (by rw [ha]; simp)), ha]

theorem set_keeps (names : PyNames) (o n o' n' : _) (a : Attribute) (h : names o' n' ≠ none) :
    (names.set o n a) o' n' ≠ none := by
  unfold PyNames.set
  split
  · simp
  · exact h

theorem define_set {mro : List Str → List (List Str)} {names names' : PyNames} {d : Definition}
    (h : names.define mro d = .ok names') : ∃ a, names' = names.set d.object d.name a := by
  unfold PyNames.define at h
  repeat' (split at h)
  all_goals first | exact ⟨_, (Except.ok.inj h).symm⟩ | cases h

theorem names_keep (mro : List Str → List (List Str)) (l : List Definition) : ∀ (names names' : PyNames),
    names.run mro l = .ok names' → ∀ o n, names o n ≠ none → names' o n ≠ none := by
  induction l with
  | nil =>
    intro names names' h o n hn
    cases h
    exact hn
  | cons d l ih =>
    intro names names' h o n hn
    rw [PyNames.run] at h
    split at h
    · rename_i hd
      obtain ⟨a, rfl⟩ := define_set hd
      exact ih _ _ h o n (set_keeps _ _ _ _ _ _ hn)
    · cases h

theorem names_defined (mro : List Str → List (List Str)) (l : List Definition) : ∀ (names names' : PyNames),
    names.run mro l = .ok names' → ∀ d ∈ l, names' d.object d.name ≠ none := by
  induction l with
  | nil => intro _ _ _ d hd; cases hd
  | cons d l ih =>
    intro names names' h e he
    rw [PyNames.run] at h
    split at h
    · rename_i hd
      rcases List.mem_cons.1 he with rfl | he
      · obtain ⟨a, rfl⟩ := define_set hd
        exact names_keep mro l _ _ h _ _ (by simp [PyNames.set])
      · exact ih _ _ h e he
    · cases h

theorem definition_of_statement (isClass : List Str → Bool) (l : List Execution) : ∀ (before : List Execution),
    ∀ e ∈ l, ∀ d, definedBy isClass e.object e.stmt = some d → d ∈ definitions isClass before l := by
  induction l with
  | nil => intro _ e he; cases he
  | cons a l ih =>
    intro before e he d hd
    rw [definitions]
    rcases List.mem_cons.1 he with rfl | he
    · simp [hd]
    · exact List.mem_append_right _ (ih _ e he d hd)

/-- C95: for whole runs.  If all bases of a class are public and exposed, and everything in these
classes with a given name is a function exposed under this name, in at least one overload, Python finds
the functions of the class in which C++ finds them.

Partial: without these conditions Python may find functions of a base although a member of the
derived class hides them in C++, see `C95_private` and `C95_renamed`. -/
theorem C95_run_partial (o : ToolOptions) (i : ToolInput) (ok : InputOK i) (co : ClassesOK i.world)
    (lk : LookupOK i.world) (re : Reopening i.world.toWorld) (hu : NoBareReopening i.world.toWorld i.tree)
    (files : Files) (r : ToolResult) (hr : runTool o i files = some r) (hx : o.expectFailure = false)
    (h0 : r.exitCode = 0) (hnd : o.outputFiles.Nodup) :
    ∃ name g b order place, moduleNameFor o.moduleName i.mainFile = some name ∧
      Placement i name g b order place ∧
      ∃ lines : List (List Line), lines.length = o.outputFiles.length ∧
        (∀ (k : Nat) path ls, o.outputFiles[k]? = some path → lines[k]? = some ls →
          (path ≠ ['-'] → r.files path = some (fileText i ls)) ∧
          (path = ['-'] → r.printed = [fileText i ls])) ∧
        ∀ st, importModule lines = .ok st → ∀ mro, MroOK (lines.headD []) st.types mro → ∀ names,
          PyNames.run mro (.start (st.types.map (·.2)) st.modules)
            (definitions (fun x => decide (x ∈ st.types.map (·.2))) [] st.executed) = .ok names →
          NoBaseAnnotations b.storage →
          ∀ x n c, (i.world.info x).kind = .record →
          (∀ y, DerivesFrom i.world x y → Exposed i.world.toWorld b.storage name g y ∧
            ∀ s ∈ directBases i.world y, s.access = .public) →
          (∀ y, DerivesFrom i.world x y → Declares i.world y n →
            ∃ d, Offers i.world b.storage g y d ∧ FunctionIn i.world b.storage y d ∧
              pythonName i.world b.storage d = n) →
          (∀ y, DerivesFrom i.world x y → names (place y) n ≠ none → Declares i.world y n) →
          CppFinds i.world n x c →
          names (place c) n ≠ none ∧ names.find mro (place x) n = names (place c) n := by
  obtain ⟨name, g, b, order, place, hn, hb, hv, hp, lines, hl, h1, h2, h3, h4⟩ :=
    run_module o i ok files r hr hx h0 hnd
  have pl : Placement i name g b order place := ⟨hb, hv, hp⟩
  refine ⟨name, g, b, order, place, hn, pl, lines, h1, h2, ?_⟩
  intro st hst mro hmro names hrun hno x n c hk hfam hdecl hown hfind
  obtain ⟨hexec, types, _, htypes, hst'⟩ := h4 st hst
  have himp := (h3.1 ⟨st, hst⟩).2
  have hcg := C23_graphs i.world.toWorld i.tree ok.unit g b hb
  have hnb : NamesBases b.storage (directBases i.world) :=
    C42_annotations i.world.toWorld i.tree ok.unit g b hb (directBases i.world) co.all
  have hhead : lines.headD [] = fileLines i.world b.storage
      (analyze i.world.toWorld b.storage i.members name g).pruned
      (analyze i.world.toWorld b.storage i.members name g).vis name order o.outputFiles.length 0 := by
    have hpos : o.outputFiles.length ≠ 0 := by
      unfold ToolOptions.outputFiles
      cases o.outputs <;> simp
    rw [hl]
    obtain ⟨k, hk⟩ := Nat.exists_eq_succ_of_ne_zero hpos
    rw [hk, List.range_succ_eq_map]
    rfl
  rw [hhead] at hmro
  let P := (analyze i.world.toWorld b.storage i.members name g).pruned
  have hnode : ∀ y, Exposed i.world.toWorld b.storage name g y ↔ IsType i.world.toWorld y ∧ y ∈ P.nodes := by
    intro y
    constructor
    · intro h
      exact ⟨h.1, (C26_types i.world.toWorld b.storage i.members name g hcg y h.1).2 h.2⟩
    · rintro ⟨ht, h⟩
      exact ⟨ht, (C26_types i.world.toWorld b.storage i.members name g hcg y ht).1 h⟩
  have hty : ∀ y, IsType i.world.toWorld y → isTypeContext i.world y = true := by
    intro y h
    unfold isTypeContext
    rcases h with h | h <;> simp [h]
  have hctx : ∀ y, Exposed i.world.toWorld b.storage name g y → y ∈ contextsOf i.world order := by
    intro y h
    refine own_representative i.world order y (hv.perm.mem_iff.2 ((hnode y).1 h).2) ?_
    rcases h.1 with h | h <;> rw [h] <;> decide
  have hobj : ∀ y, Exposed i.world.toWorld b.storage name g y → hasObject i.world b.storage y = true := by
    intro y h
    unfold hasObject
    rcases h.1 with h | h <;> simp [h]
  have hplace : ∀ y z, Exposed i.world.toWorld b.storage name g y → Exposed i.world.toWorld b.storage name g z →
      place y = place z → y = z := by
    intro y z hy hz h
    false_or_by_contra
    rename_i hne
    exact himp.names y (hctx y hy) z (hctx z hz) hne (hty y hy.1) (hobj z hz) h
  have hname : ∀ y z, Exposed i.world.toWorld b.storage name g y → Exposed i.world.toWorld b.storage name g z →
      i.world.typeName y = i.world.typeName z → y = z := by
    intro y z hy hz h
    exact himp.types y (hctx y hy) z (hctx z hz) (hty y hy.1) (hty z hz.1) h
  have hmem : ∀ T a, (T, a) ∈ st.types ↔
      ∃ y, Exposed i.world.toWorld b.storage name g y ∧ T = i.world.typeName y ∧ a = place y := by
    intro T a
    rw [hst', List.mem_map]
    constructor
    · rintro ⟨y, hy, he⟩
      cases he
      exact ⟨y, (htypes y).1 hy, rfl, rfl⟩
    · rintro ⟨y, hy, rfl, rfl⟩
      exact ⟨y, (htypes y).2 hy, rfl⟩
  have hrec : ∀ y, DerivesFrom i.world x y → (i.world.info y).kind = .record := by
    rintro y (rfl | ⟨p, hp, s, hs, rfl⟩)
    · exact hk
    · exact (inlined_records i.world co x p hp).2 s (List.mem_of_getLast? hs)
  have hsub : ∀ y z, DerivesFrom i.world x y → DerivesFrom i.world y z →
      SubclassAt (fileLines i.world b.storage P (analyze i.world.toWorld b.storage i.members name g).vis name order
        o.outputFiles.length 0) st.types (place y) (place z) := by
    intro y z hy hz
    refine ⟨_, _, (hmem _ _).2 ⟨y, (hfam y hy).1, rfl, rfl⟩,
      (hmem _ _).2 ⟨z, (hfam z (derives_trans hy hz)).1, rfl, rfl⟩, ?_⟩
    rcases hz with rfl | ⟨p, hp, hl⟩
    · exact .refl
    · have hpath : ∀ s ∈ p, s.access = .public ∧ s.id ∈ P.nodes := by
        clear hl
        induction hp with
        | direct hb =>
          intro s hs
          rw [List.mem_singleton] at hs
          subst hs
          exact ⟨(hfam _ hy).2 _ hb, ((hnode _).1 (hfam _ (derives_trans hy (derives_base hb))).1).2⟩
        | step hb hp ih =>
          intro s hs
          rcases List.mem_cons.1 hs with rfl | hs
          · exact ⟨(hfam _ hy).2 _ hb, ((hnode _).1 (hfam _ (derives_trans hy (derives_base hb))).1).2⟩
          · exact ih (derives_trans hy (derives_base hb)) s hs
      exact sub_complete i.world co b.storage hnb P _ name order _ hv.perm y z ((hnode y).1 (hfam y hy).1).2
        (connected_plain i.world b.storage hno _ y z p hp hl (fun s hs => (hpath s hs).1)
          (fun s hs => (hpath s hs).2))
  have hsup : ∀ a, SubclassAt (fileLines i.world b.storage P
      (analyze i.world.toWorld b.storage i.members name g).vis name order o.outputFiles.length 0) st.types
        (place x) a → ∃ y, DerivesFrom i.world x y ∧ a = place y := by
    rintro a ⟨T, U, hT, hU, h⟩
    obtain ⟨x', hx', rfl, hpx⟩ := (hmem _ _).1 hT
    have : x = x' := hplace x x' (hfam x (.inl rfl)).1 hx' hpx
    subst this
    obtain ⟨y, hy, hyk, rfl, hxy⟩ := sub_sound i.world co b.storage hnb P _ name order _ hv.perm (by
      intro y hy z hz hyk hzk e
      exact hname y z ((hnode y).2 ⟨.inr hyk, hy⟩) ((hnode z).2 ⟨.inr hzk, hz⟩) e) x
      ((hnode x).1 hx').2 hk U h
    obtain ⟨y', hy', he, rfl⟩ := (hmem _ _).1 hU
    have : y = y' := hname y y' ((hnode y).2 ⟨.inr hyk, hy⟩) hy' he
    subst this
    refine ⟨y, ?_, rfl⟩
    rcases hxy with rfl | ⟨p, hp, hl, _⟩
    · exact .inl rfl
    · exact .inr ⟨p, hp, hl⟩
  have hin : place x ∈ st.types.map (·.2) :=
    List.mem_map.2 ⟨_, (hmem _ _).2 ⟨x, (hfam x (.inl rfl)).1, rfl, rfl⟩, rfl⟩
  obtain ⟨hxc, hcn⟩ := found_derives hfind.1
  have hthere : names (place c) n ≠ none := by
    obtain ⟨d, hd1, hd2, rfl⟩ := hdecl c hxc hcn
    obtain ⟨e, he, ho, hs⟩ := (C71_functions i ok lk re hu name g b order place pl (place c) d _ _ _).2
      ⟨⟨c, ⟨(hfam c hxc).1.2, fun h => absurd (hrec c hxc) (by rw [h]; decide), rfl⟩,
        by rw [hrec c hxc]; decide, hd1, hd2⟩, rfl, rfl, rfl⟩
    have hex : st.executed = executed i name g b order place := hexec
    rw [hex] at hrun
    cases hst2 : e.stmt with
    | function d' isStatic python p doc args policies =>
      rw [hst2] at hs
      simp only [functionOf, Option.some.injEq, Prod.mk.injEq] at hs
      have := names_defined mro _ _ _ hrun _ (definition_of_statement _ _ _ e he _ (by rw [hst2]; rfl))
      dsimp only at this
      rw [ho, hs.2.2.1] at this
      exact this
    | _ => rw [hst2] at hs; cases hs
  refine ⟨hthere, ?_⟩
  refine find_first _ st.types names n (place c) hthere _ (hmro.order _ hin)
    ((hmro.members _ hin _).2 (hsub x c (.inl rfl) hxc)) ?_
  intro a ha hne
  obtain ⟨y, hy, rfl⟩ := hsup a ((hmro.members _ hin _).1 ha)
  obtain ⟨f, hf, hfy⟩ := found_before hy (hown y hy hne)
  exact hsub c y hxc (derives_trans (hfind.2 f hf) hfy)

/-! ### Examples -/

local macro "eval_run" : tactic => `(tactic| (
  simp only [handleTranslationUnit, emitModule, findEnclosingScopes, analyze, pruneGraph, hideNamespaces,
    declContextsWithVisibleNamedDecls, deriveEffectiveVisibility, dfs_fuel]
  decide +kernel))

/-- `struct visible B { void f(); }; struct visible D : B { void f(); };`, with annotations for
`D::f` and restricted access to it. -/
def exOverride (f : List Str) (a : Access) : EmitWorld := { exUnit with
  info := fun
    | 0 => { kind := .translationUnit }
    | 1 => { kind := .record, name := t%"B", attrTexts := [lozenge ++ t%"visible"] }
    | 2 => { kind := .method, name := t%"f" }
    | 3 => { kind := .record, name := t%"D", attrTexts := [lozenge ++ t%"visible"], allBases := [1], bases := [1] }
    | 4 => { kind := .method, name := t%"f", attrTexts := f }
    | _ => { kind := .other }
  ancestors := fun | 0 => [] | 2 => [1, 0] | 4 => [3, 0] | _ => [0]
  access := fun | 2 => .public | 4 => a | _ => .none
  fn := fun | 2 => exPlain t%"B::f" 0 | _ => exPlain t%"D::f" 0
  typeName := fun | 1 => t%"::B" | _ => t%"::D"
  selfType := fun r _ => { text := if r = 1 then t%"::B" else t%"::D", record := some r }
  hierarchy := fun
    | 3 => .cons { id := 1, access := .public } .nil .nil
    | _ => .nil
  found := fun
    | 1 => [⟨2, none, false, .public, false, false, some 1, none⟩]
    | 3 => [⟨4, none, false, a, false, false, some 3, none⟩,
        ⟨2, some 4, true, .public, false, false, some 1, none⟩]
    | _ => [] }

def exOverrideInput (f : List Str) (a : Access) : ToolInput where
  mainFile := t%"/src/my-lib.h"
  world := exOverride f a
  tree := .node 0 [.node 1 [.node 2 []], .node 3 [.node 4 []]]
  pick := fun _ => lastSmallest (exOverride f a).loc
  iterate := fun g => g.nodes

theorem exOverride_ok : InputOK (exOverrideInput [] .public) where
  unit := by
    refine ⟨rfl, fun id => ?_, by simp only [exOverrideInput]; decide +kernel, fun id p ps => ?_,
      fun id h => ?_, rfl,
      fun a x => ?_, fun a x => ?_, fun a => ?_⟩
    all_goals simp only [exOverrideInput, exOverride]
    · split <;> simp_all [exUnit]
    · split <;> simp <;> rintro rfl rfl <;> rfl
    · split <;> simp_all [exOverride, exUnit, exOverrideInput]
    · split <;> simp
    · split <;> simp
    · split <;> simp
  emit := by
    refine ⟨by simp [exOverrideInput, exOverride, exUnit], by simp [exOverrideInput, exOverride, exUnit], ?_,
      fun _ _ => rfl⟩
    intro d
    simp only [exOverrideInput, exOverride]
    split <;> (try rfl) <;> (split <;> simp_all) <;> rfl
  bases := by
    intro x a
    simp only [exOverrideInput, exOverride, exUnit, EmitWorld.bases]
    split <;> simp [Hierarchy.direct]
  picks := lastSmallest_ok _
  iterate := fun _ => .refl _

example : ClassesOK (exOverrideInput [] .public).world where
  unfolds := by
    intro x
    unfold directBases
    simp only [exOverrideInput, exOverride]
    split <;> simp [Unfolds, Hierarchy.direct]
  records := by
    intro x b hb
    simp only [exOverrideInput, exOverride, directBases] at hb ⊢
    split at hb <;> simp [Hierarchy.direct] at hb <;> subst hb <;> simp
  all := by
    intro x c hc
    have hc : c ∈ ((exOverride [] .public).info x).allBases := hc
    unfold exOverride at hc
    dsimp only at hc
    split at hc <;> simp at hc
    subst hc
    exact ⟨_, .direct (b := { id := 1, access := .public }) (by simp [directBases, exOverrideInput, exOverride, Hierarchy.direct]), by simp [LeadsTo]⟩

/-- The method resolution order. -/
def exOverrideMro : List Str → List (List Str) := fun p => if p = [t%"D"] then [[t%"B"]] else []

/-- The classes of the imported module and which of them are created with bases, the functions
that are found for `f` in `B` and `D`, and what the tool reports. -/
def exOverrideResult (f : List Str) (a : Access) :
    Option (List (Str × List Str) × List (Str × List Str) × List (Option (List Nat)) × List Diag) :=
  let w := exOverride f a
  let i := exOverrideInput f a
  let b := buildGraph w.toWorld i.tree
  match b.1 with
  | none => none
  | some graph =>
    let r := analyze w.toWorld b.2.storage i.members t%"my_lib" graph
    let m := emitModule w b.2.storage r.pruned r.vis i.pick r.pruned.nodes 1 t%"my_lib"
    match importModule [m.stream 0] with
    | .error _ => none
    | .ok st =>
      match PyNames.run exOverrideMro (.start (st.types.map (·.2)) st.modules)
          (definitions (fun x => decide (x ∈ st.types.map (·.2))) [] st.executed) with
      | .error _ => none
      | .ok names => some (st.types, (m.stream 0).filterMap fun
          | .introduce _ (.type (.record T bases _) _ _ _ _) => some (T, bases)
          | _ => none,
        [[t%"B"], [t%"D"]].map fun o => match names.find exOverrideMro o t%"f" with
          | some (.functions _ l) => some (l.filterMap fun s => (functionOf s).map (·.1))
          | _ => none,
        (handleTranslationUnit i t%"my_lib" [t%"/a"]).diags)

set_option maxRecDepth 8000 in
/-- Each class has its own function. -/
theorem exOverride_own :
    (exOverrideResult [] .public).map (fun r => (r.1, r.2.1)) =
      some ([(t%"::B", [t%"B"]), (t%"::D", [t%"D"])], [(t%"::B", []), (t%"::D", [t%"::B"])]) ∧
    (exOverrideResult [] .public).map (fun r => r.2.2) = some ([some [2], some [4]], []) := by
  constructor
  all_goals
    unfold exOverrideResult
    eval_run

theorem exOverride_declares (f : List Str) (a : Access) (x : Nat) :
    Declares (exOverride f a) x t%"f" ↔ x = 1 ∨ x = 3 := by
  unfold Declares
  constructor
  · rintro ⟨e, he, _, _⟩
    simp only [exOverride] at he
    split at he
    · exact .inl rfl
    · exact .inr rfl
    · cases he
  · rintro (rfl | rfl)
    · exact ⟨⟨2, none, false, .public, false, false, some 1, none⟩, by simp [exOverride], rfl, rfl⟩
    · exact ⟨⟨4, none, false, a, false, false, some 3, none⟩, by simp [exOverride], rfl, rfl⟩

/-- C++ finds `D::f` for objects of class `D`. -/
theorem exOverride_finds (f : List Str) (a : Access) : CppFinds (exOverride f a) t%"f" 3 3 := by
  have h3 : Declares (exOverride f a) 3 t%"f" := (exOverride_declares f a 3).2 (.inr rfl)
  refine ⟨.here h3, fun c hc => ?_⟩
  cases hc with
  | here => exact .inl rfl
  | base h => exact absurd h3 h

/-- C95: `struct visible D : B { private: void f(); };`: C++ finds `D::f`, which may not be used, whereas
Python finds `B::f`.  Nothing is reported. -/
theorem C95_private : CppFinds (exOverride [] .private) t%"f" 3 3 ∧
    (exOverrideResult [] .private).map (fun r => r.2.2) = some ([some [2], some [2]], []) := by
  refine ⟨exOverride_finds _ _, ?_⟩
  unfold exOverrideResult
  eval_run

/-- C95: the same happens if the function is hidden by an annotation. -/
theorem C95_hidden : CppFinds (exOverride [lozenge ++ t%"hidden"] .public) t%"f" 3 3 ∧
    (exOverrideResult [lozenge ++ t%"hidden"] .public).map (fun r => r.2.2) =
      some ([some [2], some [2]], []) := by
  refine ⟨exOverride_finds _ _, ?_⟩
  unfold exOverrideResult
  eval_run

/-- C95: the same happens if the function is exposed under another name. -/
theorem C95_renamed : CppFinds (exOverride [lozenge ++ t%"expose_as(g)"] .public) t%"f" 3 3 ∧
    (exOverrideResult [lozenge ++ t%"expose_as(g)"] .public).map (fun r => r.2.2) =
      some ([some [2], some [2]], []) := by
  refine ⟨exOverride_finds _ _, ?_⟩
  unfold exOverrideResult
  eval_run

theorem created_records (lines : List Line) (T U : Str) : CreatedWith lines T U ↔
    ∃ bases, (T, bases) ∈ lines.filterMap (fun
      | .introduce _ (.type (.record T bases _) _ _ _ _) => some (T, bases)
      | _ => none) ∧ U ∈ bases := by
  constructor
  · rintro ⟨x, bases, holder, parent, name, doc, flag, h, hU⟩
    exact ⟨bases, List.mem_filterMap.2 ⟨_, h, rfl⟩, hU⟩
  · rintro ⟨bases, h, hU⟩
    obtain ⟨l, hl, he⟩ := List.mem_filterMap.1 h
    split at he
    · cases he
      exact ⟨_, _, _, _, _, _, _, hl, hU⟩
    · cases he

/-- The hypothesis about the method resolution order is met by a module with these classes. -/
example (lines : List Line) (h : lines.filterMap (fun
      | .introduce _ (.type (.record T bases _) _ _ _ _) => some (T, bases)
      | _ => none) = [(t%"::B", []), (t%"::D", [t%"::B"])]) :
    MroOK lines [(t%"::B", [t%"B"]), (t%"::D", [t%"D"])] exOverrideMro := by
  have hc : ∀ T U, CreatedWith lines T U ↔ T = t%"::D" ∧ U = t%"::B" := by
    intro T U
    rw [created_records, h]
    constructor
    · rintro ⟨bases, hm, hU⟩
      simp only [List.mem_cons, List.not_mem_nil, or_false, Prod.mk.injEq] at hm
      rcases hm with ⟨rfl, rfl⟩ | ⟨rfl, rfl⟩
      · cases hU
      · exact ⟨rfl, by simpa using hU⟩
    · rintro ⟨rfl, rfl⟩
      exact ⟨_, List.mem_cons_of_mem _ (List.mem_cons_self ..), by simp⟩
  have hs : ∀ T U, IsSubclass lines T U ↔ U = T ∨ T = t%"::D" ∧ U = t%"::B" := by
    intro T U
    constructor
    · intro h
      induction h with
      | refl => exact .inl rfl
      | step _ hs ih =>
        obtain ⟨rfl, rfl⟩ := (hc _ _).1 hs
        rcases ih with rfl | ⟨_, h⟩
        · exact .inr ⟨rfl, rfl⟩
        · simp at h
    · rintro (rfl | ⟨rfl, rfl⟩)
      · exact .refl
      · exact .step .refl ((hc _ _).2 ⟨rfl, rfl⟩)
  have hat : ∀ a b, SubclassAt lines [(t%"::B", [t%"B"]), (t%"::D", [t%"D"])] a b ↔
      (a = [t%"B"] ∧ b = [t%"B"]) ∨ (a = [t%"D"] ∧ b = [t%"D"]) ∨ (a = [t%"D"] ∧ b = [t%"B"]) := by
    intro a b
    constructor
    · rintro ⟨T, U, hT, hU, h⟩
      simp only [List.mem_cons, List.not_mem_nil, or_false, Prod.mk.injEq] at hT hU
      rcases hT with ⟨rfl, rfl⟩ | ⟨rfl, rfl⟩ <;> rcases hU with ⟨rfl, rfl⟩ | ⟨rfl, rfl⟩ <;>
        rw [hs] at h <;> clear hs hc <;> simp at h ⊢
    · rintro (⟨rfl, rfl⟩ | ⟨rfl, rfl⟩ | ⟨rfl, rfl⟩)
      · exact ⟨t%"::B", t%"::B", by simp, by simp, .refl⟩
      · exact ⟨t%"::D", t%"::D", by simp, by simp, .refl⟩
      · exact ⟨t%"::D", t%"::B", by simp, by simp, (hs _ _).2 (.inr ⟨rfl, rfl⟩)⟩
  constructor
  · intro a ha b
    rw [hat]
    simp only [List.map_cons, List.map_nil, List.mem_cons, List.not_mem_nil, or_false] at ha
    rcases ha with rfl | rfl <;> simp [exOverrideMro]
  · intro a ha
    simp only [List.map_cons, List.map_nil, List.mem_cons, List.not_mem_nil, or_false] at ha
    rcases ha with rfl | rfl <;> simp [exOverrideMro, hat]

end Verif
