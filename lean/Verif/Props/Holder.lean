import Verif.Spec.Holder
import Verif.Props.Subclass
import Verif.Props.Introducer
/-!
# C97: holders
-/
namespace Verif
open Spec

/-! ### The module definition -/

/-- Only lines that introduce contexts matter. -/
theorem holders_filter (custom : Str → Bool) : ∀ (lines : List Line) (known : List (Str × Bool)),
    HoldersFit custom known lines ↔
      HoldersFit custom known (lines.filter fun l => (introducedOf l).isSome)
  | [], _ => Iff.rfl
  | l :: rest, known => by
    cases l with
    | introduce x i =>
      rw [List.filter_cons_of_pos (by rfl)]
      cases i with
      | type t p n d f =>
        cases t with
        | record T bases holder =>
          unfold HoldersFit
          rw [holders_filter custom rest]
        | enum T =>
          unfold HoldersFit
          rw [holders_filter custom rest]
        | module =>
          unfold HoldersFit
          rw [holders_filter custom rest]
      | _ =>
        unfold HoldersFit
        rw [holders_filter custom rest]
    | _ =>
      rw [List.filter_cons_of_neg (by simp [introducedOf])]
      exact holders_filter custom rest known

/-- Lines that introduce contexts. -/
theorem main_introduced (w : EmitWorld) (s : Storage) (g : Graph) (vis : Visibilities) (name : Str)
    (order : List Nat) (n : Nat) :
    (fileLines w s g vis name order n 0).filter (fun l => (introducedOf l).isSome) =
      ((contextsOf w order).zip (identifiersOf w order)).map fun p => Line.introduce p.2
        ((Exposer.create w s p.1).introducer w s g (parentIdentifier w s g order p.1)) := by
  have hdef : ∀ (q : List ((Nat × Str) × Nat)),
      (q.flatMap fun p => definitionOf w s g vis 0 p.1.1 p.1.2).filter
        (fun l => (introducedOf l).isSome) = [] := by
    intro q
    rw [List.filter_eq_nil_iff]
    intro x hx
    obtain ⟨p, _, hp⟩ := List.mem_flatMap.1 hx
    unfold definitionOf at hp
    simp only [List.mem_append, List.mem_singleton, List.mem_map] at hp
    rcases hp with ((hp | rfl) | ⟨t, _, rfl⟩) | rfl
    · split at hp
      · simp only [List.mem_singleton] at hp
        subst hp
        simp [introducedOf]
      · cases hp
    all_goals simp [introducedOf]
  unfold fileLines
  rw [if_pos rfl, List.filter_append, hdef, List.append_nil]
  unfold mainOf
  dsimp only
  generalize (contextsOf w order).zip (identifiersOf w order) = l
  simp only [List.filter_append, List.filter_map, List.filter_cons, List.filter_nil]
  have e1 : l.filter ((fun l => (introducedOf l).isSome) ∘ fun p : Nat × Str =>
      Line.declare p.2 (contextTypeOf w s g p.1)) = [] := by
    rw [List.filter_eq_nil_iff]; simp [introducedOf]
  have e2 : l.filter ((fun l => (introducedOf l).isSome) ∘ fun p : Nat × Str =>
      Line.introduce p.2 ((Exposer.create w s p.1).introducer w s g
        (parentIdentifier w s g order p.1))) = l := by
    rw [List.filter_eq_self]; simp [introducedOf]
  have e3 : l.filter ((fun l => (introducedOf l).isSome) ∘ fun p : Nat × Str => Line.call p.2) = [] := by
    rw [List.filter_eq_nil_iff]; simp [introducedOf]
  have e4 : (w.unitVars.filterMap fun v => (postambleLambda s v).map
      (Line.postamble v)).filter (fun l => (introducedOf l).isSome) = [] := by
    rw [List.filter_eq_nil_iff]
    intro x hx
    obtain ⟨v, _, hv⟩ := List.mem_filterMap.1 hx
    obtain ⟨y, _, rfl⟩ := Option.map_eq_some_iff.1 hv
    simp [introducedOf]
  rw [e1, e2, e3, e4]
  simp [introducedOf]

/-- The holder of a context, as written. -/
def writtenHolder (s : Storage) (x : Nat) : Str := (((s.entries x).bind (·.record)).getD {}).holderType

/-- Whether a class or enum is created with a custom holder. -/
def writtenFlag (custom : Str → Bool) (w : EmitWorld) (s : Storage) (x : Nat) : Bool :=
  decide ((w.info x).kind = .record) && holderFlag custom (writtenHolder s x)

theorem holders_contexts (custom : Str → Bool) (w : EmitWorld) (s : Storage) (g : Graph) (parent : Nat → Str) :
    ∀ (l : List (Nat × Str)) (known : List (Str × Bool)),
    HoldersFit custom known (l.map fun p => Line.introduce p.2
        ((Exposer.create w s p.1).introducer w s g (parent p.1))) ↔
      ∀ pre x post, l.map (·.1) = pre ++ x :: post → ∀ b ∈ listedBases w s g x,
        (w.typeName b, writtenFlag custom w s x) ∈ known ∨
        ∃ y ∈ pre, isTypeContext w y = true ∧ w.typeName y = w.typeName b ∧
          writtenFlag custom w s y = writtenFlag custom w s x
  | [], known => by
    refine ⟨fun _ pre x post h => ?_, fun _ => trivial⟩
    cases pre <;> cases h
  | (x, v) :: l, known => by
    have ih := holders_contexts custom w s g parent l
    -- what comes first
    have step : ∀ known', (known' = known ∧ isTypeContext w x = false ∨
        known' = (w.typeName x, writtenFlag custom w s x) :: known ∧ isTypeContext w x = true) →
        (((∀ b ∈ listedBases w s g x, (w.typeName b, writtenFlag custom w s x) ∈ known) ∧
          HoldersFit custom known' (l.map fun p => Line.introduce p.2
            ((Exposer.create w s p.1).introducer w s g (parent p.1)))) ↔
        ∀ pre y post, ((x, v) :: l).map (·.1) = pre ++ y :: post → ∀ b ∈ listedBases w s g y,
          (w.typeName b, writtenFlag custom w s y) ∈ known ∨
          ∃ z ∈ pre, isTypeContext w z = true ∧ w.typeName z = w.typeName b ∧
            writtenFlag custom w s z = writtenFlag custom w s y) := by
      intro known' hk
      rw [ih]
      constructor
      · rintro ⟨h0, h⟩ pre y post he b hb
        cases pre with
        | nil =>
          simp only [List.map_cons, List.nil_append, List.cons.injEq] at he
          obtain ⟨rfl, _⟩ := he
          exact .inl (h0 b hb)
        | cons z pre =>
          simp only [List.map_cons, List.cons_append, List.cons.injEq] at he
          obtain ⟨rfl, he⟩ := he
          rcases h pre y post he b hb with h | ⟨z, hz, h⟩
          · rcases hk with ⟨rfl, _⟩ | ⟨rfl, ht⟩
            · exact .inl h
            · rcases List.mem_cons.1 h with h | h
              · simp only [Prod.mk.injEq] at h
                exact .inr ⟨x, by simp, ht, h.1.symm, h.2.symm⟩
              · exact .inl h
          · exact .inr ⟨z, by simp [hz], h⟩
      · intro h
        refine ⟨fun b hb => ?_, fun pre y post he b hb => ?_⟩
        · rcases h [] x _ rfl b hb with h | ⟨_, h, _⟩
          · exact h
          · cases h
        · rcases h (x :: pre) y post (by simp [he]) b hb with h | ⟨z, hz, h1, h2, h3⟩
          · refine .inl ?_
            rcases hk with ⟨rfl, _⟩ | ⟨rfl, _⟩
            · exact h
            · exact List.mem_cons_of_mem _ h
          · rcases List.mem_cons.1 hz with rfl | hz
            · rcases hk with ⟨_, ht⟩ | ⟨rfl, _⟩
              · rw [ht] at h1
                cases h1
              · rw [← h2, ← h3]
                exact .inl (by simp)
            · exact .inr ⟨z, hz, h1, h2, h3⟩
    have hnone : (w.info x).kind ≠ .record → ∀ b ∈ listedBases w s g x,
        (w.typeName b, writtenFlag custom w s x) ∈ known := by
      intro hk b hb
      unfold listedBases at hb
      rw [if_neg hk] at hb
      cases hb
    rw [List.map_cons]
    dsimp only
    generalize (l.map fun p => Line.introduce p.2
      ((Exposer.create w s p.1).introducer w s g (parent p.1))) = rest at *
    cases hk : (w.info x).kind with
    | record =>
      rw [← step ((w.typeName x, writtenFlag custom w s x) :: known) (.inr ⟨rfl, by simp [isTypeContext, hk]⟩)]
      have he : Exposer.create w s x = .record x (createFromAnnotations s (w.hierarchy x) x) := by
        unfold Exposer.create; rw [hk]
      rw [he]
      unfold Exposer.introducer Exposer.contextType getRecord
      dsimp only
      rw [HoldersFit]
      have hf : writtenFlag custom w s x =
          holderFlag custom (((s.entries x).bind (·.record)).getD {}).holderType := by
        simp [writtenFlag, writtenHolder, hk]
      rw [hf]
      refine and_congr ?_ Iff.rfl
      unfold listedBases
      rw [if_pos hk]
      simp
    | enum =>
      rw [← step ((w.typeName x, writtenFlag custom w s x) :: known) (.inr ⟨rfl, by simp [isTypeContext, hk]⟩)]
      have he : Exposer.create w s x = .enum x := by unfold Exposer.create; rw [hk]
      rw [he]
      unfold Exposer.introducer Exposer.contextType
      dsimp only
      rw [HoldersFit]
      have hf : writtenFlag custom w s x = false := by simp [writtenFlag, hk]
      rw [hf]
      rw [hf] at hnone
      exact ⟨fun h => ⟨hnone (by simp [hk]), h⟩, fun h => h.2⟩
    | _ =>
      rw [← step known (.inl ⟨rfl, by simp [isTypeContext, hk]⟩)]
      have hno : HoldersFit custom known (Line.introduce v
            ((Exposer.create w s x).introducer w s g (parent x)) :: rest) ↔
          HoldersFit custom known rest := by
        unfold Exposer.create
        rw [hk]
        unfold Exposer.introducer
        dsimp only
        first
          | exact Iff.rfl
          | (split
             · split <;> exact Iff.rfl
             · exact Iff.rfl)
      rw [hno]
      exact ⟨fun h => ⟨hnone (by simp [hk]), h⟩, fun h => h.2⟩

/-! ### Whole runs -/

theorem written_annotated (custom : Str → Bool) (i : ToolInput) (ok : InputOK i)
    (hd : ∀ x, Context i.world.toWorld x → i.world.dependentContext x = false)
    (g : Graph) (b : Building) (hb : buildGraph i.world.toWorld i.tree = (some g, b)) (name : Str) (x : Nat)
    (hx : x ∈ (analyze i.world.toWorld b.storage i.members name g).pruned.nodes)
    (hk : (i.world.info x).kind = .record) :
    writtenFlag custom i.world b.storage x = true ↔ CustomHolder custom i.world x := by
  have hcg := C23_graphs i.world.toWorld i.tree ok.unit g b hb
  obtain ⟨_, hroot, hedge, hreach⟩ := C26_places i.world.toWorld b.storage i.members name g hcg
  have hin : ∃ p, x ∈ g.children p := by
    cases (hreach x).1 hx with
    | root =>
      rw [hroot, hcg.root_kind] at hk
      cases hk
    | step _ _ hx => exact ⟨_, ((hedge _ _).1 hx).1⟩
  obtain ⟨p, hp⟩ := hin
  have hi := C68_introduced i.world i.tree ok.unit g b hb p x hp (hd x)
    (analyze i.world.toWorld b.storage i.members name g).pruned []
  have hw : writtenHolder b.storage x = (lastGiven .holderType (annotationsOf i.world x)).getD [] := by
    have he : Exposer.create i.world b.storage x =
        .record x (createFromAnnotations b.storage (i.world.hierarchy x) x) := by
      unfold Exposer.create; rw [hk]
    rw [he] at hi
    have key : ∀ g' parent e, Introduces i.world b.storage g' x parent e → ∀ T bases h p n d f,
        e = .type (.record T bases h) p n d f →
        h = (lastGiven .holderType (annotationsOf i.world x)).getD [] := by
      intro g' parent e h T bases h' p n d f he
      cases h with
      | record _ =>
        simp only [Introducer.type.injEq, ContextType.record.injEq] at he
        exact he.1.2.2.symm
      | _ => simp at he
    exact key _ _ _ hi _ _ _ _ _ _ _ rfl
  unfold writtenFlag holderFlag CustomHolder
  rw [hw, hk]
  cases lastGiven .holderType (annotationsOf i.world x) with
  | none => simp
  | some h => simp

/-- What C97 says about a generated module. -/
theorem holders_module (custom : Str → Bool) (o : ToolOptions) (i : ToolInput) (ok : InputOK i)
    (co : ClassesOK i.world)
    (hd : ∀ x, Context i.world.toWorld x → i.world.dependentContext x = false)
    (name : Str) (g : Graph) (b : Building) (order : List Nat) (place : Nat → List Str)
    (hb : buildGraph i.world.toWorld i.tree = (some g, b)) :
    let a := analyze i.world.toWorld b.storage i.members name g
    ValidOrder i.world.toWorld b.storage i.world.bases a.pruned order →
      ∀ lines : List (List Line), lines = ((List.range o.outputFiles.length).map fun k =>
          fileLines i.world b.storage a.pruned a.vis name order o.outputFiles.length k) →
        ((∃ st, importModule lines = .ok st) ↔
          (identifiersOf i.world order).Nodup ∧ Importable i.world b.storage a.pruned order place) →
        (Imported custom lines ↔
          (identifiersOf i.world order).Nodup ∧ Importable i.world b.storage a.pruned order place ∧
          ∀ x y, Exposed i.world.toWorld b.storage name g x →
            ExposedBase b.storage (directBases i.world) a.pruned (InlinedInto i.world b.storage x) x y →
            (CustomHolder custom i.world x ↔ CustomHolder custom i.world y)) := by
  intro a hv lines hl h7
  have ha : analyze i.world.toWorld b.storage i.members name g = a := rfl
  have hcg := C23_graphs i.world.toWorld i.tree ok.unit g b hb
  have hnb : NamesBases b.storage (directBases i.world) :=
    C42_annotations i.world.toWorld i.tree ok.unit g b hb (directBases i.world) co.all
  clear_value a
  have hex : ∀ x, (i.world.info x).kind = .record →
      (x ∈ a.pruned.nodes ↔ Exposed i.world.toWorld b.storage name g x) := by
    intro x hk
    have ht : IsType i.world.toWorld x := .inr hk
    rw [← ha, C26_types i.world.toWorld b.storage i.members name g hcg x ht]
    exact ⟨fun h => ⟨ht, h⟩, fun h => h.2⟩
  have hctx : ∀ x ∈ a.pruned.nodes, (i.world.info x).kind = .record → x ∈ contextsOf i.world order := by
    intro x hx hk
    exact own_representative i.world order x (hv.perm.mem_iff.2 hx) (by rw [hk]; decide)
  have hnode : ∀ x ∈ contextsOf i.world order, x ∈ a.pruned.nodes := fun x hx =>
    hv.perm.mem_iff.1 (List.mem_filter.1 hx).1
  have hflag : ∀ x ∈ a.pruned.nodes, (i.world.info x).kind = .record →
      (writtenFlag custom i.world b.storage x = true ↔ CustomHolder custom i.world x) := by
    intro x hx hk
    rw [← ha] at hx
    exact written_annotated custom i ok hd g b hb name x hx hk
  have hlisted : ∀ x y, y ∈ listedBases i.world b.storage a.pruned x →
      (i.world.info x).kind = .record ∧ y ∈ a.pruned.nodes ∧ (i.world.info y).kind = .record := by
    intro x y hy
    obtain ⟨hyg, p, hp, ⟨c, hl, rfl⟩, _⟩ := C93_listed i.world co b.storage hnb a.pruned x y hy
    obtain ⟨h1, h2⟩ := inlined_records i.world co x p hp
    exact ⟨h1, hyg, h2 c (List.mem_of_getLast? hl)⟩
  have hhead : lines.headD [] = fileLines i.world b.storage a.pruned a.vis name order o.outputFiles.length 0 := by
    have : 0 < o.outputFiles.length := by
      unfold ToolOptions.outputFiles
      cases o.outputs <;> simp
    rw [hl]
    generalize o.outputFiles.length = n at *
    cases n with
    | zero => exact absurd this (by decide)
    | succ n => rw [List.range_succ_eq_map]; rfl
  unfold Imported
  rw [h7, hhead, holders_filter, main_introduced, holders_contexts, zip_contexts, and_assoc]
  refine and_congr Iff.rfl ?_
  constructor
  · rintro ⟨himp, h⟩
    refine ⟨himp, fun x y hx hy => ?_⟩
    rw [← listed_iff i.world co b.storage hnb] at hy
    obtain ⟨hxk, hyg, hyk⟩ := hlisted x y hy
    have hxg := (hex x hxk).2 hx
    obtain ⟨pre, post, he⟩ := List.append_of_mem (hctx x hxg hxk)
    rw [← hflag x hxg hxk, ← hflag y hyg hyk]
    rcases h pre x post he y hy with h | ⟨z, hz, hzt, hzn, hzf⟩
    · cases h
    · have := himp.types z (by rw [he]; simp [hz]) y (hctx y hyg hyk) hzt (by simp [isTypeContext, hyk]) hzn
      subst this
      rw [hzf]
  · rintro ⟨himp, h⟩
    refine ⟨himp, fun pre x post he y hy => .inr ?_⟩
    obtain ⟨hxk, hyg, hyk⟩ := hlisted x y hy
    have hxg := hnode x (by rw [he]; simp)
    obtain ⟨z, hz, hzt, hzn⟩ := himp.bases pre x post he y hy
    have := himp.types z (by rw [he]; simp [hz]) y (hctx y hyg hyk) hzt (by simp [isTypeContext, hyk]) hzn
    subst this
    refine ⟨z, hz, hzt, rfl, ?_⟩
    have := h x z ((hex x hxk).1 hxg) ((listed_iff i.world co b.storage hnb a.pruned x z).1 hy)
    rw [← hflag x hxg hxk, ← hflag z hyg hyk] at this
    exact (Bool.eq_iff_iff.2 this).symm

/-- C97: the generated module can be imported exactly if the conditions of C61 hold, and a class
has a custom holder exactly if each base listed for it has one. -/
theorem C97_run (custom : Str → Bool) (o : ToolOptions) (i : ToolInput) (ok : InputOK i)
    (co : ClassesOK i.world) (files : Files) (r : ToolResult)
    (hr : runTool o i files = some r) (hx : o.expectFailure = false) (h0 : r.exitCode = 0)
    (hnd : o.outputFiles.Nodup)
    (hd : ∀ x, Context i.world.toWorld x → i.world.dependentContext x = false) :
    ∃ name g b order place, moduleNameFor o.moduleName i.mainFile = some name ∧
      buildGraph i.world.toWorld i.tree = (some g, b) ∧
      let a := analyze i.world.toWorld b.storage i.members name g
      ValidOrder i.world.toWorld b.storage i.world.bases a.pruned order ∧
      (∀ x ∈ a.pruned.nodes, Refers i.world b.storage a.pruned order x (place x)) ∧
      ∃ lines : List (List Line), lines.length = o.outputFiles.length ∧
        (∀ (k : Nat) path ls, o.outputFiles[k]? = some path → lines[k]? = some ls →
          (path ≠ ['-'] → r.files path = some (fileText i ls)) ∧
          (path = ['-'] → r.printed = [fileText i ls])) ∧
        (Imported custom lines ↔
          (identifiersOf i.world order).Nodup ∧ Importable i.world b.storage a.pruned order place ∧
          ∀ x y, Exposed i.world.toWorld b.storage name g x →
            ExposedBase b.storage (directBases i.world) a.pruned (InlinedInto i.world b.storage x) x y →
            (CustomHolder custom i.world x ↔ CustomHolder custom i.world y)) := by
  obtain ⟨name, g, b, order, place, hn, hb, hv, hpl, lines, hl, h5, h6, h7, _⟩ :=
    run_module o i ok files r hr hx h0 hnd
  refine ⟨name, g, b, order, place, hn, hb, hv, hpl, lines, h5, h6, ?_⟩
  exact holders_module custom o i ok co hd name g b order place hb hv lines hl h7

/-- C97: the holders do not matter if no class has a custom one, or all classes have. -/
theorem C97_uniform (custom : Str → Bool) (o : ToolOptions) (i : ToolInput) (ok : InputOK i)
    (co : ClassesOK i.world) (files : Files) (r : ToolResult)
    (hr : runTool o i files = some r) (hx : o.expectFailure = false) (h0 : r.exitCode = 0)
    (hnd : o.outputFiles.Nodup)
    (hd : ∀ x, Context i.world.toWorld x → i.world.dependentContext x = false)
    (hu : (∀ x, (i.world.info x).kind = .record → ¬ CustomHolder custom i.world x) ∨
      ∀ x, (i.world.info x).kind = .record → CustomHolder custom i.world x) :
    ∃ name g b order place, moduleNameFor o.moduleName i.mainFile = some name ∧
      buildGraph i.world.toWorld i.tree = (some g, b) ∧
      let a := analyze i.world.toWorld b.storage i.members name g
      ValidOrder i.world.toWorld b.storage i.world.bases a.pruned order ∧
      (∀ x ∈ a.pruned.nodes, Refers i.world b.storage a.pruned order x (place x)) ∧
      ∃ lines : List (List Line), lines.length = o.outputFiles.length ∧
        (∀ (k : Nat) path ls, o.outputFiles[k]? = some path → lines[k]? = some ls →
          (path ≠ ['-'] → r.files path = some (fileText i ls)) ∧
          (path = ['-'] → r.printed = [fileText i ls])) ∧
        (Imported custom lines ↔
          (identifiersOf i.world order).Nodup ∧ Importable i.world b.storage a.pruned order place) := by
  obtain ⟨name, g, b, order, place, hn, hb, hv, hpl, lines, h1, h2, h3⟩ :=
    C97_run custom o i ok co files r hr hx h0 hnd hd
  refine ⟨name, g, b, order, place, hn, hb, hv, hpl, lines, h1, h2, h3.trans ?_⟩
  refine ⟨fun h => ⟨h.1, h.2.1⟩, fun h => ⟨h.1, h.2, fun x y _ hy => ?_⟩⟩
  obtain ⟨_, _, p, last, hp, rfl, _⟩ := hy
  obtain ⟨hxk, hpk⟩ := inlined_records i.world co x _ hp
  have hyk := hpk last (by simp)
  rcases hu with hu | hu
  · exact ⟨fun h => absurd h (hu _ hxk), fun h => absurd h (hu _ hyk)⟩
  · exact ⟨fun _ => hu _ hyk, fun _ => hu _ hxk⟩

/-! ### Examples -/

local macro "eval_run" : tactic => `(tactic| (
  simp only [handleTranslationUnit, emitModule, findEnclosingScopes, analyze, pruneGraph, hideNamespaces,
    declContextsWithVisibleNamedDecls, deriveEffectiveVisibility, dfs_fuel]
  decide +kernel))

/-- `struct visible B {}; struct visible H : B {}; struct visible holder_type(...) D : H {};` -/
def exHeld : ToolInput :=
  exFamilyInput [lozenge ++ t%"visible"] [lozenge ++ t%"visible, holder_type(\"std::shared_ptr<D>\")"]

/-- `std::shared_ptr<D>` is not a `std::unique_ptr`. -/
def exCustom (t : Str) : Bool := decide (t = t%"std::shared_ptr<D>")

theorem exHeld_holders : CustomHolder exCustom exHeld.world 3 ∧ ¬ CustomHolder exCustom exHeld.world 2 := by
  constructor
  · exact ⟨t%"std::shared_ptr<D>", by decide +kernel⟩
  · rintro ⟨h, h1, _⟩
    have : lastGiven .holderType (annotationsOf exHeld.world 2) = none := by decide +kernel
    rw [this] at h1
    cases h1

def exHeldOptions : ToolOptions := { outputs := [t%"/a"] }

set_option maxRecDepth 8000 in
theorem exHeld_quiet : (handleTranslationUnit exHeld t%"my_lib" [t%"/a"]).diags = [] := by eval_run

set_option maxRecDepth 8000 in
theorem exHeld_written : (handleTranslationUnit exHeld t%"my_lib" [t%"/a"]).ioError = false := by eval_run

set_option maxRecDepth 8000 in
theorem exHeld_bases : exFamilyBases [lozenge ++ t%"visible"]
    [lozenge ++ t%"visible, holder_type(\"std::shared_ptr<D>\")"] =
    some [(true, []), (true, [1]), (true, [2])] := by
  unfold exFamilyBases
  eval_run

/-- The tool succeeds, without any diagnostics. -/
theorem exHeld_run : ∃ r, runTool exHeldOptions exHeld (fun _ => none) = some r ∧ r.exitCode = 0 ∧
    r.diags = [] := by
  have hn : moduleNameFor [] exHeld.mainFile = some t%"my_lib" :=
    (makeValidIdentifier_eq _).trans (by decide +kernel)
  unfold runTool
  rw [show exHeldOptions.moduleName = [] from rfl, hn]
  refine ⟨_, rfl, ?_, exHeld_quiet⟩
  have h : errorOccurred exHeld (handleTranslationUnit exHeld t%"my_lib" [t%"/a"]) = false := by
    unfold errorOccurred
    rw [exHeld_quiet, exHeld_written]
    rfl
  dsimp only
  rw [show exHeldOptions.outputFiles = [t%"/a"] from rfl, h]
  rfl

/-- C97: `struct visible H {}; struct visible holder_type("std::shared_ptr<D>") D : H {};`: there is
no diagnostic, but the module cannot be imported. -/
theorem C97_mismatch : ∃ r lines, runTool exHeldOptions exHeld (fun _ => none) = some r ∧ r.exitCode = 0 ∧
    r.diags = [] ∧ r.files t%"/a" = some (fileText exHeld lines) ∧ ¬ Imported exCustom [lines] := by
  obtain ⟨r, hr, h0, hq⟩ := exHeld_run
  obtain ⟨name, g, b, order, place, hn, hb, _, _, lines, hl, hf, h⟩ := C97_run exCustom exHeldOptions exHeld
    (exFamily_ok _ _) (exFamily_classes _ _) _ r hr rfl h0 (by decide) (by intro x _; rfl)
  have hn' : moduleNameFor [] exHeld.mainFile = some t%"my_lib" :=
    (makeValidIdentifier_eq _).trans (by decide +kernel)
  cases hn.symm.trans hn'
  match lines, hl with
  | [lines], _ =>
  refine ⟨r, lines, hr, h0, hq, (hf 0 t%"/a" lines rfl rfl).1 (by decide), fun hi => ?_⟩
  obtain ⟨_, _, h⟩ := h.1 hi
  have hbases := exHeld_bases
  unfold exFamilyBases at hbases
  have hb' : buildGraph (exFamilyInput [lozenge ++ t%"visible"]
      [lozenge ++ t%"visible, holder_type(\"std::shared_ptr<D>\")"]).world.toWorld
      (exFamilyInput [lozenge ++ t%"visible"]
      [lozenge ++ t%"visible, holder_type(\"std::shared_ptr<D>\")"]).tree = (some g, b) := hb
  dsimp only at hbases
  rw [hb'] at hbases
  simp only [Option.map_some, Option.some.injEq, List.map_cons, List.map_nil, List.cons.injEq, Prod.mk.injEq,
    decide_eq_true_eq, and_true] at hbases
  obtain ⟨_, _, h3, hb3⟩ := hbases
  have hcg := C23_graphs exHeld.world.toWorld exHeld.tree (exFamily_ok _ _).unit g b hb
  have ht : IsType exHeld.world.toWorld 3 := .inr rfl
  have hex : Exposed exHeld.world.toWorld b.storage t%"my_lib" g 3 :=
    ⟨ht, (C26_types exHeld.world.toWorld b.storage exHeld.members t%"my_lib" g hcg 3 ht).1 h3⟩
  have hnb : NamesBases b.storage (directBases exHeld.world) :=
    C42_annotations exHeld.world.toWorld exHeld.tree (exFamily_ok _ _).unit g b hb (directBases exHeld.world)
      (exFamily_classes _ _).all
  have hl : 2 ∈ listedBases exHeld.world b.storage
      (analyze exHeld.world.toWorld b.storage exHeld.members t%"my_lib" g).pruned 3 := by
    have : listedBases exHeld.world b.storage
      (analyze exHeld.world.toWorld b.storage exHeld.members t%"my_lib" g).pruned 3 = [2] := hb3
    rw [this]
    simp
  have := h 3 2 hex ((listed_iff exHeld.world (exFamily_classes _ _) b.storage hnb _ 3 2).1 hl)
  exact exHeld_holders.2 (this.1 exHeld_holders.1)

set_option maxRecDepth 8000 in
/-- The code for it. -/
example : (handleTranslationUnit exHeld t%"my_lib" [t%"/a"]).outputs = [(t%"/a",
    t%"#include \"/src/my-lib.h\"
#include <genpybind/binding-helpers.h>
#include <pybind11/pybind11.h>

void expose_context(::pybind11::module& context);
void expose_context_B(::pybind11::class_<::B>& context);
void expose_context_H(::pybind11::class_<::H, ::B>& context);
void expose_context_D(::pybind11::class_<::D, ::H, std::shared_ptr<D>>& context);

PYBIND11_MODULE(my_lib, root) {
auto context = root;
auto context_B = ::pybind11::class_<::B>(context, \"B\");
auto context_H = ::pybind11::class_<::H, ::B>(context, \"H\");
auto context_D = ::pybind11::class_<::D, ::H, std::shared_ptr<D>>(context, \"D\");

expose_context(context);
expose_context_B(context_B);
expose_context_H(context_H);
expose_context_D(context_D);
}

void expose_context(::pybind11::module& context) {
(void)context;
}

void expose_context_B(::pybind11::class_<::B>& context) {
}

void expose_context_H(::pybind11::class_<::H, ::B>& context) {
}

void expose_context_D(::pybind11::class_<::D, ::H, std::shared_ptr<D>>& context) {
}

")] := by eval_run

/-- Without `holder_type` no class has a custom holder. -/
example (custom : Str → Bool) : ∀ x,
    ((exFamilyInput [lozenge ++ t%"visible"] [lozenge ++ t%"visible"]).world.info x).kind = .record →
    ¬ CustomHolder custom (exFamilyInput [lozenge ++ t%"visible"] [lozenge ++ t%"visible"]).world x := by
  intro x hk
  have : x = 1 ∨ x = 2 ∨ x = 3 := by
    revert hk
    simp only [exFamilyInput, exFamily]
    split <;> simp
  have key : ∀ x ∈ [1, 2, 3], lastGiven .holderType (annotationsOf
      (exFamilyInput [lozenge ++ t%"visible"] [lozenge ++ t%"visible"]).world x) = none := by decide +kernel
  rintro ⟨h, h1, _⟩
  rw [key x (by simpa using this)] at h1
  cases h1

end Verif
