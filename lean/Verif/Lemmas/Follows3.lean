import Verif.Lemmas.Follows
import Verif.Lemmas.Follows2
/-!
# One annotation: the handlers do what is documented (base types, properties; all kinds)
-/
set_option linter.unusedSimpArgs false
namespace Verif
open Spec

theorem mem_selectBases (env : DeclEnv) (names : List Str) (bases : List Nat) (b : Nat) :
    b ∈ selectBases env names bases ↔
      b ∈ bases ∧ SelectsBase env (names.map .string) b := by
  unfold selectBases SelectsBase
  simp only [List.mem_filter, Bool.or_eq_true, List.isEmpty_iff, List.map_eq_nil_iff]
  have hinj : ∀ l : List Str, names.map LiteralValue.string = l.map .string ↔ names = l := by
    intro l
    exact List.map_inj_right (fun a b h => by cases h; rfl)
  constructor
  · rintro ⟨h, h1 | h1⟩
    · exact ⟨h, .inl h1⟩
    · exact ⟨h, .inr ⟨names, rfl, h1⟩⟩
  · rintro ⟨h, h1 | ⟨l, h1, h2⟩⟩
    · exact ⟨h, .inl h1⟩
    · exact ⟨h, .inr (by rw [(hinj l).1 h1]; exact h2)⟩

open Classical in
theorem unknownBase_kinds (env : DeclEnv) (id : Nat) (k : AnnotationKind) (names : List Str)
    (bases : List Nat) :
    (unknownBaseDiags id k (selectBases env names bases)).map (·.kind) =
      if ∃ b ∈ bases, SelectsBase env (names.map .string) b then [] else [.unknownBaseType] := by
  have h : (∃ b ∈ bases, SelectsBase env (names.map .string) b) ↔
      selectBases env names bases ≠ [] := by
    constructor
    · rintro ⟨b, h1, h2⟩
      exact List.ne_nil_of_mem ((mem_selectBases _ _ _ _).2 ⟨h1, h2⟩)
    · intro h
      obtain ⟨b, hb⟩ := List.exists_mem_of_ne_nil _ h
      exact ⟨b, (mem_selectBases _ _ _ _).1 hb⟩
  unfold unknownBaseDiags
  by_cases he : selectBases env names bases = []
  · have hn : ¬ ∃ b ∈ bases, SelectsBase env (names.map .string) b := by
      rw [h]; simp [he]
    simp [he, hn]
  · rw [if_pos (h.2 he)]
    simp [he]

theorem unknownBase_decl (id : Nat) (k : AnnotationKind) (found : List Nat) (g : Diag)
    (hg : g ∈ unknownBaseDiags id k found) : g.decl = id := by
  unfold unknownBaseDiags at hg
  split at hg
  · simp at hg; simp [hg]
  · simp at hg

theorem mem_collected (names : List Str) (s : Str) (hs : s ≠ []) (P : Prop) :
    (P ∨ s ∈ (names.map fun s => if isValidIdentifier s then s else [])) ↔
      (P ∨ ValidIdent s ∧ LiteralValue.string s ∈ names.map LiteralValue.string) := by
  have : s ∈ (names.map fun s => if isValidIdentifier s then s else []) ↔
      ValidIdent s ∧ LiteralValue.string s ∈ names.map LiteralValue.string := by
    rw [← isValidIdentifier_iff]
    simp only [List.mem_map, LiteralValue.string.injEq, exists_eq_right]
    constructor
    · rintro ⟨a, h1, h2⟩
      split at h2
      · subst h2; exact ⟨by assumption, h1⟩
      · exact absurd h2.symm hs
    · rintro ⟨h1, h2⟩
      exact ⟨s, h2, by simp [h1]⟩
  rw [this]

open Classical in
theorem collect_diags (id : Nat) (k : AnnotationKind) (names : List Str) :
    ((names.map LiteralValue.string).flatMap fun v => (collectIdentifier id k v).2).map (·.kind) =
    (names.map LiteralValue.string).flatMap (fun v => match v with
      | .string s => if ValidIdent s then [] else [.invalidSpelling]
      | _ => []) := by
  induction names with
  | nil => rfl
  | cons n ns ih =>
    simp only [List.map_cons, List.flatMap_cons, List.map_append, ih]
    congr 1
    by_cases h : ValidIdent n
    · have h' := (isValidIdentifier_iff n).2 h
      simp [collectIdentifier, h, h']
    · have h' : isValidIdentifier n = false := by
        rw [Bool.eq_false_iff, Ne, isValidIdentifier_iff]; exact h
      simp [collectIdentifier, h, h']

theorem collect_decl (id : Nat) (k : AnnotationKind) (v : LiteralValue) (g : Diag)
    (hg : g ∈ (collectIdentifier id k v).2) : g.decl = id := by
  unfold collectIdentifier at hg
  split at hg
  · split at hg
    · simp at hg
    · simp at hg; simp [hg]
  · simp [assertionFailed] at hg; simp [hg]

theorem follows_hideBase (env : DeclEnv) (id : Nat) (args : List LiteralValue)
    (x : DeclAttrs) (sh : Shape (env.info id) x) :
    Follows env id ⟨.hideBase, args⟩ x
      (anyHandler (handlers env id) ⟨.hideBase, args⟩ x) := by
  rw [anyHandler_responsible env id _ args 3 _ rfl (by intro j; simp [responsible])]
  have hs := sh.record
  clear sh
  obtain ⟨n, ns, e, r, t, fv, o, c, m, ct, f⟩ := x
  rcases r with _ | r <;> simp only [liftHandler]
  · exact follows_absent _ _ _ _ _ (by simp_all [Applies])
  · have hap : Applies .hideBase (env.info id) := by simp_all [Applies]
    simp only [processRecord]
    rw [variadicCollect_checkMatch _ rfl rfl rfl]
    simp only [Dispatcher.start]
    have hacc : (∃ f ∈ forms .hideBase, f.Accepts args) ↔
        args.find? (fun v => !v.isa .string) = none := by
      rw [← all_string_iff]; simp [forms, Form.Accepts]
    cases hff : args.find? (fun v => !v.isa .string) with
    | some v =>
      have hn : ¬ ∃ f ∈ forms .hideBase, f.Accepts args := by rw [hacc, hff]; simp
      have hd : ¬ Documented (env.info id) ⟨.hideBase, args⟩ := fun h => hn h.2.2
      refine ⟨fun h => absurd h hd, fun _ => ⟨rfl, rfl⟩, fun _ _ _ => ⟨[v.print], ?_⟩,
        fun h => absurd hap h, fun _ h => absurd trivial h, by simp⟩
      simp [forms, Form.AcceptsCount]
    | none =>
      obtain ⟨names, rfl⟩ := (find_not_string args).1 hff
      have hd : Documented (env.info id) ⟨.hideBase, names.map .string⟩ :=
        ⟨hap, trivial, hacc.2 hff⟩
      have ht : (names.map LiteralValue.string).map (fun v => (stringText id v).1) = names := by
        simp [Function.comp_def, stringText]
      have ht2 : (names.map LiteralValue.string).flatMap (fun v => (stringText id v).2) = [] := by
        simp [stringText, List.flatMap_map]
      simp only [ht, ht2]
      refine ⟨fun _ => ⟨rfl, ⟨r, _, rfl, rfl, rfl, ?_⟩, ?_⟩, fun h => absurd hd h,
        fun _ _ h => absurd hd.2.2 h, fun h => absurd hap h, fun _ h => absurd trivial h, ?_⟩
      · intro b
        simp only [mem_foldl_setInsert, mem_selectBases]
      · simp only [acceptedDiagKinds, List.nil_append, if_true, List.append_nil]
        exact unknownBase_kinds _ _ _ _ _
      · intro g hg
        simp only [List.nil_append, if_true, List.append_nil] at hg
        exact unknownBase_decl _ _ _ _ hg

theorem follows_inlineBase (env : DeclEnv) (id : Nat) (args : List LiteralValue)
    (x : DeclAttrs) (sh : Shape (env.info id) x) :
    Follows env id ⟨.inlineBase, args⟩ x
      (anyHandler (handlers env id) ⟨.inlineBase, args⟩ x) := by
  rw [anyHandler_responsible env id _ args 3 _ rfl (by intro j; simp [responsible])]
  have hs := sh.record
  clear sh
  obtain ⟨n, ns, e, r, t, fv, o, c, m, ct, f⟩ := x
  rcases r with _ | r <;> simp only [liftHandler]
  · exact follows_absent _ _ _ _ _ (by simp_all [Applies])
  · have hap : Applies .inlineBase (env.info id) := by simp_all [Applies]
    simp only [processRecord]
    rw [variadicCollect_checkMatch _ rfl rfl rfl]
    simp only [Dispatcher.start]
    have hacc : (∃ f ∈ forms .inlineBase, f.Accepts args) ↔
        args.find? (fun v => !v.isa .string) = none := by
      rw [← all_string_iff]; simp [forms, Form.Accepts]
    cases hff : args.find? (fun v => !v.isa .string) with
    | some v =>
      have hn : ¬ ∃ f ∈ forms .inlineBase, f.Accepts args := by rw [hacc, hff]; simp
      have hd : ¬ Documented (env.info id) ⟨.inlineBase, args⟩ := fun h => hn h.2.2
      refine ⟨fun h => absurd h hd, fun _ => ⟨rfl, rfl⟩, fun _ _ _ => ⟨[v.print], ?_⟩,
        fun h => absurd hap h, fun _ h => absurd trivial h, by simp⟩
      simp [forms, Form.AcceptsCount]
    | none =>
      obtain ⟨names, rfl⟩ := (find_not_string args).1 hff
      have hd : Documented (env.info id) ⟨.inlineBase, names.map .string⟩ :=
        ⟨hap, trivial, hacc.2 hff⟩
      have ht : (names.map LiteralValue.string).map (fun v => (stringText id v).1) = names := by
        simp [Function.comp_def, stringText]
      have ht2 : (names.map LiteralValue.string).flatMap (fun v => (stringText id v).2) = [] := by
        simp [stringText, List.flatMap_map]
      simp only [ht, ht2]
      refine ⟨fun _ => ⟨rfl, ⟨r, _, rfl, rfl, rfl, ?_⟩, ?_⟩, fun h => absurd hd h,
        fun _ _ h => absurd hd.2.2 h, fun h => absurd hap h, fun _ h => absurd trivial h, ?_⟩
      · intro b
        simp only [mem_foldl_setInsert, mem_selectBases]
      · simp only [acceptedDiagKinds, List.nil_append, if_true, List.append_nil]
        exact unknownBase_kinds _ _ _ _ _
      · intro g hg
        simp only [List.nil_append, if_true, List.append_nil] at hg
        exact unknownBase_decl _ _ _ _ hg

theorem follows_getterFor (env : DeclEnv) (id : Nat) (args : List LiteralValue)
    (x : DeclAttrs) (sh : Shape (env.info id) x) :
    Follows env id ⟨.getterFor, args⟩ x
      (anyHandler (handlers env id) ⟨.getterFor, args⟩ x) := by
  rw [anyHandler_responsible env id _ args 8 _ rfl (by intro j; simp [responsible])]
  have hs := sh.method
  clear sh
  obtain ⟨n, ns, e, r, t, fv, o, c, m, ct, f⟩ := x
  rcases m with _ | m <;> simp only [liftHandler]
  · exact follows_absent _ _ _ _ _ (by simp_all [Applies])
  · have hap : Applies .getterFor (env.info id) := by simp_all [Applies]
    simp only [processMethod]
    by_cases hc : (env.info id).minRequired ≠ 0 ∨ (env.info id).returnsVoid = true
    · have hsc : ¬ SideCondition .getterFor (env.info id) := by
        simp only [SideCondition]
        rintro ⟨h1, h2⟩
        rcases hc with h | h
        · exact h h1
        · rw [h2] at h; cases h
      have hd : ¬ Documented (env.info id) ⟨.getterFor, args⟩ := fun h => hsc h.2.1
      rw [if_pos hc]
      simp only [Dispatcher.ensure, Dispatcher.start, Dispatcher.variadicCollect,
        Dispatcher.checkMatch]
      refine ⟨fun h => absurd h hd, fun _ => by simp, fun _ h => absurd h hsc,
        fun h => absurd hap h, fun _ _ => ?_, ?_⟩
      · right; exact ⟨_, by simp [invalidSignature]; rfl, rfl, by simp⟩
      · simp [invalidSignature]
    · have hsc : SideCondition .getterFor (env.info id) := by
        simp only [SideCondition]
        simp only [not_or] at hc
        exact ⟨by have := hc.1; omega, by have := hc.2; first | omega | simpa using this⟩
      rw [if_neg hc]
      have hst : (Dispatcher.ensure (Dispatcher.start id ⟨.getterFor, args⟩ m) (true, [])) =
          Dispatcher.start id ⟨.getterFor, args⟩ m := by
        simp [Dispatcher.ensure, Dispatcher.start]
      rw [hst, variadicCollect_checkMatch _ rfl rfl rfl]
      simp only [Dispatcher.start]
      refine follows_some env id _ args _ _ rfl hap hsc ?_ ?_ ?_
      · intro h; subst h; rfl
      · intro v h h'; simp [h']
      · intro names hne hn
        have h' := (find_not_string args).2 ⟨names, hn⟩
        simp only [h']
        subst hn
        have ht : (names.map LiteralValue.string).map (fun v => (collectIdentifier id .getterFor v).1)
            = names.map fun s => if isValidIdentifier s then s else [] := by
          simp only [List.map_map, Function.comp_def, collectIdentifier]
          apply List.map_congr_left
          intro s _; split <;> rfl
        simp only [ht]
        have hi : (names.map fun s => if isValidIdentifier s then s else []).isEmpty = false := by
          cases names <;> simp at hne ⊢
        simp only [hi]
        refine ⟨rfl, ⟨m, _, rfl, rfl, rfl, ?_⟩, ?_, ?_⟩
        · intro s hs'
          simp only [Bool.false_eq_true, if_false, mem_foldl_setInsert]
          rw [mem_collected names s hs']
        · simp only [acceptedDiagKinds, Bool.false_eq_true, if_false, if_true, List.append_nil]
          exact collect_diags id .getterFor names
        · intro g hg
          simp only [Bool.false_eq_true, if_false, if_true, List.append_nil, List.mem_flatMap] at hg
          obtain ⟨v, hv, hg⟩ := hg
          exact collect_decl id .getterFor v g hg

theorem follows_setterFor (env : DeclEnv) (id : Nat) (args : List LiteralValue)
    (x : DeclAttrs) (sh : Shape (env.info id) x) :
    Follows env id ⟨.setterFor, args⟩ x
      (anyHandler (handlers env id) ⟨.setterFor, args⟩ x) := by
  rw [anyHandler_responsible env id _ args 8 _ rfl (by intro j; simp [responsible])]
  have hs := sh.method
  clear sh
  obtain ⟨n, ns, e, r, t, fv, o, c, m, ct, f⟩ := x
  rcases m with _ | m <;> simp only [liftHandler]
  · exact follows_absent _ _ _ _ _ (by simp_all [Applies])
  · have hap : Applies .setterFor (env.info id) := by simp_all [Applies]
    simp only [processMethod]
    by_cases hc : (env.info id).params.length < 1 ∨ (env.info id).minRequired > 1
    · have hsc : ¬ SideCondition .setterFor (env.info id) := by
        simp only [SideCondition]
        rintro ⟨h1, h2⟩
        rcases hc with h | h
        · omega
        · omega
      have hd : ¬ Documented (env.info id) ⟨.setterFor, args⟩ := fun h => hsc h.2.1
      rw [if_pos hc]
      simp only [Dispatcher.ensure, Dispatcher.start, Dispatcher.variadicCollect,
        Dispatcher.checkMatch]
      refine ⟨fun h => absurd h hd, fun _ => by simp, fun _ h => absurd h hsc,
        fun h => absurd hap h, fun _ _ => ?_, ?_⟩
      · right; exact ⟨_, by simp [invalidSignature]; rfl, rfl, by simp⟩
      · simp [invalidSignature]
    · have hsc : SideCondition .setterFor (env.info id) := by
        simp only [SideCondition]
        simp only [not_or] at hc
        exact ⟨by have := hc.1; omega, by have := hc.2; first | omega | simpa using this⟩
      rw [if_neg hc]
      have hst : (Dispatcher.ensure (Dispatcher.start id ⟨.setterFor, args⟩ m) (true, [])) =
          Dispatcher.start id ⟨.setterFor, args⟩ m := by
        simp [Dispatcher.ensure, Dispatcher.start]
      rw [hst, variadicCollect_checkMatch _ rfl rfl rfl]
      simp only [Dispatcher.start]
      refine follows_some env id _ args _ _ rfl hap hsc ?_ ?_ ?_
      · intro h; subst h; rfl
      · intro v h h'; simp [h']
      · intro names hne hn
        have h' := (find_not_string args).2 ⟨names, hn⟩
        simp only [h']
        subst hn
        have ht : (names.map LiteralValue.string).map (fun v => (collectIdentifier id .setterFor v).1)
            = names.map fun s => if isValidIdentifier s then s else [] := by
          simp only [List.map_map, Function.comp_def, collectIdentifier]
          apply List.map_congr_left
          intro s _; split <;> rfl
        simp only [ht]
        have hi : (names.map fun s => if isValidIdentifier s then s else []).isEmpty = false := by
          cases names <;> simp at hne ⊢
        simp only [hi]
        refine ⟨rfl, ⟨m, _, rfl, rfl, rfl, ?_⟩, ?_, ?_⟩
        · intro s hs'
          simp only [Bool.false_eq_true, if_false, mem_foldl_setInsert]
          rw [mem_collected names s hs']
        · simp only [acceptedDiagKinds, Bool.false_eq_true, if_false, if_true, List.append_nil]
          exact collect_diags id .setterFor names
        · intro g hg
          simp only [Bool.false_eq_true, if_false, if_true, List.append_nil, List.mem_flatMap] at hg
          obtain ⟨v, hv, hg⟩ := hg
          exact collect_decl id .setterFor v g hg

/-- All kinds. -/
theorem follows (env : DeclEnv) (id : Nat) (a : Annotation) (x : DeclAttrs)
    (sh : Shape (env.info id) x) : Follows env id a x (anyHandler (handlers env id) a x) := by
  obtain ⟨k, args⟩ := a
  cases k with
  | exposeAs => exact follows_exposeAs env id args x
  | hidden => exact follows_hidden env id args x
  | visible => exact follows_visible env id args x
  | arithmetic => exact follows_enum env id _ args x sh (.inl rfl)
  | exportValues => exact follows_enum env id _ args x sh (.inr rfl)
  | getterFor => exact follows_getterFor env id args x sh
  | setterFor => exact follows_setterFor env id args x sh
  | dynamicAttr => exact follows_dynamicAttr env id _ args x sh (.inl rfl)
  | hideBase => exact follows_hideBase env id args x sh
  | holderType => exact follows_dynamicAttr env id _ args x sh (.inr rfl)
  | inlineBase => exact follows_inlineBase env id args x sh
  | implicitConversion => exact follows_implicitConversion env id args x sh
  | keepAlive => exact follows_keepAlive env id args x sh
  | noconvert => exact follows_noconvert env id args x sh
  | required => exact follows_required env id args x sh
  | returnValuePolicy => exact follows_returnValuePolicy env id args x sh
  | manual => exact follows_manual env id args x sh
  | postamble => exact follows_postamble env id args x sh
  | module => exact follows_module env id args x sh
  | onlyExposeIn => exact follows_onlyExposeIn env id args x sh
  | exposeHere => exact follows_typedef env id _ args x sh (.inr rfl)
  | encourage => exact follows_typedef env id _ args x sh (.inl rfl)
  | readonly => exact follows_readonly env id args x sh

end Verif
