import Verif.Lemmas.CodeFile
import Verif.Lemmas.DeclOutput
import Verif.Lemmas.Properties
import Verif.Props.Module
import Verif.Props.Identifiers
import Verif.Props.Annotations
/-! All texts in the output are as expected if those in the input are. -/
namespace Verif.Spec.Code
open Verif Verif.Spec

set_option linter.unusedVariables false in
instance (x : Str) : Decidable (Bytes x) := inferInstanceAs (Decidable (∀ c ∈ x, c.toNat < 256))

theorem Bytes.append {x y : Str} (hx : Bytes x) (hy : Bytes y) : Bytes (x ++ y) := by
  intro c hc
  rcases List.mem_append.1 hc with h | h
  · exact hx c h
  · exact hy c h

theorem word_bytes {x : Str} (h : Word x) : Bytes x := by
  intro c hc
  have := (isIdCont_iff c).1 (h.2 c hc)
  unfold IdCont IdStart Digit at this
  rcases this with (h | h | rfl) | h
  · omega
  · omega
  · decide
  · omega

theorem spelling_bytes {w : EmitWorld} (h : TextsOK w) (x : Nat) {n : NamedDeclAttrs} (hn : Bytes n.spelling)
    (f : Str) (hf : Bytes f) : Bytes (emitSpelling (w.info x) n f) := by
  unfold emitSpelling
  split
  · exact hn
  · split
    · exact hf
    · exact h.spelling x

theorem docstring_bytes {w : EmitWorld} (h : TextsOK w) (x : Nat) : Bytes (getDocstring w x) := by
  unfold getDocstring
  dsimp only
  split
  · split
    · exact h.docs _
    · exact h.docs _
  · exact h.docs _

theorem pointer_clean {w : EmitWorld} (h : TextsOK w) (x : Nat) : FnPtr.Clean (emitFunctionPointer w x) := by
  refine ⟨fun t ht => ?_, (h.functions x).name⟩
  obtain ⟨p, hp, rfl⟩ := List.mem_map.1 ht
  exact ((h.functions x).params p hp).1

theorem args_clean (f : FunctionDeclAttrs) (ps : List Param)
    (h : ∀ p ∈ ps, Bytes p.name ∧ ∀ e, p.default = some e → Clean e) :
    ∀ a ∈ (emitParameters f ps).1, ArgOut.Clean a := by
  have key : ∀ i k, ∀ a ∈ (emitParametersLoop f i k ps).1, ArgOut.Clean a := by
    induction ps with
    | nil => intro i k a ha; cases ha
    | cons p ps ih =>
      have ih := ih fun q hq => h q (by simp [hq])
      intro i k a ha
      unfold emitParametersLoop at ha
      split at ha
      · exact ih _ _ a ha
      · split at ha
        · exact ih _ _ a ha
        · split at ha
          · cases ha
          · dsimp only at ha
            rcases List.mem_cons.1 ha with rfl | ha
            · exact h p (by simp)
            · exact ih _ _ a ha
  exact key 0 none

theorem params_clean {w : EmitWorld} (h : TextsOK w) (x : Nat) (f : FunctionDeclAttrs) :
    ∀ a ∈ (emitParameters f ((w.fn x).params.map (·.param))).1, ArgOut.Clean a := by
  refine args_clean _ _ fun p hp => ?_
  obtain ⟨q, hq, rfl⟩ := List.mem_map.1 hp
  exact ((h.functions x).params q hq).2.2

theorem policies_clean {f : FunctionDeclAttrs} (h : f.returnValuePolicy ≠ [] → Clean f.returnValuePolicy) :
    ∀ p ∈ emitPolicies f, PolicyOut.Clean p := by
  intro p hp
  unfold emitPolicies at hp
  rcases List.mem_append.1 hp with hp | hp
  · split at hp
    · cases hp
    · rename_i hne
      rw [List.mem_singleton.1 hp]
      exact h fun he => hne (by simp [he])
  · obtain ⟨q, _, rfl⟩ := List.mem_map.1 hp
    exact trivial

theorem generic_clean {w : EmitWorld} (h : TextsOK w) {a : DeclAttrs} (ha : AttrTexts a) (x : Nat) :
    ∀ s ∈ (handleDeclGeneric w a x).stmts, Stmt.Clean w s := by
  intro s hs
  have hn : Bytes (emitSpelling (w.info x) a.named) := spelling_bytes h x ha.spelling [] (by intro c hc; cases hc)
  unfold handleDeclGeneric at hs
  by_cases hc : a.constructor.isSome = true
  · rw [if_pos hc] at hs; cases hs
  rw [if_neg hc] at hs
  cases ht : a.typedefName with
  | some t =>
    rw [ht] at hs
    dsimp only at hs
    split at hs
    · cases hs
    · split at hs
      · cases hs
      · rename_i he
        rw [List.mem_singleton.1 hs]
        exact ⟨hn, h.aliases _ _ he⟩
  | none =>
  rw [ht] at hs
  dsimp only at hs
  cases hv : a.fieldOrVar with
  | some v =>
    rw [hv] at hs
    dsimp only at hs
    split at hs
    · split at hs
      · cases hs
      · rw [List.mem_singleton.1 hs]
        exact h.manual _
    · split at hs
      · cases hs
      · rw [List.mem_singleton.1 hs]
        exact ⟨hn, (h.qualified x).1, (h.qualified x).2⟩
  | none =>
  rw [hv] at hs
  dsimp only at hs
  have hs : s ∈ (match a.function with
      | some f =>
        if (w.fn x).isDeleted = true then Emitted.none
        else
          { stmts := [Stmt.function x ((w.info x).kind.isMethod && (w.fn x).isStatic)
              (emitSpelling (w.info x) a.named
                (if (w.info x).operator = some OperatorKind.call then t%"__call__" else []))
              (emitFunctionPointer w x) (getDocstring w x)
              (emitParameters f ((w.fn x).params.map FnParam.param)).1 (emitPolicies f)]
            diags := (emitParameters f ((w.fn x).params.map FnParam.param)).2 }
      | none => Emitted.none).stmts := by
    cases hm : a.method with
    | none =>
      rw [hm] at hs
      exact hs
    | some m =>
      rw [hm] at hs
      dsimp only at hs
      by_cases hg : (!m.getterFor.isEmpty || !m.setterFor.isEmpty) = true
      · rw [if_pos hg] at hs; cases hs
      · rw [if_neg hg] at hs; exact hs
  cases hf : a.function with
  | none => rw [hf] at hs; cases hs
  | some f =>
    rw [hf] at hs
    dsimp only at hs
    split at hs
    · cases hs
    · rw [List.mem_singleton.1 hs]
      refine ⟨spelling_bytes h x ha.spelling _ ?_, pointer_clean h x, docstring_bytes h x,
        params_clean h x f, policies_clean (ha.policy f hf)⟩
      split
      · decide
      · intro c hc; cases hc

theorem enum_clean {w : EmitWorld} (h : TextsOK w) (e : Nat) {a : DeclAttrs} (ha : AttrTexts a) (x : Nat) :
    ∀ s ∈ (handleDeclEnum w e a x).stmts, Stmt.Clean w s := by
  intro s hs
  unfold handleDeclEnum at hs
  split at hs
  · rename_i hk
    rw [List.mem_singleton.1 hs]
    exact ⟨spelling_bytes h x ha.spelling [] (by intro c hc; cases hc), h.types e, h.enumerators x hk, h.docs x⟩
  · cases hs

theorem operatorName_bytes (k : OperatorKind) (r : Bool) :
    Bytes (pythonUnaryOperatorName k) ∧ Bytes (pythonBinaryOperatorName k r) := by
  cases k <;> cases r <;> exact ⟨by decide +kernel, by decide +kernel⟩

theorem definition_clean (kind : OperatorKind) (hkind : kind ≠ .coawait) (hn : neverExposed kind = false)
    (types : List CppType) (returnType : Str) (reverse : Bool) (ht : ∀ t ∈ types, Clean t.text)
    (hr : Clean returnType) : OpLambda.Clean (emitOperatorDefinition kind types returnType reverse) := by
  unfold emitOperatorDefinition
  refine ⟨?_, hr, ?_⟩
  · intro p hp
    have := (List.of_mem_zip hp).1
    obtain ⟨t, ht', htx⟩ := List.mem_map.1 this
    rw [← htx]
    refine ht t ?_
    split at ht'
    · exact List.mem_reverse.1 ht'
    · exact ht'
  · dsimp only
    by_cases hlen : types.length = 1
    · rw [if_pos hlen]
      clear ht hlen types
      dsimp only
      revert hkind hn
      cases kind <;> decide
    · rw [if_neg hlen]
      cases reverse <;> exact trivial

theorem operator_clean {w : EmitWorld} (h : TextsOK w) (r x : Nat) (kind : OperatorKind)
    (hk : (w.info x).operator = some kind) {n : Str} {l : OpLambda}
    (hl : emitOperator r kind (selfParam w r x) ((w.fn x).params.map (·.type)) (w.fn x).returnType =
      some (n, l)) : Bytes n ∧ OpLambda.Clean l := by
  have hkind : kind ≠ .coawait := fun e => h.await x (by rw [hk, e])
  have ht : ∀ t ∈ (selfParam w r x).toList ++ (w.fn x).params.map (·.type), Clean t.text := by
    intro t ht
    rcases List.mem_append.1 ht with ht | ht
    · unfold selfParam at ht
      split at ht
      · simp only [Option.toList, List.mem_singleton] at ht
        rw [ht]
        exact h.self _ _
      · cases ht
    · obtain ⟨p, hp, rfl⟩ := List.mem_map.1 ht
      exact ((h.functions x).params p hp).2.1
  unfold emitOperator at hl
  split at hl
  · cases hl
  · dsimp only at hl
    split at hl
    · cases hl
    · rename_i hnever _
      simp only [Option.some.injEq, Prod.mk.injEq] at hl
      obtain ⟨rfl, rfl⟩ := hl
      generalize (selfParam w r x).toList ++ (w.fn x).params.map (·.type) = types at ht
      constructor
      · split
        · exact (operatorName_bytes kind true).1
        · exact (operatorName_bytes kind _).2
      · exact definition_clean kind hkind (by simpa using hnever) types _ _ ht (h.functions x).result

theorem record_clean {w : EmitWorld} (h : TextsOK w) (r : Nat) {a : DeclAttrs} (ha : AttrTexts a) (x : Nat) :
    ∀ s ∈ (handleDeclRecord w r [] a x).2.stmts, Stmt.Clean w s := by
  intro s hs
  have hn : Bytes (emitSpelling (w.info x) a.named) := spelling_bytes h x ha.spelling [] (by intro c hc; cases hc)
  unfold handleDeclRecord at hs
  split at hs
  · split at hs
    · cases hs
    · dsimp only at hs
      have hpol : ∀ p ∈ emitPolicies (a.function.getD {}), PolicyOut.Clean p := by
        refine policies_clean ?_
        cases hf : a.function with
        | none => intro hne; exact absurd rfl hne
        | some f => exact ha.policy f hf
      have hinit : Stmt.Clean w (.init x ((w.fn x).params.map (·.originalType)) (getDocstring w x)
          (emitParameters (a.function.getD {}) ((w.fn x).params.map (·.param))).1
          (emitPolicies (a.function.getD {}))) := by
        refine ⟨fun t ht => ?_, docstring_bytes h x, params_clean h x _, hpol⟩
        obtain ⟨p, hp, rfl⟩ := List.mem_map.1 ht
        exact ((h.functions x).params p hp).1
      split at hs
      · split at hs
        · cases hs
        · rename_i p ps hp
          rcases List.mem_cons.1 hs with rfl | hs
          · exact ⟨((h.functions x).params p (by rw [hp]; simp)).2.1, h.types r⟩
          · rw [List.mem_singleton.1 hs]
            exact hinit
      · rw [List.mem_singleton.1 hs]
        exact hinit
  · split at hs
    · split at hs
      · cases hs
      · split at hs
        · cases hs
        · rename_i kind hk
          split at hs
          · cases hs
          · dsimp only at hs
            split at hs
            · cases hs
            · rw [List.mem_singleton.1 hs]
              exact ⟨ha.spelling, h.types r⟩
          · split at hs
            · cases hs
            · rename_i res hres
              rw [List.mem_singleton.1 hs]
              obtain ⟨h1, h2⟩ := operator_clean h r x kind hk hres
              exact ⟨h1, h2, docstring_bytes h x⟩
    · dsimp only at hs
      split at hs
      · cases hs
      · split at hs
        · split at hs
          · split at hs
            · cases hs
            · rw [List.mem_singleton.1 hs]
              exact h.manual _
          · rw [List.mem_singleton.1 hs]
            exact ⟨hn, (h.qualified x).1⟩
        · exact generic_clean h ha x s hs

theorem enumFinal_clean (w : EmitWorld) (s : Storage) (x : Nat) :
    ∀ t ∈ (finalizeEnum w s x).stmts, Stmt.Clean w t := by
  intro t ht
  unfold finalizeEnum at ht
  split at ht
  · split at ht
    · rw [List.mem_singleton.1 ht]; exact trivial
    · cases ht
  · cases ht

/-- Names of properties. -/
theorem properties_bytes (l : List (Nat × MethodDeclAttrs))
    (h : ∀ p ∈ l, (∀ n ∈ p.2.getterFor, Bytes n) ∧ ∀ n ∈ p.2.setterFor, Bytes n) :
    ∀ x ∈ (addAll ([], []) l).1, Bytes x.1 := by
  have set : ∀ (m : PropertyMap), (∀ x ∈ m, Bytes x.1) → ∀ n p, Bytes n → ∀ x ∈ m.set n p, Bytes x.1 := by
    intro m hm n p hn x hx
    rcases set_keys n p m x hx with rfl | hx
    · exact hn
    · exact hm x hx
  have one : ∀ (id : Nat) (ns : List Str), (∀ n ∈ ns, Bytes n) → ∀ st : PropertyMap × List Diag,
      (∀ x ∈ st.1, Bytes x.1) → (∀ x ∈ (ns.foldl (addGetter id) st).1, Bytes x.1) ∧
        ∀ x ∈ (ns.foldl (addSetter id) st).1, Bytes x.1 := by
    intro id ns
    induction ns with
    | nil => intro _ st hst; exact ⟨hst, hst⟩
    | cons n ns ih =>
      intro hns st hst
      have h1 := ih fun m hm => hns m (by simp [hm])
      exact ⟨(h1 (addGetter id st n) (set _ hst _ _ (hns n (by simp)))).1,
        (h1 (addSetter id st n) (set _ hst _ _ (hns n (by simp)))).2⟩
  have all : ∀ (l : List (Nat × MethodDeclAttrs)),
      (∀ p ∈ l, (∀ n ∈ p.2.getterFor, Bytes n) ∧ ∀ n ∈ p.2.setterFor, Bytes n) →
      ∀ st : PropertyMap × List Diag, (∀ x ∈ st.1, Bytes x.1) → ∀ x ∈ (addAll st l).1, Bytes x.1 := by
    intro l
    induction l with
    | nil => intro _ st hst; exact hst
    | cons p l ih =>
      intro hl st hst
      refine ih (fun q hq => hl q (by simp [hq])) _ ?_
      have hp := hl p (by simp)
      exact (one p.1 _ hp.2 _ (one p.1 _ hp.1 (st.1, []) hst).1).2
  exact all l h _ (by simp)

/-- The statements of a context. -/
theorem stmts_clean {w : EmitWorld} (ok : EmitOK w) (h : TextsOK w) {s : Storage} (ha : AnnotationsOK w s)
    (vis : Visibilities) (c : Nat) :
    ∀ t ∈ (exposeContext w vis s (Exposer.create w s c) c).emitted.stmts, Stmt.Clean w t := by
  have hc : ∀ x, Exposer.create w s c = .enum x → x ∉ proposedDecls w (Exposer.create w s c) c := by
    intro x hx hm
    obtain ⟨rfl, hk⟩ := (create_kind w s c).1 x hx
    have := proposed_kind w ok _ _ _ hm
    rw [hk] at this
    cases this
  rw [(exposeContext_eq w vis s _ c hc).1]
  generalize Exposer.create w s c = e
  intro t ht
  rcases List.mem_append.1 ht with ht | ht
  · obtain ⟨d, _, hd⟩ := List.mem_flatMap.1 ht
    unfold declOutput at hd
    split at hd
    · rename_i a hat
      split at hd
      · have hA := ha d a hat
        unfold declStmts at hd
        split at hd
        · exact generic_clean h hA d t hd
        · exact generic_clean h hA d t hd
        · exact enum_clean h _ hA d t hd
        · exact record_clean h _ hA d t hd
      · cases hd
    · cases hd
  · unfold finalStmts at ht
    split at ht
    · rw [List.mem_singleton.1 ht]; exact trivial
    · rw [List.mem_singleton.1 ht]; exact trivial
    · exact enumFinal_clean w s _ t ht
    · rename_i r p
      rw [emitProperties_stmts] at ht
      obtain ⟨x, hx, hxt⟩ := List.mem_filterMap.1 ht
      obtain ⟨g, _, rfl⟩ := Option.map_eq_some_iff.1 hxt
      refine ⟨properties_bytes _ ?_ x hx, pointer_clean h g, fun f hf => ?_⟩
      · intro q hq
        obtain ⟨d, _, hd⟩ := List.mem_filterMap.1 hq
        unfold accessorOf at hd
        dsimp only at hd
        split at hd
        · rename_i a hat
          split at hd
          · obtain ⟨m, hm, rfl⟩ := Option.map_eq_some_iff.1 hd
            unfold accessorAttrs at hm
            split at hm
            · cases hm
            · dsimp only at hm
              split at hm
              · simp only [Option.some.injEq] at hm
                subst hm
                cases hme : a.method with
                | none =>
                  constructor
                  · intro n hn; simp at hn
                  · intro n hn; simp at hn
                | some m =>
                  simp only [Option.getD_some]
                  exact ⟨(ha d a hat).getters m hme, (ha d a hat).setters m hme⟩
              · cases hm
          · cases hd
        · cases hd
      · obtain ⟨f', _, rfl⟩ := Option.map_eq_some_iff.1 hf
        exact pointer_clean h f'

theorem contextType_clean {w : EmitWorld} (h : TextsOK w) {s : Storage} (ha : AnnotationsOK w s) (g : Graph)
    (e : Exposer) : ContextType.Clean (e.contextType w s g) := by
  unfold Exposer.contextType
  split
  · exact h.types _
  · rename_i id p
    refine ⟨h.types _, ?_, ?_⟩
    · intro b hb
      obtain ⟨x, _, rfl⟩ := List.mem_map.1 hb
      exact h.types x
    · unfold getRecord
      cases hs : s.entries id with
      | none => intro hne; exact absurd rfl hne
      | some a =>
        cases hr : a.record with
        | none => intro hne; simp [hr] at hne
        | some r =>
          have := (ha id a (by unfold attrsOf; rw [hs])).holder r hr
          simpa [hr] using this
  · exact trivial

theorem named_bytes {w : EmitWorld} {s : Storage} (ha : AnnotationsOK w s) (x : Nat) :
    Bytes (s.lookupNamed x).spelling := by
  unfold Storage.lookupNamed
  cases hs : s.entries x with
  | none => intro c hc; cases hc
  | some a => exact (ha x a (by unfold attrsOf; rw [hs])).spelling

theorem flags_clean : Clean t%"::pybind11::arithmetic()" ∧ Clean t%"::pybind11::dynamic_attr()" := by
  refine ⟨⟨⟨_, _, rfl, rfl⟩, fun c hc => ?_, by decide +kernel⟩, ⟨_, _, rfl, rfl⟩, fun c hc => ?_, by decide +kernel⟩
  all_goals
    simp at hc
    subst hc
    rfl

theorem introducer_clean {w : EmitWorld} (h : TextsOK w) {s : Storage} (ha : AnnotationsOK w s) (g : Graph)
    (parent : Str) (hp : Word parent) (e : Exposer) : Introducer.Clean (e.introducer w s g parent) := by
  have hn : ∀ x, Bytes (emitSpelling (w.info x) (s.lookupNamed x)) := fun x =>
    spelling_bytes h x (named_bytes ha x) [] (by intro c hc; cases hc)
  unfold Exposer.introducer
  split
  · exact hp
  · split
    · split
      · exact ⟨hp, hn _⟩
      · exact hp
    · exact hp
  · refine ⟨contextType_clean h ha g _, hp, hn _, h.docs _, fun f hf => ?_⟩
    split at hf
    · split at hf
      · cases hf
        exact ⟨flags_clean.1, rfl⟩
      · cases hf
    · cases hf
  · refine ⟨contextType_clean h ha g _, hp, hn _, h.docs _, fun f hf => ?_⟩
    split at hf
    · split at hf
      · cases hf
        exact ⟨flags_clean.2, rfl⟩
      · cases hf
    · cases hf

theorem valid_word {x : Str} (h : ValidIdent x) : Word x := by
  obtain ⟨c, cs, rfl, hc, hcs⟩ := h
  refine ⟨by simp, fun d hd => (isIdCont_iff d).2 ?_⟩
  rcases List.mem_cons.1 hd with rfl | hd
  · exact .inl hc
  · exact hcs d hd

theorem word_append {x y : Str} (hx : Word x) (hy : ∀ c ∈ y, isIdentifierContinue c = true) : Word (x ++ y) := by
  refine ⟨by simp [hx.1], fun c hc => ?_⟩
  rcases List.mem_append.1 hc with h | h
  · exact hx.2 c h
  · exact hy c h

theorem identifiers_word (w : EmitWorld) (order : List Nat) : ∀ x ∈ identifiersOf w order, Word x := by
  have base : ∀ x, Word ((contextLabel w x).baseName.getD []) := by
    intro x
    have : ∀ l : ContextLabel, Word (l.baseName.getD []) := by
      intro l
      cases l with
      | type q =>
        obtain ⟨r, hr, _, hv, _⟩ := C07_valid (t%"context" ++ q)
        simp only [ContextLabel.baseName, hr, Option.getD_some]
        exact valid_word (hv (by simp))
      | named q =>
        obtain ⟨r, hr, _, hv, _⟩ := C07_valid (t%"context" ++ '_' :: q)
        simp only [ContextLabel.baseName, hr, Option.getD_some]
        exact valid_word (hv (by simp))
      | translationUnit =>
        obtain ⟨r, hr, _, hv, _⟩ := C07_valid t%"context"
        simp only [ContextLabel.baseName, hr, Option.getD_some]
        exact valid_word (hv (by simp))
    exact this _
  have all : ∀ (ns : List Str) (st : Discriminators), (∀ n ∈ ns, Word n) →
      ∀ x ∈ discriminateAll st ns, Word x := by
    intro ns
    induction ns with
    | nil => intro st _ x hx; cases hx
    | cons n ns ih =>
      intro st hns x hx
      unfold discriminateAll at hx
      rcases List.mem_cons.1 hx with rfl | hx
      · unfold discriminate
        dsimp only
        split
        · refine word_append (hns n (by simp)) fun c hc => ?_
          rcases List.mem_cons.1 hc with rfl | hc
          · rfl
          · exact (printNat_word _).2 c hc
        · exact hns n (by simp)
      · exact ih _ (fun m hm => hns m (by simp [hm])) x hx
  unfold identifiersOf
  refine all _ _ fun n hn => ?_
  obtain ⟨x, _, rfl⟩ := List.mem_map.1 hn
  exact base x

/-- All lines in the output. -/
theorem lines_clean {w : EmitWorld} (ok : EmitOK w) (h : TextsOK w) {s : Storage} (ha : AnnotationsOK w s)
    (g : Graph) (hg : ExposedGraph w.toWorld g) (vis : Visibilities) (name : Str) (hname : Word name)
    (order : List Nat) (hv : ValidOrder w.toWorld s w.bases g order) (n k : Nat) :
    ∀ l ∈ fileLines w s g vis name order n k, Line.Clean w l := by
  have hid : ∀ p ∈ (contextsOf w order).zip (identifiersOf w order), Word p.2 := fun p hp =>
    identifiers_word w order _ (List.of_mem_zip hp).2
  have htype : ∀ x, ContextType.Clean (contextTypeOf w s g x) := fun x => contextType_clean h ha g _
  have hparent : ∀ p ∈ (contextsOf w order).zip (identifiersOf w order),
      Word (parentIdentifier w s g order p.1) := by
    intro p hp
    obtain ⟨pre, post, hl⟩ := List.append_of_mem hp
    have := (parent_before w s g hg order hv pre post p hl).1
    rcases List.mem_cons.1 this with he | hm
    · rw [he]
      exact ⟨by simp, by decide⟩
    · obtain ⟨q, hq, he⟩ := List.mem_map.1 hm
      rw [← he]
      exact hid q (by rw [hl]; simp [hq])
  intro l hl
  unfold fileLines at hl
  rcases List.mem_append.1 hl with hl | hl
  · split at hl
    · unfold mainOf at hl
      simp only [List.mem_append, List.mem_map, List.mem_filterMap, List.mem_cons, List.not_mem_nil,
        or_false] at hl
      rcases hl with ((((⟨p, hp, rfl⟩ | rfl | rfl) | ⟨p, hp, rfl⟩) | rfl) | ⟨p, hp, rfl⟩) | ⟨v, _, hvp⟩ | rfl
      · exact ⟨hid p hp, htype _⟩
      · exact trivial
      · exact hname
      · exact ⟨hid p hp, introducer_clean h ha g _ (hparent p hp) _⟩
      · exact trivial
      · exact hid p hp
      · obtain ⟨m, _, rfl⟩ := Option.map_eq_some_iff.1 hvp
        exact h.manual m
      · exact trivial
    · cases hl
  · obtain ⟨p, hp, hd⟩ := List.mem_flatMap.1 hl
    have hp' : p.1 ∈ (contextsOf w order).zip (identifiersOf w order) := by
      have := (List.mem_filter.1 hp).1
      exact List.mem_of_getElem? (List.mem_zipIdx_iff_getElem?.1 this)
    unfold definitionOf at hd
    simp only [List.mem_append, List.mem_map, List.mem_singleton] at hd
    rcases hd with ((hd | rfl) | ⟨t, ht, rfl⟩) | rfl
    · split at hd
      · rw [List.mem_singleton.1 hd]
        exact ⟨hid _ hp', htype _⟩
      · cases hd
    · exact ⟨hid _ hp', htype _⟩
    · exact stmts_clean ok h ha vis _ t ht
    · exact trivial

/-! ### Names given by annotations -/

theorem valid_bytes {x : Str} (h : x = [] ∨ ValidIdent x) : Bytes x := by
  rcases h with rfl | h
  · intro c hc; cases hc
  · exact word_bytes (valid_word h)

theorem own_spelling (env : DeclEnv) (id : Nat) : Bytes (firstInsert env id).1.named.spelling := by
  have h1 : (firstInsert env id).1.named.spelling =
      ((parseAllTexts id [] (env.info id).attrTexts).1.filterMap
        (spellingGiven (env.info id))).getLast?.getD [] := by
    simp only [firstInsert]
    rw [applyAll_named env id _ _ (shape_start env id _ _)]
    simp only
    congr 1
    split <;> rfl
  rw [h1]
  cases hl : ((parseAllTexts id [] (env.info id).attrTexts).1.filterMap
        (spellingGiven (env.info id))).getLast? with
  | none => exact valid_bytes (.inl rfl)
  | some v =>
    have hm := List.mem_of_getLast? hl
    rw [List.mem_filterMap] at hm
    obtain ⟨a, -, ha⟩ := hm
    simp only [Option.getD_some]
    refine valid_bytes ?_
    unfold spellingGiven at ha
    split at ha
    · cases ha; exact .inl rfl
    · split at ha
      · rename_i hv; cases ha; exact .inr hv
      · cases ha
    · split at ha
      · rename_i hv; cases ha; exact .inr hv.1
      · cases ha
    · cases ha

/-- Names of properties. -/
def NamesOK (m : MethodDeclAttrs) : Prop := (∀ n ∈ m.getterFor, Bytes n) ∧ ∀ n ∈ m.setterFor, Bytes n

theorem collected_bytes (id : Nat) (k : AnnotationKind) (v : LiteralValue) : Bytes (collectIdentifier id k v).1 := by
  unfold collectIdentifier
  split
  · split
    · rename_i h
      exact valid_bytes (.inr ((isValidIdentifier_iff _).1 h))
    · intro c hc; cases hc
  · intro c hc; cases hc

theorem collect_inv {σ : Type} {P : σ → Prop} {d : Dispatcher σ} {k : LiteralKind}
    {transform : LiteralValue → Str × List Diag} {process : List Str → σ → Bool × σ × List Diag}
    (h : P d.attrs) (ht : ∀ v, Bytes (transform v).1)
    (hf : ∀ l x, (∀ n ∈ l, Bytes n) → P x → P (process l x).2.1) :
    P (d.variadicCollect k transform process).attrs := by
  unfold Dispatcher.variadicCollect
  split
  · dsimp only
    split
    · refine hf _ _ ?_ (Dispatcher.inv_checkArgKinds h k)
      intro n hn
      obtain ⟨v, _, rfl⟩ := List.mem_map.1 hn
      exact ht v
    · exact Dispatcher.inv_checkArgKinds h k
  · exact h

theorem processMethod_names (id : Nat) (d : DeclInfo) (a : Annotation) (x : MethodDeclAttrs)
    (h : NamesOK x) : NamesOK (processMethod id d a x).attrs := by
  unfold processMethod
  dsimp only
  split
  · refine collect_inv (P := NamesOK) (Dispatcher.inv_ensure (P := NamesOK) h _) (collected_bytes id _) ?_
    intro l x hl hx
    split
    · exact hx
    · refine ⟨fun n hn => ?_, hx.2⟩
      rcases (mem_foldl_setInsert _ _ _).1 hn with hn | hn
      · exact hx.1 n hn
      · exact hl n hn
  · refine collect_inv (P := NamesOK) (Dispatcher.inv_ensure (P := NamesOK) h _) (collected_bytes id _) ?_
    intro l x hl hx
    split
    · exact hx
    · refine ⟨hx.1, fun n hn => ?_⟩
      rcases (mem_foldl_setInsert _ _ _).1 hn with hn | hn
      · exact hx.2 n hn
      · exact hl n hn
  · exact h

theorem own_names (env : DeclEnv) (id : Nat) (m : MethodDeclAttrs)
    (h : (firstInsert env id).1.method = some m) : NamesOK m := by
  refine firstInsert_inv (P := fun x => ∀ m, x.method = some m → NamesOK m) env id ?_ ?_ ?_ m h
  · intro h hh a x hx
    simp only [handlers, List.mem_cons, List.not_mem_nil, or_false] at hh
    rcases hh with rfl | rfl | rfl | rfl | rfl | rfl | rfl | rfl | rfl | rfl | rfl
    · exact hx
    all_goals first
      | exact liftHandler_inv (P := fun x => ∀ m, x.method = some m → NamesOK m) a x hx (fun y _ => hx)
      | exact liftHandler_inv (P := fun x => ∀ m, x.method = some m → NamesOK m)
          a x hx (fun y hy m hm => by
            simp only [Option.some.injEq] at hm
            subst hm
            exact processMethod_names id _ a y (hx y hy))
  · intro m hm
    simp only [freshAttrs] at hm
    split at hm
    · simp only [Option.some.injEq] at hm
      subst hm
      exact ⟨fun n hn => (by cases hn), fun n hn => (by cases hn)⟩
    · simp at hm
  · exact fun x n h => h

theorem own_texts {w : EmitWorld} (hg : GivenTexts w) (d : Nat) (a : DeclAttrs) (n : NamedDeclAttrs)
    (ho : ownAttrs w.toWorld d = some a) (hn : Bytes n.spelling) : AttrTexts { a with named := n } := by
  have ha : a = (firstInsert w.toDeclEnv d).1 := by
    rw [ownAttrs_eq] at ho
    split at ho
    · exact (Option.some.inj ho).symm
    · cases ho
  refine ⟨hn, fun r hr => hg.holder d a r ho hr, fun f hf => hg.policy d a f ho hf, ?_, ?_⟩
  · intro m hm
    rw [ha] at hm
    exact (own_names _ _ m hm).1
  · intro m hm
    rw [ha] at hm
    exact (own_names _ _ m hm).2

/-- Texts in annotations after all aliases have been considered. -/
theorem annotations_built {w : EmitWorld} (h : TextsOK w) (hg : GivenTexts w) (root : Tree)
    (wf : WellFormed w.toWorld root) (g : Graph) (b : Building)
    (hb : buildGraph w.toWorld root = (some g, b)) : AnnotationsOK w b.storage := by
  have own : ∀ d a, ownAttrs w.toWorld d = some a → a = (firstInsert w.toDeclEnv d).1 := by
    intro d a ho
    rw [ownAttrs_eq] at ho
    split at ho
    · exact (Option.some.inj ho).symm
    · cases ho
  intro d a had
  unfold attrsOf at had
  split at had
  · rename_i a' ha
    simp only [Option.some.injEq] at had
    subst had
    obtain ⟨o, n, ho, he⟩ := derived_built w root wf g b hb d a' ha
    rw [he]
    refine own_texts hg d o n ho ?_
    have hbt := built w.toWorld root wf g b hb
    rw [hbt.inv.entries] at ha
    split at ha
    · have key : ∀ (as : List Nat) (st : NamedDeclAttrs × Bool), Bytes st.1.spelling →
          Bytes (as.foldl (act w.toWorld d) st).1.spelling := by
        intro as
        induction as with
        | nil => exact fun st hst => hst
        | cons x as ih =>
          intro st hst
          refine ih _ ?_
          unfold act
          split
          · dsimp only
            split
            · dsimp only
              unfold aliasSpelling
              dsimp only
              split
              · exact h.spelling x
              · unfold entryOf
                split
                · exact own_spelling w.toDeclEnv x
                · intro c hc; cases hc
            · dsimp only
              split <;> exact hst
          · exact hst
      have hn : a'.named = n := by rw [he]
      rw [← hn, ← Option.some.inj ha]
      exact key _ _ (own_spelling w.toDeclEnv d)
    · rw [hbt.coll.entries] at ha
      split at ha
      · unfold entryOf at ha
        split at ha
        · have hn : a'.named = n := by rw [he]
          rw [← hn, ← Option.some.inj ha]
          exact own_spelling w.toDeclEnv d
        · cases ha
      · cases ha
  · refine own_texts hg d a a.named had ?_
    rw [own d a had]
    exact own_spelling w.toDeclEnv d

end Verif.Spec.Code
