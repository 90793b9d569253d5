import Verif.Lemmas.AttrInv
import Verif.Lemmas.Storage
import Verif.Lemmas.DiagKinds
import Verif.Props.Inlining
import Verif.Spec.Exposer
/-!
# Lemmas about exposers
-/
namespace Verif
open Spec

/-! ### Attributes of proposed declarations -/

theorem insert_entries (env : DeclEnv) (s : Storage) (id x : Nat) :
    (s.insert env id).1.entries x =
      if x = id ∧ shouldSkip (env.info id) = false ∧ s.entries id = none
      then some (firstInsert env id).1 else s.entries x := by
  by_cases hs : shouldSkip (env.info id) = true
  · have : (s.insert env id).1 = s := by
      unfold Storage.insert
      rw [if_pos hs]
    rw [this, hs]
    simp
  · have hs' : shouldSkip (env.info id) = false := by simpa using hs
    by_cases hh : s.has id = true
    · have h1 : (s.insert env id).1 = s := by
        unfold Storage.insert
        rw [if_neg hs, if_pos hh]
      rw [h1]
      have h2 : s.entries id ≠ none := by
        unfold Storage.has at hh
        intro h
        rw [h] at hh
        cases hh
      simp [h2]
    · have hh' : s.has id = false := by simpa using hh
      rw [insert_eq env s id hs' hh']
      have h2 : s.entries id = none := by
        unfold Storage.has at hh'
        simpa using hh'
      simp [Storage.set, hs', h2]

theorem ownAttrs_eq (w : EmitWorld) (d : Nat) : ownAttrs w.toWorld d =
    if shouldSkip (w.info d) = false then some (firstInsert w.toDeclEnv d).1 else none := by
  unfold ownAttrs
  rw [insert_entries]
  by_cases h : shouldSkip (w.info d) = false <;> simp [h, Storage.empty]

theorem insert_attrsOf (w : EmitWorld) (s : Storage) (d x : Nat) :
    attrsOf w (s.insert w.toDeclEnv d).1 x = attrsOf w s x := by
  unfold attrsOf
  rw [insert_entries]
  split
  · rename_i a h
    split at h
    · rename_i hc
      obtain ⟨rfl, h1, h2⟩ := hc
      rw [h2, ownAttrs_eq, h1]
      simpa using h.symm
    · rw [h]
  · rename_i h
    split at h
    · cases h
    · rw [h]

theorem insert_self (w : EmitWorld) (s : Storage) (d : Nat) :
    (s.insert w.toDeclEnv d).1.entries d = attrsOf w s d := by
  rw [insert_entries]
  unfold attrsOf
  rw [ownAttrs_eq]
  by_cases h : shouldSkip (w.info d) = false <;> cases h2 : s.entries d <;> simp [h]

/-! ### What is written for each declaration -/

/-- The part of an exposer's output that does not depend on other declarations. -/
def declStmts (w : EmitWorld) (e : Exposer) (a : DeclAttrs) (d : Nat) : List Stmt :=
  match e with
  | .plain => (handleDeclGeneric w a d).stmts
  | .namespace _ => (handleDeclGeneric w a d).stmts
  | .enum x => (handleDeclEnum w x a d).stmts
  | .record x _ => (handleDeclRecord w x [] a d).2.stmts

/-- Whether a member of a class becomes part of a property. -/
def accessorAttrs (w : EmitWorld) (a : DeclAttrs) (d : Nat) : Option MethodDeclAttrs :=
  if a.constructor.isSome || supportsOperator (w.info d) then none
  else
    let m := a.method.getD {}
    if !m.getterFor.isEmpty || !m.setterFor.isEmpty then some m else none

theorem handleDeclRecord_eq (w : EmitWorld) (r : Nat) (m : PropertyMap) (a : DeclAttrs) (d : Nat) :
    handleDeclRecord w r m a d = match accessorAttrs w a d with
      | some attrs => ((addProperties m d attrs).1, { diags := (addProperties m d attrs).2 })
      | none => (m, (handleDeclRecord w r [] a d).2) := by
  unfold accessorAttrs handleDeclRecord
  cases hc : a.constructor with
  | some c =>
    simp only [Option.isSome_some, Bool.true_or, if_true]
    split
    · rfl
    · split
      · split <;> rfl
      · rfl
  | none =>
    simp only [Option.isSome_none, Bool.false_or]
    by_cases ho : supportsOperator (w.info d) = true
    · simp only [ho, if_true]
      split
      · rfl
      · split
        · rfl
        · split
          · rfl
          · rfl
          · split <;> rfl
    · simp only [ho]
      simp only [Bool.false_eq_true, if_false]
      by_cases hm : (!(a.method.getD {}).getterFor.isEmpty || !(a.method.getD {}).setterFor.isEmpty) = true
      · simp only [hm, if_true]
      · simp only [hm]
        simp only [Bool.false_eq_true, if_false]
        split
        · split
          · split <;> rfl
          · rfl
        · rfl

/-- The declaration is written to the output of `c`, or part of a property. -/
def declOutput (w : EmitWorld) (s : Storage) (vis : Visibilities) (e : Exposer) (c d : Nat) : List Stmt :=
  match attrsOf w s d with
  | some a => if a.named.visible.getD ((vis c).getD false) then declStmts w e a d else []
  | none => []

/-- Getters and setters in order. -/
def accessorOf (w : EmitWorld) (s : Storage) (vis : Visibilities) (e : Exposer) (c d : Nat) :
    Option (Nat × MethodDeclAttrs) :=
  match e with
  | .record _ _ =>
    match attrsOf w s d with
    | some a => if a.named.visible.getD ((vis c).getD false) then
        (accessorAttrs w a d).map (d, ·) else none
    | none => none
  | _ => none

/-- Add all getters and setters. -/
def addAll (st : PropertyMap × List Diag) (l : List (Nat × MethodDeclAttrs)) : PropertyMap × List Diag :=
  l.foldl (fun st p => ((addProperties st.1 p.1 p.2).1, st.2 ++ (addProperties st.1 p.1 p.2).2)) st

/-- Diagnostics about properties. -/
def isPropertyDiag (g : Diag) : Bool :=
  g.kind = .propertyAlreadyDefined || g.kind = .notePreviousDefinition || g.kind = .propertyHasNoGetter

theorem filter_early {l : List Diag} (h : ∀ g ∈ l, Early g) : l.filter isPropertyDiag = [] := by
  rw [List.filter_eq_nil_iff]
  intro g hg hp
  have h1 : g.kind.emission = false := h g hg
  unfold isPropertyDiag at hp
  simp only [Bool.or_eq_true, decide_eq_true_eq] at hp
  rcases hp with (hp | hp) | hp <;> rw [hp] at h1 <;> cases h1

theorem filter_params (f : FunctionDeclAttrs) (ps : List Param) :
    ∀ i k, (emitParametersLoop f i k ps).2.filter isPropertyDiag = [] := by
  induction ps with
  | nil => exact fun _ _ => rfl
  | cons p ps ih =>
    intro i k
    simp only [emitParametersLoop]
    split
    · exact ih _ _
    · split
      · exact ih _ _
      · split
        · rfl
        · exact ih _ _

theorem filter_generic (w : EmitWorld) (a : DeclAttrs) (d : Nat) :
    (handleDeclGeneric w a d).diags.filter isPropertyDiag = [] := by
  unfold handleDeclGeneric
  split
  · rfl
  · split
    · split
      · rfl
      · split <;> rfl
    · split
      · split
        · split <;> rfl
        · split <;> rfl
      · have hf : ∀ c : Bool, (if c = true then Emitted.none else match a.function with
            | some f =>
              if (w.fn d).isDeleted then Emitted.none
              else
                let fallback := if (w.info d).operator = some .call then t%"__call__" else []
                let args := emitParameters f ((w.fn d).params.map (·.param))
                { stmts := [.function d ((w.info d).kind.isMethod && (w.fn d).isStatic)
                    (emitSpelling (w.info d) a.named fallback) (emitFunctionPointer w d)
                    (getDocstring w d) args.1 (emitPolicies f)]
                  diags := args.2 }
            | none => Emitted.none).diags.filter isPropertyDiag = [] := by
          intro c
          split
          · rfl
          · split
            · split
              · rfl
              · exact filter_params _ _ _ _
            · rfl
        exact hf _

theorem filter_record (w : EmitWorld) (r : Nat) (a : DeclAttrs) (d : Nat)
    (h : accessorAttrs w a d = none) :
    (handleDeclRecord w r [] a d).2.diags.filter isPropertyDiag = [] := by
  unfold accessorAttrs at h
  unfold handleDeclRecord
  cases hc : a.constructor with
  | some c =>
    dsimp only
    split
    · rfl
    · split
      · split
        · rfl
        · exact filter_params _ _ _ _
      · exact filter_params _ _ _ _
  | none =>
    rw [hc] at h
    simp only [Option.isSome_none, Bool.false_or] at h
    by_cases ho : supportsOperator (w.info d) = true
    · simp only [ho, if_true]
      split
      · rfl
      · split
        · rfl
        · split
          · rfl
          · split <;> rfl
          · split <;> rfl
    · rw [if_neg ho] at h
      simp only [ho]
      simp only [Bool.false_eq_true, if_false]
      by_cases hm : (!(a.method.getD {}).getterFor.isEmpty || !(a.method.getD {}).setterFor.isEmpty) = true
      · simp only [hm, if_true] at h
        cases h
      · simp only [hm]
        simp only [Bool.false_eq_true, if_false]
        split
        · split
          · split <;> rfl
          · rfl
        · exact filter_generic _ _ _

theorem emit_stmts (st : Exposing) (e : Emitted) :
    (st.emit e).emitted.stmts = st.emitted.stmts ++ e.stmts := rfl

theorem emit_diags (st : Exposing) (e : Emitted) :
    (st.emit e).emitted.diags = st.emitted.diags ++ e.diags := rfl

/-- Effect of `handleDeclImpl`. -/
theorem impl_step (w : EmitWorld) (e : Exposer) (u : Exposing) (a : DeclAttrs) (d : Nat) :
    (e.handleDeclImpl w u a d).storage = u.storage ∧
    (e.handleDeclImpl w u a d).emitted.stmts = u.emitted.stmts ++ declStmts w e a d ∧
    (e.handleDeclImpl w u a d).properties = (match e with
      | .record _ _ => match accessorAttrs w a d with
        | some m => (addProperties u.properties d m).1
        | none => u.properties
      | _ => u.properties) ∧
    (e.handleDeclImpl w u a d).emitted.diags.filter isPropertyDiag =
      u.emitted.diags.filter isPropertyDiag ++ (match e with
      | .record _ _ => match accessorAttrs w a d with
        | some m => (addProperties u.properties d m).2.filter isPropertyDiag
        | none => []
      | _ => []) := by
  unfold Exposer.handleDeclImpl declStmts
  cases e with
  | plain =>
    refine ⟨rfl, rfl, rfl, ?_⟩
    rw [emit_diags, List.filter_append, filter_generic]
  | «namespace» x =>
    refine ⟨rfl, rfl, rfl, ?_⟩
    rw [emit_diags, List.filter_append, filter_generic]
  | enum x =>
    refine ⟨rfl, rfl, rfl, ?_⟩
    rw [emit_diags, List.filter_append]
    unfold handleDeclEnum
    split <;> rfl
  | record x p =>
    dsimp only
    have hr := filter_record w x a d
    rw [handleDeclRecord_eq]
    rw [handleDeclRecord_eq w x [] a d] at hr ⊢
    cases ha : accessorAttrs w a d with
    | none =>
      rw [ha] at hr
      refine ⟨rfl, rfl, rfl, ?_⟩
      rw [emit_diags, List.filter_append]
      rw [hr rfl]
    | some m => exact ⟨rfl, rfl, rfl, by rw [emit_diags, List.filter_append]⟩

theorem addAll_diags (m : PropertyMap) (l : List (Nat × MethodDeclAttrs)) :
    ∀ ds, addAll (m, ds) l = ((addAll (m, []) l).1, ds ++ (addAll (m, []) l).2) := by
  induction l generalizing m with
  | nil => simp [addAll]
  | cons p l ih =>
    intro ds
    have h1 : ∀ x, addAll (m, x) (p :: l) =
        addAll ((addProperties m p.1 p.2).1, x ++ (addProperties m p.1 p.2).2) l := fun x => rfl
    rw [h1, h1 [], ih, ih _ ([] ++ _)]
    simp

/-- Invariant of the loop over declarations. -/
structure Looped (w : EmitWorld) (s : Storage) (vis : Visibilities) (e : Exposer) (c : Nat)
    (l : List Nat) (st : Exposing) : Prop where
  attrs : ∀ x, attrsOf w st.storage x = attrsOf w s x
  entries : ∀ x, x ∉ l → st.storage.entries x = s.entries x
  stmts : st.emitted.stmts = l.flatMap (declOutput w s vis e c)
  properties : st.properties = (addAll ([], []) (l.filterMap (accessorOf w s vis e c))).1
  diags : st.emitted.diags.filter isPropertyDiag =
    (addAll ([], []) (l.filterMap (accessorOf w s vis e c))).2.filter isPropertyDiag

theorem addAll_snoc (st : PropertyMap × List Diag) (l : List (Nat × MethodDeclAttrs))
    (p : Nat × MethodDeclAttrs) : addAll st (l ++ [p]) =
      ((addProperties (addAll st l).1 p.1 p.2).1,
        (addAll st l).2 ++ (addProperties (addAll st l).1 p.1 p.2).2) := by
  unfold addAll
  rw [List.foldl_append]
  rfl

theorem looped_step (w : EmitWorld) (s : Storage) (vis : Visibilities) (e : Exposer) (c : Nat)
    (l : List Nat) (st : Exposing) (h : Looped w s vis e c l st) (d : Nat) :
    Looped w s vis e c (l ++ [d]) (e.propose w ((vis c).getD false) st d) := by
  have key : e.propose w ((vis c).getD false) st d = (match attrsOf w s d with
      | none => { st with storage := (st.storage.insert w.toDeclEnv d).1,
                          emitted := { st.emitted with
                            diags := st.emitted.diags ++ (st.storage.insert w.toDeclEnv d).2 } }
      | some a => if a.named.visible.getD ((vis c).getD false) = true
          then e.handleDeclImpl w
            { st with storage := (st.storage.insert w.toDeclEnv d).1,
                      emitted := { st.emitted with
                        diags := st.emitted.diags ++ (st.storage.insert w.toDeclEnv d).2 } } a d
          else { st with storage := (st.storage.insert w.toDeclEnv d).1,
                          emitted := { st.emitted with
                            diags := st.emitted.diags ++ (st.storage.insert w.toDeclEnv d).2 } }) := by
    show Exposer.handleDecl w e ((vis c).getD false) _ d = _
    unfold Exposer.handleDecl
    dsimp only
    rw [insert_self, h.attrs]
    rfl
  have hst : ∀ x, attrsOf w (st.storage.insert w.toDeclEnv d).1 x = attrsOf w s x := by
    intro x
    rw [insert_attrsOf, h.attrs]
  have hen : ∀ x, x ∉ l ++ [d] → (st.storage.insert w.toDeclEnv d).1.entries x = s.entries x := by
    intro x hx
    simp only [List.mem_append, List.mem_singleton, not_or] at hx
    rw [insert_entries, if_neg (fun hc => hx.2 hc.1), h.entries x hx.1]
  have hearly : (st.emitted.diags ++ (st.storage.insert w.toDeclEnv d).2).filter isPropertyDiag =
      st.emitted.diags.filter isPropertyDiag := by
    rw [List.filter_append, filter_early (early_insert _ _ _), List.append_nil]
  have hn : (∀ x p, e ≠ .record x p) → accessorOf w s vis e c d = none := by
    intro h
    cases e with
    | record x p => exact absurd rfl (h x p)
    | _ => rfl
  rw [key]
  have nothing : declOutput w s vis e c d = [] → accessorOf w s vis e c d = none →
      Looped w s vis e c (l ++ [d]) { st with
        storage := (st.storage.insert w.toDeclEnv d).1,
        emitted := { st.emitted with
          diags := st.emitted.diags ++ (st.storage.insert w.toDeclEnv d).2 } } := by
    intro h1 h2
    refine ⟨hst, hen, ?_, ?_, ?_⟩
    · simp [h.stmts, h1]
    · simp only [List.filterMap_append, List.filterMap_cons, List.filterMap_nil, h2, List.append_nil]
      exact h.properties
    · simp only [List.filterMap_append, List.filterMap_cons, List.filterMap_nil, h2, List.append_nil]
      rw [hearly]
      exact h.diags
  cases ha : attrsOf w s d with
  | none =>
    refine nothing ?_ ?_
    · simp [declOutput, ha]
    · unfold accessorOf
      rw [ha]
      cases e <;> rfl
  | some a =>
    dsimp only
    by_cases hv : a.named.visible.getD ((vis c).getD false) = true
    · simp only [hv, if_true]
      obtain ⟨h1, h2, h3, h4⟩ := impl_step w e { st with
        storage := (st.storage.insert w.toDeclEnv d).1,
        emitted := { st.emitted with
          diags := st.emitted.diags ++ (st.storage.insert w.toDeclEnv d).2 } } a d
      refine ⟨fun x => by rw [h1]; exact hst x, fun x hx => by rw [h1]; exact hen x hx, ?_, ?_, ?_⟩
      · rw [h2, h.stmts]
        simp [declOutput, ha, hv]
      · rw [h3]
        have hp := h.properties
        cases e with
        | record x p =>
          have hacc : accessorOf w s vis (.record x p) c d = (accessorAttrs w a d).map (d, ·) := by
            simp [accessorOf, ha, hv]
          dsimp only
          cases hm : accessorAttrs w a d with
          | none =>
            rw [hm] at hacc
            simp only [List.filterMap_append, List.filterMap_cons, List.filterMap_nil, hacc]
            simpa using hp
          | some m =>
            rw [hm] at hacc
            simp only [List.filterMap_append, List.filterMap_cons, List.filterMap_nil, hacc]
            simp only [Option.map_some]
            rw [addAll_snoc, hp]
        | _ =>
          dsimp only
          rw [hp, List.filterMap_append, List.filterMap_cons, hn (by nofun), List.filterMap_nil,
            List.append_nil]
      · rw [h4]
        dsimp only
        rw [hearly, h.diags]
        have hp := h.properties
        cases e with
        | record x p =>
          have hacc : accessorOf w s vis (.record x p) c d = (accessorAttrs w a d).map (d, ·) := by
            simp [accessorOf, ha, hv]
          dsimp only
          cases hm : accessorAttrs w a d with
          | none =>
            rw [hm] at hacc
            simp only [List.filterMap_append, List.filterMap_cons, List.filterMap_nil, hacc]
            simp
          | some m =>
            rw [hm] at hacc
            simp only [List.filterMap_append, List.filterMap_cons, List.filterMap_nil, hacc]
            simp only [Option.map_some]
            rw [addAll_snoc, hp, List.filter_append]
        | _ =>
          dsimp only
          rw [List.filterMap_append, List.filterMap_cons, hn (by nofun), List.filterMap_nil,
            List.append_nil, List.append_nil]
    · simp only [hv]
      refine nothing ?_ ?_
      · simp [declOutput, ha, hv]
      · unfold accessorOf
        rw [ha]
        cases e <;> simp [hv]

theorem looped_all (w : EmitWorld) (s : Storage) (vis : Visibilities) (e : Exposer) (c : Nat) (l : List Nat) :
    Looped w s vis e c l (l.foldl (e.propose w ((vis c).getD false)) { storage := s }) := by
  have : ∀ (l pre : List Nat) (st : Exposing), Looped w s vis e c pre st →
      Looped w s vis e c (pre ++ l) (l.foldl (e.propose w ((vis c).getD false)) st) := by
    intro l
    induction l with
    | nil => intro pre st h; simpa using h
    | cons d l ih =>
      intro pre st h
      have := ih _ _ (looped_step w s vis e c pre st h d)
      simpa using this
  have h := this l [] { storage := s } ⟨fun _ => rfl, fun _ _ => rfl, rfl, rfl, rfl⟩
  simpa using h

/-- What is written at the end of a context. -/
def finalStmts (w : EmitWorld) (s : Storage) (m : PropertyMap) : Exposer → List Stmt
  | .plain => [.useContext]
  | .namespace _ => [.useContext]
  | .enum x => (finalizeEnum w s x).stmts
  | .record _ _ => (emitProperties w m).stmts

/-- The getters and setters of a context. -/
def accessors (w : EmitWorld) (s : Storage) (vis : Visibilities) (e : Exposer) (c : Nat) :
    List (Nat × MethodDeclAttrs) := (proposedDecls w e c).filterMap (accessorOf w s vis e c)

theorem enum_diags (w : EmitWorld) (s : Storage) (x : Nat) : (finalizeEnum w s x).diags = [] := by
  unfold finalizeEnum
  split
  · split <;> rfl
  · rfl

/-- Everything about `exposeContext`. -/
theorem exposeContext_eq (w : EmitWorld) (vis : Visibilities) (s : Storage) (e : Exposer) (c : Nat)
    (hc : ∀ x, e = .enum x → x ∉ proposedDecls w e c) :
    (exposeContext w vis s e c).emitted.stmts =
      (proposedDecls w e c).flatMap (declOutput w s vis e c) ++
        finalStmts w s (addAll ([], []) (accessors w s vis e c)).1 e ∧
    (∀ x, attrsOf w (exposeContext w vis s e c).storage x = attrsOf w s x) ∧
    (∀ x, x ∉ proposedDecls w e c → (exposeContext w vis s e c).storage.entries x = s.entries x) ∧
    (exposeContext w vis s e c).emitted.diags.filter isPropertyDiag =
      ((addAll ([], []) (accessors w s vis e c)).2 ++
        (match e with
          | .record _ _ => (emitProperties w (addAll ([], []) (accessors w s vis e c)).1).diags
          | _ => [])).filter isPropertyDiag := by
  have h := looped_all w s vis e c (proposedDecls w e c)
  have hsto : (exposeContext w vis s e c).storage =
      ((proposedDecls w e c).foldl (e.propose w ((vis c).getD false)) { storage := s }).storage := by
    unfold exposeContext Exposer.finalizeDefinition
    cases e <;> rfl
  refine ⟨?_, fun x => by rw [hsto]; exact h.attrs x, fun x hx => by rw [hsto]; exact h.entries x hx, ?_⟩
  · unfold exposeContext Exposer.finalizeDefinition finalStmts
    cases e with
    | enum x =>
      dsimp only
      rw [emit_stmts, h.stmts]
      congr 2
      unfold finalizeEnum
      rw [h.entries x (hc x rfl)]
    | record x p =>
      dsimp only
      rw [emit_stmts, h.stmts, h.properties]
      rfl
    | _ =>
      dsimp only
      rw [emit_stmts, h.stmts]
  · unfold exposeContext Exposer.finalizeDefinition
    rw [List.filter_append]
    cases e with
    | enum x =>
      dsimp only
      rw [emit_diags, List.filter_append, h.diags, enum_diags]
      rfl
    | record x p =>
      dsimp only
      rw [emit_diags, List.filter_append, h.diags, h.properties]
      rfl
    | _ =>
      dsimp only
      rw [emit_diags, List.filter_append, h.diags]
      rfl

/-- Declarations proposed to an exposer are not contexts. -/
theorem proposed_kind (w : EmitWorld) (ok : EmitOK w) (e : Exposer) (c d : Nat)
    (h : d ∈ proposedDecls w e c) : (w.info d).kind.isLookupContext = false := by
  unfold proposedDecls expandTemplates at h
  obtain ⟨x, hx, hd⟩ := List.mem_flatMap.1 h
  have fn : ∀ k : DeclKind, k.isFunction = true → k.isLookupContext = false := by
    intro k; cases k <;> simp [DeclKind.isFunction, DeclKind.isLookupContext]
  cases hs : w.specializations x with
  | some l =>
    rw [hs] at hd
    exact fn _ (ok.specialization x l hs d hd)
  | none =>
    rw [hs] at hd
    simp only [List.mem_singleton] at hd
    subst hd
    rcases List.mem_append.1 hx with hx | hx
    · have h1 := (mem_sortDecls ..).1 hx
      unfold collectVisibleDecls at h1
      obtain ⟨f, _, hf⟩ := List.mem_filterMap.1 h1
      unfold foundDecl at hf
      split at hf
      · cases hf
      · split at hf
        · cases hf
        · dsimp only at hf
          split at hf
          · cases hf
          · split at hf
            · cases hf
            · rename_i h2 _
              simp only [Option.some.injEq] at hf
              subst hf
              simpa using h2
    · split at hx
      · unfold collectOperators expandTemplates at hx
        obtain ⟨y, hy, hd'⟩ := List.mem_flatMap.1 (List.mem_filter.1 hx).1
        cases hs' : w.specializations y with
        | some l =>
          rw [hs'] at hd'
          exact fn _ (ok.specialization y l hs' d hd')
        | none =>
          rw [hs'] at hd'
          simp only [List.mem_singleton] at hd'
          subst hd'
          exact fn _ (ok.operator c d hy hs')
      · cases hx

end Verif
