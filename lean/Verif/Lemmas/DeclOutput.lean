import Verif.Lemmas.Properties
/-!
# Lemmas about what is written for a declaration
-/
namespace Verif
open Spec

/-! ### Attributes -/

theorem derived_built (w : EmitWorld) (root : Tree) (wf : WellFormed w.toWorld root) (g : Graph)
    (b : Building) (h : buildGraph w.toWorld root = (some g, b)) : Derived w b.storage := by
  intro x a hx
  obtain ⟨n, hn⟩ := built_base w.toWorld root wf g b h x a hx
  refine ⟨(firstInsert w.toDeclEnv x).1, n, ?_, hn⟩
  rw [ownAttrs_eq, if_pos]
  have hb := built w.toWorld root wf g b h
  rw [hb.inv.entries] at hx
  split at hx
  · rename_i ht
    rcases (touched_iff w.toWorld root x).1 ht with ⟨a, _, ha, hk, hx, _⟩ | ⟨a, _, ha, hk, hx, _⟩
    all_goals
      rw [shouldSkip_false_iff_tag _ (wf.target_tag a x hx)]
      exact wf.target_complete a x hx (by
        have := ha
        exact this.2.2.2.1)
  · rw [hb.coll.entries] at hx
    split at hx
    · rename_i hv
      unfold entryOf at hx
      split at hx
      · rename_i ha
        exact annot_not_skip w.toWorld x ha (visited_not_skip w.toWorld root x hv)
      · cases hx
    · cases hx

/-- What is known about the attributes of a declaration. -/
theorem attrsOf_base (w : EmitWorld) (s : Storage) (hd : Derived w s) (d : Nat) (a : DeclAttrs)
    (h : attrsOf w s d = some a) :
    shouldSkip (w.info d) = false ∧ ∃ n, a = { (firstInsert w.toDeclEnv d).1 with named := n } := by
  have own : ∀ o, ownAttrs w.toWorld d = some o →
      shouldSkip (w.info d) = false ∧ o = (firstInsert w.toDeclEnv d).1 := by
    intro o ho
    rw [ownAttrs_eq] at ho
    split at ho
    · rename_i hs
      exact ⟨hs, (Option.some.inj ho).symm⟩
    · cases ho
  unfold attrsOf at h
  split at h
  · rename_i a' ha
    simp only [Option.some.injEq] at h
    subst h
    obtain ⟨o, n, ho, he⟩ := hd d a' ha
    obtain ⟨hs, rfl⟩ := own o ho
    exact ⟨hs, n, he⟩
  · obtain ⟨hs, rfl⟩ := own a h
    exact ⟨hs, _, rfl⟩

theorem firstInsert_shape (env : DeclEnv) (id : Nat) : Shape (env.info id) (firstInsert env id).1 :=
  firstInsert_inv (P := Shape (env.info id)) env id (fun h hh a x => shape_handler env id h hh a x)
    (shape_fresh _) (fun _ n h => shape_of_eq h n)

theorem attrsOf_shape (w : EmitWorld) (s : Storage) (hd : Derived w s) (d : Nat) (a : DeclAttrs)
    (h : attrsOf w s d = some a) : Shape (w.info d) a := by
  obtain ⟨_, n, rfl⟩ := attrsOf_base w s hd d a h
  exact shape_of_eq (firstInsert_shape w.toDeclEnv d) n

/-- Names of properties occur once. -/
def MethodOK (m : MethodDeclAttrs) : Prop := m.getterFor.Nodup ∧ m.setterFor.Nodup

theorem nodup_foldl_setInsert {α : Type} [DecidableEq α] (l : List α) :
    ∀ s : List α, s.Nodup → (l.foldl setInsert s).Nodup := by
  induction l with
  | nil => exact fun _ h => h
  | cons x l ih =>
    intro s hs
    refine ih _ ?_
    unfold setInsert
    split
    · exact hs
    · rename_i hx
      rw [List.nodup_append]
      refine ⟨hs, by simp, ?_⟩
      intro a ha b hb
      simp only [List.mem_singleton] at hb
      subst hb
      exact fun h => hx (h ▸ ha)

theorem processMethod_ok (id : Nat) (d : DeclInfo) (a : Annotation) (x : MethodDeclAttrs)
    (h : MethodOK x) : MethodOK (processMethod id d a x).attrs := by
  unfold processMethod
  dsimp only
  split
  · refine Dispatcher.inv_variadicCollect (P := MethodOK) (Dispatcher.inv_ensure (P := MethodOK) h _) ?_
    intro l x hx
    split
    · exact hx
    · exact ⟨nodup_foldl_setInsert _ _ hx.1, hx.2⟩
  · refine Dispatcher.inv_variadicCollect (P := MethodOK) (Dispatcher.inv_ensure (P := MethodOK) h _) ?_
    intro l x hx
    split
    · exact hx
    · exact ⟨hx.1, nodup_foldl_setInsert _ _ hx.2⟩
  · exact h

theorem firstInsert_method (env : DeclEnv) (id : Nat) (m : MethodDeclAttrs)
    (h : (firstInsert env id).1.method = some m) : MethodOK m := by
  refine firstInsert_inv (P := fun x => ∀ m, x.method = some m → MethodOK m) env id ?_ ?_ ?_ m h
  · intro h hh a x hx
    simp only [handlers, List.mem_cons, List.not_mem_nil, or_false] at hh
    rcases hh with rfl | rfl | rfl | rfl | rfl | rfl | rfl | rfl | rfl | rfl | rfl
    · exact hx
    all_goals first
      | exact liftHandler_inv (P := fun x => ∀ m, x.method = some m → MethodOK m) a x hx (fun y _ => hx)
      | exact liftHandler_inv (P := fun x => ∀ m, x.method = some m → MethodOK m)
          a x hx (fun y hy m hm => by
            simp only [Option.some.injEq] at hm
            subst hm
            exact processMethod_ok id _ a y (hx y hy))
  · intro m hm
    simp only [freshAttrs] at hm
    split at hm
    · simp only [Option.some.injEq] at hm
      subst hm
      exact ⟨List.nodup_nil, List.nodup_nil⟩
    · simp at hm
  · exact fun x n h => h

/-- `implicit_conversion` is only accepted for converting constructors. -/
def CtorOK (d : DeclInfo) (c : ConstructorDeclAttrs) : Prop :=
  c.implicitConversion = true → d.params.length = 1 ∧ d.converting = true

theorem invalid_keeps {σ : Type} (id : Nat) (a : Annotation) (x : σ) (l : List Diag) (f : Callback σ)
    (k : LiteralKind) (f' : LiteralValue → Callback σ) :
    ((((Dispatcher.start id a x).ensure (false, l)).nullary f).unary k f').checkMatch.attrs = x := rfl

theorem processConstructor_ok (id : Nat) (d : DeclInfo) (a : Annotation) (x : ConstructorDeclAttrs)
    (h : CtorOK d x) : CtorOK d (processConstructor id d a x).attrs := by
  unfold processConstructor
  dsimp only
  split
  · by_cases hc : d.params.length ≠ 1 ∨ d.converting = false
    · rw [if_pos hc]
      rw [invalid_keeps]
      exact h
    · have hc' : d.params.length = 1 ∧ d.converting = true := by
        simp only [not_or, ne_eq, Decidable.not_not, Bool.not_eq_false] at hc
        exact hc
      exact fun _ => hc'
  · exact h

theorem firstInsert_ctor (env : DeclEnv) (id : Nat) (c : ConstructorDeclAttrs)
    (h : (firstInsert env id).1.constructor = some c) : CtorOK (env.info id) c := by
  refine firstInsert_inv (P := fun x => ∀ m, x.constructor = some m → CtorOK (env.info id) m) env id
    ?_ ?_ ?_ c h
  · intro h hh a x hx
    simp only [handlers, List.mem_cons, List.not_mem_nil, or_false] at hh
    rcases hh with rfl | rfl | rfl | rfl | rfl | rfl | rfl | rfl | rfl | rfl | rfl
    · exact hx
    all_goals first
      | exact liftHandler_inv (P := fun x => ∀ m, x.constructor = some m → CtorOK (env.info id) m) a x hx
          (fun y _ => hx)
      | exact liftHandler_inv (P := fun x => ∀ m, x.constructor = some m → CtorOK (env.info id) m)
          a x hx (fun y hy m hm => by
            simp only [Option.some.injEq] at hm
            subst hm
            exact processConstructor_ok id _ a y (hx y hy))
  · intro m hm
    simp only [freshAttrs] at hm
    split at hm
    · simp only [Option.some.injEq] at hm
      subst hm
      exact fun h => (by cases h)
    · simp at hm
  · exact fun x n h => h

/-! ### Parts of the output -/

theorem filterMap_flatMap {α β γ : Type} (l : List α) (f : α → List β) (g : β → Option γ) :
    (l.flatMap f).filterMap g = l.flatMap fun x => (f x).filterMap g := by
  induction l with
  | nil => rfl
  | cons x l ih => simp [List.filterMap_append, ih]

theorem flatMap_toList {α β : Type} (l : List α) (f : α → Option β) :
    l.flatMap (fun x => (f x).toList) = l.filterMap f := by
  induction l with
  | nil => rfl
  | cons x l ih =>
    rw [List.flatMap_cons, ih, List.filterMap_cons]
    cases f x <;> rfl

/-- What is selected from the output of a context. -/
theorem selected (w : EmitWorld) (vis : Visibilities) (s : Storage) (e : Exposer) (c : Nat) {γ : Type}
    (sel : Stmt → Option γ) (val : Nat → Option γ)
    (hc : ∀ x, e = .enum x → x ∉ proposedDecls w e c)
    (hfin : ∀ m, (finalStmts w s m e).filterMap sel = [])
    (hval : ∀ d a, attrsOf w s d = some a → shown w s vis c d = true →
      (declStmts w e a d).filterMap sel = (val d).toList) :
    (exposeContext w vis s e c).emitted.stmts.filterMap sel =
      ((proposedDecls w e c).filter (shown w s vis c)).filterMap val := by
  rw [(exposeContext_eq w vis s e c hc).1, List.filterMap_append, hfin, List.append_nil,
    filterMap_flatMap]
  rw [List.filterMap_filter, ← flatMap_toList]
  congr 1
  funext d
  unfold declOutput
  cases ha : attrsOf w s d with
  | none => simp [shown, ha]
  | some a =>
    dsimp only
    have hsh : shown w s vis c d = a.named.visible.getD ((vis c).getD false) := by
      unfold shown
      rw [ha]
    rw [← hsh]
    cases hs : shown w s vis c d with
    | false => simp
    | true =>
      simp only [if_true]
      exact hval d a ha hs

theorem properties_select {γ : Type} (sel : Stmt → Option γ) (h : ∀ n g s, sel (.property n g s) = none)
    (w : EmitWorld) (m : PropertyMap) : (emitProperties w m).stmts.filterMap sel = [] := by
  rw [emitProperties_stmts, List.filterMap_filterMap]
  apply List.filterMap_eq_nil_iff.2
  intro x _
  cases x.2.getter <;> simp [h]

end Verif
