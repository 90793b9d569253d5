import Verif.Lemmas.Insert
import Verif.Lemmas.Builder
/-!
# Invariants of attributes

What holds for the attributes of a declaration after its annotations have been
processed, shown for each way in which they are modified.
-/
namespace Verif
open Spec

namespace Dispatcher
variable {σ : Type} {P : σ → Prop}

theorem inv_checkArgKinds {d : Dispatcher σ} (h : P d.attrs) (k : LiteralKind) :
    P (d.checkArgKinds k).2.attrs := by
  unfold checkArgKinds
  split <;> exact h

theorem inv_ensure {d : Dispatcher σ} (h : P d.attrs) (c : Bool × List Diag) :
    P (d.ensure c).attrs := by
  unfold ensure
  split
  · split <;> exact h
  · exact h

theorem inv_nullary {d : Dispatcher σ} {f : Callback σ} (h : P d.attrs)
    (hf : ∀ x, P x → P (f x).1) : P (d.nullary f).attrs := by
  unfold nullary
  split
  · exact hf _ h
  · exact h

theorem inv_unary {d : Dispatcher σ} {k : LiteralKind} {f : LiteralValue → Callback σ}
    (h : P d.attrs) (hf : ∀ v x, P x → P (f v x).1) : P (d.unary k f).attrs := by
  unfold unary
  split
  · split
    · dsimp only
      split
      · exact hf _ _ (inv_checkArgKinds h k)
      · exact inv_checkArgKinds h k
    · exact h
  · exact h

theorem inv_binary {d : Dispatcher σ} {k : LiteralKind} {f : LiteralValue → LiteralValue → Callback σ}
    (h : P d.attrs) (hf : ∀ v u x, P x → P (f v u x).1) : P (d.binary k f).attrs := by
  unfold binary
  split
  · split
    · dsimp only
      split
      · exact hf _ _ _ (inv_checkArgKinds h k)
      · exact inv_checkArgKinds h k
    · exact h
  · exact h

theorem inv_variadic {d : Dispatcher σ} {k : LiteralKind} {f : LiteralValue → Callback σ}
    (h : P d.attrs) (hf : ∀ v x, P x → P (f v x).1) : P (d.variadic k f).attrs := by
  unfold variadic
  split
  · dsimp only
    split
    · have : ∀ (l : List LiteralValue) (e : Dispatcher σ), P e.attrs →
          P (l.foldl (fun d v => d.call (f v)) e).attrs := by
        intro l
        induction l with
        | nil => exact fun e he => he
        | cons v l ih => exact fun e he => ih _ (hf v _ he)
      exact this _ _ (inv_checkArgKinds h k)
    · exact inv_checkArgKinds h k
  · exact h

theorem inv_variadicCollect {d : Dispatcher σ} {k : LiteralKind}
    {transform : LiteralValue → Str × List Diag} {process : List Str → σ → Bool × σ × List Diag}
    (h : P d.attrs) (hf : ∀ l x, P x → P (process l x).2.1) :
    P (d.variadicCollect k transform process).attrs := by
  unfold variadicCollect
  split
  · dsimp only
    split
    · exact hf _ _ (inv_checkArgKinds h k)
    · exact inv_checkArgKinds h k
  · exact h

end Dispatcher

/-- `inline_base` selects from all, `hide_base` from direct bases. -/
def RecordNames (d : DeclInfo) (x : RecordDeclAttrs) : Prop :=
  (∀ b ∈ x.inlineBase, b ∈ d.allBases) ∧ ∀ b ∈ x.hideBase, b ∈ d.bases

theorem onBoolean_inv {σ : Type} {P : σ → Prop} {id : Nat} {f : Bool → Callback σ}
    (hf : ∀ b x, P x → P (f b x).1) (v : LiteralValue) (x : σ) (h : P x) :
    P (onBoolean id f v x).1 := by
  unfold onBoolean
  split
  · exact hf _ _ h
  · exact h

theorem onString_inv {σ : Type} {P : σ → Prop} {id : Nat} {f : Str → Callback σ}
    (hf : ∀ b x, P x → P (f b x).1) (v : LiteralValue) (x : σ) (h : P x) :
    P (onString id f v x).1 := by
  unfold onString
  split
  · exact hf _ _ h
  · exact h

theorem processRecord_names (env : DeclEnv) (id : Nat) (a : Annotation) (x : RecordDeclAttrs)
    (h : RecordNames (env.info id) x) :
    RecordNames (env.info id) (processRecord env id a x).attrs := by
  unfold processRecord
  dsimp only
  split
  · refine Dispatcher.inv_unary (P := RecordNames (env.info id)) (Dispatcher.inv_nullary h ?_) ?_
    · exact fun _ h => h
    · exact fun v x h => onBoolean_inv (fun _ _ h => h) v x h
  · refine Dispatcher.inv_variadicCollect (P := RecordNames (env.info id)) h ?_
    intro l x hx
    refine ⟨hx.1, fun b hb => ?_⟩
    rcases (mem_foldl_setInsert _ _ _).1 hb with hb | hb
    · exact hx.2 b hb
    · exact (List.mem_filter.1 hb).1
  · refine Dispatcher.inv_unary (P := RecordNames (env.info id)) h ?_
    exact fun v x h => onString_inv (fun _ _ h => h) v x h
  · refine Dispatcher.inv_variadicCollect (P := RecordNames (env.info id)) h ?_
    intro l x hx
    refine ⟨fun b hb => ?_, hx.2⟩
    rcases (mem_foldl_setInsert _ _ _).1 hb with hb | hb
    · exact hx.1 b hb
    · exact (List.mem_filter.1 hb).1
  · exact h

/-- What is preserved by each handler is preserved by processing annotations. -/
theorem applyAnnotations_inv {P : DeclAttrs → Prop} (env : DeclEnv) (id : Nat)
    (hh : ∀ h ∈ handlers env id, ∀ a x, P x → P (h a x).attrs) (as : List Annotation) :
    ∀ x, P x → P (applyAnnotations env id x as).1 := by
  have any : ∀ (hs : List Handler), (∀ h ∈ hs, ∀ a x, P x → P (h a x).attrs) →
      ∀ a x, P x → P (anyHandler hs a x).attrs := by
    intro hs
    induction hs with
    | nil => exact fun _ _ _ h => h
    | cons h hs ih =>
      intro hh a x hx
      have h1 := hh h (by simp) a x hx
      simp only [anyHandler]
      split
      · exact h1
      · exact ih (fun h' hm => hh h' (by simp [hm])) a _ h1
  induction as with
  | nil => exact fun _ h => h
  | cons a as ih =>
    intro x hx
    have h1 := any _ hh a x hx
    simp only [applyAnnotations]
    refine ih _ ?_
    unfold applyAnnotation
    dsimp only
    split <;> exact h1

theorem firstInsert_inv {P : DeclAttrs → Prop} (env : DeclEnv) (id : Nat)
    (hh : ∀ h ∈ handlers env id, ∀ a x, P x → P (h a x).attrs)
    (h0 : P (freshAttrs (env.info id)))
    (h1 : ∀ x n, P x → P { x with named := n }) : P (firstInsert env id).1 := by
  unfold firstInsert
  dsimp only
  refine applyAnnotations_inv env id hh _ _ ?_
  split
  · exact h1 _ _ h0
  · exact h0

theorem liftHandler_inv {σ : Type} {get : DeclAttrs → Option σ} {put : DeclAttrs → σ → DeclAttrs}
    {process : Annotation → σ → Outcome σ} {P : DeclAttrs → Prop} (a : Annotation) (x : DeclAttrs)
    (hx : P x) (h : ∀ y, get x = some y → P (put x (process a y).attrs)) :
    P (liftHandler get put process a x).attrs := by
  unfold liftHandler
  split
  · exact hx
  · rename_i y hy
    exact h y hy

theorem firstInsert_names (env : DeclEnv) (id : Nat) (rec : RecordDeclAttrs)
    (h : (firstInsert env id).1.record = some rec) : RecordNames (env.info id) rec := by
  refine firstInsert_inv (P := fun x => ∀ rec, x.record = some rec → RecordNames (env.info id) rec)
    env id ?_ ?_ ?_ rec h
  · intro h hh a x hx
    simp only [handlers, List.mem_cons, List.not_mem_nil, or_false] at hh
    rcases hh with rfl | rfl | rfl | rfl | rfl | rfl | rfl | rfl | rfl | rfl | rfl
    · exact hx
    all_goals first
      | exact liftHandler_inv (P := fun x => ∀ rec, x.record = some rec → RecordNames (env.info id) rec)
          a x hx (fun y _ => hx)
      | exact liftHandler_inv (P := fun x => ∀ rec, x.record = some rec → RecordNames (env.info id) rec)
          a x hx (fun y hy rec hr => by
            simp only [Option.some.injEq] at hr
            subst hr
            exact processRecord_names env id a y (hx y hy))
  · intro rec hr
    simp only [freshAttrs] at hr
    split at hr
    · simp only [Option.some.injEq] at hr
      subst hr
      exact ⟨by simp, by simp⟩
    · simp at hr
  · exact fun x n h => h

/-- After the graph has been built, all attributes but those of `NamedDeclAttrs`
are the ones resulting from the annotations of the declaration itself. -/
theorem built_base (w : World) (root : Tree) (wf : WellFormed w root) (g : Graph) (b : Building)
    (h : buildGraph w root = (some g, b)) (x : Nat) (attrs : DeclAttrs)
    (hx : b.storage.entries x = some attrs) :
    ∃ n, attrs = { (firstInsert w.toDeclEnv x).1 with named := n } := by
  have hb := built w root wf g b h
  rw [hb.inv.entries] at hx
  split at hx
  · simp only [Option.some.injEq] at hx
    exact ⟨_, hx.symm⟩
  · rw [hb.coll.entries] at hx
    split at hx
    · unfold entryOf at hx
      split at hx
      · simp only [Option.some.injEq] at hx
        exact ⟨attrs.named, by rw [← hx]⟩
      · simp at hx
    · simp at hx

end Verif
