import Verif.Lemmas.Builder
import Verif.Spec.Graph
/-!
# Lemmas: the built graph
-/
namespace Verif
open Spec

/-- Edges of the built graph. -/
theorem built_edges {w : World} {root : Tree} {g : Graph} {b : Building} (h : Built w root g b)
    (p x : Nat) : g.edges p x =
      match b.relocated x with
      | some a => if p = w.findLookupContextDecl a then 1 else 0
      | none => if x ∈ (visited w root).filter (isCtx w) ∧
          p = w.findLookupContextDecl x then 1 else 0 := by
  rw [h.edges, h.inv.edges, ← h.inv.relocated]
  cases b.relocated x with
  | some a => simp
  | none => simp

theorem edge_iff (g : Graph) (p x : Nat) : Edge g p x ↔ 0 < g.edges p x := by
  simp [Edge, Graph.edges, List.count_pos_iff]

/-- The place of a declaration context. -/
theorem built_edge_iff {w : World} {root : Tree} {g : Graph} {b : Building} (h : Built w root g b)
    (p x : Nat) : Edge g p x ↔
      (∃ a, ExposesHere w root a x ∧ p = w.findLookupContextDecl a) ∨
      ((¬ ∃ a, ExposesHere w root a x) ∧ (∃ t, Occurs w root t ∧ t.id = x) ∧ Context w x ∧
        p = w.findLookupContextDecl x) := by
  rw [edge_iff, built_edges h]
  cases hr : b.relocated x with
  | some a =>
    have ha := (relocated_iff h a x).1 hr
    simp only
    constructor
    · intro hp
      refine .inl ⟨a, ha, ?_⟩
      apply Decidable.byContradiction
      intro hn; rw [if_neg hn] at hp; simp at hp
    · rintro (⟨a', ha', hp⟩ | ⟨hn, _⟩)
      · have := (relocated_iff h a' x).2 ha'
        rw [hr, Option.some.injEq] at this
        subst this
        simp [hp]
      · exact absurd ⟨a, ha⟩ hn
  | none =>
    have hno : ¬ ∃ a, ExposesHere w root a x := by
      rintro ⟨a, ha⟩
      rw [(relocated_iff h a x).2 ha] at hr
      exact absurd hr (by simp)
    simp only
    constructor
    · intro hp
      split at hp
      · rename_i hc
        have hm := (mem_contexts ..).1 hc.1
        exact .inr ⟨hno, hm.1, hm.2, hc.2⟩
      · simp at hp
    · rintro (⟨a', ha', _⟩ | ⟨_, h1, h2, h3⟩)
      · exact absurd ⟨a', ha'⟩ hno
      · rw [if_pos ⟨(mem_contexts ..).2 ⟨h1, h2⟩, h3⟩]; simp

theorem exposed_unique {w : World} {root : Tree} {g : Graph} {b : Building} (h : Built w root g b)
    {a a' x : Nat} (ha : ExposesHere w root a x) (ha' : ExposesHere w root a' x) : a = a' := by
  have := (relocated_iff h a x).2 ha
  rw [(relocated_iff h a' x).2 ha', Option.some.injEq] at this
  exact this.symm

theorem context_not_unit (w : World) (root : Tree) (wf : WellFormed w root) (x : Nat)
    (hc : Context w x) : x ≠ w.unit := by
  rintro rfl
  have := (wf.unit_kind w.unit).2 rfl
  rcases hc with hc | ⟨hc | hc, _⟩ <;> rw [this] at hc <;> simp at hc

theorem target_not_unit (w : World) (root : Tree) (wf : WellFormed w root) (a x : Nat)
    (ha : ExposesHere w root a x) : x ≠ w.unit := by
  rintro rfl
  have := (wf.unit_kind w.unit).2 rfl
  rcases wf.target_tag a _ ha.2.2.2.1 with hc | hc <;> rw [this] at hc <;> simp at hc

theorem built_nodes {w : World} {root : Tree} {g : Graph} {b : Building} (h : Built w root g b)
    (n : Nat) : n ∈ g.nodes ↔ n = w.unit ∨
      ∃ p x, Edge g p x ∧ (n = x ∨ n = p) := by
  rw [h.nodes, h.inv.nodes]
  constructor
  · rintro ((h1 | ⟨a, x, h1, h2⟩) | ⟨x, hx, h1, h2⟩)
    · exact .inl h1
    · rw [← h.inv.relocated, relocated_iff h] at h1
      exact .inr ⟨w.findLookupContextDecl a, x, (built_edge_iff h _ _).2 (.inl ⟨a, h1, rfl⟩), h2⟩
    · rw [mem_contexts] at hx
      refine .inr ⟨w.findLookupContextDecl x, x, (built_edge_iff h _ _).2 (.inr ⟨?_, hx.1, hx.2, rfl⟩), h2⟩
      rintro ⟨a, ha⟩
      rw [(relocated_iff h a x).2 ha] at h1
      exact absurd h1 (by simp)
  · rintro (h1 | ⟨p, x, h1, h2⟩)
    · exact .inl (.inl h1)
    · rcases (built_edge_iff h p x).1 h1 with ⟨a, ha, hp⟩ | ⟨hn, ho, hc, hp⟩
      · rw [hp] at h2
        refine .inl (.inr ⟨a, x, ?_, h2⟩)
        rw [← h.inv.relocated, relocated_iff h]; exact ha
      · rw [hp] at h2
        refine .inr ⟨x, (mem_contexts ..).2 ⟨ho, hc⟩, ?_, h2⟩
        cases hr : b.relocated x with
        | none => rfl
        | some a => exact absurd ⟨a, (relocated_iff h a x).1 hr⟩ hn

theorem built_forest {w : World} {root : Tree} (wf : WellFormed w root) {g : Graph} {b : Building}
    (h : Built w root g b) : Forest g := by
  refine ⟨⟨?_, fun p c hE => ?_, fun p c hE => ?_⟩, fun p q c h1 h2 => ?_, fun p => ?_, fun p hE => ?_⟩
  · rw [h.root, built_nodes h]; exact .inl rfl
  · rw [built_nodes h]; exact .inr ⟨p, c, hE, .inl rfl⟩
  · rw [built_nodes h]; exact .inr ⟨p, c, hE, .inr rfl⟩
  · rw [built_edge_iff h] at h1 h2
    rcases h1 with ⟨a, ha, rfl⟩ | ⟨h1, _, _, rfl⟩
    · rcases h2 with ⟨a', ha', rfl⟩ | ⟨h2, _⟩
      · rw [exposed_unique h ha ha']
      · exact absurd ⟨a, ha⟩ h2
    · rcases h2 with ⟨a', ha', rfl⟩ | ⟨h2, _, _, rfl⟩
      · exact absurd ⟨a', ha'⟩ h1
      · rfl
  · rw [List.nodup_iff_count]
    intro x
    have := built_edges h p x
    unfold Graph.edges at this
    rw [this]
    cases b.relocated x with
    | some a => simp only; split <;> simp
    | none => simp only; split <;> simp
  · rw [h.root] at hE
    rcases (built_edge_iff h p _).1 hE with ⟨a, ha, _⟩ | ⟨_, _, hc, _⟩
    · exact target_not_unit w root wf a _ ha rfl
    · exact context_not_unit w root wf _ hc rfl

/-! ### Attributes -/

/-- Attributes of a declaration on its own. -/
theorem own_base (w : World) (x : Nat) (hs : shouldSkip (w.info x) = false) :
    ownAttrs w x = some (base w x) := by
  unfold ownAttrs
  rw [insert_eq w.toDeclEnv .empty x hs rfl]
  simp [Storage.set, base]

theorem touched_iff (w : World) (root : Tree) (x : Nat) :
    touched w x ((visited w root).filter (isAlias w)) = true ↔
      (∃ a, ExposesHere w root a x) ∨ ∃ a, Encourages w root a x := by
  simp only [touched, List.any_eq_true, Bool.and_eq_true, decide_eq_true_eq, Bool.or_eq_true,
    exposesHere_iff, encourages_iff]
  constructor
  · rintro ⟨a, h1, h2, h3 | h3⟩
    · exact .inr ⟨a, h1, h2, h3⟩
    · exact .inl ⟨a, h1, h2, h3⟩
  · rintro (⟨a, h1, h2, h3⟩ | ⟨a, h1, h2, h3⟩)
    · exact ⟨a, h1, h2, .inr h3⟩
    · exact ⟨a, h1, h2, .inl h3⟩

/-- Effect of aliases none of which exposes `x` here. -/
theorem act_encourage (w : World) (x : Nat) (as : List Nat)
    (h : ∀ a ∈ as, (w.info a).aliasTarget = some x → (aliasAttrs w a).exposeHere = false)
    (s : NamedDeclAttrs × Bool) :
    (as.foldl (act w x) s).2 = s.2 ∧ (as.foldl (act w x) s).1.spelling = s.1.spelling ∧
    (as.foldl (act w x) s).1.visible =
      if as.any (fun a => (w.info a).aliasTarget = some x && (aliasAttrs w a).encourage)
      then some true else s.1.visible := by
  induction as generalizing s with
  | nil => simp
  | cons a as ih =>
    rw [List.foldl_cons]
    obtain ⟨i1, i2, i3⟩ := ih (fun a' h' => h a' (by simp [h'])) (act w x s a)
    rw [i1, i2, i3]
    by_cases ha : (w.info a).aliasTarget = some x
    · have hex := h a (by simp) ha
      have : act w x s a = (if (aliasAttrs w a).encourage then { s.1 with visible := some true }
          else s.1, s.2) := by
        unfold act; rw [if_pos ha, hex]; rfl
      rw [this]
      cases he : (aliasAttrs w a).encourage <;> simp [ha, he]
    · have : act w x s a = s := by unfold act; rw [if_neg ha]
      rw [this]
      simp [ha]

/-- Effect of aliases after `x` has been relocated. -/
theorem act_done (w : World) (x : Nat) (as : List Nat) (s : NamedDeclAttrs × Bool)
    (hs : s.2 = true) :
    (as.foldl (act w x) s).1.spelling = s.1.spelling ∧
    (as.foldl (act w x) s).1.visible =
      if as.any (fun a => (w.info a).aliasTarget = some x && (aliasAttrs w a).encourage)
      then some true else s.1.visible := by
  induction as generalizing s with
  | nil => simp
  | cons a as ih =>
    rw [List.foldl_cons]
    by_cases ha : (w.info a).aliasTarget = some x
    · have : act w x s a = (if (aliasAttrs w a).encourage then { s.1 with visible := some true }
          else s.1, s.2) := by
        unfold act; rw [if_pos ha, hs]; simp
      rw [this]
      obtain ⟨i2, i3⟩ := ih (if (aliasAttrs w a).encourage then { s.1 with visible := some true }
          else s.1, s.2) hs
      rw [i2, i3]
      cases he : (aliasAttrs w a).encourage <;> simp [ha, he]
    · have : act w x s a = s := by unfold act; rw [if_neg ha]
      rw [this]
      obtain ⟨i2, i3⟩ := ih s hs
      rw [i2, i3]
      simp [ha]

end Verif
