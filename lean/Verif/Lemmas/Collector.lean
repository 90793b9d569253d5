import Verif.Lemmas.Insert
import Verif.Model.Collector
import Verif.Spec.Ast
/-!
# Lemmas: traversal of the translation unit
-/
namespace Verif
open Spec

/-- `VisitNamedDecl` inserts the declaration. -/
def annot (w : World) (id : Nat) : Bool :=
  let d := w.info id
  d.kind.isNamed && !((d.kind.isTag && shouldSkip d) || w.dependentContext id || !hasAnnotations d)

/-- A namespace that is skipped. -/
def skipNs (w : World) (id : Nat) : Bool := (w.info id).kind = .namespace && shouldSkip (w.info id)

theorem skipNs_iff (w : World) (id : Nat) : skipNs w id = true ↔ Implementation w id := by
  unfold skipNs Implementation shouldSkip
  cases hk : (w.info id).kind <;> simp [DeclKind.isTag]

theorem hasAnnotations_iff (d : DeclInfo) :
    hasAnnotations d = true ↔ ∃ text ∈ d.attrTexts, marker <+: text := by
  unfold hasAnnotations
  simp only [List.any_eq_true]
  constructor
  · rintro ⟨t, ht, h⟩
    refine ⟨t, ht, ?_⟩
    cases hc : consumeFront lozenge t with
    | none => simp [hc] at h
    | some r =>
      rw [lozenge_eq, consumeFront_some] at hc
      exact ⟨r, hc.symm⟩
  · rintro ⟨t, ht, r, h⟩
    refine ⟨t, ht, ?_⟩
    have : consumeFront lozenge t = some r := by rw [lozenge_eq, consumeFront_some]; exact h.symm
    simp [this]

theorem annot_iff (w : World) (id : Nat) : annot w id = true ↔ Annotated w id := by
  unfold annot Annotated
  rw [← hasAnnotations_iff]
  simp only [shouldSkip]
  cases hk : (w.info id).kind <;> cases (w.info id).complete <;> cases (w.info id).dependent <;>
    cases w.dependentContext id <;> cases hasAnnotations (w.info id) <;>
    simp [DeclKind.isTag, DeclKind.isNamed]

theorem annot_not_skip (w : World) (id : Nat) (h : annot w id = true) (hs : skipNs w id = false) :
    shouldSkip (w.info id) = false := by
  unfold annot at h
  unfold skipNs at hs
  cases hsk : shouldSkip (w.info id) with
  | false => rfl
  | true =>
    exfalso
    simp only [hsk] at h hs
    have h2 := hsk
    unfold shouldSkip at h2
    cases hk : (w.info id).kind <;> simp_all [DeclKind.isTag]

mutual
/-- Visited declarations in order. -/
def visited (w : World) : Tree → List Nat
  | .node id children => if skipNs w id then [] else id :: visitedAll w children
def visitedAll (w : World) : List Tree → List Nat
  | [] => []
  | t :: ts => visited w t ++ visitedAll w ts
end

mutual
theorem visited_sublist (w : World) : ∀ t, (visited w t).Sublist (ids t)
  | .node id children => by
    simp only [visited, ids]
    split
    · exact List.nil_sublist _
    · exact (visitedAll_sublist w children).cons_cons _
theorem visitedAll_sublist (w : World) : ∀ ts, (visitedAll w ts).Sublist (idsAll ts)
  | [] => by simp [visitedAll, idsAll]
  | t :: ts => by
    simp only [visitedAll, idsAll]
    exact (visited_sublist w t).append (visitedAll_sublist w ts)
end

mutual
theorem visited_occurs (w : World) : ∀ t x, x ∈ visited w t → ∃ s, Occurs w t s ∧ s.id = x
  | .node id children, x => by
    simp only [visited]
    split
    · simp
    · rename_i hs
      have hi : ¬ Implementation w id := by rw [← skipNs_iff]; exact hs
      intro h
      rcases List.mem_cons.1 h with rfl | h
      · exact ⟨_, .here (t := .node _ children) hi, rfl⟩
      · obtain ⟨t, ht, s, hs, hx⟩ := visitedAll_occurs w children x h
        exact ⟨s, .inside hi ht hs, hx⟩
theorem visitedAll_occurs (w : World) : ∀ ts x, x ∈ visitedAll w ts →
    ∃ t ∈ ts, ∃ s, Occurs w t s ∧ s.id = x
  | [], x => by simp [visitedAll]
  | t :: ts, x => by
    simp only [visitedAll, List.mem_append]
    rintro (h | h)
    · obtain ⟨s, hs⟩ := visited_occurs w t x h
      exact ⟨t, by simp, s, hs⟩
    · obtain ⟨t', ht, hs⟩ := visitedAll_occurs w ts x h
      exact ⟨t', by simp [ht], hs⟩
end

theorem mem_visitedAll (w : World) (ts : List Tree) (x : Nat) :
    x ∈ visitedAll w ts ↔ ∃ t ∈ ts, x ∈ visited w t := by
  induction ts with
  | nil => simp [visitedAll]
  | cons t ts ih => simp [visitedAll, ih]

theorem occurs_visited (w : World) (t s : Tree) (h : Occurs w t s) : s.id ∈ visited w t := by
  induction h with
  | here hi =>
    rename_i t
    obtain ⟨id, cs⟩ := t
    rw [← skipNs_iff] at hi
    simp only [Tree.id] at *
    simp [visited, hi]
  | inside hi hm _ ih =>
    rw [← skipNs_iff] at hi
    simp only [visited, hi]
    simp only [Bool.false_eq_true, if_false, List.mem_cons]
    exact .inr ((mem_visitedAll ..).2 ⟨_, hm, ih⟩)

theorem mem_visited (w : World) (t : Tree) (x : Nat) :
    x ∈ visited w t ↔ ∃ s, Occurs w t s ∧ s.id = x :=
  ⟨visited_occurs w t x, fun ⟨s, h, e⟩ => e ▸ occurs_visited w t s h⟩

theorem relevant_iff (w : World) (t : Tree) :
    Relevant w t ↔ (visited w t).any (annot w) = true := by
  simp only [Relevant, List.any_eq_true, mem_visited]
  constructor
  · rintro ⟨s, h, ha⟩
    exact ⟨s.id, ⟨s, h, rfl⟩, (annot_iff ..).2 ha⟩
  · rintro ⟨x, ⟨s, h, rfl⟩, ha⟩
    exact ⟨s, h, (annot_iff ..).1 ha⟩

theorem visited_not_skip (w : World) (t : Tree) (x : Nat) (h : x ∈ visited w t) :
    skipNs w x = false := by
  obtain ⟨s, hs, rfl⟩ := (mem_visited ..).1 h
  rw [Bool.eq_false_iff, Ne, skipNs_iff]
  clear h
  induction hs with
  | here h => exact h
  | inside _ _ _ ih => exact ih

/-! ### Traversal as a sequence of events -/

/-- What happens during the traversal. -/
inductive Ev where
  | visit (id : Nat)
  | close (id : Nat)

mutual
/-- The events of a tree. -/
def events (w : World) : Tree → List Ev
  | .node id children =>
    if skipNs w id then [] else
      .visit id :: eventsAll w children ++
        (if (w.info id).kind = .namespace ∧ (id :: visitedAll w children).any (annot w) = true
          then [.close id] else [])
def eventsAll (w : World) : List Tree → List Ev
  | [] => []
  | t :: ts => events w t ++ eventsAll w ts
end

/-- Effect of one event. -/
def runEv (w : World) (c : Collected) : Ev → Collected
  | .visit id => visitDecl w c id
  | .close id => errorIfAnnotationsDoNotMatchFirstDecl w c id

theorem visitDecl_storage (w : World) (c : Collected) (id : Nat) :
    (visitDecl w c id).storage =
      if annot w id then (c.storage.insert w.toDeclEnv id).1 else c.storage := by
  unfold visitDecl annot
  cases hk : (w.info id).kind <;>
    simp only [DeclKind.isNamed, DeclKind.isTag, visitNamedDecl, visitTypedefNameDecl, visitContext, hk,
      Bool.true_and, Bool.false_and, Bool.false_or, if_true, if_false, Bool.not_eq_true',
      reduceCtorEq, Bool.false_eq_true, Bool.or_false, Bool.or_true, decide_true, decide_false] <;>
    (repeat' split) <;> simp_all

theorem errorIf_storage (w : World) (c : Collected) (id : Nat) :
    (errorIfAnnotationsDoNotMatchFirstDecl w c id).storage = c.storage := by
  unfold errorIfAnnotationsDoNotMatchFirstDecl
  split
  · rfl
  · split <;> rfl

theorem insert_size (w : World) (s : Storage) (id : Nat) (hs : shouldSkip (w.info id) = false)
    (hh : s.has id = false) : (s.insert w.toDeclEnv id).1.size = s.size + 1 := by
  rw [insert_eq w.toDeclEnv s id hs hh]
  simp [Storage.set, hh]

theorem insert_has (w : World) (s : Storage) (id : Nat) (hs : shouldSkip (w.info id) = false)
    (hh : s.has id = false) (x : Nat) :
    (s.insert w.toDeclEnv id).1.has x = (s.has x || decide (x = id)) := by
  rw [insert_eq w.toDeclEnv s id hs hh]
  by_cases hx : x = id
  · subst hx; simp [Storage.set, Storage.has]
  · simp [Storage.set, Storage.has, hx]

/-- Storage after visiting fresh declarations. -/
def seen (w : World) (s : Storage) (l : List Nat) (s' : Storage) : Prop :=
  (∀ x, s'.has x = (s.has x || (decide (x ∈ l) && annot w x))) ∧
  s'.size = s.size + l.countP (annot w)

theorem seen_nil (w : World) (s : Storage) : seen w s [] s := by simp [seen]

theorem seen_trans {w : World} {s s' s'' : Storage} {l l' : List Nat} (h : seen w s l s')
    (h' : seen w s' l' s'') : seen w s (l ++ l') s'' := by
  refine ⟨fun x => ?_, ?_⟩
  · rw [h'.1, h.1]
    simp only [List.mem_append, Bool.decide_or]
    cases s.has x <;> cases decide (x ∈ l) <;> cases decide (x ∈ l') <;> cases annot w x <;> rfl
  · rw [h'.2, h.2, List.countP_append, Nat.add_assoc]

theorem visitDecl_seen (w : World) (c : Collected) (id : Nat) (hs : skipNs w id = false)
    (hn : c.storage.has id = false) : seen w c.storage [id] (visitDecl w c id).storage := by
  rw [visitDecl_storage]
  cases ha : annot w id with
  | false =>
    refine ⟨fun x => ?_, by simp [ha]⟩
    by_cases hx : x = id
    · subst hx; simp [ha]
    · simp [hx]
  | true =>
    have hsk := annot_not_skip w id ha hs
    simp only [if_true]
    refine ⟨fun x => ?_, ?_⟩
    · rw [insert_has w _ id hsk hn]
      by_cases hx : x = id
      · subst hx; simp [ha]
      · simp [hx]
    · rw [insert_size w _ id hsk hn]; simp [ha]

mutual
theorem traverse_events (w : World) : ∀ (t : Tree) (c : Collected), (visited w t).Nodup →
    (∀ x ∈ visited w t, c.storage.has x = false) →
    traverse w c t = (events w t).foldl (runEv w) c ∧
    seen w c.storage (visited w t) (traverse w c t).storage
  | .node id children, c => by
    intro hn hf
    have hsk : ((w.info id).kind = .namespace ∧ shouldSkip (w.info id) = true) ↔
        skipNs w id = true := by simp [skipNs]
    cases hs : skipNs w id with
    | true =>
      have := hsk.2 hs
      simp only [traverse, this.1, this.2, if_true, events, visited, hs, List.foldl_nil]
      exact ⟨trivial, seen_nil ..⟩
    | false =>
      simp only [visited, hs, Bool.false_eq_true, if_false] at hn hf ⊢
      have h0 := visitDecl_seen w c id hs (hf id (by simp))
      rw [List.nodup_cons] at hn
      have hf' : ∀ x ∈ visitedAll w children, (visitDecl w c id).storage.has x = false := by
        intro x hx
        rw [h0.1, hf x (by simp [hx])]
        have : x ≠ id := fun e => hn.1 (e ▸ hx)
        simp [this]
      obtain ⟨e1, e2⟩ := traverseAll_events w children (visitDecl w c id) hn.2 hf'
      have e3 : seen w c.storage (id :: visitedAll w children)
          (traverseAll w (visitDecl w c id) children).storage := seen_trans h0 e2
      by_cases hk : (w.info id).kind = .namespace
      · have hsk2 : shouldSkip (w.info id) = false := by
          rw [Bool.eq_false_iff]; intro h; rw [hsk.1 ⟨hk, h⟩] at hs; exact absurd hs (by simp)
        simp only [traverse, hk, hsk2, events, hs, if_true, Bool.false_eq_true, if_false, true_and]
        have hsz : ((traverseAll w (visitDecl w c id) children).storage.size ≠ c.storage.size) ↔
            (id :: visitedAll w children).any (annot w) = true := by
          rw [e3.2]
          have : (id :: visitedAll w children).countP (annot w) ≠ 0 ↔
              (id :: visitedAll w children).any (annot w) = true := by
            rw [← Nat.pos_iff_ne_zero, List.countP_pos_iff, List.any_eq_true]
          rw [← this]; omega
        by_cases hr : (id :: visitedAll w children).any (annot w) = true
        · rw [if_pos (hsz.2 hr), if_pos hr, List.cons_append, List.foldl_cons, List.foldl_append, errorIf_storage, e1]
          refine ⟨rfl, ?_⟩
          rw [e1] at e3; exact e3
        · rw [if_neg (fun h => hr (hsz.1 h)), if_neg hr, List.append_nil, List.foldl_cons]
          exact ⟨e1, e3⟩
      · simp only [traverse, hk, events, hs, if_false, Bool.false_eq_true, false_and, List.append_nil,
          List.foldl_cons]
        exact ⟨e1, e3⟩
theorem traverseAll_events (w : World) : ∀ (ts : List Tree) (c : Collected), (visitedAll w ts).Nodup →
    (∀ x ∈ visitedAll w ts, c.storage.has x = false) →
    traverseAll w c ts = (eventsAll w ts).foldl (runEv w) c ∧
    seen w c.storage (visitedAll w ts) (traverseAll w c ts).storage
  | [], c => by
    intro _ _
    simp only [traverseAll, eventsAll, visitedAll, List.foldl_nil]
    exact ⟨trivial, seen_nil ..⟩
  | t :: ts, c => by
    intro hn hf
    simp only [visitedAll, List.mem_append] at hn hf ⊢
    rw [List.nodup_append] at hn
    obtain ⟨e1, e2⟩ := traverse_events w t c hn.1 (fun x hx => hf x (.inl hx))
    have hf' : ∀ x ∈ visitedAll w ts, (traverse w c t).storage.has x = false := by
      intro x hx
      rw [e2.1, hf x (.inr hx)]
      have : x ∉ visited w t := fun h => hn.2.2 x h x hx rfl
      simp [this]
    obtain ⟨e3, e4⟩ := traverseAll_events w ts (traverse w c t) hn.2.1 hf'
    simp only [traverseAll, eventsAll, List.foldl_append]
    exact ⟨by rw [e3, e1], seen_trans e2 e4⟩
end

end Verif
