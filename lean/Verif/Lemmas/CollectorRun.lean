import Verif.Lemmas.Collector
/-!
# Lemmas: result of the traversal
-/
namespace Verif
open Spec

/-- Visited declarations of a sequence of events. -/
def visits : List Ev → List Nat
  | [] => []
  | .visit x :: r => x :: visits r
  | .close _ :: r => visits r

/-- Checked namespaces of a sequence of events. -/
def closes : List Ev → List Nat
  | [] => []
  | .visit _ :: r => closes r
  | .close x :: r => x :: closes r

theorem visits_append (a b : List Ev) : visits (a ++ b) = visits a ++ visits b := by
  induction a with
  | nil => rfl
  | cons e a ih => cases e <;> simp [visits, ih]

theorem closes_append (a b : List Ev) : closes (a ++ b) = closes a ++ closes b := by
  induction a with
  | nil => rfl
  | cons e a ih => cases e <;> simp [closes, ih]

mutual
theorem visits_events (w : World) : ∀ t, visits (events w t) = visited w t
  | .node id children => by
    simp only [events, visited]
    split
    · rfl
    · simp only [List.cons_append, visits, visits_append, visitsAll_events w children]
      split <;> simp [visits]
theorem visitsAll_events (w : World) : ∀ ts, visits (eventsAll w ts) = visitedAll w ts
  | [] => rfl
  | t :: ts => by
    simp only [eventsAll, visitedAll, visits_append, visits_events w t, visitsAll_events w ts]
end

mutual
theorem closes_sub (w : World) : ∀ t x, x ∈ closes (events w t) →
    ∃ s, Occurs w t s ∧ s.id = x ∧ (w.info x).kind = .namespace ∧ Relevant w s
  | .node id children, x => by
    simp only [events]
    split
    · simp [closes]
    · rename_i hs
      have hi : ¬ Implementation w id := by rw [← skipNs_iff]; exact hs
      simp only [List.cons_append, closes, closes_append, List.mem_append]
      rintro (h | h)
      · obtain ⟨t, ht, s, hs, hx⟩ := closesAll_sub w children x h
        exact ⟨s, .inside hi ht hs, hx⟩
      · split at h
        · rename_i hc
          simp only [closes, List.mem_singleton] at h
          subst h
          refine ⟨_, .here (t := .node x children) hi, rfl, hc.1, ?_⟩
          rw [relevant_iff]
          simp only [visited, hs]
          exact hc.2
        · simp [closes] at h
theorem closesAll_sub (w : World) : ∀ ts x, x ∈ closes (eventsAll w ts) →
    ∃ t ∈ ts, ∃ s, Occurs w t s ∧ s.id = x ∧ (w.info x).kind = .namespace ∧ Relevant w s
  | [], x => by simp [eventsAll, closes]
  | t :: ts, x => by
    simp only [eventsAll, closes_append, List.mem_append]
    rintro (h | h)
    · obtain ⟨s, hs⟩ := closes_sub w t x h
      exact ⟨t, by simp, s, hs⟩
    · obtain ⟨t', ht, hs⟩ := closesAll_sub w ts x h
      exact ⟨t', by simp [ht], hs⟩
end

theorem mem_closesAll (w : World) (ts : List Tree) (x : Nat) :
    x ∈ closes (eventsAll w ts) ↔ ∃ t ∈ ts, x ∈ closes (events w t) := by
  induction ts with
  | nil => simp [eventsAll, closes]
  | cons t ts ih => simp [eventsAll, closes_append, ih]

theorem closes_of_occurs (w : World) (t s : Tree) (h : Occurs w t s)
    (hk : (w.info s.id).kind = .namespace) (hr : Relevant w s) : s.id ∈ closes (events w t) := by
  induction h with
  | here hi =>
    rename_i t
    obtain ⟨id, cs⟩ := t
    rw [← skipNs_iff] at hi
    rw [relevant_iff] at hr
    simp only [Tree.id] at *
    simp only [visited, hi] at hr
    simp only [events, hi, hk]
    rw [if_neg (by simp), if_pos ⟨trivial, hr⟩]
    simp [closes, closes_append]
  | inside hi hm _ ih =>
    rw [← skipNs_iff] at hi
    simp only [events, hi]
    simp only [Bool.false_eq_true, if_false, List.cons_append, closes, closes_append,
      List.mem_append]
    exact .inl ((mem_closesAll ..).2 ⟨_, hm, ih hk hr⟩)

/-- Declarations are visited once, and before they are checked. -/
def Ordered (w : World) : List Nat → List Ev → Prop
  | _, [] => True
  | v, .visit x :: r => x ∉ v ∧ skipNs w x = false ∧ Ordered w (v ++ [x]) r
  | v, .close x :: r => x ∈ v ∧ Ordered w v r

theorem Ordered.append {w : World} {v : List Nat} {a b : List Ev} (ha : Ordered w v a)
    (hb : Ordered w (v ++ visits a) b) : Ordered w v (a ++ b) := by
  induction a generalizing v with
  | nil => simpa [visits] using hb
  | cons e a ih =>
    cases e with
    | visit x =>
      obtain ⟨h1, h2, h3⟩ := ha
      refine ⟨h1, h2, ih h3 ?_⟩
      simpa [visits] using hb
    | close x => exact ⟨ha.1, ih ha.2 hb⟩

mutual
theorem ordered_events (w : World) : ∀ t v, (v ++ visited w t).Nodup → Ordered w v (events w t)
  | .node id children, v => by
    simp only [events, visited]
    split
    · intro _; trivial
    · rename_i hs
      intro hn
      rw [List.cons_append]
      refine ⟨?_, by simpa using hs, ?_⟩
      · rw [List.nodup_append] at hn
        intro h
        exact hn.2.2 id h id (by simp) rfl
      · have hn' : ((v ++ [id]) ++ visitedAll w children).Nodup := by simpa using hn
        refine (orderedAll_events w children _ hn').append ?_
        split
        · exact ⟨by simp, trivial⟩
        · trivial
theorem orderedAll_events (w : World) : ∀ ts v, (v ++ visitedAll w ts).Nodup →
    Ordered w v (eventsAll w ts)
  | [], v => fun _ => trivial
  | t :: ts, v => by
    intro hn
    simp only [visitedAll] at hn
    simp only [eventsAll]
    rw [← List.append_assoc] at hn
    refine (ordered_events w t v (List.nodup_append.1 hn).1).append ?_
    rw [visits_events]
    exact orderedAll_events w ts _ hn
end

/-- The attributes of a visited declaration. -/
def entryOf (w : World) (x : Nat) : Option DeclAttrs :=
  if annot w x then some (firstInsert w.toDeclEnv x).1 else none

/-- Comparison of the attributes of visited declarations. -/
def equalFinal (w : World) (x y : Nat) : Bool :=
  Storage.equal { entries := entryOf w, size := 0 } x y

theorem equal_congr (s s' : Storage) (x y : Nat) (hx : s.entries x = s'.entries x)
    (hy : s.entries y = s'.entries y) : s.equal x y = s'.equal x y := by
  simp only [Storage.equal, hx, hy]

/-- A lookup context that is collected. -/
def isCtx (w : World) (id : Nat) : Bool :=
  ((w.info id).kind.isTag || (w.info id).kind = .namespace) && !shouldSkip (w.info id)

/-- An alias that is collected. -/
def isAlias (w : World) (id : Nat) : Bool :=
  (w.info id).kind = .typedefName && hasAnnotations (w.info id) && !w.dependentContext id

/-- State of the collector after visiting `v` and checking `k`. -/
structure CollInv (w : World) (v k : List Nat) (c : Collected) : Prop where
  entries : ∀ x, c.storage.entries x = if x ∈ v then entryOf w x else none
  first : ∀ n, c.firstDecls n = k.find? (fun x => w.canonical x = n)
  ok : hasErrors c.diags = false ↔
    (∀ x ∈ v, annot w x = true → hasErrors (firstInsert w.toDeclEnv x).2 = false) ∧
    (∀ x ∈ k, ∀ f, k.find? (fun y => w.canonical y = w.canonical x) = some f →
      equalFinal w x f = true)
  contexts : c.lookupContexts = v.filter (isCtx w)
  aliases : c.aliases = v.filter (isAlias w)
  closed : ∀ x ∈ k, x ∈ v

theorem hasErrors_append (a b : List Diag) : hasErrors (a ++ b) = (hasErrors a || hasErrors b) := by
  simp [hasErrors]

theorem visitDecl_rest (w : World) (c : Collected) (id : Nat) :
    (visitDecl w c id).firstDecls = c.firstDecls ∧
    (visitDecl w c id).lookupContexts = c.lookupContexts ++ [id].filter (isCtx w) ∧
    (visitDecl w c id).aliases = c.aliases ++ [id].filter (isAlias w) ∧
    hasErrors (visitDecl w c id).diags = (hasErrors c.diags ||
      (annot w id && hasErrors (c.storage.insert w.toDeclEnv id).2)) := by
  have key : ∀ (p : Nat → Bool), [id].filter p = if p id then [id] else [] := by
    intro p; cases h : p id <;> simp [h]
  rw [key, key]
  unfold visitDecl annot isCtx isAlias
  have hw : hasErrors (warnIfAliasHasQualifiers w id) = false := by
    unfold warnIfAliasHasQualifiers
    split <;> rfl
  cases hk : (w.info id).kind <;>
    simp only [DeclKind.isNamed, DeclKind.isTag, visitNamedDecl, visitTypedefNameDecl, visitContext, hk,
      Bool.true_and, Bool.false_and, Bool.false_or, if_true, if_false, Bool.not_eq_true',
      reduceCtorEq, Bool.false_eq_true, Bool.or_false, Bool.or_true, decide_true, decide_false] <;>
    cases shouldSkip (w.info id) <;> cases w.dependentContext id <;>
      cases hasAnnotations (w.info id) <;> simp [hasErrors_append, hw, hk, DeclKind.isTag]

theorem insert_empty (w : World) (s : Storage) (id : Nat) (ha : annot w id = true)
    (hs : skipNs w id = false) (hh : s.has id = false) :
    s.insert w.toDeclEnv id = (s.set id (firstInsert w.toDeclEnv id).1, (firstInsert w.toDeclEnv id).2) :=
  insert_eq w.toDeclEnv s id (annot_not_skip w id ha hs) hh

theorem collInv_visit {w : World} {v k : List Nat} {c : Collected} (h : CollInv w v k c) (x : Nat)
    (hx : x ∉ v) (hs : skipNs w x = false) : CollInv w (v ++ [x]) k (visitDecl w c x) := by
  have hh : c.storage.has x = false := by simp [Storage.has, h.entries, hx]
  obtain ⟨r1, r2, r3, r4⟩ := visitDecl_rest w c x
  refine ⟨fun y => ?_, fun n => by rw [r1, h.first], ?_, ?_, ?_, fun y hy => by simp [h.closed y hy]⟩
  · rw [visitDecl_storage]
    by_cases hy : y = x
    · subst hy
      simp only [List.mem_append, List.mem_singleton, or_true, if_true]
      cases ha : annot w y with
      | true => rw [if_pos rfl, insert_empty w _ y ha hs hh]; simp [Storage.set, entryOf, ha]
      | false => simp [entryOf, ha, h.entries, hx]
    · cases ha : annot w x with
      | true =>
        rw [if_pos rfl, insert_empty w _ x ha hs hh]; simp [Storage.set, hy, h.entries]
      | false => simp [hy, h.entries]
  · rw [r4]
    simp only [Bool.or_eq_false_iff, h.ok]
    have : (annot w x && hasErrors (c.storage.insert w.toDeclEnv x).2) = false ↔
        (annot w x = true → hasErrors (firstInsert w.toDeclEnv x).2 = false) := by
      cases ha : annot w x with
      | true => rw [insert_empty w _ x ha hs hh]; simp
      | false => simp
    rw [this]
    constructor
    · rintro ⟨⟨h1, h2⟩, h3⟩
      refine ⟨fun y hy => ?_, h2⟩
      rcases List.mem_append.1 hy with hy | hy
      · exact h1 y hy
      · rw [List.mem_singleton.1 hy]; exact h3
    · rintro ⟨h1, h2⟩
      exact ⟨⟨fun y hy => h1 y (by simp [hy]), h2⟩, h1 x (by simp)⟩
  · rw [r2, h.contexts, List.filter_append]
  · rw [r3, h.aliases, List.filter_append]

theorem collInv_close {w : World} {v k : List Nat} {c : Collected} (h : CollInv w v k c) (x : Nat)
    (hx : x ∈ v) : CollInv w v (k ++ [x]) (errorIfAnnotationsDoNotMatchFirstDecl w c x) := by
  have hcl : ∀ y ∈ k ++ [x], y ∈ v := by
    intro y hy
    rcases List.mem_append.1 hy with hy | hy
    · exact h.closed y hy
    · rw [List.mem_singleton.1 hy]; exact hx
  unfold errorIfAnnotationsDoNotMatchFirstDecl
  cases hf : c.firstDecls (w.canonical x) with
  | none =>
    simp only
    rw [h.first] at hf
    refine ⟨h.entries, fun n => ?_, ?_, h.contexts, h.aliases, hcl⟩
    · simp only [List.find?_append, List.find?_cons, List.find?_nil]
      by_cases hn : n = w.canonical x
      · subst hn; simp [hf]
      · have : w.canonical x ≠ n := fun e => hn e.symm
        simp [hn, this, h.first]
    · simp only [h.ok]
      refine and_congr_right fun _ => ?_
      constructor
      · intro h2 y hy f hyf
        simp only [List.find?_append, List.find?_cons, List.find?_nil] at hyf
        rcases List.mem_append.1 hy with hy | hy
        · cases hk : k.find? (fun z => decide (w.canonical z = w.canonical y)) with
          | some f' =>
            rw [hk] at hyf; simp only [Option.some_or, Option.some.injEq] at hyf
            subst hyf
            exact h2 y hy f' hk
          | none =>
            have := List.find?_eq_none.1 hk y hy
            simp at this
        · rw [List.mem_singleton.1 hy] at hyf ⊢
          rw [hf] at hyf
          simp only [decide_true, Option.none_or, Option.some.injEq] at hyf
          subst hyf
          simp only [equalFinal, Storage.equal]
          simp only [decide_true, Bool.true_and, Bool.and_true]
          have hr : ∀ r : RecordDeclAttrs, r.same r = true := by
            intro r; simp [RecordDeclAttrs.same, sameSet]
          have hm : ∀ r : MethodDeclAttrs, r.same r = true := by
            intro r; simp [MethodDeclAttrs.same, sameSet]
          have hfn : ∀ r : FunctionDeclAttrs, r.same r = true := by
            intro r; simp [FunctionDeclAttrs.same, sameSet]
          have ho : ∀ {α : Type} (same : α → α → Bool) (h : ∀ a, same a a = true) (o : Option α),
              optSame same o o = true := by
            intro α same h o; cases o <;> simp [optSame, h]
          rw [ho _ hr, ho _ hm, ho _ hfn]; rfl
      · intro h2 y hy f hyf
        refine h2 y (by simp [hy]) f ?_
        rw [List.find?_append, hyf]; rfl
  | some f =>
    simp only
    have hf' := hf
    rw [h.first] at hf
    have hfk : f ∈ k := List.mem_of_find?_eq_some hf
    have heq : c.storage.equal x f = equalFinal w x f := by
      refine equal_congr _ _ _ _ ?_ ?_
      · rw [h.entries, if_pos hx]
      · rw [h.entries, if_pos (h.closed f hfk)]
    have hfind : ∀ n, (k ++ [x]).find? (fun y => w.canonical y = n) =
        k.find? (fun y => w.canonical y = n) := by
      intro n
      rw [List.find?_append]
      by_cases hn : w.canonical x = n
      · subst hn; rw [hf]; rfl
      · simp [hn]
    have hok : hasErrors (if c.storage.equal x f = true then c
        else { c with diags := c.diags ++
          [{ decl := x, kind := .needToMatchFirstDecl }, { decl := f, kind := .noteDeclaredAt }] }).diags = false ↔
        hasErrors c.diags = false ∧ equalFinal w x f = true := by
      rw [heq]
      cases equalFinal w x f with
      | true => simp
      | false => simp [hasErrors, Diag.isError, DiagKind.isError]
    have hst : ∀ {α : Type} (p : Collected → α), (∀ c d, p { c with diags := d } = p c) →
        p (if c.storage.equal x f = true then c
        else { c with diags := c.diags ++
          [{ decl := x, kind := .needToMatchFirstDecl }, { decl := f, kind := .noteDeclaredAt }] }) = p c := by
      intro α p hp; split
      · rfl
      · exact hp _ _
    refine ⟨fun y => ?_, fun n => ?_, ?_, ?_, ?_, hcl⟩
    · rw [hst (fun c => c.storage) (fun _ _ => rfl)]; exact h.entries y
    · rw [hst (fun c => c.firstDecls) (fun _ _ => rfl), h.first, hfind]
    · rw [hok, h.ok, and_assoc]
      refine and_congr_right fun _ => ?_
      constructor
      · rintro ⟨h2, h3⟩ y hy f' hyf
        rw [hfind] at hyf
        rcases List.mem_append.1 hy with hy | hy
        · exact h2 y hy f' hyf
        · rw [List.mem_singleton.1 hy] at hyf ⊢
          rw [hf, Option.some.injEq] at hyf
          rw [← hyf]; exact h3
      · intro h2
        refine ⟨fun y hy f' hyf => h2 y (by simp [hy]) f' ?_, h2 x (by simp) f ?_⟩
        · rw [hfind]; exact hyf
        · rw [hfind]; exact hf
    · rw [hst (fun c => c.lookupContexts) (fun _ _ => rfl)]; exact h.contexts
    · rw [hst (fun c => c.aliases) (fun _ _ => rfl)]; exact h.aliases

theorem collInv_run {w : World} (evs : List Ev) {v k : List Nat} {c : Collected}
    (h : CollInv w v k c) (ho : Ordered w v evs) :
    CollInv w (v ++ visits evs) (k ++ closes evs) (evs.foldl (runEv w) c) := by
  induction evs generalizing v k c with
  | nil => simpa [visits, closes] using h
  | cons e evs ih =>
    cases e with
    | visit x =>
      have := ih (collInv_visit h x ho.1 ho.2.1) ho.2.2
      simpa [visits, closes, runEv] using this
    | close x =>
      have := ih (collInv_close h x ho.1) ho.2
      simpa [visits, closes, runEv] using this

/-- The result of the traversal. -/
theorem traverse_inv (w : World) (root : Tree) (hd : (ids root).Nodup) :
    CollInv w (visited w root) (closes (events w root)) (traverse w {} root) := by
  have hn : (visited w root).Nodup := (visited_sublist w root).nodup hd
  rw [(traverse_events w root {} hn (fun _ _ => rfl)).1]
  have h0 : CollInv w [] [] {} := by
    refine ⟨fun x => ?_, fun n => ?_, ?_, rfl, rfl, by simp⟩
    · simp [Storage.empty]
    · simp
    · simp [hasErrors]
  have := collInv_run (events w root) h0 (ordered_events w root [] (by simpa using hn))
  rwa [visits_events, List.nil_append, List.nil_append] at this

theorem equalFinal_namespace (w : World) (x y : Nat) (hx : (w.info x).kind = .namespace)
    (hy : (w.info y).kind = .namespace) :
    equalFinal w x y = true ↔ entryOf w x = entryOf w y := by
  have shp : ∀ z, (w.info z).kind = .namespace → ∀ a, entryOf w z = some a →
      Shape (w.info z) a := by
    intro z hz a ha
    unfold entryOf at ha
    split at ha
    · rw [← Option.some.inj ha]
      exact shape_applyAll w.toDeclEnv z _ _ (shape_start w.toDeclEnv z _ _)
    · exact absurd ha (by simp)
  have none_of : ∀ {α : Type} (o : Option α), (o.isSome = true → False) → o = none := by
    intro α o h; cases o
    · rfl
    · exact (h rfl).elim
  have comps : ∀ z, (w.info z).kind = .namespace →
      (entryOf w z).bind (·.record) = none ∧ (entryOf w z).bind (·.method) = none ∧
      (entryOf w z).bind (·.function) = none := by
    intro z hz
    cases he : entryOf w z with
    | none => simp
    | some a =>
      have sh := shp z hz a he
      refine ⟨none_of _ fun h => ?_, none_of _ fun h => ?_, none_of _ fun h => ?_⟩
      · have := sh.record.1 h; rw [hz] at this; exact absurd this (by simp)
      · have := (sh.method.1 h).1; rw [hz] at this; exact absurd this (by simp)
      · have := sh.function.1 h; rw [hz] at this; simp at this
  obtain ⟨x1, x2, x3⟩ := comps x hx
  obtain ⟨y1, y2, y3⟩ := comps y hy
  have gen : ∀ (s : Storage), s.entries = entryOf w →
      (s.equal x y = true ↔ s.entries x = s.entries y) := by
    intro s hs
    rw [← hs] at x1 x2 x3 y1 y2 y3
    unfold Storage.equal
    generalize s.entries x = a at *
    generalize s.entries y = b at *
    cases a with
    | none => cases b <;> simp [optSame]
    | some a =>
      cases b with
      | none => simp [optSame]
      | some b =>
        obtain ⟨a1, a2, a3, a4, a5, a6, a7, a8, a9, a10, a11⟩ := a
        obtain ⟨b1, b2, b3, b4, b5, b6, b7, b8, b9, b10, b11⟩ := b
        simp at x1 x2 x3 y1 y2 y3
        subst x1 x2 x3 y1 y2 y3
        simp [optSame, and_assoc]
  exact gen _ rfl

end Verif
