import Verif.Spec.Import
import Verif.Lemmas.Objects
import Verif.Props.Module
/-!
# Lemmas about importing modules
-/
namespace Verif
open Spec

/-! ### Executing lines -/

theorem lines_append (files : List (List Line)) (st : Importing) (l m : List Line) :
    st.lines files (l ++ m) = (st.lines files l).bind fun st => st.lines files m := by
  induction l generalizing st with
  | nil => rfl
  | cons x l ih =>
    simp only [List.cons_append, Importing.lines]
    cases st.line files x with
    | error e => rfl
    | ok st => exact ih st

theorem lines_skip (files : List (List Line)) (st : Importing) (l : List Line)
    (h : ∀ x ∈ l, st.line files x = .ok st) : st.lines files l = .ok st := by
  induction l with
  | nil => rfl
  | cons x l ih =>
    simp only [Importing.lines]
    rw [h x (by simp)]
    exact ih fun y hy => h y (by simp [hy])

/-! ### Introducers -/

/-- Evaluate introducers whose results are given. -/
def creates (st : Importing) : List (List Str × Introducer) → Except ImportProblem Importing
  | [] => .ok st
  | p :: l => (st.create p.1 p.2).bind fun st => creates st l

theorem create_vars (st : Importing) (path : List Str) (i : Introducer) (v : List (Str × List Str)) :
    Importing.create { st with vars := v } path i =
      (st.create path i).map fun st => { st with vars := v } := by
  cases i with
  | same p => rfl
  | submodule p n =>
    simp only [Importing.create]
    split <;> rfl
  | type t p n d f =>
    cases t with
    | module => rfl
    | enum name =>
      simp only [Importing.create, Importing.createType]
      repeat' split
      all_goals rfl
    | record name bases holder =>
      simp only [Importing.create, Importing.createType]
      repeat' split
      all_goals rfl

theorem creates_vars (l : List (List Str × Introducer)) (v : List (Str × List Str)) :
    ∀ st : Importing, creates { st with vars := v } l =
      (creates st l).map fun st => { st with vars := v } := by
  induction l with
  | nil => intro st; rfl
  | cons p l ih =>
    intro st
    simp only [creates]
    rw [create_vars]
    cases st.create p.1 p.2 with
    | error e => rfl
    | ok st => exact ih st

theorem run_keeps (l : List Line) : ∀ (env env' : List (Str × List Str)),
    runIntroducers env l = some env' → ∀ x v, env.lookup x = some v → env'.lookup x = some v := by
  induction l with
  | nil =>
    intro env env' h x v hx
    cases h
    exact hx
  | cons a l ih =>
    intro env env' h x v hx
    cases a with
    | introduce y i =>
      simp only [runIntroducers] at h
      cases hp : env.lookup i.parent with
      | none => rw [hp] at h; cases h
      | some par =>
        cases hy : env.lookup y with
        | some _ => rw [hp, hy] at h; cases h
        | none =>
          rw [hp, hy] at h
          refine ih _ _ h x v ?_
          have : x ≠ y := by
            rintro rfl
            rw [hy] at hx
            cases hx
          rw [List.lookup, beq_eq_false_iff_ne.2 this]
          exact hx
    | _ => exact ih _ _ h x v hx

theorem lines_introduce (files : List (List Line)) (m : List (Str × Introducer)) :
    ∀ (env env' : List (Str × List Str)),
      runIntroducers env (m.map fun p => Line.introduce p.1 p.2) = some env' →
      ∀ st : Importing, st.vars = env →
        st.lines files (m.map fun p => Line.introduce p.1 p.2) =
          (creates st (m.map fun p => ((env'.lookup p.1).getD [], p.2))).map
            fun st => { st with vars := env' } := by
  induction m with
  | nil =>
    intro env env' h st hst
    cases h
    subst hst
    rfl
  | cons p m ih =>
    intro env env' h st hst
    subst hst
    simp only [List.map_cons, runIntroducers] at h
    simp only [List.map_cons, Importing.lines, Importing.line, creates]
    cases hp : st.vars.lookup p.2.parent with
    | none => rw [hp] at h; cases h
    | some par =>
      cases hy : st.vars.lookup p.1 with
      | some _ => rw [hp, hy] at h; cases h
      | none =>
        rw [hp, hy] at h
        have hl : env'.lookup p.1 = some (Introducer.object par p.2) :=
          run_keeps _ _ _ h p.1 _ (by rw [List.lookup, beq_self_eq_true])
        rw [hl, Option.getD_some]
        dsimp only
        have hv := create_vars st (Introducer.object par p.2) p.2 st.vars
        cases hc : st.create (Introducer.object par p.2) p.2 with
        | error e => rfl
        | ok st' =>
          rw [hc] at hv
          dsimp only [Except.map, Except.bind]
          have hv' : st'.vars = st.vars := by
            have : Except.ok st' = Except.ok (ε := ImportProblem) { st' with vars := st.vars } := hv
            rw [Except.ok.injEq] at this
            rw [this]
          rw [ih _ _ h { st' with vars := (p.1, Introducer.object par p.2) :: st'.vars } (by simp [hv']),
            creates_vars]
          cases creates st' (m.map fun p => ((env'.lookup p.1).getD [], p.2)) with
          | error e => rfl
          | ok st => rfl

/-! ### Creating the objects of contexts -/

/-- `Importing.create` for a context. -/
def createContext (w : EmitWorld) (s : Storage) (g : Graph) (place : Nat → List Str) (st : Importing)
    (x : Nat) : Except ImportProblem Importing :=
  if isTypeContext w x then
    st.createType (place x) (w.typeName x) ((listedBases w s g x).map w.typeName)
  else if hasObject w s x then
    if place x ∈ st.types.map (·.2) then .error (.replaced (place x))
    else .ok { st with modules := st.modules ++ [place x] }
  else .ok st

theorem create_eq (w : EmitWorld) (s : Storage) (g : Graph) (place : Nat → List Str) (st : Importing)
    (x : Nat) (p : Str) :
    st.create (place x) ((Exposer.create w s x).introducer w s g p) = createContext w s g place st x := by
  unfold createContext isTypeContext listedBases hasObject Exposer.create
  cases hk : (w.info x).kind with
  | record => rfl
  | enum => rfl
  | «namespace» =>
    simp only [Exposer.introducer]
    cases hs : s.entries x with
    | none => rfl
    | some a =>
      cases hn : a.namespace_ with
      | none => simp [hn, Importing.create]
      | some ns =>
        cases hm : ns.module <;> simp [hn, hm, Importing.create]
  | _ => rfl

/-- `creates` for contexts. -/
def createContexts (w : EmitWorld) (s : Storage) (g : Graph) (place : Nat → List Str) (st : Importing) :
    List Nat → Except ImportProblem Importing
  | [] => .ok st
  | x :: l => (createContext w s g place st x).bind fun st => createContexts w s g place st l

/-- Types of contexts. -/
def typesIn (w : EmitWorld) (place : Nat → List Str) (l : List Nat) : List (Str × List Str) :=
  (l.filter (isTypeContext w)).map fun x => (w.typeName x, place x)

/-- Submodules of contexts. -/
def modulesIn (w : EmitWorld) (s : Storage) (place : Nat → List Str) (l : List Nat) : List (List Str) :=
  (l.filter fun x => !isTypeContext w x && hasObject w s x).map place

/-- The object of `x` can be created after those of `pre`. -/
structure StepOK (w : EmitWorld) (s : Storage) (g : Graph) (place : Nat → List Str) (pre : List Nat)
    (x : Nat) : Prop where
  bases : isTypeContext w x = true → ∀ b ∈ listedBases w s g x,
    w.typeName b ∈ (typesIn w place pre).map (·.1)
  name : isTypeContext w x = true → place x ∉ (typesIn w place pre).map (·.2) ∧
    place x ∉ modulesIn w s place pre
  type : isTypeContext w x = true → w.typeName x ∉ (typesIn w place pre).map (·.1)
  module : isTypeContext w x = false → hasObject w s x = true →
    place x ∉ (typesIn w place pre).map (·.2)

theorem createContext_ok (w : EmitWorld) (s : Storage) (g : Graph) (place : Nat → List Str)
    (pre : List Nat) (x : Nat) (st : Importing) (ht : st.types = typesIn w place pre)
    (hm : st.modules = modulesIn w s place pre) :
    (StepOK w s g place pre x → createContext w s g place st x =
      .ok { st with types := typesIn w place (pre ++ [x]), modules := modulesIn w s place (pre ++ [x]) }) ∧
    ((∃ st', createContext w s g place st x = .ok st') → StepOK w s g place pre x) := by
  unfold createContext
  cases hx : isTypeContext w x with
  | true =>
    simp only [if_true]
    unfold Importing.createType
    have e1 : typesIn w place (pre ++ [x]) = st.types ++ [(w.typeName x, place x)] := by
      rw [ht]
      simp [typesIn, hx]
    have e2 : modulesIn w s place (pre ++ [x]) = st.modules := by
      rw [hm]
      simp [modulesIn, hx]
    constructor
    · intro h
      rw [if_neg, if_neg, if_neg, e1, e2]
      · rw [ht]; exact h.type hx
      · rw [ht, hm]
        have := h.name hx
        exact fun h => h.elim this.1 this.2
      · rw [ht, Classical.not_not]
        intro b hb
        obtain ⟨c, hc, rfl⟩ := List.mem_map.1 hb
        exact h.bases hx c hc
    · rintro ⟨st', h⟩
      split at h
      · cases h
      · rename_i h1
        split at h
        · cases h
        · rename_i h2
          split at h
          · cases h
          · rename_i h3
            rw [ht] at h1 h2 h3
            rw [hm] at h2
            rw [Classical.not_not] at h1
            refine ⟨fun _ b hb => h1 _ (List.mem_map.2 ⟨b, hb, rfl⟩), fun _ => ⟨fun h => h2 (.inl h),
              fun h => h2 (.inr h)⟩, fun _ => h3, fun h => ?_⟩
            rw [hx] at h
            cases h
  | false =>
    simp only [Bool.false_eq_true, if_false]
    have e1 : typesIn w place (pre ++ [x]) = st.types := by
      rw [ht]
      simp [typesIn, hx]
    cases ho : hasObject w s x with
    | true =>
      simp only [if_true]
      have e2 : modulesIn w s place (pre ++ [x]) = st.modules ++ [place x] := by
        rw [hm]
        simp [modulesIn, hx, ho]
      constructor
      · intro h
        rw [if_neg (by rw [ht]; exact h.module hx ho), e1, e2]
      · rintro ⟨st', h⟩
        split at h
        · cases h
        · rename_i h1
          rw [ht] at h1
          exact ⟨fun h => by (rw [hx] at h; cases h), fun h => by (rw [hx] at h; cases h),
            fun h => by (rw [hx] at h; cases h), fun _ _ => h1⟩
    | false =>
      simp only [Bool.false_eq_true, if_false]
      have e2 : modulesIn w s place (pre ++ [x]) = st.modules := by
        rw [hm]
        simp [modulesIn, ho]
      constructor
      · intro h
        rw [e1, e2]
      · intro _
        exact ⟨fun h => by (rw [hx] at h; cases h), fun h => by (rw [hx] at h; cases h),
          fun h => by (rw [hx] at h; cases h), fun _ h => by (rw [ho] at h; cases h)⟩

theorem createContexts_ok (w : EmitWorld) (s : Storage) (g : Graph) (place : Nat → List Str)
    (l : List Nat) : ∀ (pre : List Nat) (st : Importing), st.types = typesIn w place pre →
      st.modules = modulesIn w s place pre →
      ((∀ mid x post, l = mid ++ x :: post → StepOK w s g place (pre ++ mid) x) →
        createContexts w s g place st l = .ok { st with
          types := typesIn w place (pre ++ l), modules := modulesIn w s place (pre ++ l) }) ∧
      ((∃ st', createContexts w s g place st l = .ok st') →
        ∀ mid x post, l = mid ++ x :: post → StepOK w s g place (pre ++ mid) x) := by
  induction l with
  | nil =>
    intro pre st ht hm
    refine ⟨fun _ => ?_, fun _ mid x post h => by simp at h⟩
    simp only [createContexts, List.append_nil]
    rw [← ht, ← hm]
  | cons y l ih =>
    intro pre st ht hm
    have h1 := createContext_ok w s g place pre y st ht hm
    constructor
    · intro h
      simp only [createContexts]
      rw [h1.1 (by simpa using h [] y l rfl)]
      dsimp only [Except.bind]
      rw [(ih (pre ++ [y]) { st with
        types := typesIn w place (pre ++ [y]), modules := modulesIn w s place (pre ++ [y]) } rfl rfl).1]
      · simp
      · intro mid x post e
        have := h (y :: mid) x post (by rw [e]; rfl)
        simpa using this
    · rintro ⟨st', h⟩ mid x post e
      simp only [createContexts] at h
      cases hc : createContext w s g place st y with
      | error e => rw [hc] at h; cases h
      | ok st1 =>
        have hs := h1.2 ⟨_, hc⟩
        rw [h1.1 hs] at hc
        cases mid with
        | nil =>
          cases e
          simpa using hs
        | cons z mid =>
          cases e
          rw [h1.1 hs] at h
          have := (ih (pre ++ [y]) { st with
            types := typesIn w place (pre ++ [y]), modules := modulesIn w s place (pre ++ [y]) } rfl rfl).2
            ⟨st', h⟩ mid x post rfl
          simpa using this

theorem type_hasObject (w : EmitWorld) (s : Storage) (x : Nat) (h : isTypeContext w x = true) :
    hasObject w s x = true := by
  unfold isTypeContext at h
  unfold hasObject
  simp only [Bool.or_eq_true, decide_eq_true_eq] at h
  rcases h with h | h <;> rw [h]

theorem mem_order {α : Type} {l : List α} {x y : α} (hx : x ∈ l) (hy : y ∈ l) (hne : x ≠ y) :
    (∃ pre post, l = pre ++ y :: post ∧ x ∈ pre) ∨ (∃ pre post, l = pre ++ x :: post ∧ y ∈ pre) := by
  obtain ⟨a, b, rfl⟩ := List.append_of_mem hy
  rcases List.mem_append.1 hx with h | h
  · exact .inl ⟨a, b, rfl, h⟩
  · rcases List.mem_cons.1 h with h | h
    · exact absurd h hne
    · obtain ⟨c, d, rfl⟩ := List.append_of_mem h
      exact .inr ⟨a ++ y :: c, d, by simp, by simp⟩

theorem mem_typesIn_name (w : EmitWorld) (place : Nat → List Str) (l : List Nat) (n : Str) :
    n ∈ (typesIn w place l).map (·.1) ↔ ∃ y ∈ l, isTypeContext w y = true ∧ w.typeName y = n := by
  simp [typesIn, and_assoc]

theorem mem_typesIn_path (w : EmitWorld) (place : Nat → List Str) (l : List Nat) (n : List Str) :
    n ∈ (typesIn w place l).map (·.2) ↔ ∃ y ∈ l, isTypeContext w y = true ∧ place y = n := by
  simp [typesIn, and_assoc]

theorem mem_modulesIn (w : EmitWorld) (s : Storage) (place : Nat → List Str) (l : List Nat)
    (n : List Str) : n ∈ modulesIn w s place l ↔
      ∃ y ∈ l, isTypeContext w y = false ∧ hasObject w s y = true ∧ place y = n := by
  simp [modulesIn, and_assoc]

theorem importable_iff (w : EmitWorld) (s : Storage) (g : Graph) (order : List Nat) (hn : order.Nodup)
    (place : Nat → List Str) :
    (∀ pre x post, contextsOf w order = pre ++ x :: post → StepOK w s g place pre x) ↔
      Importable w s g order place := by
  have hnd := contextsOf_nodup w order hn
  have notin : ∀ pre x post, contextsOf w order = pre ++ x :: post → ∀ y ∈ pre, y ≠ x := by
    intro pre x post e y hy hyx
    rw [e] at hnd
    exact (List.nodup_append.1 hnd).2.2 y hy x (by simp) hyx
  have split : ∀ pre x post, contextsOf w order = pre ++ x :: post →
      x ∈ contextsOf w order ∧ ∀ y ∈ pre, y ∈ contextsOf w order := by
    intro pre x post e
    rw [e]
    exact ⟨by simp, fun y hy => by simp [hy]⟩
  constructor
  · intro h
    refine ⟨?_, ?_, ?_⟩
    · intro x hx y hy hne tx oy e
      rcases mem_order hx hy hne with ⟨pre, post, hs, hm⟩ | ⟨pre, post, hs, hm⟩
      · have st := h pre y post hs
        have hmem : place y ∈ (typesIn w place pre).map (·.2) :=
          (mem_typesIn_path ..).2 ⟨x, hm, tx, e⟩
        cases ty : isTypeContext w y with
        | true => exact (st.name ty).1 hmem
        | false => exact st.module ty oy hmem
      · have st := h pre x post hs
        cases ty : isTypeContext w y with
        | true => exact (st.name tx).1 ((mem_typesIn_path ..).2 ⟨y, hm, ty, e.symm⟩)
        | false => exact (st.name tx).2 ((mem_modulesIn ..).2 ⟨y, hm, ty, oy, e.symm⟩)
    · intro x hx y hy tx ty e
      refine Classical.byContradiction fun hne => ?_
      rcases mem_order hx hy hne with ⟨pre, post, hs, hm⟩ | ⟨pre, post, hs, hm⟩
      · exact (h pre y post hs).type ty ((mem_typesIn_name ..).2 ⟨x, hm, tx, e⟩)
      · exact (h pre x post hs).type tx ((mem_typesIn_name ..).2 ⟨y, hm, ty, e.symm⟩)
    · intro pre x post hs b hb
      have tx : isTypeContext w x = true := by
        unfold listedBases at hb
        split at hb
        · simp [isTypeContext, *]
        · cases hb
      exact (mem_typesIn_name ..).1 ((h pre x post hs).bases tx b hb)
  · intro h pre x post hs
    obtain ⟨hx, hpre⟩ := split pre x post hs
    refine ⟨fun tx b hb => (mem_typesIn_name ..).2 (h.bases pre x post hs b hb), fun tx => ⟨?_, ?_⟩,
      fun tx => ?_, fun tx ox => ?_⟩
    · rw [mem_typesIn_path]
      rintro ⟨y, hy, ty, e⟩
      exact h.names x hx y (hpre y hy) (fun e => notin _ _ _ hs y hy e.symm) tx (type_hasObject w s y ty) e.symm
    · rw [mem_modulesIn]
      rintro ⟨y, hy, _, oy, e⟩
      exact h.names x hx y (hpre y hy) (fun e => notin _ _ _ hs y hy e.symm) tx oy e.symm
    · rw [mem_typesIn_name]
      rintro ⟨y, hy, ty, e⟩
      exact notin _ _ _ hs y hy (h.types y (hpre y hy) x hx ty tx e)
    · rw [mem_typesIn_path]
      rintro ⟨y, hy, ty, e⟩
      exact h.names y (hpre y hy) x hx (notin _ _ _ hs y hy) ty ox e

/-! ### Linking -/

theorem bodyOf_stmts (l : List Stmt) (rest : List Line) :
    bodyOf (l.map Line.stmt ++ .defineEnd :: rest) = l := by
  induction l with
  | nil => rfl
  | cons x l ih =>
    simp only [List.map_cons, List.cons_append, bodyOf]
    rw [ih]

theorem bodies_stmts (l : List Stmt) (rest : List Line) :
    bodies (l.map Line.stmt ++ rest) = bodies rest := by
  induction l with
  | nil => rfl
  | cons x l ih => exact ih

theorem bodies_definitions (w : EmitWorld) (s : Storage) (g : Graph) (vis : Visibilities) (k : Nat)
    (l : List ((Nat × Str) × Nat)) :
    bodies (l.flatMap fun p => definitionOf w s g vis k p.1.1 p.1.2) =
      l.map fun p => (p.1.2, (exposeContext w vis s (Exposer.create w s p.1.1) p.1.1).emitted.stmts) := by
  induction l with
  | nil => rfl
  | cons p l ih =>
    rw [List.flatMap_cons, List.map_cons, ← ih]
    generalize (l.flatMap fun p => definitionOf w s g vis k p.1.1 p.1.2) = rest
    unfold definitionOf
    split
    · simp only [List.cons_append, List.nil_append, List.append_assoc, bodies]
      rw [bodyOf_stmts, bodies_stmts]
      rfl
    · simp only [List.cons_append, List.nil_append, List.append_assoc, bodies]
      rw [bodyOf_stmts, bodies_stmts]
      rfl

theorem bodies_append_skip (l m : List Line) (h : ∀ x ∈ l, definedOf x = none) :
    bodies (l ++ m) = bodies m := by
  induction l with
  | nil => rfl
  | cons x l ih =>
    have := ih fun y hy => h y (by simp [hy])
    have hx := h x (by simp)
    cases x with
    | defineBegin f t => cases hx
    | _ => exact this

theorem range_flatMap_single {α : Type} (n j : Nat) (h : j < n) (a : α) :
    ((List.range n).flatMap fun k => if j = k then [a] else []) = [a] := by
  induction n with
  | zero => omega
  | succ n ih =>
    rw [List.range_succ, List.flatMap_append]
    by_cases hj : j = n
    · subst hj
      have : ((List.range j).flatMap fun k => if j = k then [a] else []) = [] := by
        rw [List.flatMap_eq_nil_iff]
        intro k hk
        rw [if_neg]
        have := List.mem_range.1 hk
        omega
      rw [this]
      simp
    · rw [ih (by omega)]
      simp [hj]

theorem filter_flatMap {α β : Type} (q : β → Bool) (f : α → List β) (l : List α) :
    (l.flatMap f).filter q = l.flatMap fun x => (f x).filter q := by
  induction l with
  | nil => rfl
  | cons x l ih => rw [List.flatMap_cons, List.filter_append, ih, List.flatMap_cons]

theorem filter_eq_single {α β : Type} [DecidableEq β] (key : α → β) (l : List α) (p : α) (hp : p ∈ l)
    (hn : (l.map key).Nodup) : l.filter (fun x => key x = key p) = [p] := by
  induction l with
  | nil => cases hp
  | cons y l ih =>
    rw [List.map_cons, List.nodup_cons] at hn
    rw [List.filter_cons]
    rcases List.mem_cons.1 hp with rfl | hp
    · rw [if_pos (by simp), List.filter_eq_nil_iff.2]
      intro x hx h
      exact hn.1 (List.mem_map.2 ⟨x, hx, by simpa using h⟩)
    · rw [if_neg, ih hp hn.2]
      simp only [decide_eq_true_eq]
      intro h
      exact hn.1 (List.mem_map.2 ⟨p, hp, h.symm⟩)

end Verif
