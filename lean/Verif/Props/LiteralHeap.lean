import Verif.Lemmas.LiteralHeap
/-!
# C10, C11: literal values
-/
namespace Verif
open Spec LH

/-! ### C10 -/

/-- C10: no history frees a string twice. -/
theorem C10_no_double_free (ops : List Op) : run init ops ≠ .error .doubleFree := by
  intro hr
  rcases run_sim R_init ops with ⟨m', st', o, g1, -⟩ | ⟨f, g1, -, _, _, _, _, _, -, -, g⟩
  · rw [hr] at g1; cases g1
  · rw [hr] at g1; cases g1; exact g

/-- C10: if no object's own string is passed to its `setString`, no history uses
a string after it was freed. -/
theorem C10_no_use_after_free_partial (ops : List Op)
    (hself : ∀ x, .setStringFrom x x ∉ ops) : run init ops ≠ .error .useAfterFree := by
  intro hr
  rcases run_sim R_init ops with ⟨m', st', o, g1, -⟩ | ⟨f, g1, -, pre, op, post, _, _, e, -, g⟩
  · rw [hr] at g1; cases g1
  · rw [hr] at g1; cases g1
    obtain ⟨x, rfl⟩ := g
    exact hself x (by rw [e]; simp)

/-- C10 is false without the hypothesis: `v.setString(v.getString())` reads the
freed string. -/
theorem C10_self_alias_uses_freed (x : Nat) (s : Str) :
    run init [.construct x, .setString x s, .setStringFrom x x] = .error .useAfterFree := by
  simp [run, step, LH.construct, init, bind, Except.bind, Except.map, LH.setString,
    LH.setNothing, getVar, putVar, upd, LH.alloc, LH.setStringFrom, stringRef, stringMember,
    free, deref]

/-- C10: once all objects are destroyed nothing is left on the heap; in general
every live heap cell is owned by exactly one live object. -/
theorem C10_no_leak (ops : List Op) (m : Mem) (obs : List Obs)
    (hr : run init ops = .ok (m, obs)) :
    (∀ a s, m.heap a = some s →
      ∃ x, m.vars x = some ⟨.string, .ptr (some a)⟩ ∧
        ∀ y, m.vars y = some ⟨.string, .ptr (some a)⟩ → y = x) ∧
    ((∀ x, m.vars x = none) → ∀ a, m.heap a = none) := by
  rcases run_sim R_init ops with ⟨m', st', o, g1, -, h⟩ | ⟨f, g1, -⟩
  · rw [hr] at g1; cases g1
    have key : ∀ a s, m.heap a = some s →
      ∃ x, m.vars x = some ⟨.string, .ptr (some a)⟩ ∧
        ∀ y, m.vars y = some ⟨.string, .ptr (some a)⟩ → y = x := by
      intro a s hs
      obtain ⟨x, hx⟩ := h.owned a s hs
      exact ⟨x, hx, fun y hy => h.inj y x a hy hx⟩
    refine ⟨key, ?_⟩
    intro hd a
    cases hs : m.heap a with
    | none => rfl
    | some s =>
      obtain ⟨x, hx, -⟩ := key a s hs
      rw [hd x] at hx; cases hx
  · rw [hr] at g1; cases g1

/-- The hypotheses are met by a history with copies, moves and self-assignments
which ends with all objects destroyed. -/
example : ∃ m obs, run init
    [.construct 0, .setString 0 t%"abc", .copyConstruct 1 0, .moveConstruct 2 1, .copyAssign 2 2,
     .moveAssign 0 0, .equal 0 2, .read 1, .moveAssign 1 2, .setStringFrom 1 0, .destroy 2,
     .destroy 1, .destroy 0] = .ok (m, obs) ∧ obs = [.bool true, .val .nothing] ∧
    m.heap 0 = none ∧ m.next = 3 := by
  refine ⟨_, _, rfl, ?_, ?_, ?_⟩ <;> rfl

/-! ### C11 -/

/-- C11: all observations of every history are those of plain values, and a
history is free of undefined behaviour exactly if the value semantics allows it. -/
theorem C11_value_semantics (ops : List Op) (obs : List Obs) :
    (∃ m, run init ops = .ok (m, obs)) ↔ ∃ st, vrun (fun _ => none) ops = some (st, obs) := by
  rcases run_sim R_init ops with ⟨m', st', o, g1, g2, -⟩ | ⟨f, g1, g2, -⟩
  · simp [g1, g2]
  · simp [g1, g2]

/-- C11: a moved-from value may be unreadable: after a string was move-assigned
to a value of another kind, reading the source dereferences null. -/
theorem C11_moved_from_unreadable :
    run init [.construct 0, .setString 0 t%"a", .construct 1, .moveAssign 1 0, .read 0]
      = .error .nullDeref ∧
    run init [.construct 0, .setString 0 t%"a", .construct 1, .moveAssign 1 0, .copyConstruct 2 0]
      = .error .nullDeref := ⟨rfl, rfl⟩

/-- C11: as long as strings are only move-assigned to values which hold strings,
no moved-from value ever becomes unreadable: the value semantics never reaches a
hollow variable and null is never dereferenced. -/
theorem C11_moved_from_readable_partial (ops : List Op)
    (hm : MovesIntoStrings (fun _ => none) ops) :
    run init ops ≠ .error .nullDeref ∧
    ∀ st obs, vrun (fun _ => none) ops = some (st, obs) → ∀ x, st x ≠ some none := by
  constructor
  · intro hr
    rcases run_sim R_init ops with ⟨m', st', o, g1, -⟩ | ⟨f, g1, -, pre, op, post, st', o, e, hv, g⟩
    · rw [hr] at g1; cases g1
    · rw [hr] at g1; cases g1
      obtain ⟨x, g⟩ := g
      subst e
      exact noHollow_run (by simp) hm hv x g
  · intro st obs hv
    exact noHollow_run (post := []) (by simp) (by simpa using hm) hv

/-- A history with move assignments that meets the hypothesis. -/
example : MovesIntoStrings (fun _ => none)
    [.construct 0, .setString 0 t%"a", .copyConstruct 1 0, .moveAssign 1 0, .read 0] := by
  simp [MovesIntoStrings, vstep, VStore.set, assign, stringLike]
  rintro x y cx cy rfl rfl h1 h2 -
  simp at h1
  subst h1
  rfl

end Verif
