import Verif.Spec.ValueStore
/-! Ownership invariant of `LiteralValue` and simulation by plain values. -/
namespace Verif.LH
open Spec

/-- The object `o` has content `c`. -/
inductive Holds (heap : Nat → Option Str) : Obj → Content → Prop where
  | nothing : Holds heap ⟨.nothing, .ptr none⟩ (some .nothing)
  | hollow : Holds heap ⟨.string, .ptr none⟩ none
  | str (a s) : heap a = some s → Holds heap ⟨.string, .ptr (some a)⟩ (some (.string s))
  | int (n) : Holds heap ⟨.unsigned, .int n⟩ (some (.unsigned n))
  | bool (b) : Holds heap ⟨.boolean, .bool b⟩ (some (.boolean b))
  | default : Holds heap ⟨.default, .ptr none⟩ (some .default)

/-- The object owns address `a`. -/
def Owns (o : Option Obj) (a : Nat) : Prop := o = some ⟨.string, .ptr (some a)⟩

/-- Invariant and abstraction. -/
structure R (m : Mem) (st : VStore) : Prop where
  dead : ∀ x, m.vars x = none ↔ st x = none
  holds : ∀ x o c, m.vars x = some o → st x = some c → Holds m.heap o c
  inj : ∀ x y a, Owns (m.vars x) a → Owns (m.vars y) a → x = y
  owned : ∀ a s, m.heap a = some s → ∃ x, Owns (m.vars x) a
  fresh : ∀ a, m.next ≤ a → m.heap a = none

theorem R_init : R init (fun _ => none) := by
  constructor <;> simp [init, Owns]

theorem R.live {m st} (h : R m st) {x c} (hx : st x = some c) :
    ∃ o, m.vars x = some o ∧ Holds m.heap o c := by
  cases ho : m.vars x with
  | none => rw [(h.dead x).1 ho] at hx; cases hx
  | some o => exact ⟨o, rfl, h.holds x o c ho hx⟩

theorem getVar_some {m : Mem} {x o} (h : m.vars x = some o) : getVar m x = .ok o := by
  simp [getVar, h]

theorem getVar_none {m : Mem} {x} (h : m.vars x = none) : getVar m x = .error .lifetime := by
  simp [getVar, h]

/-- Replacing an object that owns nothing by one that owns nothing. -/
theorem R.put {m st x c} (h : R m st) {o : Obj} (hno : ∀ a, ¬ Owns (m.vars x) a)
    (hno' : ∀ a, ¬ Owns (some o) a) (hh : Holds m.heap o c) :
    R (putVar m x o) (st.set x (some c)) := by
  constructor
  · intro y; simp only [putVar, upd, VStore.set]
    split
    · simp
    · exact h.dead y
  · intro y o' c'; simp only [putVar, upd, VStore.set]
    split
    · simp; rintro rfl rfl; exact hh
    · exact h.holds y o' c'
  · intro y z a; simp only [putVar, upd]
    split
    · intro hy; exact absurd hy (hno' a)
    · split
      · intro _ hz; exact absurd hz (hno' a)
      · exact h.inj y z a
  · intro a s hs
    obtain ⟨y, hy⟩ := h.owned a s hs
    refine ⟨y, ?_⟩
    simp only [putVar, upd]
    rw [if_neg]
    · exact hy
    · rintro rfl; exact hno a hy
  · exact h.fresh

/-- Allocating a string for an object that owns nothing. -/
theorem R.alloc {m st x} (h : R m st) (s : Str) (hno : ∀ a, ¬ Owns (m.vars x) a) :
    R (putVar (alloc m s).2 x ⟨.string, .ptr (some (alloc m s).1)⟩)
      (st.set x (some (some (.string s)))) := by
  constructor
  · intro y; simp only [putVar, upd, VStore.set, LH.alloc]
    split
    · simp
    · exact h.dead y
  · intro y o' c'; simp only [putVar, upd, VStore.set, LH.alloc]
    split
    · simp; rintro rfl rfl; exact .str _ _ (by simp [upd])
    · intro h1 h2
      have hh := h.holds y o' c' h1 h2
      cases hh with
      | str a s' hs =>
        refine .str _ _ ?_
        simp only [upd]
        rw [if_neg]
        · exact hs
        · rintro rfl; rw [h.fresh _ (Nat.le_refl _)] at hs; cases hs
      | nothing => exact .nothing
      | hollow => exact .hollow
      | int => exact .int _
      | bool => exact .bool _
      | default => exact .default
  · have old : ∀ y, y ≠ x → ¬ Owns (m.vars y) m.next := by
      intro y _ hy
      have hy' := hy
      unfold Owns at hy
      cases hst : st y with
      | none => rw [(h.dead y).2 hst] at hy; cases hy
      | some c =>
        have hh := h.holds y _ c hy hst
        cases hh with
        | str _ _ hs => rw [h.fresh _ (Nat.le_refl _)] at hs; cases hs
    intro y z a; simp only [putVar, upd, LH.alloc]
    by_cases hy : y = x <;> by_cases hz : z = x
    · intros; omega
    · simp only [hy, hz, ↓reduceIte]
      intro h1 h2
      simp [Owns] at h1
      subst h1
      exact absurd h2 (old z hz)
    · simp only [hy, hz, ↓reduceIte]
      intro h2 h1
      simp [Owns] at h1
      subst h1
      exact absurd h2 (old y hy)
    · simp only [hy, hz, ↓reduceIte]
      exact h.inj y z a
  · intro a s'
    simp only [putVar, upd, LH.alloc]
    split
    · rename_i ha
      intro _
      exact ⟨x, by simp [Owns, ha]⟩
    · intro hs
      obtain ⟨y, hy⟩ := h.owned a s' hs
      refine ⟨y, ?_⟩
      rw [if_neg]
      · exact hy
      · rintro rfl; exact hno a hy
  · intro a ha
    simp only [putVar, upd, LH.alloc] at ha ⊢
    rw [if_neg (by omega)]
    exact h.fresh a (by omega)

/-- Releasing what `x` owns, leaving `o` (owning nothing, or no object) in place. -/
theorem R.release {m st x a} (h : R m st) (hx : Owns (m.vars x) a) (o : Option Obj)
    (oc : Option Content) (ho : ∀ b, ¬ Owns o b)
    (hoc : (o = none ∧ oc = none) ∨ ∃ o' c', o = some o' ∧ oc = some c' ∧
      ∀ heap, Holds heap o' c') :
    (∃ s, m.heap a = some s) ∧
    R { m with heap := upd m.heap a none, vars := upd m.vars x o } (st.set x oc) := by
  have hst : ∃ c, st x = some c := by
    cases hst : st x with
    | none => rw [Owns, (h.dead x).2 hst] at hx; cases hx
    | some c => exact ⟨c, rfl⟩
  obtain ⟨c, hst⟩ := hst
  have hh := h.holds x _ c hx hst
  have hs : ∃ s, m.heap a = some s := by cases hh with | str _ s hs => exact ⟨s, hs⟩
  refine ⟨hs, ?_⟩
  constructor
  · intro y; simp only [upd, VStore.set]
    split
    · rcases hoc with ⟨h1, h2⟩ | ⟨_, _, h1, h2, _⟩ <;> simp [h1, h2]
    · exact h.dead y
  · intro y o' c'; simp only [upd, VStore.set]
    split
    · intro h1 h2
      rcases hoc with ⟨h3, h4⟩ | ⟨_, _, h3, h4, h5⟩
      · rw [h3] at h1; cases h1
      · rw [h3] at h1; rw [h4] at h2; cases h1; cases h2; exact h5 _
    · intro h1 h2
      rename_i hne
      have hh := h.holds y o' c' h1 h2
      cases hh with
      | str b s' hs =>
        refine .str _ _ ?_
        simp only [upd]
        rw [if_neg]
        · exact hs
        · rintro rfl; exact hne (h.inj y x _ h1 hx)
      | nothing => exact .nothing
      | hollow => exact .hollow
      | int => exact .int _
      | bool => exact .bool _
      | default => exact .default
  · intro y z b; simp only [upd]
    split
    · intro hy; exact absurd hy (ho b)
    · split
      · intro _ hz; exact absurd hz (ho b)
      · exact h.inj y z b
  · intro b s'
    simp only [upd]
    split
    · simp
    · intro hs'
      rename_i hne
      obtain ⟨y, hy⟩ := h.owned b s' hs'
      refine ⟨y, ?_⟩
      rw [if_neg]
      · exact hy
      · rintro rfl
        unfold Owns at hx hy
        rw [hx] at hy
        simp at hy
        exact hne hy.symm
  · intro b hb
    simp only [upd]
    split
    · rfl
    · exact h.fresh b hb

theorem holds_not_string {heap o c} (h : Holds heap o c) (hk : o.kind ≠ .string) :
    ∀ a, ¬ Owns (some o) a := by
  intro a ha
  simp [Owns] at ha
  subst ha
  exact hk rfl

/-- `setNothing` on a live object. -/
theorem setNothing_ok {m st x c} (h : R m st) (hx : st x = some c) :
    ∃ m', setNothing m x = .ok m' ∧ R m' (st.set x (some (some .nothing))) ∧
      m'.vars x = some ⟨.nothing, .ptr none⟩ ∧
      (∀ y, y ≠ x → m'.vars y = m.vars y) ∧
      (∀ a, ¬ Owns (m.vars x) a → m'.heap a = m.heap a) ∧
      (∀ a, Owns (m.vars x) a → m'.heap a = none) := by
  obtain ⟨o, ho, hh⟩ := h.live hx
  unfold setNothing
  rw [getVar_some ho]
  have hn : ∀ b, ¬ Owns (some ⟨.nothing, .ptr none⟩) b := by intro b; simp [Owns]
  simp only [bind, Except.bind]
  have nonstring : (∀ a, ¬ Owns (m.vars x) a) →
      R (putVar m x ⟨.nothing, .ptr none⟩) (st.set x (some (some .nothing))) ∧
      (putVar m x ⟨.nothing, .ptr none⟩).vars x = some ⟨.nothing, .ptr none⟩ ∧
      (∀ y, y ≠ x → (putVar m x ⟨.nothing, .ptr none⟩).vars y = m.vars y) ∧
      (∀ a, ¬ Owns (m.vars x) a → (putVar m x ⟨.nothing, .ptr none⟩).heap a = m.heap a) ∧
      (∀ a, Owns (m.vars x) a → (putVar m x ⟨.nothing, .ptr none⟩).heap a = none) := by
    intro hno
    refine ⟨h.put hno hn .nothing, by simp [putVar, upd], ?_, fun _ _ => rfl,
      fun a ha => absurd ha (hno a)⟩
    intro y hy; simp [putVar, upd, hy]
  cases hh with
  | str a s hs =>
    obtain ⟨⟨s', hs'⟩, hR⟩ := h.release (x := x) (a := a) ho (some ⟨.nothing, .ptr none⟩)
      (some (some .nothing)) hn (.inr ⟨_, _, rfl, rfl, fun _ => .nothing⟩)
    simp only [↓reduceIte, stringMember, free, hs']
    refine ⟨_, rfl, hR, by simp [putVar, upd], ?_, ?_, ?_⟩
    · intro y hy; simp [putVar, upd, hy]
    · intro b hb
      simp only [putVar, upd]
      rw [if_neg]
      rintro rfl; exact hb ho
    · intro b hb
      unfold Owns at hb
      rw [ho] at hb
      simp at hb
      subst hb
      simp [putVar, upd]
  | hollow =>
    simp only [↓reduceIte, stringMember, free]
    exact ⟨_, rfl, nonstring (by intro a ha; rw [Owns, ho] at ha; simp at ha)⟩
  | nothing | int | bool | default =>
    simp only [reduceCtorEq, ↓reduceIte]
    exact ⟨_, rfl, nonstring (by intro a ha; rw [Owns, ho] at ha; simp at ha)⟩

theorem setNothing_dead {m st x} (h : R m st) (hx : st x = none) :
    setNothing m x = .error .lifetime := by
  unfold setNothing
  rw [getVar_none ((h.dead x).2 hx)]
  rfl

theorem VStore.set_set (st : VStore) (x : Nat) (a b : Option Content) :
    (st.set x a).set x b = st.set x b := by
  funext y; simp only [VStore.set]; split <;> rfl

theorem VStore.set_self (st : VStore) (x : Nat) (a : Option Content) : (st.set x a) x = a := by
  simp [VStore.set]

theorem VStore.set_ne (st : VStore) {x y : Nat} (a : Option Content) (h : y ≠ x) :
    (st.set x a) y = st y := by
  simp [VStore.set, h]

theorem not_owns_of_nonptr {m : Mem} {x o} (ho : m.vars x = some o)
    (h : ∀ a, o ≠ ⟨.string, .ptr (some a)⟩) : ∀ a, ¬ Owns (m.vars x) a := by
  intro a ha
  rw [Owns, ho] at ha
  simp at ha
  exact h a ha

/-- Setting a non-string value. -/
theorem put_after_setNothing {m st x c} (h : R m st) (hx : st x = some c) (o : Obj) (v : LiteralValue)
    (hv : ∀ heap, Holds heap o (some v)) (hk : ∀ a, o ≠ ⟨.string, .ptr (some a)⟩) :
    ∃ m1, setNothing m x = .ok m1 ∧ R (putVar m1 x o) (st.set x (some (some v))) := by
  obtain ⟨m', h1, h2, h3, -⟩ := setNothing_ok h hx
  refine ⟨m', h1, ?_⟩
  have := h2.put (o := o) (c := some v) (not_owns_of_nonptr h3 (by simp)) (by
    intro a ha; simp [Owns] at ha; exact hk a ha) (hv _)
  rwa [VStore.set_set] at this

theorem setString_ok {m st x c} (h : R m st) (hx : st x = some c) (s : Str) :
    ∃ m', setString m x s = .ok m' ∧ R m' (st.set x (some (some (.string s)))) := by
  obtain ⟨m', h1, h2, h3, -⟩ := setNothing_ok h hx
  refine ⟨_, by simp only [setString, h1, bind, Except.bind]; rfl, ?_⟩
  have := h2.alloc s (x := x) (not_owns_of_nonptr h3 (by simp))
  rwa [VStore.set_set] at this

theorem setStringFrom_ok {m st x y c s} (h : R m st) (hx : st x = some c)
    (hy : st y = some (some (.string s))) (hne : x ≠ y) :
    ∃ m', setStringFrom m x y = .ok m' ∧ R m' (st.set x (some (some (.string s)))) := by
  obtain ⟨oy, hoy, hhy⟩ := h.live hy
  cases hhy with
  | str a _ hs =>
    obtain ⟨m', h1, h2, h3, h4, h5, -⟩ := setNothing_ok h hx
    have hheap : m'.heap a = some s := by
      rw [h5 a, hs]
      intro ho
      exact hne (h.inj x y a ho hoy)
    refine ⟨_, by
      simp only [setStringFrom, stringRef, getVar_some hoy, bind, Except.bind, ne_eq,
        not_true_eq_false, ↓reduceIte, stringMember, h1, deref, hheap]; rfl, ?_⟩
    have := h2.alloc s (x := x) (not_owns_of_nonptr h3 (by simp))
    rwa [VStore.set_set] at this

theorem copyAssign_ok {m st x y c v} (h : R m st) (hx : st x = some c)
    (hy : st y = some (some v)) (hne : x ≠ y) :
    ∃ m', copyAssign m x y = .ok m' ∧ R m' (st.set x (some (some v))) := by
  obtain ⟨ox, hox, -⟩ := h.live hx
  obtain ⟨oy, hoy, hhy⟩ := h.live hy
  obtain ⟨m', h1, h2, h3, h4, h5, -⟩ := setNothing_ok h hx
  have hy' : m'.vars y = some oy := by rw [h4 y (Ne.symm hne), hoy]
  have hx1 : (st.set x (some (some .nothing))) x = some (some .nothing) := VStore.set_self _ _ _
  have hy1 : (st.set x (some (some .nothing))) y = some (some v) := by
    rw [VStore.set_ne _ _ (Ne.symm hne)]; exact hy
  simp only [copyAssign, getVar_some hox, getVar_some hoy, bind, Except.bind, hne, ↓reduceIte, h1,
    getVar_some hy']
  cases hhy with
  | nothing => exact ⟨_, rfl, h2⟩
  | str a s hs =>
    obtain ⟨m'', g1, g2⟩ := setStringFrom_ok h2 hx1 hy1 hne
    rw [VStore.set_set] at g2
    exact ⟨m'', g1, g2⟩
  | int n =>
    obtain ⟨m1, g1, g2⟩ := put_after_setNothing h2 hx1 ⟨.unsigned, .int n⟩ (.unsigned n)
      (fun _ => .int n) (by simp)
    rw [VStore.set_set] at g2
    exact ⟨_, by simp only [getUnsigned, setUnsigned, g1, bind, Except.bind], g2⟩
  | bool b =>
    obtain ⟨m1, g1, g2⟩ := put_after_setNothing h2 hx1 ⟨.boolean, .bool b⟩ (.boolean b)
      (fun _ => .bool b) (by simp)
    rw [VStore.set_set] at g2
    exact ⟨_, by simp only [getBoolean, setBoolean, g1, bind, Except.bind], g2⟩
  | default =>
    obtain ⟨m1, g1, g2⟩ := put_after_setNothing h2 hx1 ⟨.default, .ptr none⟩ .default
      (fun _ => .default) (by simp)
    rw [VStore.set_set] at g2
    exact ⟨_, by simp only [setDefault, g1, bind, Except.bind], g2⟩

/-- Copying from a hollow object dereferences null. -/
theorem copyAssign_hollow {m st x y c} (h : R m st) (hx : st x = some c)
    (hy : st y = some none) (hne : x ≠ y) : copyAssign m x y = .error .nullDeref := by
  obtain ⟨ox, hox, -⟩ := h.live hx
  obtain ⟨oy, hoy, hhy⟩ := h.live hy
  obtain ⟨m', h1, h2, h3, h4, h5, -⟩ := setNothing_ok h hx
  have hy' : m'.vars y = some oy := by rw [h4 y (Ne.symm hne), hoy]
  simp only [copyAssign, getVar_some hox, getVar_some hoy, bind, Except.bind, hne, ↓reduceIte, h1,
    getVar_some hy']
  cases hhy
  simp [setStringFrom, stringRef, getVar_some hy', bind, Except.bind, stringMember]

/-- Exchanging the strings of two distinct string-like objects. -/
theorem R.swap {m st x y px py cx cy} (h : R m st) (hne : x ≠ y)
    (hx : m.vars x = some ⟨.string, .ptr px⟩) (hy : m.vars y = some ⟨.string, .ptr py⟩)
    (hcx : st x = some cx) (hcy : st y = some cy) :
    R (putVar (putVar m x ⟨.string, .ptr py⟩) y ⟨.string, .ptr px⟩)
      ((st.set y (some cx)).set x (some cy)) := by
  have hhx := h.holds x _ cx hx hcx
  have hhy := h.holds y _ cy hy hcy
  constructor
  · intro z; simp only [putVar, upd, VStore.set]
    by_cases h1 : z = y <;> by_cases h2 : z = x
    · exact absurd (h2.symm.trans h1) hne
    · simp [h1, Ne.symm hne]
    · simp [h2, hne]
    · simp only [h1, h2, ↓reduceIte]; exact h.dead z
  · intro z o c; simp only [putVar, upd, VStore.set]
    by_cases h1 : z = y <;> by_cases h2 : z = x
    · exact absurd (h2.symm.trans h1) hne
    · simp only [h1, ↓reduceIte, Option.some.injEq]
      rw [if_neg (Ne.symm hne)]
      simp only [Option.some.injEq]
      rintro rfl rfl; exact hhx
    · simp only [h2, h1, ↓reduceIte, Option.some.injEq]
      rw [if_neg hne]
      simp only [Option.some.injEq]
      rintro rfl rfl; exact hhy
    · simp only [h1, h2, ↓reduceIte]; exact h.holds z o c
  · have key : ∀ z a, Owns ((putVar (putVar m x ⟨.string, .ptr py⟩) y ⟨.string, .ptr px⟩).vars z) a →
        Owns (m.vars (if z = x then y else if z = y then x else z)) a := by
      intro z a
      simp only [putVar, upd]
      by_cases h1 : z = y <;> by_cases h2 : z = x
      · exact absurd (h2.symm.trans h1) hne
      · subst h1; simp [h2, Owns, hx]
      · subst h2; simp [h1, Owns, hy]
      · simp [h1, h2]
    intro z w a hz hw
    have := h.inj _ _ a (key z a hz) (key w a hw)
    by_cases hzx : z = x <;> by_cases hzy : z = y <;> by_cases hwx : w = x <;>
      by_cases hwy : w = y <;> simp only [hzx, hzy, hwx, hwy, hne, Ne.symm hne, ↓reduceIte] at this ⊢ <;>
      omega
  · intro a s hs
    obtain ⟨z, hz⟩ := h.owned a s hs
    by_cases h1 : z = y <;> by_cases h2 : z = x
    · exact absurd (h2.symm.trans h1) hne
    · subst h1
      refine ⟨x, ?_⟩
      simp only [putVar, upd, hne, ↓reduceIte]
      rw [Owns, hy] at hz
      exact hz
    · subst h2
      refine ⟨y, ?_⟩
      simp only [putVar, upd, ↓reduceIte]
      rw [Owns, hx] at hz
      exact hz
    · refine ⟨z, ?_⟩
      simp only [putVar, upd, h1, h2, ↓reduceIte]
      exact hz
  · exact h.fresh

theorem swapStrings_ne {m : Mem} {x y px py} (hne : x ≠ y)
    (hx : m.vars x = some ⟨.string, .ptr px⟩) (hy : m.vars y = some ⟨.string, .ptr py⟩) :
    swapStrings m x y = .ok (putVar (putVar m x ⟨.string, .ptr py⟩) y ⟨.string, .ptr px⟩) := by
  have : (putVar m x ⟨.string, .ptr py⟩).vars y = some ⟨.string, .ptr py⟩ := by
    simp [putVar, upd, Ne.symm hne, hy]
  simp only [swapStrings, getVar_some hx, getVar_some hy, bind, Except.bind, stringMember,
    getVar_some this]

theorem putVar_same {m : Mem} {x o} (h : m.vars x = some o) : putVar m x o = m := by
  have : upd m.vars x (some o) = m.vars := by
    funext y; simp only [upd]; split
    · rename_i e; rw [e, h]
    · rfl
  simp [putVar, this]

theorem swapStrings_self {m : Mem} {x px}
    (hx : m.vars x = some ⟨.string, .ptr px⟩) : swapStrings m x x = .ok m := by
  simp only [swapStrings, getVar_some hx, bind, Except.bind, stringMember, putVar_same hx]

theorem Holds.stringLike_iff {heap o c} (h : Holds heap o c) :
    (o.kind = .string ↔ stringLike c = true) := by
  cases h <;> simp [stringLike]

theorem Holds.of_stringLike {heap o c} (h : Holds heap o c) (hk : stringLike c = true) :
    ∃ p, o = ⟨.string, .ptr p⟩ := by
  cases h with
  | hollow => exact ⟨none, rfl⟩
  | str a => exact ⟨some a, rfl⟩
  | _ => simp [stringLike] at hk

theorem VStore.set_eq_self {st : VStore} {x : Nat} {v : Option Content} (h : st x = v) :
    st.set x v = st := by
  funext y; simp only [VStore.set]; split
  · rename_i e; rw [e, h]
  · rfl

theorem VStore.set_comm (st : VStore) {x y : Nat} (h : x ≠ y) (a b : Option Content) :
    (st.set x a).set y b = (st.set y b).set x a := by
  funext z; simp only [VStore.set]
  by_cases h1 : z = x <;> by_cases h2 : z = y
  · exact absurd (h1.symm.trans h2) h
  · simp [h1, h]
  · simp [h2, Ne.symm h]
  · simp [h1, h2]

theorem moveAssign_ok {m st x y cx cy} (h : R m st) (hx : st x = some cx) (hy : st y = some cy) :
    ∃ m' st', moveAssign m x y = .ok m' ∧ vstep st (.moveAssign x y) = some (st', []) ∧ R m' st' := by
  obtain ⟨ox, hox, hhx⟩ := h.live hx
  obtain ⟨oy, hoy, hhy⟩ := h.live hy
  simp only [moveAssign, getVar_some hox, getVar_some hoy, bind, Except.bind, vstep, hx, hy]
  by_cases hs : stringLike cy = true
  · rw [if_pos (hhy.stringLike_iff.2 hs), if_pos hs]
    obtain ⟨py, rfl⟩ := hhy.of_stringLike hs
    by_cases hxs : stringLike cx = true
    · obtain ⟨px, rfl⟩ := hhx.of_stringLike hxs
      simp only [ne_eq, not_true_eq_false, ↓reduceIte, hxs]
      by_cases hne : x = y
      · subst hne
        rw [swapStrings_self hox]
        rw [hx] at hy; cases hy
        refine ⟨_, _, rfl, rfl, ?_⟩
        rw [VStore.set_set, VStore.set_eq_self hx]
        exact h
      · rw [swapStrings_ne hne hox hoy]
        exact ⟨_, _, rfl, rfl, h.swap hne hox hoy hx hy⟩
    · have hk : ox.kind ≠ .string := fun e => hxs (hhx.stringLike_iff.1 e)
      have hne : x ≠ y := by
        rintro rfl
        rw [hx] at hy; cases hy
        exact hxs hs
      simp only [ne_eq, hk, not_false_eq_true, ↓reduceIte, hxs, Bool.false_eq_true]
      have h1 : R (putVar m x ⟨.string, .ptr none⟩) (st.set x (some none)) :=
        h.put (not_owns_of_nonptr hox (by rintro a rfl; exact hk rfl))
          (by intro a ha; simp [Owns] at ha) .hollow
      have gx : (putVar m x ⟨.string, .ptr none⟩).vars x = some ⟨.string, .ptr none⟩ := by
        simp [putVar, upd]
      have gy : (putVar m x ⟨.string, .ptr none⟩).vars y = some ⟨.string, .ptr py⟩ := by
        simp [putVar, upd, Ne.symm hne, hoy]
      rw [swapStrings_ne hne gx gy]
      have := h1.swap hne gx gy (cx := none) (cy := cy) (VStore.set_self _ _ _)
        (by rw [VStore.set_ne _ _ (Ne.symm hne)]; exact hy)
      refine ⟨_, _, rfl, rfl, ?_⟩
      rw [VStore.set_comm _ hne, VStore.set_set] at this
      exact this
  · have hs' : stringLike cy = false := by simpa using hs
    rw [if_neg (fun e => hs (hhy.stringLike_iff.1 e)), if_neg hs]
    by_cases hne : x = y
    · subst hne
      rw [hx] at hy; cases hy
      refine ⟨m, _, by simp [copyAssign, getVar_some hox, bind, Except.bind], rfl, ?_⟩
      rw [VStore.set_eq_self hx]; exact h
    · cases cy with
      | none => simp [stringLike] at hs
      | some v =>
        obtain ⟨m', g1, g2⟩ := copyAssign_ok h hx hy hne
        exact ⟨m', _, g1, rfl, g2⟩

theorem construct_ok {m st x} (h : R m st) (hx : st x = none) :
    ∃ m', construct m x = .ok m' ∧ R m' (st.set x (some (some .nothing))) ∧
      m'.vars x = some ⟨.nothing, .ptr none⟩ ∧ (∀ y, y ≠ x → m'.vars y = m.vars y) := by
  have hv := (h.dead x).2 hx
  refine ⟨putVar m x ⟨.nothing, .ptr none⟩, by simp only [construct, hv], ?_, by simp [putVar, upd], ?_⟩
  · exact h.put (by intro a ha; rw [Owns, hv] at ha; cases ha)
      (by intro a ha; simp [Owns] at ha) .nothing
  · intro y hy; simp [putVar, upd, hy]

theorem moveConstruct_ok {m st x y cy} (h : R m st) (hx : st x = none) (hy : st y = some cy) :
    ∃ m' st', moveConstruct m x y = .ok m' ∧ vstep st (.moveConstruct x y) = some (st', []) ∧
      R m' st' := by
  obtain ⟨oy, hoy, hhy⟩ := h.live hy
  have hne : x ≠ y := by rintro rfl; rw [hx] at hy; cases hy
  obtain ⟨m1, h1, h2, h3, h4⟩ := construct_ok h hx
  have hoy1 : m1.vars y = some oy := by rw [h4 y (Ne.symm hne), hoy]
  have hx1 : (st.set x (some (some .nothing))) x = some (some .nothing) := VStore.set_self _ _ _
  have hy1 : (st.set x (some (some .nothing))) y = some cy := by
    rw [VStore.set_ne _ _ (Ne.symm hne)]; exact hy
  simp only [moveConstruct, getVar_some hoy, bind, Except.bind, h1, getVar_some hoy1, vstep, hx, hy,
    getVar_some h3]
  by_cases hs : stringLike cy = true
  · rw [if_pos (hhy.stringLike_iff.2 hs), if_pos hs]
    obtain ⟨py, rfl⟩ := hhy.of_stringLike hs
    have g1 : R (putVar m1 x ⟨.string, .ptr none⟩) (st.set x (some none)) := by
      have := h2.put (c := none) (o := ⟨.string, .ptr none⟩) (not_owns_of_nonptr h3 (by simp))
        (by intro a ha; simp [Owns] at ha) .hollow
      rwa [VStore.set_set] at this
    have gx : (putVar m1 x ⟨.string, .ptr none⟩).vars x = some ⟨.string, .ptr none⟩ := by
      simp [putVar, upd]
    have gy : (putVar m1 x ⟨.string, .ptr none⟩).vars y = some ⟨.string, .ptr py⟩ := by
      simp [putVar, upd, Ne.symm hne, hoy1]
    rw [swapStrings_ne hne gx gy]
    have g2 := g1.swap hne gx gy (cx := none) (cy := cy) (VStore.set_self _ _ _)
      (by rw [VStore.set_ne _ _ (Ne.symm hne)]; exact hy)
    have gy2 : (putVar (putVar (putVar m1 x ⟨.string, .ptr none⟩) x ⟨.string, .ptr py⟩) y
        ⟨.string, .ptr none⟩).vars y = some ⟨.string, .ptr none⟩ := by simp [putVar, upd]
    simp only [getVar_some gy2]
    refine ⟨_, _, rfl, rfl, ?_⟩
    have g3 := g2.put (x := y) (c := some .nothing) (o := ⟨.nothing, .ptr none⟩)
      (not_owns_of_nonptr gy2 (by simp)) (by intro a ha; simp [Owns] at ha) .nothing
    have e : (((st.set x (some none)).set y (some none)).set x (some cy)).set y (some (some .nothing))
        = (st.set x (some cy)).set y (some (some .nothing)) := by
      funext z; simp only [VStore.set]
      by_cases e1 : z = x <;> by_cases e2 : z = y <;> simp [e1, e2]
    rw [e] at g3
    exact g3
  · rw [if_neg (fun e => hs (hhy.stringLike_iff.1 e)), if_neg hs]
    cases cy with
    | none => simp [stringLike] at hs
    | some v =>
      obtain ⟨m', g1, g2⟩ := copyAssign_ok h2 hx1 hy1 hne
      rw [VStore.set_set] at g2
      exact ⟨m', _, g1, rfl, g2⟩

theorem destroy_ok {m st x c} (h : R m st) (hx : st x = some c) :
    ∃ m', destroy m x = .ok m' ∧ R m' (st.set x none) := by
  obtain ⟨o, ho, hh⟩ := h.live hx
  have plain : (∀ a, ¬ Owns (m.vars x) a) →
      R { m with vars := upd m.vars x none } (st.set x none) := by
    intro hno
    constructor
    · intro y; simp only [upd, VStore.set]
      split
      · simp
      · exact h.dead y
    · intro y o' c'; simp only [upd, VStore.set]
      split
      · simp
      · exact h.holds y o' c'
    · intro y z a; simp only [upd]
      split
      · intro hy; cases hy
      · split
        · intro _ hz; cases hz
        · exact h.inj y z a
    · intro a s hs
      obtain ⟨y, hy⟩ := h.owned a s hs
      refine ⟨y, ?_⟩
      simp only [upd]
      rw [if_neg]
      · exact hy
      · rintro rfl; exact hno a hy
    · exact h.fresh
  simp only [destroy, getVar_some ho, bind, Except.bind]
  cases hh with
  | str a s hs =>
    obtain ⟨⟨s', hs'⟩, hR⟩ := h.release (x := x) (a := a) ho none none
      (by intro b hb; cases hb) (.inl ⟨rfl, rfl⟩)
    simp only [↓reduceIte, stringMember, free, hs']
    exact ⟨_, rfl, hR⟩
  | hollow =>
    simp only [↓reduceIte, stringMember, free]
    exact ⟨_, rfl, plain (not_owns_of_nonptr ho (by simp))⟩
  | nothing | int | bool | default =>
    simp only [reduceCtorEq, ↓reduceIte]
    exact ⟨_, rfl, plain (not_owns_of_nonptr ho (by simp))⟩

/-- The circumstances under which each fault can occur. -/
def Benign (st : VStore) (op : Op) : Fault → Prop
  | .doubleFree => False
  | .wrongMember => ∃ x y, op = .setStringFrom x y
  | .useAfterFree => ∃ x, op = .setStringFrom x x
  | .nullDeref => ∃ x, st x = some none
  | .lifetime => True

theorem read_spec {m st} (h : R m st) (x : Nat) :
    match st x with
    | some (some v) => read m x = .ok v
    | some none => read m x = .error .nullDeref
    | none => read m x = .error .lifetime := by
  split
  · rename_i v hx
    obtain ⟨o, ho, hh⟩ := h.live hx
    simp only [read, getVar_some ho, bind, Except.bind]
    cases hh with
    | str a s hs => simp [stringMember, deref, hs]
    | _ => simp [getUnsigned, getBoolean]
  · rename_i hx
    obtain ⟨o, ho, hh⟩ := h.live hx
    simp only [read, getVar_some ho, bind, Except.bind]
    cases hh
    simp [stringMember, deref]
  · rename_i hx
    simp [read, getVar_none ((h.dead x).2 hx), bind, Except.bind]

theorem equal_spec {m st} (h : R m st) (x y : Nat) :
    (∃ b, equal m x y = .ok b ∧ vstep st (.equal x y) = some (st, [.bool b])) ∨
    (∃ f, equal m x y = .error f ∧ ((f = .nullDeref ∧ ∃ z, st z = some none) ∨ f = .lifetime) ∧
      vstep st (.equal x y) = none) := by
  cases hx : st x with
  | none =>
    right
    exact ⟨.lifetime, by simp [equal, getVar_none ((h.dead x).2 hx), bind, Except.bind], .inr rfl,
      by simp [vstep, hx]⟩
  | some cx =>
    obtain ⟨ox, hox, hhx⟩ := h.live hx
    cases hy : st y with
    | none =>
      right
      exact ⟨.lifetime, by simp [equal, getVar_some hox, getVar_none ((h.dead y).2 hy), bind,
        Except.bind], .inr rfl, by simp [vstep, hx, hy]⟩
    | some cy =>
      obtain ⟨oy, hoy, hhy⟩ := h.live hy
      simp only [equal, getVar_some hox, getVar_some hoy, bind, Except.bind, vstep, hx, hy]
      have hol : (cx = none ∨ cy = none) → ∃ z, st z = some none := by
        rintro (rfl | rfl)
        · exact ⟨x, hx⟩
        · exact ⟨y, hy⟩
      cases hhx <;> cases hhy <;>
        simp_all [stringMember, deref, getUnsigned, getBoolean, stringLike]

/-- Simulation of one operation. -/
theorem step_sim {m st} (h : R m st) (op : Op) :
    (∃ m' st' o, step m op = .ok (m', o) ∧ vstep st op = some (st', o) ∧ R m' st') ∨
    (∃ f, step m op = .error f ∧ vstep st op = none ∧ Benign st op f) := by
  have setter : ∀ (x : Nat) (v : LiteralValue) (f : M Mem),
      (∀ c, st x = some c → ∃ m', f = .ok m' ∧ R m' (st.set x (some (some v)))) →
      (st x = none → f = .error .lifetime) →
      (∃ m' st' o, f.map (·, ([] : List Obs)) = .ok (m', o) ∧
        (assign st x (some v)).map (·, ([] : List Obs)) = some (st', o) ∧ R m' st') ∨
      (∃ e, f.map (·, ([] : List Obs)) = .error e ∧
        (assign st x (some v)).map (·, ([] : List Obs)) = none ∧ e = .lifetime) := by
    intro x v f h1 h2
    cases hx : st x with
    | none =>
      right
      exact ⟨.lifetime, by rw [h2 hx]; rfl, by simp [assign, hx], rfl⟩
    | some c =>
      left
      obtain ⟨m', g1, g2⟩ := h1 c hx
      exact ⟨m', _, [], by rw [g1]; rfl, by simp [assign, hx], g2⟩
  have lift : ∀ {P : Prop} {Q : Fault → Prop},
      (P ∨ ∃ e, Q e ∧ e = .lifetime) → (P ∨ ∃ e, Q e ∧ Benign st op e) := by
    rintro P Q (h | ⟨e, h1, rfl⟩)
    · exact .inl h
    · exact .inr ⟨_, h1, trivial⟩
  have lift' : ∀ {P : Prop} {Q1 Q2 : Fault → Prop},
      (P ∨ ∃ e, Q1 e ∧ Q2 e ∧ e = .lifetime) → (P ∨ ∃ e, Q1 e ∧ Q2 e ∧ Benign st op e) := by
    rintro P Q1 Q2 (h | ⟨e, h1, h2, rfl⟩)
    · exact .inl h
    · exact .inr ⟨_, h1, h2, trivial⟩
  cases op with
  | construct x =>
    simp only [step, vstep]
    cases hx : st x with
    | none =>
      obtain ⟨m', g1, g2, -⟩ := construct_ok h hx
      exact .inl ⟨m', _, [], by rw [g1]; rfl, rfl, g2⟩
    | some c =>
      obtain ⟨o, ho, -⟩ := h.live hx
      exact .inr ⟨.lifetime, by simp [construct, ho, Except.map], rfl, trivial⟩
  | copyConstruct x y =>
    simp only [step, vstep]
    cases hy : st y with
    | none =>
      exact .inr ⟨.lifetime, by simp [copyConstruct, getVar_none ((h.dead y).2 hy), bind,
        Except.bind, Except.map], rfl, trivial⟩
    | some cy =>
      obtain ⟨oy, hoy, hhy⟩ := h.live hy
      cases hx : st x with
      | some cx =>
        obtain ⟨ox, hox, -⟩ := h.live hx
        refine .inr ⟨.lifetime, by simp [copyConstruct, getVar_some hoy, construct, hox, bind,
          Except.bind, Except.map], ?_, trivial⟩
        cases cy <;> rfl
      | none =>
        have hne : x ≠ y := by rintro rfl; rw [hx] at hy; cases hy
        obtain ⟨m1, h1, h2, h3, h4⟩ := construct_ok h hx
        have hx1 : (st.set x (some (some .nothing))) x = some (some .nothing) := VStore.set_self _ _ _
        have hy1 : (st.set x (some (some .nothing))) y = some cy := by
          rw [VStore.set_ne _ _ (Ne.symm hne)]; exact hy
        cases cy with
        | none =>
          refine .inr ⟨.nullDeref, ?_, rfl, y, hy⟩
          simp [copyConstruct, getVar_some hoy, h1, copyAssign_hollow h2 hx1 hy1 hne, bind,
            Except.bind, Except.map]
        | some v =>
          obtain ⟨m', g1, g2⟩ := copyAssign_ok h2 hx1 hy1 hne
          rw [VStore.set_set] at g2
          refine .inl ⟨m', _, [], ?_, rfl, g2⟩
          simp [copyConstruct, getVar_some hoy, h1, g1, bind, Except.bind, Except.map]
  | moveConstruct x y =>
    simp only [step]
    cases hy : st y with
    | none =>
      exact .inr ⟨.lifetime, by simp [moveConstruct, getVar_none ((h.dead y).2 hy), bind,
        Except.bind, Except.map], by simp [vstep, hy], trivial⟩
    | some cy =>
      obtain ⟨oy, hoy, hhy⟩ := h.live hy
      cases hx : st x with
      | some cx =>
        obtain ⟨ox, hox, -⟩ := h.live hx
        exact .inr ⟨.lifetime, by simp [moveConstruct, getVar_some hoy, construct, hox, bind,
          Except.bind, Except.map], by simp [vstep, hx, hy], trivial⟩
      | none =>
        obtain ⟨m', st', g1, g2, g3⟩ := moveConstruct_ok h hx hy
        exact .inl ⟨m', st', [], by rw [g1]; rfl, g2, g3⟩
  | copyAssign x y =>
    simp only [step, vstep]
    cases hx : st x with
    | none =>
      refine .inr ⟨.lifetime, by simp [copyAssign, getVar_none ((h.dead x).2 hx), bind,
        Except.bind, Except.map], by split <;> rfl, trivial⟩
    | some cx =>
      obtain ⟨ox, hox, -⟩ := h.live hx
      by_cases hne : x = y
      · subst hne
        exact .inl ⟨m, st, [], by simp [copyAssign, getVar_some hox, bind, Except.bind, Except.map],
          by simp, h⟩
      · simp only [hne, ↓reduceIte]
        cases hy : st y with
        | none =>
          exact .inr ⟨.lifetime, by simp [copyAssign, getVar_some hox,
            getVar_none ((h.dead y).2 hy), bind, Except.bind, Except.map], rfl, trivial⟩
        | some cy =>
          cases cy with
          | none =>
            exact .inr ⟨.nullDeref, by rw [copyAssign_hollow h hx hy hne]; rfl, rfl, y, hy⟩
          | some v =>
            obtain ⟨m', g1, g2⟩ := copyAssign_ok h hx hy hne
            exact .inl ⟨m', _, [], by rw [g1]; rfl, rfl, g2⟩
  | moveAssign x y =>
    simp only [step]
    cases hx : st x with
    | none =>
      exact .inr ⟨.lifetime, by simp [moveAssign, getVar_none ((h.dead x).2 hx), bind,
        Except.bind, Except.map], by simp [vstep, hx], trivial⟩
    | some cx =>
      obtain ⟨ox, hox, -⟩ := h.live hx
      cases hy : st y with
      | none =>
        exact .inr ⟨.lifetime, by simp [moveAssign, getVar_some hox,
          getVar_none ((h.dead y).2 hy), bind, Except.bind, Except.map], by simp [vstep, hx, hy],
          trivial⟩
      | some cy =>
        obtain ⟨m', st', g1, g2, g3⟩ := moveAssign_ok h hx hy
        exact .inl ⟨m', st', [], by rw [g1]; rfl, g2, g3⟩
  | setNothing x =>
    refine lift' (setter x .nothing (setNothing m x) ?_ ?_)
    · intro c hc
      obtain ⟨m', g1, g2, -⟩ := setNothing_ok h hc
      exact ⟨m', g1, g2⟩
    · exact setNothing_dead h
  | setString x s =>
    refine lift' (setter x (.string s) (setString m x s) ?_ ?_)
    · intro c hc; exact setString_ok h hc s
    · intro hx; simp [setString, setNothing_dead h hx, bind, Except.bind]
  | setUnsigned x n =>
    refine lift' (setter x (.unsigned n) (setUnsigned m x n) ?_ ?_)
    · intro c hc
      obtain ⟨m1, g1, g2⟩ := put_after_setNothing h hc ⟨.unsigned, .int n⟩ (.unsigned n)
        (fun _ => .int n) (by simp)
      exact ⟨_, by simp only [setUnsigned, g1, bind, Except.bind], g2⟩
    · intro hx; simp [setUnsigned, setNothing_dead h hx, bind, Except.bind]
  | setBoolean x b =>
    refine lift' (setter x (.boolean b) (setBoolean m x b) ?_ ?_)
    · intro c hc
      obtain ⟨m1, g1, g2⟩ := put_after_setNothing h hc ⟨.boolean, .bool b⟩ (.boolean b)
        (fun _ => .bool b) (by simp)
      exact ⟨_, by simp only [setBoolean, g1, bind, Except.bind], g2⟩
    · intro hx; simp [setBoolean, setNothing_dead h hx, bind, Except.bind]
  | setDefault x =>
    refine lift' (setter x .default (setDefault m x) ?_ ?_)
    · intro c hc
      obtain ⟨m1, g1, g2⟩ := put_after_setNothing h hc ⟨.default, .ptr none⟩ .default
        (fun _ => .default) (by simp)
      exact ⟨_, by simp only [setDefault, g1, bind, Except.bind], g2⟩
    · intro hx; simp [setDefault, setNothing_dead h hx, bind, Except.bind]
  | setStringFrom x y =>
    simp only [step, vstep]
    cases hy : st y with
    | none =>
      refine .inr ⟨.lifetime, by simp [setStringFrom, stringRef, getVar_none ((h.dead y).2 hy),
        bind, Except.bind, Except.map], ?_, trivial⟩
      cases st x <;> rfl
    | some cy =>
      obtain ⟨oy, hoy, hhy⟩ := h.live hy
      have nonstr : oy.kind ≠ .string →
          (setStringFrom m x y).map (·, ([] : List Obs)) = .error .wrongMember := by
        intro hk
        simp [setStringFrom, stringRef, getVar_some hoy, hk, bind, Except.bind, Except.map]
      cases hhy with
      | nothing | int | bool | default =>
        refine .inr ⟨.wrongMember, nonstr (by simp), ?_, x, y, rfl⟩
        cases st x <;> rfl
      | hollow =>
        refine .inr ⟨.nullDeref, by simp [setStringFrom, stringRef, getVar_some hoy, stringMember,
          bind, Except.bind, Except.map], ?_, y, hy⟩
        cases st x <;> rfl
      | str a s hs =>
        cases hx : st x with
        | none =>
          exact .inr ⟨.lifetime, by simp [setStringFrom, stringRef, getVar_some hoy, stringMember,
            setNothing_dead h hx, bind, Except.bind, Except.map], rfl, trivial⟩
        | some cx =>
          by_cases hne : x = y
          · subst hne
            obtain ⟨m', g1, -, -, -, -, g6⟩ := setNothing_ok h hx
            refine .inr ⟨.useAfterFree, ?_, by simp, x, rfl⟩
            simp [setStringFrom, stringRef, getVar_some hoy, stringMember, g1, deref, g6 a hoy,
              bind, Except.bind, Except.map]
          · obtain ⟨m', g1, g2⟩ := setStringFrom_ok h hx hy hne
            exact .inl ⟨m', _, [], by rw [g1]; rfl, by simp [hne], g2⟩
  | destroy x =>
    simp only [step, vstep]
    cases hx : st x with
    | none =>
      exact .inr ⟨.lifetime, by simp [destroy, getVar_none ((h.dead x).2 hx), bind, Except.bind,
        Except.map], rfl, trivial⟩
    | some c =>
      obtain ⟨m', g1, g2⟩ := destroy_ok h hx
      exact .inl ⟨m', _, [], by rw [g1]; rfl, rfl, g2⟩
  | read x =>
    have hr := read_spec h x
    simp only [step, vstep]
    cases hx : st x with
    | none =>
      rw [hx] at hr
      exact .inr ⟨.lifetime, by rw [hr]; rfl, rfl, trivial⟩
    | some c =>
      rw [hx] at hr
      cases c with
      | none => exact .inr ⟨.nullDeref, by rw [hr]; rfl, rfl, x, hx⟩
      | some v => exact .inl ⟨m, st, _, by rw [hr]; rfl, rfl, h⟩
  | equal x y =>
    rcases equal_spec h x y with ⟨b, g1, g2⟩ | ⟨f, g1, g2, g3⟩
    · exact .inl ⟨m, st, _, by rw [step, g1]; rfl, g2, h⟩
    · refine .inr ⟨f, by rw [step, g1]; rfl, g3, ?_⟩
      rcases g2 with ⟨rfl, g2⟩ | rfl
      · exact g2
      · trivial

/-- Simulation of histories. -/
theorem run_sim {m st} (h : R m st) (ops : List Op) :
    (∃ m' st' o, run m ops = .ok (m', o) ∧ vrun st ops = some (st', o) ∧ R m' st') ∨
    (∃ f, run m ops = .error f ∧ vrun st ops = none ∧
      ∃ pre op post st' o, ops = pre ++ op :: post ∧ vrun st pre = some (st', o) ∧ Benign st' op f) := by
  induction ops generalizing m st with
  | nil => exact .inl ⟨m, st, [], rfl, rfl, h⟩
  | cons op ops ih =>
    rcases step_sim h op with ⟨m', st', o, g1, g2, g3⟩ | ⟨f, g1, g2, g3⟩
    · rcases ih g3 with ⟨m'', st'', o', k1, k2, k3⟩ | ⟨f, k1, k2, pre, op', post, st2, o', k3, k4, k5⟩
      · exact .inl ⟨m'', st'', o ++ o', by simp [run, g1, k1, bind, Except.bind],
          by simp [vrun, g2, k2], k3⟩
      · exact .inr ⟨f, by simp [run, g1, k1, bind, Except.bind], by simp [vrun, g2, k2], op :: pre, op', post,
          st2, o ++ o', by simp [k3], by simp [vrun, g2, k4], k5⟩
    · exact .inr ⟨f, by simp [run, g1, bind, Except.bind], by simp [vrun, g2], [], op, ops, st,
        [], rfl, rfl, g3⟩

theorem vrun_append (st : VStore) (a b : List Op) :
    vrun st (a ++ b) = (vrun st a).bind fun r => (vrun r.1 b).map fun r' => (r'.1, r.2 ++ r'.2) := by
  induction a generalizing st with
  | nil => simp [vrun]
  | cons op a ih =>
    simp only [List.cons_append, vrun]
    cases h : vstep st op with
    | none => rfl
    | some r =>
      obtain ⟨st', o⟩ := r
      simp only [ih]
      cases h1 : vrun st' a with
      | none => simp
      | some r1 =>
        simp only [Option.bind_some]
        cases h2 : vrun r1.1 b with
        | none => simp [h2]
        | some r2 => simp [h2]

theorem noHollow_step {st st' : VStore} {op : Op} {o : List Obs} (h : ∀ x, st x ≠ some none)
    (hm : ∀ x y cx cy, op = .moveAssign x y → st x = some cx → st y = some cy →
      stringLike cy = true → stringLike cx = true)
    (hs : vstep st op = some (st', o)) : ∀ x, st' x ≠ some none := by
  have hset : ∀ (s : VStore) z (v : LiteralValue), (∀ x, s x ≠ some none) →
      ∀ x, (s.set z (some (some v))) x ≠ some none := by
    intro s z v hh x
    simp only [VStore.set]
    split
    · simp
    · exact hh x
  have hass : ∀ z (v : LiteralValue), (assign st z (some v)).map (·, ([] : List Obs)) = some (st', o) →
      ∀ x, st' x ≠ some none := by
    intro z v he
    simp only [assign] at he
    split at he
    · cases he
    · simp at he; rw [← he.1]; exact hset _ _ _ h
  cases op with
  | construct z =>
    simp only [vstep] at hs
    split at hs
    · cases hs
    · simp at hs; rw [← hs.1]; exact hset _ _ _ h
  | copyConstruct z y =>
    simp only [vstep] at hs
    split at hs
    · simp at hs; rw [← hs.1]; exact hset _ _ _ h
    · cases hs
  | moveConstruct z y =>
    simp only [vstep] at hs
    split at hs
    · rename_i c hy hz
      cases c with
      | none => exact absurd hy (h y)
      | some v =>
        simp at hs; rw [← hs.1]
        split
        · exact hset _ _ _ (hset _ _ _ h)
        · exact hset _ _ _ h
    · cases hs
  | copyAssign z y =>
    simp only [vstep] at hs
    split at hs
    · split at hs
      · simp at hs; rw [← hs.1]; exact h
      · cases hs
    · split at hs
      · simp at hs; rw [← hs.1]; exact hset _ _ _ h
      · cases hs
  | moveAssign z y =>
    simp only [vstep] at hs
    split at hs
    · rename_i cx cy hz hy
      cases cy with
      | none => exact absurd hy (h y)
      | some v =>
        cases cx with
        | none => exact absurd hz (h z)
        | some w =>
          split at hs
          · rename_i hv
            have := hm z y _ _ rfl hz hy hv
            rw [this] at hs
            simp at hs; rw [← hs.1]
            exact hset _ _ _ (hset _ _ _ h)
          · simp at hs; rw [← hs.1]
            exact hset _ _ _ h
    · cases hs
  | setNothing z => exact hass z _ hs
  | setString z s => exact hass z _ hs
  | setUnsigned z n => exact hass z _ hs
  | setBoolean z b => exact hass z _ hs
  | setDefault z => exact hass z _ hs
  | setStringFrom z y =>
    simp only [vstep] at hs
    split at hs
    · split at hs
      · cases hs
      · simp at hs; rw [← hs.1]; exact hset _ _ _ h
    · cases hs
  | destroy z =>
    simp only [vstep] at hs
    split at hs
    · simp at hs; rw [← hs.1]
      intro x
      simp only [VStore.set]
      split
      · simp
      · exact h x
    · cases hs
  | read z =>
    simp only [vstep] at hs
    split at hs
    · simp at hs; rw [← hs.1]; exact h
    · cases hs
  | equal z y =>
    simp only [vstep] at hs
    split at hs
    · simp at hs; rw [← hs.1]; exact h
    · split at hs
      · cases hs
      · simp at hs; rw [← hs.1]; exact h
    · split at hs
      · cases hs
      · simp at hs; rw [← hs.1]; exact h
    · cases hs

theorem noHollow_run {st : VStore} {pre post : List Op} {st' : VStore} {o : List Obs}
    (h : ∀ x, st x ≠ some none) (hm : MovesIntoStrings st (pre ++ post))
    (hr : vrun st pre = some (st', o)) : ∀ x, st' x ≠ some none := by
  induction pre generalizing st o with
  | nil => simp [vrun] at hr; rw [← hr.1]; exact h
  | cons op pre ih =>
    simp only [vrun] at hr
    split at hr
    · cases hr
    · rename_i st1 o1 hs
      split at hr
      · cases hr
      · rename_i st2 o2 hr2
        simp at hr
        obtain ⟨rfl, -⟩ := hr
        exact ih (noHollow_step h hm.1 hs) (hm.2 _ _ hs) hr2

end Verif.LH
