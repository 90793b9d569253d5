import Verif.Lemmas.Dispatch
import Verif.Lemmas.Annotations
/-!
# Lemmas: each kind of annotation is about one field only

What is reported, and whether an annotation is accepted, does not depend on the attributes; only
one field of the attributes is read and written.
-/
namespace Verif
open Spec

/-- A field. -/
structure Slot (σ : Type) where
  β : Type
  get : σ → β
  put : σ → β → σ
  get_put : ∀ n u, get (put n u) = u
  put_get : ∀ n, put n (get n) = n
  put_put : ∀ n u v, put (put n u) v = put n v

variable {σ : Type}

/-- A callback about the field. -/
def Slot.Acts (s : Slot σ) (g : Callback σ) : Prop :=
  ∃ (F : s.β → s.β) (ds : List Diag), ∀ n, g n = (s.put n (F (s.get n)), ds)

/-- Dispatchers for different attributes that only differ in this field of the attributes. -/
def Slot.Steady (s : Slot σ) (D : σ → Dispatcher σ) : Prop :=
  ∃ (F : s.β → s.β) (d : Dispatcher σ), ∀ n, D n = { d with attrs := s.put n (F (s.get n)) }

/-- Results for different attributes that only differ in this field of the attributes. -/
def Slot.Stable (s : Slot σ) (O : σ → Outcome σ) : Prop :=
  ∃ (F : s.β → s.β) (h : Bool) (ds : List Diag), ∀ n, O n = ⟨h, s.put n (F (s.get n)), ds⟩

variable {s : Slot σ} {D : σ → Dispatcher σ}

theorem Slot.acts_put (s : Slot σ) (F : s.β → s.β) : s.Acts (modify fun n => s.put n (F (s.get n))) :=
  ⟨F, [], fun _ => rfl⟩

theorem Slot.acts_none (s : Slot σ) (ds : List Diag) : s.Acts (fun n => (n, ds)) :=
  ⟨fun u => u, ds, fun n => by rw [s.put_get]⟩

theorem acts_string {f : Str → Callback σ} (id : Nat) (h : ∀ t, s.Acts (f t)) (v : LiteralValue) :
    s.Acts (onString id f v) := by
  cases v <;> first | exact h _ | exact s.acts_none _

theorem acts_boolean {f : Bool → Callback σ} (id : Nat) (h : ∀ t, s.Acts (f t)) (v : LiteralValue) :
    s.Acts (onBoolean id f v) := by
  cases v <;> first | exact h _ | exact s.acts_none _

theorem steady_start (s : Slot σ) (id : Nat) (a : Annotation) (x : σ) :
    s.Steady (fun n => Dispatcher.start id a n) :=
  ⟨fun u => u, Dispatcher.start id a x, fun n => by rw [s.put_get]; rfl⟩

theorem steady_call (h : s.Steady D) {f : Callback σ} (hf : s.Acts f) :
    s.Steady (fun n => (D n).call f) := by
  obtain ⟨F, d, hd⟩ := h
  obtain ⟨G, ds, hg⟩ := hf
  refine ⟨fun u => G (F u), { d with diags := d.diags ++ ds }, fun n => ?_⟩
  dsimp only
  rw [hd n]
  unfold Dispatcher.call
  dsimp only
  rw [hg, s.get_put, s.put_put]

theorem steady_matched (h : s.Steady D) : s.Steady (fun n => { D n with state := .matched }) := by
  obtain ⟨F, d, hd⟩ := h
  exact ⟨F, { d with state := .matched }, fun n => by dsimp only; rw [hd n]⟩

theorem steady_nullary (h : s.Steady D) {f : Callback σ} (hf : s.Acts f) :
    s.Steady (fun n => (D n).nullary f) := by
  have hc := steady_matched (steady_call h hf)
  obtain ⟨F, d, hd⟩ := h
  by_cases hs : d.state = .unmatched ∧ d.args = []
  · obtain ⟨G, e, he⟩ := hc
    refine ⟨G, e, fun n => ?_⟩
    dsimp only
    rw [← he n]
    unfold Dispatcher.nullary
    rw [if_pos (by rw [hd n]; exact hs)]
  · refine ⟨F, d, fun n => ?_⟩
    unfold Dispatcher.nullary
    dsimp only
    rw [if_neg (by rw [hd n]; exact hs), hd n]

theorem steady_checkArgKinds (h : s.Steady D) (k : LiteralKind) :
    ∃ b, (∀ n, ((D n).checkArgKinds k).1 = b) ∧ s.Steady (fun n => ((D n).checkArgKinds k).2) := by
  obtain ⟨F, d, hd⟩ := h
  unfold Dispatcher.checkArgKinds
  cases hf : d.args.find? (fun v => !v.isa k) with
  | none =>
    refine ⟨true, fun n => ?_, F, d, fun n => ?_⟩ <;> simp only [hd n, hf]
  | some v =>
    refine ⟨false, fun n => ?_, F, { d with mismatch := some v }, fun n => ?_⟩ <;>
      simp only [hd n, hf]

theorem steady_unary (h : s.Steady D) (k : LiteralKind) {f : LiteralValue → Callback σ}
    (hf : ∀ v, s.Acts (f v)) : s.Steady (fun n => (D n).unary k f) := by
  obtain ⟨b, hb, hk⟩ := steady_checkArgKinds h k
  have hh := h
  obtain ⟨F, d, hd⟩ := h
  have same : (∀ n, (D n).unary k f = D n) → s.Steady (fun n => (D n).unary k f) :=
    fun e => by simp only [e]; exact hh
  by_cases hs : d.state = .unmatched
  · by_cases hv : ∃ v, d.args = [v]
    · obtain ⟨v, hv⟩ := hv
      have e : ∀ n, (D n).unary k f =
          if b then { ((D n).checkArgKinds k).2.call (f v) with state := .matched }
          else ((D n).checkArgKinds k).2 := by
        intro n
        unfold Dispatcher.unary
        rw [if_pos (by rw [hd n]; exact hs)]
        have : (D n).args = [v] := by rw [hd n]; exact hv
        rw [this]
        dsimp only
        rw [hb n]
      simp only [e]
      cases b with
      | true => simpa using steady_matched (steady_call hk (hf v))
      | false => simpa using hk
    · refine same fun n => ?_
      unfold Dispatcher.unary
      have : (D n).args = d.args := by rw [hd n]
      rw [if_pos (by rw [hd n]; exact hs), this]
      split
      · rename_i v e; exact absurd ⟨v, e⟩ hv
      · rfl
  · refine same fun n => ?_
    unfold Dispatcher.unary
    rw [if_neg (by rw [hd n]; exact hs)]

theorem steady_binary (h : s.Steady D) (k : LiteralKind) {f : LiteralValue → LiteralValue → Callback σ}
    (hf : ∀ v w, s.Acts (f v w)) : s.Steady (fun n => (D n).binary k f) := by
  obtain ⟨b, hb, hk⟩ := steady_checkArgKinds h k
  have hh := h
  obtain ⟨F, d, hd⟩ := h
  have same : (∀ n, (D n).binary k f = D n) → s.Steady (fun n => (D n).binary k f) :=
    fun e => by simp only [e]; exact hh
  by_cases hs : d.state = .unmatched
  · by_cases hv : ∃ v w, d.args = [v, w]
    · obtain ⟨v, w, hv⟩ := hv
      have e : ∀ n, (D n).binary k f =
          if b then { ((D n).checkArgKinds k).2.call (f v w) with state := .matched }
          else ((D n).checkArgKinds k).2 := by
        intro n
        unfold Dispatcher.binary
        rw [if_pos (by rw [hd n]; exact hs)]
        have : (D n).args = [v, w] := by rw [hd n]; exact hv
        rw [this]
        dsimp only
        rw [hb n]
      simp only [e]
      cases b with
      | true => simpa using steady_matched (steady_call hk (hf v w))
      | false => simpa using hk
    · refine same fun n => ?_
      unfold Dispatcher.binary
      have : (D n).args = d.args := by rw [hd n]
      rw [if_pos (by rw [hd n]; exact hs), this]
      split
      · rename_i v w e; exact absurd ⟨v, w, e⟩ hv
      · rfl
  · refine same fun n => ?_
    unfold Dispatcher.binary
    rw [if_neg (by rw [hd n]; exact hs)]

theorem steady_folds (vs : List LiteralValue) {f : LiteralValue → Callback σ} (hf : ∀ v, s.Acts (f v)) :
    ∀ {D : σ → Dispatcher σ}, s.Steady D → s.Steady (fun n => vs.foldl (fun d v => d.call (f v)) (D n)) := by
  induction vs with
  | nil => exact fun h => h
  | cons v vs ih => exact fun h => ih (steady_call h (hf v))

theorem steady_variadic (h : s.Steady D) (k : LiteralKind) {f : LiteralValue → Callback σ}
    (hf : ∀ v, s.Acts (f v)) : s.Steady (fun n => (D n).variadic k f) := by
  obtain ⟨b, hb, hk⟩ := steady_checkArgKinds h k
  have hh := h
  obtain ⟨F, d, hd⟩ := h
  by_cases hs : d.state = .unmatched ∧ d.args ≠ []
  · have e : ∀ n, (D n).variadic k f =
        if b then { d.args.foldl (fun d v => d.call (f v)) ((D n).checkArgKinds k).2 with state := .matched }
        else ((D n).checkArgKinds k).2 := by
      intro n
      unfold Dispatcher.variadic
      rw [if_pos (by rw [hd n]; exact hs)]
      dsimp only
      rw [hb n]
      have : ((D n).checkArgKinds k).2.args = d.args := by
        unfold Dispatcher.checkArgKinds
        rw [hd n]
        dsimp only
        split <;> rfl
      rw [this]
    simp only [e]
    cases b with
    | true => simpa using steady_matched (steady_folds d.args hf hk)
    | false => simpa using hk
  · have e : ∀ n, (D n).variadic k f = D n := by
      intro n
      unfold Dispatcher.variadic
      rw [if_neg (by rw [hd n]; exact hs)]
    simp only [e]
    exact hh

theorem steady_ensure (h : s.Steady D) (c : Bool × List Diag) : s.Steady (fun n => (D n).ensure c) := by
  obtain ⟨F, d, hd⟩ := h
  obtain ⟨c, cs⟩ := c
  refine ⟨F, d.ensure (c, cs), fun n => ?_⟩
  dsimp only
  rw [hd n]
  unfold Dispatcher.ensure
  dsimp only
  split
  · cases c <;> rfl
  · rfl

/-- A processing function about the field. -/
def Slot.Processes (s : Slot σ) (p : List Str → σ → Bool × σ × List Diag) : Prop :=
  ∀ l, ∃ (F : s.β → s.β) (b : Bool) (ds : List Diag), ∀ n, p l n = (b, s.put n (F (s.get n)), ds)

theorem steady_variadicCollect (h : s.Steady D) (k : LiteralKind) (t : LiteralValue → Str × List Diag)
    {p : List Str → σ → Bool × σ × List Diag} (hp : s.Processes p) :
    s.Steady (fun n => (D n).variadicCollect k t p) := by
  obtain ⟨b, hb, hk⟩ := steady_checkArgKinds h k
  have hh := h
  obtain ⟨F, d, hd⟩ := h
  by_cases hs : d.state = .unmatched
  · cases b with
    | false =>
      have e : ∀ n, (D n).variadicCollect k t p = ((D n).checkArgKinds k).2 := by
        intro n
        unfold Dispatcher.variadicCollect
        rw [if_pos (by rw [hd n]; exact hs)]
        dsimp only
        rw [hb n]
        simp
      simp only [e]
      exact hk
    | true =>
      obtain ⟨G, d', hd'⟩ := hk
      dsimp only at hd'
      obtain ⟨H, m, ds, hp⟩ := hp (d'.args.map fun v => (t v).1)
      refine ⟨fun u => H (G u), { d' with
        diags := d'.diags ++ d'.args.flatMap (fun v => (t v).2) ++ ds
        state := if m then .matched else d'.state }, fun n => ?_⟩
      dsimp only
      unfold Dispatcher.variadicCollect
      rw [if_pos (by rw [hd n]; exact hs)]
      dsimp only
      rw [hb n, if_pos rfl, hd' n]
      dsimp only
      rw [hp, s.get_put, s.put_put]
  · have e : ∀ n, (D n).variadicCollect k t p = D n := by
      intro n
      unfold Dispatcher.variadicCollect
      rw [if_neg (by rw [hd n]; exact hs)]
    simp only [e]
    exact hh

theorem stable_checkMatch (h : s.Steady D) : s.Stable (fun n => (D n).checkMatch) := by
  obtain ⟨F, d, hd⟩ := h
  exact ⟨F, d.checkMatch.handled, d.checkMatch.diags, fun n => by dsimp only; rw [hd n]; rfl⟩

theorem stable_unchecked (h : s.Steady D) : s.Stable (fun n => (D n).unchecked) := by
  obtain ⟨F, d, hd⟩ := h
  exact ⟨F, false, d.diags, fun n => by dsimp only; rw [hd n]; rfl⟩

theorem stable_notHandled (s : Slot σ) : s.Stable (fun n => notHandled n) :=
  ⟨fun u => u, false, [], fun n => by rw [s.put_get]; rfl⟩

/-- Fields that can be changed in any order. -/
def Slot.Apart (s t : Slot σ) : Prop :=
  (∀ n u v, s.put (t.put n v) u = t.put (s.put n u) v) ∧ (∀ n v, s.get (t.put n v) = s.get n) ∧
  ∀ n u, t.get (s.put n u) = t.get n

theorem stable_commute {s t : Slot σ} (hst : s.Apart t) {P Q : σ → Outcome σ} (hp : s.Stable P)
    (hq : t.Stable Q) (n : σ) : (P (Q n).attrs).attrs = (Q (P n).attrs).attrs := by
  obtain ⟨F, h, ds, hF⟩ := hp
  obtain ⟨G, h', ds', hG⟩ := hq
  rw [hF, hG, hG, hF]
  dsimp only
  rw [hst.2.1, hst.2.2, hst.1]

theorem stable_reports {P : σ → Outcome σ} (hp : s.Stable P) (n n' : σ) :
    (P n).handled = (P n').handled ∧ (P n).diags = (P n').diags := by
  obtain ⟨F, h, ds, hF⟩ := hp
  rw [hF, hF]
  exact ⟨rfl, rfl⟩

end Verif
