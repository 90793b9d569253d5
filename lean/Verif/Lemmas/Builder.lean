import Verif.Lemmas.CollectorRun
import Verif.Model.Graph
/-!
# Lemmas: construction of the graph
-/
namespace Verif
open Spec

/-- The alias has the attribute. -/
def aliasAttrs (w : World) (a : Nat) : TypedefNameDeclAttrs :=
  ((entryOf w a).bind (·.typedefName)).getD {}

/-- Attributes of a declaration on its own. -/
def base (w : World) (x : Nat) : DeclAttrs := (firstInsert w.toDeclEnv x).1

/-- Effective spelling of an alias. -/
def aliasSpelling (w : World) (a : Nat) : Str :=
  let n := ((entryOf w a).map DeclAttrs.named).getD {}
  if n.spelling.isEmpty then getSpelling (w.info a) else n.spelling

/-- Visibility of an alias. -/
def aliasVisible (w : World) (a : Nat) : Option Bool :=
  (((entryOf w a).map DeclAttrs.named).getD {}).visible

/-- How an alias changes the attributes of `x`; the flag tells whether `x` has been
relocated. -/
def act (w : World) (x : Nat) (s : NamedDeclAttrs × Bool) (a : Nat) : NamedDeclAttrs × Bool :=
  if (w.info a).aliasTarget = some x then
    let n := if (aliasAttrs w a).encourage then { s.1 with visible := some true } else s.1
    if (aliasAttrs w a).exposeHere && !s.2 then
      ({ n with spelling := aliasSpelling w a, visible := aliasVisible w a }, true)
    else (n, s.2)
  else s

/-- Some alias concerns `x`. -/
def touched (w : World) (x : Nat) (as : List Nat) : Bool :=
  as.any fun a => (w.info a).aliasTarget = some x &&
    ((aliasAttrs w a).encourage || (aliasAttrs w a).exposeHere)

/-- First alias exposing `x`. -/
def relocatedBy (w : World) (as : List Nat) (x : Nat) : Option Nat :=
  as.find? fun a => (w.info a).aliasTarget = some x && (aliasAttrs w a).exposeHere

/-- Number of times `x` is a child of `p`. -/
def Graph.edges (g : Graph) (p x : Nat) : Nat := (g.children p).count x

theorem addEdge_edges (g : Graph) (p x q y : Nat) :
    (g.addEdge p x).edges q y = g.edges q y + if q = p ∧ y = x then 1 else 0 := by
  have hc : ∀ (g : Graph) i, (g.getOrInsertNode i).children = g.children := by
    intro g i; unfold Graph.getOrInsertNode; split <;> rfl
  simp only [Graph.edges, Graph.addEdge, hc]
  by_cases hq : q = p
  · subst hq
    simp only [if_true, List.count_append, true_and]
    by_cases hy : y = x
    · subst hy; simp
    · have : x ≠ y := fun e => hy e.symm
      simp [hy, this]
  · simp [hq]

theorem mem_getOrInsert (g : Graph) (i n : Nat) :
    n ∈ (g.getOrInsertNode i).nodes ↔ n ∈ g.nodes ∨ n = i := by
  unfold Graph.getOrInsertNode
  split
  · constructor
    · exact .inl
    · rintro (h | h)
      · exact h
      · subst h; assumption
  · simp

theorem addEdge_nodes (g : Graph) (p x n : Nat) :
    n ∈ (g.addEdge p x).nodes ↔ n ∈ g.nodes ∨ n = p ∨ n = x := by
  simp only [Graph.addEdge, mem_getOrInsert, or_assoc]

theorem addEdge_nodup (g : Graph) (p x : Nat) (h : g.nodes.Nodup) : (g.addEdge p x).nodes.Nodup := by
  have : ∀ (g : Graph) i, g.nodes.Nodup → (g.getOrInsertNode i).nodes.Nodup := by
    intro g i h
    unfold Graph.getOrInsertNode
    split
    · exact h
    · rename_i hn
      simp only [List.nodup_append, h, true_and]
      refine ⟨by simp, ?_⟩
      intro a ha b hb e
      rw [List.mem_singleton] at hb
      subst hb e
      exact hn ha
  exact this _ _ (this _ _ h)

theorem addEdge_root (g : Graph) (p x : Nat) : (g.addEdge p x).root = g.root := by
  have : ∀ (g : Graph) i, (g.getOrInsertNode i).root = g.root := by
    intro g i; unfold Graph.getOrInsertNode; split <;> rfl
  simp only [Graph.addEdge, this]

/-- State after handling the aliases `as`. -/
structure BuildInv (w : World) (c : Collected) (as : List Nat) (b : Building) : Prop where
  relocated : ∀ x, b.relocated x = relocatedBy w as x
  flag : ∀ x n, ((as.foldl (act w x) (n, false)).2 = true ↔ (relocatedBy w as x).isSome)
  entries : ∀ x, b.storage.entries x = if touched w x as
    then some { base w x with named := (as.foldl (act w x) ((base w x).named, false)).1 }
    else c.storage.entries x
  edges : ∀ p x, b.graph.edges p x =
    match relocatedBy w as x with
    | some a => if p = w.findLookupContextDecl a then 1 else 0
    | none => 0
  root : b.graph.root = w.unit
  nodup : b.graph.nodes.Nodup
  nodes : ∀ n, n ∈ b.graph.nodes ↔ n = w.unit ∨ ∃ a x, relocatedBy w as x = some a ∧
    (n = x ∨ n = w.findLookupContextDecl a)
  unique : hasErrors b.diags = false → ∀ a ∈ as, (aliasAttrs w a).exposeHere = true →
    ∀ x, (w.info a).aliasTarget = some x → relocatedBy w as x = some a
  target : hasErrors b.diags = false → ∀ a ∈ as,
    (aliasAttrs w a).encourage = true ∨ (aliasAttrs w a).exposeHere = true →
    (w.info a).aliasTarget ≠ none
  errors : hasErrors b.diags = false → hasErrors c.diags = false

theorem find?_snoc {α : Type} (p : α → Bool) (l : List α) (a : α) :
    (l ++ [a]).find? p = (l.find? p).or (if p a then some a else none) := by
  rw [List.find?_append]
  cases h : p a <;> simp [h]

theorem propagate_eq (w : World) (s : Storage) (alias target : Nat) :
    propagateAnnotations w s alias target =
      (s.updateNamed target fun x => { x with
        spelling := if (s.lookupNamed alias).spelling.isEmpty then getSpelling (w.info alias)
                    else (s.lookupNamed alias).spelling
        visible := (s.lookupNamed alias).visible }, []) := by
  unfold propagateAnnotations
  generalize s.lookupNamed alias = n
  obtain ⟨sp, v⟩ := n
  cases v <;> rfl

theorem updateNamed_some (s : Storage) (id : Nat) (f : NamedDeclAttrs → NamedDeclAttrs)
    (a : DeclAttrs) (h : s.entries id = some a) (x : Nat) :
    (s.updateNamed id f).entries x = if x = id then some { a with named := f a.named }
      else s.entries x := by
  simp only [Storage.updateNamed, h, Storage.set]

theorem act_untouched (w : World) (x : Nat) (as : List Nat) (h : touched w x as = false)
    (s : NamedDeclAttrs × Bool) : as.foldl (act w x) s = s := by
  induction as generalizing s with
  | nil => rfl
  | cons q qs ih =>
    simp only [touched, List.any_cons, Bool.or_eq_false_iff] at h
    rw [List.foldl_cons]
    have : act w x s q = s := by
      unfold act
      by_cases hq : (w.info q).aliasTarget = some x
      · have h1 := h.1
        rw [hq] at h1
        simp only [decide_true, Bool.true_and, Bool.or_eq_false_iff] at h1
        rw [if_pos hq, h1.1, h1.2]; rfl
      · rw [if_neg hq]
    rw [this]
    exact ih h.2 s

theorem buildInv_step {w : World} {c : Collected} {as : List Nat} {b : Building}
    (h : BuildInv w c as b) (a : Nat) (ha : c.storage.entries a = entryOf w a)
    (htag : ∀ a x, (w.info a).aliasTarget = some x → (w.info x).kind.isTag = true)
    (hkind : (w.info a).kind.isTag = false)
    (hcomplete : ∀ x, (w.info a).aliasTarget = some x → shouldSkip (w.info x) = false)
    (hbase : ∀ x e, c.storage.entries x = some e → e = base w x)
    : BuildInv w c (as ++ [a]) (processAlias w b a) := by
  have hent : b.storage.entries a = entryOf w a := by
    rw [h.entries, if_neg, ha]
    intro ht
    simp only [touched, List.any_eq_true, Bool.and_eq_true, decide_eq_true_eq] at ht
    obtain ⟨a', _, h1, _⟩ := ht
    rw [htag _ _ h1] at hkind
    exact absurd hkind (by simp)
  have hattrs : ((b.storage.entries a).bind (·.typedefName)).getD {} = aliasAttrs w a := by
    rw [hent]; rfl
  unfold processAlias
  simp only [hattrs]
  -- lists extended by an alias that does not concern `x`
  have rel_of : ∀ x, (w.info a).aliasTarget ≠ some x ∨ (aliasAttrs w a).exposeHere = false →
      relocatedBy w (as ++ [a]) x = relocatedBy w as x := by
    intro x hx
    unfold relocatedBy
    rw [find?_snoc, if_neg, Option.or_none]
    rcases hx with hx | hx <;> simp [hx]
  have touch_of : ∀ x, (w.info a).aliasTarget ≠ some x → touched w x (as ++ [a]) = touched w x as := by
    intro x hx
    simp [touched, List.any_append, hx]
  have act_of : ∀ x s, (w.info a).aliasTarget ≠ some x →
      (as ++ [a]).foldl (act w x) s = as.foldl (act w x) s := by
    intro x s hx
    rw [List.foldl_append, List.foldl_cons, List.foldl_nil, act, if_neg hx]
  by_cases h0 : (aliasAttrs w a).encourage = false ∧ (aliasAttrs w a).exposeHere = false
  · simp only [h0.1, h0.2, Bool.not_false, Bool.and_self, if_true]
    have act_same : ∀ x s, (as ++ [a]).foldl (act w x) s = as.foldl (act w x) s := by
      intro x s
      rw [List.foldl_append, List.foldl_cons, List.foldl_nil]
      unfold act
      rw [h0.1, h0.2]
      split <;> rfl
    have rel_same := fun x => rel_of x (.inr h0.2)
    have touch_same : ∀ x, touched w x (as ++ [a]) = touched w x as := by
      intro x; simp [touched, h0.1, h0.2]
    refine ⟨fun x => ?_, fun x n => ?_, fun x => ?_, fun p x => ?_, h.root, h.nodup, fun n => ?_,
      fun he a' ha' hx' => ?_, fun he a' ha' hx' => ?_, h.errors⟩
    · rw [rel_same, h.relocated]
    · rw [act_same, rel_same, h.flag]
    · rw [touch_same, act_same, h.entries]
    · rw [rel_same, h.edges]
    · simp only [rel_same, h.nodes]
    · rcases List.mem_append.1 ha' with ha' | ha'
      · intro x; rw [rel_same]; exact h.unique he a' ha' hx' x
      · rw [List.mem_singleton.1 ha', h0.2] at hx'; exact absurd hx' (by simp)
    · rcases List.mem_append.1 ha' with ha' | ha'
      · exact h.target he a' ha' hx'
      · rw [List.mem_singleton.1 ha', h0.2, h0.1] at hx'; simp at hx'
  · have hg : (!(aliasAttrs w a).encourage && !(aliasAttrs w a).exposeHere) = false := by
      revert h0; cases (aliasAttrs w a).encourage <;> cases (aliasAttrs w a).exposeHere <;> simp
    rw [hg]
    simp only [Bool.false_eq_true, if_false]
    have hor : ((aliasAttrs w a).encourage || (aliasAttrs w a).exposeHere) = true := by
      revert h0; cases (aliasAttrs w a).encourage <;> cases (aliasAttrs w a).exposeHere <;> simp
    cases htgt : (w.info a).aliasTarget with
    | none =>
      simp only
      have hne : ∀ x, (w.info a).aliasTarget ≠ some x := by intro x; rw [htgt]; simp
      have herr : hasErrors (b.diags ++ [{ decl := a, kind := .assertion }]) = true := by
        rw [hasErrors_append]; simp [hasErrors, Diag.isError, DiagKind.isError]
      refine ⟨fun x => ?_, fun x n => ?_, fun x => ?_, fun p x => ?_, h.root, h.nodup, fun n => ?_,
        fun he => ?_, fun he => ?_, fun he => ?_⟩
      · rw [rel_of x (.inl (hne x)), h.relocated]
      · rw [act_of x _ (hne x), rel_of x (.inl (hne x)), h.flag]
      · rw [touch_of x (hne x), act_of x _ (hne x), h.entries]
      · rw [rel_of x (.inl (hne x)), h.edges]
      · simp only [rel_of _ (.inl (hne _)), h.nodes]
      all_goals (rw [herr] at he; exact absurd he (by simp))
    | some t =>
      simp only
      have hskip := hcomplete t htgt
      have htt := htag a t htgt
      have hta : a ≠ t := by intro e; rw [← e] at htt; rw [htt] at hkind; exact absurd hkind (by simp)
      -- the attributes of the target after `insert`
      have hins : ∀ x, (b.storage.insert w.toDeclEnv t).1.entries x = if x = t
          then some { base w t with named := (as.foldl (act w t) ((base w t).named, false)).1 }
          else b.storage.entries x := by
        intro x
        cases hh : b.storage.has t with
        | true =>
          have : (b.storage.insert w.toDeclEnv t).1 = b.storage := by
            simp [Storage.insert, hskip, hh]
          rw [this]
          by_cases hx : x = t
          · subst hx
            rw [if_pos rfl, h.entries]
            split
            · rfl
            · rename_i hto
              simp only [Storage.has, h.entries, hto] at hh
              obtain ⟨e, he⟩ := Option.isSome_iff_exists.1 hh
              simp only [Bool.false_eq_true, if_false] at he
              rw [he, hbase x e he]
              rw [act_untouched w x as (by simpa using hto)]
          · rw [if_neg hx]
        | false =>
          rw [insert_eq w.toDeclEnv b.storage t hskip hh]
          simp only [Storage.set]
          by_cases hx : x = t
          · subst hx
            simp only [if_true]
            have : touched w x as = false := by
              rw [Bool.eq_false_iff]
              intro ht
              simp [Storage.has, h.entries, ht] at hh
            rw [act_untouched w x as this]; rfl
          · simp only [if_neg hx]
      generalize hr : b.storage.insert w.toDeclEnv t = r at hins ⊢
      -- after `encourage`
      obtain ⟨s1, hs1, hs1e⟩ : ∃ s1 : Storage, (if (aliasAttrs w a).encourage = true then
          { b with storage := r.1.updateNamed t fun x => { x with visible := some true },
                   diags := b.diags ++ r.2 }
          else { b with storage := r.1, diags := b.diags ++ r.2 }) =
          { b with storage := s1, diags := b.diags ++ r.2 } ∧
          ∀ x, s1.entries x = if x = t then
            some { base w t with named :=
              let n := (as.foldl (act w t) ((base w t).named, false)).1
              if (aliasAttrs w a).encourage then { n with visible := some true } else n }
            else b.storage.entries x := by
        cases (aliasAttrs w a).encourage with
        | true =>
          refine ⟨_, rfl, fun x => ?_⟩
          rw [updateNamed_some r.1 t _ _ (by rw [hins, if_pos rfl])]
          by_cases hx : x = t
          · simp [hx]
          · simp [hx, hins]
        | false =>
          refine ⟨r.1, rfl, fun x => ?_⟩
          rw [hins]; simp
      rw [hs1]
      have hother : ∀ x, x ≠ t → (w.info a).aliasTarget ≠ some x := by
        intro x hx e; rw [htgt] at e; exact hx (Option.some.inj e).symm
      have hotherr : ∀ x, x ≠ t → relocatedBy w (as ++ [a]) x = relocatedBy w as x :=
        fun x hx => rel_of x (.inl (hother x hx))
      have htouch : touched w t (as ++ [a]) = true := by
        simp [touched, htgt, hor]
      have hflag := h.flag t ((base w t).named)
      cases hex : (aliasAttrs w a).exposeHere with
      | false =>
        simp only [Bool.false_eq_true, if_false]
        have rel_same := fun x => rel_of x (.inr hex)
        have hact : ∀ s, act w t s a = (if (aliasAttrs w a).encourage = true then
            { s.1 with visible := some true } else s.1, s.2) := by
          intro s; unfold act; rw [if_pos htgt, hex]; rfl
        have herr : hasErrors (b.diags ++ r.2) = false → hasErrors b.diags = false := by
          rw [hasErrors_append]; simp only [Bool.or_eq_false_iff]; exact fun h => h.1
        refine ⟨fun x => ?_, fun x n => ?_, fun x => ?_, fun p x => ?_, h.root, h.nodup, fun n => ?_,
          fun he a' ha' hx' => ?_, fun he a' ha' hx' => ?_, fun he => h.errors (herr he)⟩
        · rw [rel_same, h.relocated]
        · rw [rel_same, ← h.flag x n, List.foldl_append, List.foldl_cons, List.foldl_nil]
          by_cases hx : x = t
          · subst hx; rw [hact]
          · rw [act, if_neg (hother x hx)]
        · simp only
          rw [hs1e]
          by_cases hx : x = t
          · subst hx
            rw [if_pos rfl, htouch, if_pos rfl, List.foldl_append, List.foldl_cons, List.foldl_nil,
              hact]
          · rw [if_neg hx, touch_of x (hother x hx), act_of x _ (hother x hx), h.entries]
        · rw [rel_same, h.edges]
        · simp only [rel_same, h.nodes]
        · rcases List.mem_append.1 ha' with ha' | ha'
          · intro x; rw [rel_same]; exact h.unique (herr he) a' ha' hx' x
          · rw [List.mem_singleton.1 ha', hex] at hx'; exact absurd hx' (by simp)
        · rcases List.mem_append.1 ha' with ha' | ha'
          · exact h.target (herr he) a' ha' hx'
          · rw [List.mem_singleton.1 ha', htgt]; simp
      | true =>
        simp only [if_true]
        unfold addEdgeForExposeHereAlias
        simp only [h.relocated]
        cases hrel : relocatedBy w as t with
        | some prev =>
          simp only [Bool.false_eq_true, if_false]
          have rel_same : ∀ x, relocatedBy w (as ++ [a]) x = relocatedBy w as x := by
            intro x
            by_cases hx : x = t
            · subst hx
              have hrel2 := hrel
              unfold relocatedBy at hrel2 ⊢
              rw [find?_snoc, hrel2]; rfl
            · exact hotherr x hx
          have hdone : (as.foldl (act w t) ((base w t).named, false)).2 = true := by
            rw [hflag, hrel]; rfl
          have herr : hasErrors (b.diags ++ r.2 ++
              [{ decl := a, kind := .alreadyExposedElsewhere, args := [(w.info t).name] },
               { decl := prev, kind := .previouslyExposedHere, args := [(w.info t).name] }]) = true := by
            rw [hasErrors_append]; simp [hasErrors, Diag.isError, DiagKind.isError]
          refine ⟨fun x => ?_, fun x n => ?_, fun x => ?_, fun p x => ?_, h.root, h.nodup, fun n => ?_,
            fun he => ?_, fun he => ?_, fun he => ?_⟩
          · rw [rel_same, h.relocated]
          · rw [rel_same, List.foldl_append, List.foldl_cons, List.foldl_nil]
            by_cases hx : x = t
            · subst hx
              have := (h.flag x n).2 (by rw [hrel]; rfl)
              simp only [act, if_pos htgt, this, hex, Bool.not_true, Bool.and_false,
                Bool.false_eq_true, if_false, hrel, Option.isSome_some]
            · rw [act, if_neg (hother x hx)]; exact h.flag x n
          · simp only
            rw [hs1e]
            by_cases hx : x = t
            · subst hx
              rw [if_pos rfl, htouch, if_pos rfl, List.foldl_append, List.foldl_cons, List.foldl_nil]
              simp only [act, if_pos htgt, hdone, hex, Bool.not_true, Bool.and_false,
                Bool.false_eq_true, if_false]
            · rw [if_neg hx, touch_of x (hother x hx), act_of x _ (hother x hx), h.entries]
          · rw [rel_same, h.edges]
          · simp only [rel_same, h.nodes]
          all_goals (rw [herr] at he; exact absurd he (by simp))
        | none =>
          simp only [if_true]
          have hdone : (as.foldl (act w t) ((base w t).named, false)).2 = false := by
            rw [Bool.eq_false_iff, Ne, hflag, hrel]; simp
          have rel_t : relocatedBy w (as ++ [a]) t = some a := by
            have hrel2 := hrel
            unfold relocatedBy at hrel2 ⊢
            rw [find?_snoc, hrel2, if_pos (by simp [htgt, hex])]; rfl
          have hnot : ∀ x, relocatedBy w as x ≠ none → x ≠ t := by
            intro x hx e; subst e; exact hx hrel
          have hlook : s1.lookupNamed a = ((entryOf w a).map DeclAttrs.named).getD {} := by
            unfold Storage.lookupNamed
            rw [hs1e, if_neg hta, hent]
            cases entryOf w a <;> rfl
          have hprop : ∀ (d : List Diag),
              (propagateAnnotations w s1 a t).2 = [] ∧
              ∀ x, (propagateAnnotations w s1 a t).1.entries x = if x = t then
                some { base w t with
                  named := (act w t (as.foldl (act w t) ((base w t).named, false)) a).1 }
                else b.storage.entries x := by
            intro _
            rw [propagate_eq]
            refine ⟨rfl, fun x => ?_⟩
            rw [updateNamed_some s1 t _ _ (by rw [hs1e, if_pos rfl])]
            by_cases hx : x = t
            · simp only [if_pos hx, act, if_pos htgt, hdone, hex, Bool.not_false, Bool.and_self,
                if_true, aliasSpelling, aliasVisible, hlook]
            · rw [if_neg hx, if_neg hx, hs1e, if_neg hx]
          obtain ⟨hp2, hp1⟩ := hprop []
          have herr : hasErrors (b.diags ++ r.2 ++ (propagateAnnotations w s1 a t).2) = false →
              hasErrors b.diags = false := by
            rw [hasErrors_append, hasErrors_append]
            simp only [Bool.or_eq_false_iff]; exact fun h => h.1.1
          refine ⟨fun x => ?_, fun x n => ?_, fun x => ?_, fun p x => ?_, ?_, ?_, fun n => ?_,
            fun he a' ha' hx' => ?_, fun he a' ha' hx' => ?_, fun he => h.errors (herr he)⟩
          · simp only
            by_cases hx : x = t
            · subst hx; rw [if_pos rfl, rel_t]
            · rw [if_neg hx, hotherr x hx]
          · rw [List.foldl_append, List.foldl_cons, List.foldl_nil]
            by_cases hx : x = t
            · subst hx
              rw [rel_t]
              have : (as.foldl (act w x) (n, false)).2 = false := by
                rw [Bool.eq_false_iff, Ne, h.flag, hrel]; simp
              simp [act, htgt, this, hex]
            · rw [act, if_neg (hother x hx), hotherr x hx]; exact h.flag x n
          · simp only
            rw [hp1]
            by_cases hx : x = t
            · subst hx
              rw [if_pos rfl, htouch, if_pos rfl, List.foldl_append, List.foldl_cons, List.foldl_nil]
            · rw [if_neg hx, touch_of x (hother x hx), act_of x _ (hother x hx), h.entries]
          · simp only
            rw [addEdge_edges, h.edges]
            by_cases hx : x = t
            · subst hx; rw [hrel, rel_t]; simp
            · rw [hotherr x hx]; simp [hx]
          · simp only; rw [addEdge_root]; exact h.root
          · exact addEdge_nodup _ _ _ h.nodup
          · simp only
            rw [addEdge_nodes, h.nodes]
            constructor
            · rintro ((h1 | ⟨a', x, h1, h2⟩) | h1 | h1)
              · exact .inl h1
              · exact .inr ⟨a', x, by rw [hotherr x (hnot x (by rw [h1]; simp))]; exact h1, h2⟩
              · exact .inr ⟨a, t, rel_t, .inr h1⟩
              · exact .inr ⟨a, t, rel_t, .inl h1⟩
            · rintro (h1 | ⟨a', x, h1, h2⟩)
              · exact .inl (.inl h1)
              · by_cases hx : x = t
                · subst hx
                  rw [rel_t, Option.some.injEq] at h1
                  subst h1
                  rcases h2 with h2 | h2
                  · exact .inr (.inr h2)
                  · exact .inr (.inl h2)
                · rw [hotherr x hx] at h1
                  exact .inl (.inr ⟨a', x, h1, h2⟩)
          · intro x hxt
            rcases List.mem_append.1 ha' with ha' | ha'
            · have := h.unique (herr he) a' ha' hx' x hxt
              rw [hotherr x (hnot x (by rw [this]; simp))]; exact this
            · rw [List.mem_singleton.1 ha'] at hxt ⊢
              rw [htgt, Option.some.injEq] at hxt
              rw [← hxt]; exact rel_t
          · rcases List.mem_append.1 ha' with ha' | ha'
            · exact h.target (herr he) a' ha' hx'
            · rw [List.mem_singleton.1 ha', htgt]; simp

theorem buildInv_fold {w : World} {c : Collected} (l : List Nat) {as : List Nat} {b : Building}
    (h : BuildInv w c as b) (ha : ∀ a ∈ l, c.storage.entries a = entryOf w a)
    (htag : ∀ a x, (w.info a).aliasTarget = some x → (w.info x).kind.isTag = true)
    (hkind : ∀ a ∈ l, (w.info a).kind.isTag = false)
    (hcomplete : ∀ a ∈ l, ∀ x, (w.info a).aliasTarget = some x → shouldSkip (w.info x) = false)
    (hbase : ∀ x e, c.storage.entries x = some e → e = base w x) :
    BuildInv w c (as ++ l) (l.foldl (processAlias w) b) := by
  induction l generalizing as b with
  | nil => simpa using h
  | cons a l ih =>
    rw [List.foldl_cons]
    have := ih (buildInv_step h a (ha a (by simp)) htag (hkind a (by simp))
      (hcomplete a (by simp)) hbase) (fun a' h => ha a' (by simp [h]))
      (fun a' h => hkind a' (by simp [h])) (fun a' h => hcomplete a' (by simp [h]))
    simpa using this

theorem buildInv_start (w : World) (c : Collected) :
    BuildInv w c [] { graph := .start w.unit, storage := c.storage, diags := c.diags } := by
  refine ⟨fun x => rfl, fun x n => by simp [relocatedBy], fun x => by simp [touched],
    fun p x => by simp [Graph.edges, Graph.start, relocatedBy], rfl, by simp [Graph.start],
    fun n => by simp [Graph.start, relocatedBy], fun _ => by simp, fun _ => by simp, id⟩

theorem contexts_fold (w : World) (rel : Nat → Option Nat) (l : List Nat) (g : Graph)
    (hn : l.Nodup) :
    let g' := l.foldl (addContext w rel) g
    (∀ p x, g'.edges p x = g.edges p x +
      if x ∈ l ∧ rel x = none ∧ p = w.findLookupContextDecl x then 1 else 0) ∧
    (∀ n, n ∈ g'.nodes ↔ n ∈ g.nodes ∨ ∃ x ∈ l, rel x = none ∧
      (n = x ∨ n = w.findLookupContextDecl x)) ∧
    g'.root = g.root ∧ (g.nodes.Nodup → g'.nodes.Nodup) := by
  induction l generalizing g with
  | nil => simp
  | cons c l ih =>
    rw [List.nodup_cons] at hn
    obtain ⟨i1, i2, i3, i4⟩ := ih (addContext w rel g c) hn.2
    simp only [List.foldl_cons]
    cases hr : rel c with
    | some a =>
      have : addContext w rel g c = g := by simp [addContext, hr]
      rw [this] at i1 i2 i3 i4 ⊢
      refine ⟨fun p x => ?_, fun n => ?_, i3, i4⟩
      · rw [i1]
        by_cases hx : x = c
        · subst hx; simp [hr]
        · simp [hx]
      · rw [i2]; simp [hr]
    | none =>
      have hadd : addContext w rel g c = g.addEdge (w.findLookupContextDecl c) c := by
        simp [addContext, hr]
      rw [hadd] at i1 i2 i3 i4 ⊢
      refine ⟨fun p x => ?_, fun n => ?_, by rw [i3, addEdge_root],
        fun h => i4 (addEdge_nodup _ _ _ h)⟩
      · rw [i1, addEdge_edges]
        by_cases hx : x = c
        · subst hx; simp [hr, hn.1]
        · simp [hx]
      · rw [i2, addEdge_nodes]
        simp only [List.mem_cons, exists_eq_or_imp, hr, true_and]
        constructor
        · rintro ((h | h | h) | h)
          · exact .inl h
          · exact .inr (.inl (.inr h))
          · exact .inr (.inl (.inl h))
          · exact .inr (.inr h)
        · rintro (h | (h | h) | h)
          · exact .inl (.inl h)
          · exact .inl (.inr (.inr h))
          · exact .inl (.inr (.inl h))
          · exact .inr h

theorem isTag_iff (k : DeclKind) : k.isTag = true ↔ k = .enum ∨ k = .record := by
  cases k <;> simp [DeclKind.isTag]

theorem shouldSkip_false_iff_tag (d : DeclInfo) (h : d.kind = .enum ∨ d.kind = .record) :
    shouldSkip d = false ↔ d.complete = true ∧ d.dependent = false := by
  unfold shouldSkip
  rcases h with h | h <;> simp [h, DeclKind.isTag]

theorem mem_aliases (w : World) (root : Tree) (a : Nat) :
    a ∈ (visited w root).filter (isAlias w) ↔
      (∃ t, Occurs w root t ∧ t.id = a) ∧ Annotated w a ∧ (w.info a).kind = .typedefName := by
  rw [List.mem_filter, mem_visited]
  refine and_congr_right fun _ => ?_
  rw [← annot_iff]
  unfold isAlias annot
  cases hk : (w.info a).kind <;> simp [DeclKind.isNamed, DeclKind.isTag, hk, and_comm]

theorem mem_contexts (w : World) (root : Tree) (x : Nat) :
    x ∈ (visited w root).filter (isCtx w) ↔
      (∃ t, Occurs w root t ∧ t.id = x) ∧ Context w x := by
  rw [List.mem_filter, ← mem_visited]
  constructor
  · rintro ⟨h, hc⟩
    refine ⟨h, ?_⟩
    unfold isCtx at hc
    unfold Context
    simp only [Bool.and_eq_true, Bool.or_eq_true, decide_eq_true_eq, Bool.not_eq_true'] at hc
    rcases hc with ⟨hk | hk, hs⟩
    · rw [isTag_iff] at hk
      exact .inr ⟨hk, (shouldSkip_false_iff_tag _ hk).1 hs⟩
    · exact .inl hk
  · rintro ⟨h, hc⟩
    refine ⟨h, ?_⟩
    unfold isCtx
    simp only [Bool.and_eq_true, Bool.or_eq_true, decide_eq_true_eq, Bool.not_eq_true']
    rcases hc with hk | ⟨hk, hs⟩
    · refine ⟨.inr hk, ?_⟩
      have := visited_not_skip w root x h
      simpa [skipNs, hk] using this
    · exact ⟨.inl ((isTag_iff _).2 hk), (shouldSkip_false_iff_tag _ hk).2 hs⟩

/-- Everything known about a graph that has been built. -/
structure Built (w : World) (root : Tree) (g : Graph) (b : Building) : Prop where
  coll : CollInv w (visited w root) (closes (events w root)) (traverse w {} root)
  inv : BuildInv w (traverse w {} root) ((visited w root).filter (isAlias w)) b
  ok : hasErrors b.diags = false
  edges : ∀ p x, g.edges p x = b.graph.edges p x +
    if x ∈ (visited w root).filter (isCtx w) ∧ b.relocated x = none ∧
      p = w.findLookupContextDecl x then 1 else 0
  nodes : ∀ n, n ∈ g.nodes ↔ n ∈ b.graph.nodes ∨
    ∃ x ∈ (visited w root).filter (isCtx w), b.relocated x = none ∧
      (n = x ∨ n = w.findLookupContextDecl x)
  root : g.root = w.unit
  nodup : g.nodes.Nodup

theorem entryOf_own (w : World) (x : Nat) (ha : annot w x = true) (hs : skipNs w x = false) :
    ownAttrs w x = entryOf w x ∧ entryOf w x = some (base w x) := by
  have := insert_empty w .empty x ha hs rfl
  constructor
  · unfold ownAttrs
    rw [this]
    simp [Storage.set, entryOf, ha]
  · simp [entryOf, ha, base]

theorem build_alias_inv (w : World) (root : Tree) (wf : WellFormed w root) :
    BuildInv w (traverse w {} root) ((visited w root).filter (isAlias w))
      ((traverse w {} root).aliases.foldl (processAlias w)
        { graph := .start w.unit, storage := (traverse w {} root).storage,
          diags := (traverse w {} root).diags }) := by
  have hc := traverse_inv w root wf.distinct
  rw [hc.aliases]
  have := buildInv_fold ((visited w root).filter (isAlias w))
    (buildInv_start w (traverse w {} root)) ?_ ?_ ?_ ?_ ?_
  · simpa using this
  · intro a ha
    rw [hc.entries, if_pos (List.mem_filter.1 ha).1]
  · intro a x hx
    rw [isTag_iff]; exact wf.target_tag a x hx
  · intro a ha
    rw [((mem_aliases ..).1 ha).2.2]; rfl
  · intro a ha x hx
    rw [shouldSkip_false_iff_tag _ (wf.target_tag a x hx)]
    exact wf.target_complete a x hx ((mem_aliases ..).1 ha).2.1.2.2.2.1
  · intro x e he
    rw [hc.entries] at he
    split at he
    · unfold entryOf at he
      split at he
      · exact (Option.some.inj he).symm
      · exact absurd he (by simp)
    · exact absurd he (by simp)

theorem built (w : World) (root : Tree) (wf : WellFormed w root) (g : Graph) (b : Building)
    (h : buildGraph w root = (some g, b)) : Built w root g b := by
  have hc := traverse_inv w root wf.distinct
  have hi := build_alias_inv w root wf
  unfold buildGraph at h
  simp only at h
  split at h
  · exact absurd (congrArg Prod.fst h) (by simp)
  · split at h
    · exact absurd (congrArg Prod.fst h) (by simp)
    · rename_i h1 h2
      rw [Prod.mk.injEq, Option.some.injEq] at h
      obtain ⟨hg, hb⟩ := h
      rw [hb] at hi h2 hg
      have hn : ((visited w root).filter (isCtx w)).Nodup :=
        ((visited_sublist w root).nodup wf.distinct).filter _
      have := contexts_fold w b.relocated ((visited w root).filter (isCtx w)) b.graph hn
      rw [hc.contexts] at hg
      rw [hg] at this
      obtain ⟨c1, c2, c3, c4⟩ := this
      exact ⟨hc, hi, by simpa using h2, c1, c2, by rw [c3]; exact hi.root, c4 hi.nodup⟩

theorem exposesHere_iff (w : World) (root : Tree) (a x : Nat) :
    ExposesHere w root a x ↔ a ∈ (visited w root).filter (isAlias w) ∧
      (w.info a).aliasTarget = some x ∧ (aliasAttrs w a).exposeHere = true := by
  rw [mem_aliases]
  unfold ExposesHere
  constructor
  · rintro ⟨h1, h2, h3, h4, o, t, ho, ht, he⟩
    refine ⟨⟨h1, h2, h3⟩, h4, ?_⟩
    obtain ⟨s, hs, rfl⟩ := h1
    have hv := visited_not_skip w root s.id (occurs_visited w root s hs)
    rw [(entryOf_own w s.id ((annot_iff ..).2 h2) hv).1] at ho
    simp [aliasAttrs, ho, ht, he]
  · rintro ⟨⟨h1, h2, h3⟩, h4, he⟩
    refine ⟨h1, h2, h3, h4, ?_⟩
    obtain ⟨s, hs, rfl⟩ := h1
    have hv := visited_not_skip w root s.id (occurs_visited w root s hs)
    have ho := entryOf_own w s.id ((annot_iff ..).2 h2) hv
    rw [ho.1, ho.2]
    simp only [aliasAttrs, ho.2, Option.bind_some] at he
    cases ht : (base w s.id).typedefName with
    | none => rw [ht] at he; exact absurd he (by decide)
    | some t => rw [ht] at he; exact ⟨_, t, rfl, ht, he⟩

theorem encourages_iff (w : World) (root : Tree) (a x : Nat) :
    Encourages w root a x ↔ a ∈ (visited w root).filter (isAlias w) ∧
      (w.info a).aliasTarget = some x ∧ (aliasAttrs w a).encourage = true := by
  rw [mem_aliases]
  unfold Encourages
  constructor
  · rintro ⟨h1, h2, h3, h4, o, t, ho, ht, he⟩
    refine ⟨⟨h1, h2, h3⟩, h4, ?_⟩
    obtain ⟨s, hs, rfl⟩ := h1
    have hv := visited_not_skip w root s.id (occurs_visited w root s hs)
    rw [(entryOf_own w s.id ((annot_iff ..).2 h2) hv).1] at ho
    simp [aliasAttrs, ho, ht, he]
  · rintro ⟨⟨h1, h2, h3⟩, h4, he⟩
    refine ⟨h1, h2, h3, h4, ?_⟩
    obtain ⟨s, hs, rfl⟩ := h1
    have hv := visited_not_skip w root s.id (occurs_visited w root s hs)
    have ho := entryOf_own w s.id ((annot_iff ..).2 h2) hv
    rw [ho.1, ho.2]
    simp only [aliasAttrs, ho.2, Option.bind_some] at he
    cases ht : (base w s.id).typedefName with
    | none => rw [ht] at he; exact absurd he (by decide)
    | some t => rw [ht] at he; exact ⟨_, t, rfl, ht, he⟩

theorem relocated_iff {w : World} {root : Tree} {g : Graph} {b : Building} (h : Built w root g b)
    (a x : Nat) : b.relocated x = some a ↔ ExposesHere w root a x := by
  rw [h.inv.relocated, exposesHere_iff]
  constructor
  · intro hr
    have h1 := List.mem_of_find?_eq_some hr
    have h2 := List.find?_some hr
    simp only [Bool.and_eq_true, decide_eq_true_eq] at h2
    exact ⟨h1, h2.1, h2.2⟩
  · rintro ⟨h1, h2, h3⟩
    exact h.inv.unique h.ok a h1 h3 x h2

theorem lookup_kind_iff (k : DeclKind) : k.isLookupContext = true ↔
    (k = .namespace ∨ k = .enum ∨ k = .record ∨ k = .translationUnit) := by
  cases k <;> simp [DeclKind.isLookupContext]

theorem scopeOf_find (w : World) (root : Tree) (wf : WellFormed w root) (id p : Nat)
    (hu : id ≠ w.unit) : ScopeOf w id p ↔ w.findLookupContextDecl id = p := by
  have hmem := wf.outermost id hu
  have hk := (wf.unit_kind w.unit).2 rfl
  unfold World.findLookupContextDecl
  have hsome : ∃ q, (w.ancestors id).find? (fun p => (w.info p).kind.isLookupContext) = some q := by
    cases h : (w.ancestors id).find? (fun p => (w.info p).kind.isLookupContext) with
    | some q => exact ⟨q, rfl⟩
    | none =>
      have := List.find?_eq_none.1 h _ hmem
      rw [hk] at this
      exact absurd rfl this
  obtain ⟨q, hq⟩ := hsome
  rw [hq, Option.getD_some]
  obtain ⟨hq1, pre, post, hq2, hq3⟩ := List.find?_eq_some_iff_append.1 hq
  have hpre : ∀ r ∈ pre, (w.info r).kind ≠ .namespace ∧ (w.info r).kind ≠ .enum ∧
      (w.info r).kind ≠ .record ∧ (w.info r).kind ≠ .translationUnit := by
    intro r hr
    have := hq3 r hr
    simp only [Bool.not_eq_true'] at this
    rw [Bool.eq_false_iff, Ne, lookup_kind_iff] at this
    simpa only [not_or] using this
  constructor
  · rintro ⟨pre', post', h1, h2, h3⟩
    have : (w.ancestors id).find? (fun p => (w.info p).kind.isLookupContext) = some p := by
      rw [List.find?_eq_some_iff_append]
      refine ⟨(lookup_kind_iff _).2 h2, pre', post', h1, fun r hr => ?_⟩
      rw [Bool.not_eq_true', Bool.eq_false_iff, Ne, lookup_kind_iff]
      simpa only [not_or] using h3 r hr
    rw [hq] at this
    exact Option.some.inj this
  · rintro rfl
    exact ⟨pre, post, hq2, (lookup_kind_iff _).1 hq1, hpre⟩

end Verif
