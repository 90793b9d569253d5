import Verif.Model.Dfs
import Verif.Spec.Graph
/-!
# Lemmas: depth-first iteration
-/
namespace Verif
open Spec

/-- The nodes on the stack form a path from the root. -/
def PathToRoot (g : Graph) : List Nat → Prop
  | [] => True
  | [r] => r = g.root
  | n :: p :: rest => Edge g p n ∧ PathToRoot g (p :: rest)

/-- What is known when a node is entered or completed. -/
structure DfsFacts (g : Graph) (skip : Nat → Bool) (visited opened : List Nat) : Prop where
  root_mem : g.root ∈ visited
  nodup : visited.Nodup
  open_nodup : opened.Nodup
  open_visited : ∀ x ∈ opened, x ∈ visited
  open_kept : ∀ x ∈ opened, skip x = false
  path : PathToRoot g opened
  reach : ∀ x ∈ visited, ReachVia g (fun p => skip p = false) x
  closed : ∀ x ∈ visited, skip x = false → x ∉ opened → ∀ c ∈ g.children x, c ∈ visited

theorem dfsLoop_rule {σ : Type} (g : Graph) (hg : GraphOK g) (k : Walker σ)
    (I : List Nat → List Nat → σ → Prop)
    (henter : ∀ v o n c s, DfsFacts g k.skip v (n :: o) → Edge g n c → c ∉ v →
      I v (n :: o) s → I (c :: v) (if k.skip c then n :: o else c :: n :: o) (k.enter (some n) c s))
    (hdone : ∀ v o n s, DfsFacts g k.skip v (n :: o) → (∀ c, Edge g n c → c ∈ v) →
      I v (n :: o) s → I v o (k.completed n s))
    (visited : List Nat) (stack : List (Nat × List Nat)) (s : σ)
    (hf : DfsFacts g k.skip visited (stack.map Prod.fst))
    (hrest : ∀ e ∈ stack, (∀ c ∈ e.2, Edge g e.1 c) ∧ ∀ c, Edge g e.1 c → c ∈ visited ∨ c ∈ e.2)
    (hi : I visited (stack.map Prod.fst) s) :
    ∃ v, (dfsLoop g k visited stack s).1 = v ∧ I v [] (dfsLoop g k visited stack s).2 ∧
      DfsFacts g k.skip v [] := by
  induction visited, stack, s using dfsLoop.induct (g := g) (k := k) with
  | case1 visited s =>
    rw [dfsLoop]; exact ⟨_, rfl, hi, hf⟩
  | case2 visited s n st ih =>
    rw [dfsLoop]
    simp only [List.map_cons] at hf hi
    have hn := hrest (n, []) (by simp)
    have hall : ∀ c, Edge g n c → c ∈ visited := by
      intro c hc
      rcases hn.2 c hc with h | h
      · exact h
      · simp at h
    refine ih ?_ (fun e he => hrest e (by simp [he])) (hdone _ _ _ _ hf hall hi)
    have hnd := List.nodup_cons.1 hf.open_nodup
    refine ⟨hf.root_mem, hf.nodup, hnd.2, fun x hx => hf.open_visited x (by simp [hx]),
      fun x hx => hf.open_kept x (by simp [hx]), ?_, hf.reach, ?_⟩
    · have := hf.path
      cases hst : st.map Prod.fst with
      | nil => trivial
      | cons p rest => rw [hst] at this; exact this.2
    · intro x hx hs ho c hc
      by_cases hxn : x = n
      · subst hxn; exact hall c hc
      · exact hf.closed x hx hs (by simpa [hxn] using ho) c hc
  | case3 visited s n c cs st hv ih =>
    rw [dfsLoop, if_pos hv]
    refine ih hf ?_ hi
    intro e he
    rcases List.mem_cons.1 he with rfl | he
    · have h := hrest (n, c :: cs) (by simp)
      refine ⟨fun d hd => h.1 d (by simp [hd]), fun d hd => ?_⟩
      rcases h.2 d hd with h | h
      · exact .inl h
      · rcases List.mem_cons.1 h with rfl | h
        · exact .inl hv
        · exact .inr h
    · exact hrest e (by simp [he])
  | case4 visited s n c cs st hv hn hs ih =>
    rw [dfsLoop, if_neg hv, if_pos hn, if_pos hs]
    have hE : Edge g n c := (hrest (n, c :: cs) (by simp)).1 c (by simp)
    have hi' := henter visited (st.map Prod.fst) n c s hf hE hv hi
    rw [if_pos hs] at hi'
    refine ih ?_ ?_ hi'
    · refine ⟨by simp [hf.root_mem], List.nodup_cons.2 ⟨hv, hf.nodup⟩, hf.open_nodup,
        fun x hx => by simp [hf.open_visited x hx], hf.open_kept, hf.path, ?_, ?_⟩
      · intro x hx
        rcases List.mem_cons.1 hx with rfl | hx
        · exact .step (hf.reach n (hf.open_visited n (by simp))) (hf.open_kept n (by simp)) hE
        · exact hf.reach x hx
      · intro x hx hsx ho d hd
        rcases List.mem_cons.1 hx with rfl | hx
        · rw [hs] at hsx; exact absurd hsx (by simp)
        · exact List.mem_cons_of_mem _ (hf.closed x hx hsx ho d hd)
    · intro e he
      rcases List.mem_cons.1 he with rfl | he
      · have h := hrest (n, c :: cs) (by simp)
        refine ⟨fun d hd => h.1 d (by simp [hd]), fun d hd => ?_⟩
        rcases h.2 d hd with h | h
        · exact .inl (by simp [h])
        · rcases List.mem_cons.1 h with rfl | h
          · exact .inl (by simp)
          · exact .inr h
      · have h := hrest e (by simp [he])
        refine ⟨h.1, fun d hd => ?_⟩
        rcases h.2 d hd with h | h
        · exact .inl (by simp [h])
        · exact .inr h
  | case5 visited s n c cs st hv hn hs ih =>
    rw [dfsLoop, if_neg hv, if_pos hn, if_neg hs]
    have hE : Edge g n c := (hrest (n, c :: cs) (by simp)).1 c (by simp)
    have hi' := henter visited (st.map Prod.fst) n c s hf hE hv hi
    rw [if_neg hs] at hi'
    have hno : c ∉ ((n, cs) :: st).map Prod.fst := fun h => hv (hf.open_visited c h)
    refine ih ?_ ?_ hi'
    · refine ⟨by simp [hf.root_mem], List.nodup_cons.2 ⟨hv, hf.nodup⟩,
        List.nodup_cons.2 ⟨hno, hf.open_nodup⟩, ?_, ?_, ⟨hE, hf.path⟩, ?_, ?_⟩
      · intro x hx
        rcases List.mem_cons.1 hx with rfl | hx
        · simp
        · exact List.mem_cons_of_mem _ (hf.open_visited x hx)
      · intro x hx
        rcases List.mem_cons.1 hx with rfl | hx
        · simpa using hs
        · exact hf.open_kept x hx
      · intro x hx
        rcases List.mem_cons.1 hx with rfl | hx
        · exact .step (hf.reach n (hf.open_visited n (by simp))) (hf.open_kept n (by simp)) hE
        · exact hf.reach x hx
      · intro x hx hsx ho d hd
        rcases List.mem_cons.1 hx with rfl | hx
        · exact absurd (by simp) ho
        · refine List.mem_cons_of_mem _ (hf.closed x hx hsx (fun h => ho ?_) d hd)
          exact List.mem_cons_of_mem _ h
    · intro e he
      rcases List.mem_cons.1 he with rfl | he
      · exact ⟨fun d hd => hd, fun d hd => .inr hd⟩
      rcases List.mem_cons.1 he with rfl | he
      · have h := hrest (n, c :: cs) (by simp)
        refine ⟨fun d hd => h.1 d (by simp [hd]), fun d hd => ?_⟩
        rcases h.2 d hd with h | h
        · exact .inl (by simp [h])
        · rcases List.mem_cons.1 h with rfl | h
          · exact .inl (by simp)
          · exact .inr h
      · have h := hrest e (by simp [he])
        refine ⟨h.1, fun d hd => ?_⟩
        rcases h.2 d hd with h | h
        · exact .inl (by simp [h])
        · exact .inr h
  | case6 visited s n c cs st hv hn ih =>
    exact absurd (hg.child n c ((hrest (n, c :: cs) (by simp)).1 c (by simp))) hn

/-- Reasoning rule for loops over a depth-first iterator. -/
theorem dfs_rule {σ : Type} (g : Graph) (hg : GraphOK g) (k : Walker σ)
    (I : List Nat → List Nat → σ → Prop) (s : σ)
    (hroot : I [g.root] (if k.skip g.root then [] else [g.root]) (k.enter none g.root s))
    (henter : ∀ v o n c s, DfsFacts g k.skip v (n :: o) → Edge g n c → c ∉ v →
      I v (n :: o) s → I (c :: v) (if k.skip c then n :: o else c :: n :: o) (k.enter (some n) c s))
    (hdone : ∀ v o n s, DfsFacts g k.skip v (n :: o) → (∀ c, Edge g n c → c ∈ v) →
      I v (n :: o) s → I v o (k.completed n s)) :
    ∃ v, I v [] (dfs g k s) ∧ v.Nodup ∧
      ∀ x, x ∈ v ↔ ReachVia g (fun p => k.skip p = false) x := by
  unfold dfs
  cases hs : k.skip g.root with
  | true =>
    rw [hs] at hroot
    refine ⟨[g.root], hroot, by simp, fun x => ?_⟩
    rw [List.mem_singleton]
    constructor
    · rintro rfl; exact .root
    · intro h
      induction h with
      | root => rfl
      | step _ hp _ ih => rw [ih, hs] at hp; exact absurd hp (by simp)
  | false =>
    rw [hs] at hroot
    have hf0 : DfsFacts g k.skip [g.root] [g.root] := by
      refine ⟨by simp, by simp, by simp, by simp, ?_, rfl, ?_, ?_⟩
      · intro x hx; rw [List.mem_singleton.1 hx]; exact hs
      · intro x hx; rw [List.mem_singleton.1 hx]; exact .root
      · intro x hx _ ho; exact absurd hx ho
    obtain ⟨v, _, hi, hf⟩ := dfsLoop_rule g hg k I henter hdone [g.root]
      [(g.root, g.children g.root)] (k.enter none g.root s) hf0
      (by
        intro e he
        rw [List.mem_singleton.1 he]
        exact ⟨fun c hc => hc, fun c hc => .inr hc⟩) hroot
    refine ⟨v, hi, hf.nodup, fun x => ⟨hf.reach x, fun h => ?_⟩⟩
    induction h with
    | root => exact hf.root_mem
    | step _ hp hE ih => exact hf.closed _ ih hp (by simp) _ hE

/-! ### Evaluation

`dfsLoop` is defined by well-founded recursion, which does not reduce.  For
concrete graphs, it can be computed with a bound on the number of steps. -/

/-- `dfsLoop`, giving up after some number of steps. -/
def dfsLoopBy {σ : Type} (g : Graph) (k : Walker σ) :
    Nat → List Nat → List (Nat × List Nat) → σ → Option (List Nat × σ)
  | 0, _, _, _ => none
  | _ + 1, visited, [], s => some (visited, s)
  | f + 1, visited, (n, []) :: st, s => dfsLoopBy g k f visited st (k.completed n s)
  | f + 1, visited, (n, c :: cs) :: st, s =>
    if c ∈ visited then dfsLoopBy g k f visited ((n, cs) :: st) s
    else if c ∈ g.nodes then
      if k.skip c then dfsLoopBy g k f (c :: visited) ((n, cs) :: st) (k.enter (some n) c s)
      else
        dfsLoopBy g k f (c :: visited) ((c, g.children c) :: (n, cs) :: st) (k.enter (some n) c s)
    else dfsLoopBy g k f visited ((n, cs) :: st) s

theorem dfsLoopBy_sound {σ : Type} (g : Graph) (k : Walker σ) (f : Nat) (v : List Nat)
    (st : List (Nat × List Nat)) (s : σ) (r : List Nat × σ)
    (h : dfsLoopBy g k f v st s = some r) : dfsLoop g k v st s = r := by
  induction f generalizing v st s with
  | zero => simp [dfsLoopBy] at h
  | succ f ih =>
    rcases st with _ | ⟨⟨n, _ | ⟨c, cs⟩⟩, st⟩
    · rw [dfsLoop]; simpa [dfsLoopBy] using h
    · rw [dfsLoop]; exact ih _ _ _ (by simpa [dfsLoopBy] using h)
    · rw [dfsLoop]
      rw [dfsLoopBy] at h
      split at h
      · rw [if_pos (by assumption)]; exact ih _ _ _ h
      · rw [if_neg (by assumption)]
        split at h
        · rw [if_pos (by assumption)]
          split at h
          · rw [if_pos (by assumption)]; exact ih _ _ _ h
          · rw [if_neg (by assumption)]; exact ih _ _ _ h
        · rw [if_neg (by assumption)]; exact ih _ _ _ h

/-- `dfs`, giving up after some number of steps. -/
def dfsBy {σ : Type} (f : Nat) (g : Graph) (k : Walker σ) (s : σ) : Option σ :=
  if k.skip g.root then some (k.enter none g.root s)
  else (dfsLoopBy g k f [g.root] [(g.root, g.children g.root)] (k.enter none g.root s)).map (·.2)

theorem dfs_eval {σ τ : Type} (f : Nat) (g : Graph) (k : Walker σ) (s : σ) (F : σ → τ) (y : τ)
    (h : (dfsBy f g k s).map F = some y) : F (dfs g k s) = y := by
  unfold dfsBy at h
  unfold dfs
  split at h
  · rw [if_pos (by assumption)]; simpa using h
  · rw [if_neg (by assumption)]
    cases hr : dfsLoopBy g k f [g.root] [(g.root, g.children g.root)] (k.enter none g.root s) with
    | none => rw [hr] at h; simp at h
    | some r =>
      rw [hr] at h
      rw [dfsLoopBy_sound g k f _ _ _ r hr]
      simpa using h

end Verif
