import Verif.Lemmas.Reannotate
import Verif.Lemmas.Sorting
/-!
# Lemmas: analyses if members are annotated differently
-/
namespace Verif
open Spec

/-- Two iterations of the same graph. -/
theorem dfsLoop_rel {σ τ : Type} (g : Graph) (k : Walker σ) (k' : Walker τ) (R : σ → τ → Prop)
    (N : Nat → Prop) (hN : ∀ x ∈ g.nodes, N x)
    (he : ∀ p x s s', N p → N x → R s s' → R (k.enter (some p) x s) (k'.enter (some p) x s'))
    (hs : ∀ x, N x → k'.skip x = k.skip x)
    (hc : ∀ x s s', N x → R s s' → R (k.completed x s) (k'.completed x s'))
    (visited : List Nat) (stack : List (Nat × List Nat)) (s : σ) :
    ∀ s', (∀ e ∈ stack, N e.1) → R s s' →
      (dfsLoop g k' visited stack s').1 = (dfsLoop g k visited stack s).1 ∧
      R (dfsLoop g k visited stack s).2 (dfsLoop g k' visited stack s').2 := by
  induction visited, stack, s using dfsLoop.induct (g := g) (k := k) with
  | case1 visited s => intro s' _ hr; rw [dfsLoop, dfsLoop]; exact ⟨rfl, hr⟩
  | case2 visited s n st ih =>
    intro s' hst hr
    rw [dfsLoop, dfsLoop]
    exact ih _ (fun e h => hst e (List.mem_cons_of_mem _ h)) (hc n _ _ (hst _ List.mem_cons_self) hr)
  | case3 visited s n c cs st hv ih =>
    intro s' hst hr
    rw [dfsLoop, dfsLoop, if_pos hv, if_pos hv]
    refine ih _ (fun e h => ?_) hr
    rcases List.mem_cons.1 h with rfl | h
    · exact hst (n, c :: cs) List.mem_cons_self
    · exact hst e (List.mem_cons_of_mem _ h)
  | case4 visited s n c cs st hv hn hk ih =>
    intro s' hst hr
    have hNc := hN c hn
    have hNn : N n := hst _ List.mem_cons_self
    rw [dfsLoop, dfsLoop, if_neg hv, if_neg hv, if_pos hn, if_pos hn, if_pos hk, hs c hNc, if_pos hk]
    refine ih _ (fun e h => ?_) (he n c _ _ hNn hNc hr)
    rcases List.mem_cons.1 h with rfl | h
    · exact hNn
    · exact hst e (List.mem_cons_of_mem _ h)
  | case5 visited s n c cs st hv hn hk ih =>
    intro s' hst hr
    have hNc := hN c hn
    have hNn : N n := hst _ List.mem_cons_self
    rw [dfsLoop, dfsLoop, if_neg hv, if_neg hv, if_pos hn, if_pos hn, if_neg hk, hs c hNc, if_neg hk]
    refine ih _ (fun e h => ?_) (he n c _ _ hNn hNc hr)
    rcases List.mem_cons.1 h with rfl | h
    · exact hNc
    · rcases List.mem_cons.1 h with rfl | h
      · exact hNn
      · exact hst e (List.mem_cons_of_mem _ h)
  | case6 visited s n c cs st hv hn ih =>
    intro s' hst hr
    rw [dfsLoop, dfsLoop, if_neg hv, if_neg hv, if_neg hn, if_neg hn]
    refine ih _ (fun e h => ?_) hr
    rcases List.mem_cons.1 h with rfl | h
    · exact hst (n, c :: cs) List.mem_cons_self
    · exact hst e (List.mem_cons_of_mem _ h)

theorem dfs_rel {σ τ : Type} (g : Graph) (k : Walker σ) (k' : Walker τ) (R : σ → τ → Prop)
    (N : Nat → Prop) (hN : ∀ x ∈ g.nodes, N x) (hroot : N g.root)
    (he : ∀ p x s s', (∀ q, p = some q → N q) → N x → R s s' → R (k.enter p x s) (k'.enter p x s'))
    (hs : ∀ x, N x → k'.skip x = k.skip x)
    (hc : ∀ x s s', N x → R s s' → R (k.completed x s) (k'.completed x s'))
    (s : σ) (s' : τ) (hr : R s s') : R (dfs g k s) (dfs g k' s') := by
  have h0 := he none g.root s s' (fun q hq => (by cases hq)) hroot hr
  unfold dfs
  rw [hs g.root hroot]
  split
  · exact h0
  · refine (dfsLoop_rel g k k' R N hN (fun p x s s' hp => he (some p) x s s' fun q hq => ?_) hs hc
      _ _ _ _ (fun e h => ?_) h0).2
    · cases hq; exact hp
    · rw [List.mem_singleton] at h
      rw [h]; exact hroot

section
variable {w : EmitWorld} {D : Nat → Bool} {texts : Nat → List Str} {s s' : Storage} {g : Graph}

/-- Contexts are no members. -/
theorem off_nodes (h : OnlyAnnotated w D texts) (hg : ContextGraph w.toWorld g) (x : Nat)
    (hx : x ∈ g.nodes) : D x = false := by
  cases hD : D x with
  | false => rfl
  | true =>
    have hm := h.member x hD
    by_cases e : x = g.root
    · rw [e] at hm
      exact absurd hg.root_kind hm.2.2.2.2.1
    · rcases hg.node_kind x hx e with e | e | e
      · exact absurd e hm.1
      · exact absurd e hm.2.1
      · exact absurd e hm.2.2.1

theorem off_vis (h : OnlyAnnotated w D texts) (hg : ContextGraph w.toWorld g) (hs : Off w D texts s s') :
    deriveEffectiveVisibility (reannotate w texts).toWorld s' g =
      deriveEffectiveVisibility w.toWorld s g := by
  refine dfs_rel g _ _ (fun a b => b = a) (fun x => D x = false) (off_nodes h hg)
    (off_nodes h hg _ hg.toForest.root) ?_ ?_ ?_ _ _ ?_
  rotate_left
  · exact fun _ _ => rfl
  · rintro _ _ _ _ rfl; rfl
  · rfl
  rintro p x _ r _ hx rfl
  dsimp only
  have : effectiveVisibility (reannotate w texts).toWorld s' (p.bind r) x =
      effectiveVisibility w.toWorld s (p.bind r) x := by
    unfold effectiveVisibility getNamed
    rw [hs.off x hx]
    rfl
  rw [this]

theorem off_scopes (h : OnlyAnnotated w D texts) (hg : ContextGraph w.toWorld g) (hs : Off w D texts s s') :
    findEnclosingScopes (reannotate w texts).toWorld s' g = findEnclosingScopes w.toWorld s g := by
  refine dfs_rel g _ _ (fun a b => b = a) (fun x => D x = false) (off_nodes h hg)
    (off_nodes h hg _ hg.toForest.root) ?_ ?_ ?_ _ _ ?_
  rotate_left
  · exact fun _ _ => rfl
  · rintro _ _ _ _ rfl; rfl
  · rfl
  rintro p x r _ hp _ rfl
  cases p with
  | none => rfl
  | some p =>
    dsimp only
    have : isTransparent (reannotate w texts).toWorld s' p = isTransparent w.toWorld s p := by
      unfold isTransparent getNamespace
      rw [hs.off p (hp p rfl)]
      rfl
    rw [this]

theorem off_other (hs : Off w D texts s s') (name : Str) (x : Nat) (hx : D x = false) :
    isNamespaceForDifferentModule (reannotate w texts).toWorld s' name x =
      isNamespaceForDifferentModule w.toWorld s name x := by
  unfold isNamespaceForDifferentModule getNamespace
  rw [hs.off x hx]
  rfl

/-- Sets of contexts of both runs. -/
def OffSets (w : EmitWorld) (c c' : Nat → Bool) : Prop :=
  ∀ x, (w.info x).kind.isTag = false → c' x = c x

theorem off_hide (h : OnlyAnnotated w D texts) (hg : ContextGraph w.toWorld g) (hs : Off w D texts s s')
    (name : Str) (c c' : Nat → Bool) (hc : OffSets w c c') (vis : Visibilities) :
    OffSets w (hideNamespaces w.toWorld s name g c vis).1
      (hideNamespaces (reannotate w texts).toWorld s' name g c' vis).1 ∧
    (hideNamespaces (reannotate w texts).toWorld s' name g c' vis).2 =
      (hideNamespaces w.toWorld s name g c vis).2 := by
  have key := dfs_rel g
    { enter := fun _ id (h : Hiding) =>
        if h.dominator.isNone && !isNamespaceForDifferentModule w.toWorld s name id then h
        else { dominator := if h.dominator.isNone then some id else h.dominator
               contexts := fun x => if x = id then false else h.contexts x
               vis := assign h.vis id false }
      completed := fun id h => if h.dominator = some id then { h with dominator := none } else h }
    { enter := fun _ id (h : Hiding) =>
        if h.dominator.isNone && !isNamespaceForDifferentModule (reannotate w texts).toWorld s' name id then h
        else { dominator := if h.dominator.isNone then some id else h.dominator
               contexts := fun x => if x = id then false else h.contexts x
               vis := assign h.vis id false }
      completed := fun id h => if h.dominator = some id then { h with dominator := none } else h }
    (fun a b => b.dominator = a.dominator ∧ b.vis = a.vis ∧ OffSets w a.contexts b.contexts)
    (fun x => D x = false) (off_nodes h hg) (off_nodes h hg _ hg.toForest.root)
    (by
      intro p x a b _ hx hr
      dsimp only
      rw [off_other hs name x hx, hr.1, hr.2.1]
      split
      · exact hr
      · refine ⟨rfl, rfl, fun y hy => ?_⟩
        dsimp only
        rw [hr.2.2 y hy])
    (fun _ _ => rfl)
    (by
      intro x a b _ hr
      dsimp only
      rw [hr.1]
      split
      · exact ⟨rfl, hr.2.1, hr.2.2⟩
      · exact hr)
    { contexts := c, vis := vis } { contexts := c', vis := vis } ⟨rfl, rfl, hc⟩
  exact ⟨key.2.2, key.2.1⟩

theorem off_prune (c c' : Nat → Bool) (hc : OffSets w c c') (vis : Visibilities) :
    pruneGraph (reannotate w texts).toWorld g c' vis = pruneGraph w.toWorld g c vis := by
  have hp : ∀ x, shouldBePreserved (reannotate w texts).toWorld c' vis x =
      shouldBePreserved w.toWorld c vis x := by
    intro x
    show (if (w.info x).kind.isTag = true then _ else _) = if (w.info x).kind.isTag = true then _ else _
    split
    · rfl
    · rename_i hx
      exact hc x (by simpa using hx)
  unfold pruneGraph
  simp only [hp]

/-- Contexts that contain something visible. -/
theorem off_has {V : Nat → Prop} {m : Members}
    (hp : ∀ x, ¬ IsType w.toWorld x →
      (HasVisibleMember s m V x ∨ ∃ c, Edge g x c ∧ IsType w.toWorld c ∧ V c) →
      HasVisibleMember s' m V x ∨ ∃ c, Edge g x c ∧ IsType w.toWorld c ∧ V c)
    {x : Nat} (hv : HasVisible w.toWorld s m V g x) (hx : ¬ IsType w.toWorld x) :
    HasVisible (reannotate w texts).toWorld s' m V g x := by
  induction hv with
  | @member x hm =>
    rcases hp x hx (.inl hm) with h | ⟨c, h1, h2, h3⟩
    · exact .member h
    · exact .type h1 h2 h3
  | type h1 h2 h3 => exact .type h1 h2 h3
  | @nested x c h1 _ h3 ih =>
    by_cases hc : IsType w.toWorld c
    · exact .type h1 hc (h3 hc)
    · exact .nested h1 (ih hc) fun h => absurd h hc

theorem off_has' {V : Nat → Prop} {m : Members}
    (hp : ∀ x, ¬ IsType w.toWorld x →
      (HasVisibleMember s' m V x ∨ ∃ c, Edge g x c ∧ IsType w.toWorld c ∧ V c) →
      HasVisibleMember s m V x ∨ ∃ c, Edge g x c ∧ IsType w.toWorld c ∧ V c)
    {x : Nat} (hv : HasVisible (reannotate w texts).toWorld s' m V g x) (hx : ¬ IsType w.toWorld x) :
    HasVisible w.toWorld s m V g x := by
  induction hv with
  | @member x hm =>
    rcases hp x hx (.inl hm) with h | ⟨c, h1, h2, h3⟩
    · exact .member h
    · exact .type h1 h2 h3
  | type h1 h2 h3 => exact .type h1 h2 h3
  | @nested x c h1 _ h3 ih =>
    by_cases hc : IsType w.toWorld c
    · exact .type h1 hc (h3 hc)
    · exact .nested h1 (ih hc) fun h => absurd h hc

theorem off_effVisible (h : OnlyAnnotated w D texts) (hg : ContextGraph w.toWorld g)
    (hs : Off w D texts s s') (x : Nat) :
    EffVisible (reannotate w texts).toWorld s' g x ↔ EffVisible w.toWorld s g x := by
  have hg' : ContextGraph (reannotate w texts).toWorld g := ⟨hg.toForest, hg.root_kind, hg.node_kind⟩
  rw [← derive_true hg, ← derive_true hg', off_vis h hg hs]

/-- The analyses have the same results. -/
theorem off_analyze (h : OnlyAnnotated w D texts) (hg : ContextGraph w.toWorld g)
    (hs : Off w D texts s s') (m : Members) (name : Str)
    (hp : ∀ x, ¬ IsType w.toWorld x → (Populated (reannotate w texts).toWorld s' m g x ↔
      Populated w.toWorld s m g x)) :
    (analyze (reannotate w texts).toWorld s' m name g).vis = (analyze w.toWorld s m name g).vis ∧
    (analyze (reannotate w texts).toWorld s' m name g).pruned = (analyze w.toWorld s m name g).pruned := by
  have hV : EffVisible (reannotate w texts).toWorld s' g = EffVisible w.toWorld s g :=
    funext fun x => propext (off_effVisible h hg hs x)
  have hp' : ∀ x, ¬ IsType w.toWorld x →
      ((HasVisibleMember s' m (EffVisible w.toWorld s g) x ∨
        ∃ c, Edge g x c ∧ IsType w.toWorld c ∧ EffVisible w.toWorld s g c) ↔
      (HasVisibleMember s m (EffVisible w.toWorld s g) x ∨
        ∃ c, Edge g x c ∧ IsType w.toWorld c ∧ EffVisible w.toWorld s g c)) := by
    intro x hx
    have := hp x hx
    unfold Populated at this
    rw [hV] at this
    exact this
  have hc : OffSets w
      (declContextsWithVisibleNamedDecls w.toWorld s m (deriveEffectiveVisibility w.toWorld s g) g)
      (declContextsWithVisibleNamedDecls (reannotate w texts).toWorld s' m
        (deriveEffectiveVisibility w.toWorld s g) g) := by
    intro x hx
    have hx' : ¬ IsType w.toWorld x := by
      rw [← isType_iff, hx]; simp
    rw [Bool.eq_iff_iff, withVisible_spec hg.toForest (derive_getD hg),
      withVisible_spec hg.toForest (derive_getD hg)]
    exact and_congr_right fun _ => ⟨fun hv => off_has' (fun y hy => (hp' y hy).1) hv hx',
      fun hv => off_has (fun y hy => (hp' y hy).2) hv hx'⟩
  unfold analyze
  dsimp only
  rw [off_vis h hg hs]
  obtain ⟨h1, h2⟩ := off_hide h hg hs name _ _ hc (deriveEffectiveVisibility w.toWorld s g)
  rw [h2]
  exact ⟨rfl, off_prune _ _ h1 _⟩
end

end Verif
