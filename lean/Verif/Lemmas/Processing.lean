import Verif.Lemmas.Forest
/-!
# Lemmas: analyses of the declaration context graph
-/
namespace Verif
open Spec

/-! ### Visibility -/

theorem named_of_node {w : World} {g : Graph} (hg : ContextGraph w g) (x : Nat) (hx : x ∈ g.nodes)
    (hne : x ≠ g.root) : (w.info x).kind.isNamed = true := by
  rcases hg.node_kind x hx hne with h | h | h <;> rw [h] <;> rfl

theorem reachable_node {g : Graph} (hf : GraphOK g) (x : Nat) (hx : Reachable g x) : x ∈ g.nodes := by
  cases hx with
  | root => exact hf.root
  | step _ _ hE => exact hf.child _ _ hE

theorem effective_root {w : World} {s : Storage} {g : Graph} (hg : ContextGraph w g) :
    effectiveVisibility w s none g.root = false := by
  have : getNamed w s g.root = none := by
    unfold getNamed; rw [hg.root_kind]; rfl
  unfold effectiveVisibility
  rw [this]
  cases w.access g.root <;> rfl

theorem effective_node {w : World} {s : Storage} (x : Nat) (hn : (w.info x).kind.isNamed = true)
    (b : Bool) : effectiveVisibility w s (some b) x = true ↔
      explicit s x = some true ∨
      (explicit s x = none ∧ w.access x ≠ .private ∧ w.access x ≠ .protected ∧ b = true) := by
  unfold effectiveVisibility explicit getNamed
  rw [hn]
  cases he : s.entries x with
  | none => cases w.access x <;> simp
  | some a =>
    cases hv : a.named.visible with
    | none => cases w.access x <;> simp [hv]
    | some v => cases w.access x <;> simp [hv]

theorem effVisible_cases {w : World} {s : Storage} {g : Graph} (hf : Forest g) {p x : Nat}
    (hx : Reachable g x) (hE : Edge g p x) : EffVisible w s g x ↔
      explicit s x = some true ∨ (explicit s x = none ∧ w.access x ≠ .private ∧
        w.access x ≠ .protected ∧ EffVisible w s g p) := by
  constructor
  · intro h
    cases h with
    | explicit _ _ h => exact .inl h
    | inherited hp hE' h1 h2 h3 =>
      rw [← hf.unique _ _ _ hE hE'] at hp
      exact .inr ⟨h1, h2, h3, hp⟩
  · rintro (h | ⟨h1, h2, h3, h4⟩)
    · refine .explicit hx ?_ h
      rintro rfl
      exact hf.root_top p hE
    · exact .inherited h4 hE h1 h2 h3

theorem effVisible_root {w : World} {s : Storage} {g : Graph} (hf : Forest g) :
    ¬ EffVisible w s g g.root := by
  intro h
  cases h with
  | explicit _ h => exact h rfl
  | inherited _ hE => exact hf.root_top _ hE

theorem derive_spec {w : World} {s : Storage} {g : Graph} (hg : ContextGraph w g) (x : Nat)
    (hx : Reachable g x) : ∃ b, deriveEffectiveVisibility w s g x = some b ∧
      (b = true ↔ EffVisible w s g x) := by
  have hm := assigner_spec g hg.toGraphOK hg.root_top
    (fun p id => effectiveVisibility w s (p.bind (·.2)) id)
  rw [derive_eq]
  simp only at hm
  generalize dfs g (assigner fun p id => effectiveVisibility w s (p.bind (·.2)) id) (fun _ => none)
    = m at hm
  obtain ⟨h1, _, h3⟩ := hm
  have hf := hg.toForest
  induction hx with
  | root =>
    refine ⟨_, h1, ?_⟩
    rw [Option.bind_none, effective_root hg]
    simp [effVisible_root hf]
  | @step p c hp _ hE ih =>
    have hc : Reachable g c := .step hp trivial hE
    have hne : c ≠ g.root := by rintro rfl; exact hg.root_top p hE
    obtain ⟨q, hqE, _, hmc⟩ := h3 c hc hne
    rw [← hg.unique _ _ _ hE hqE] at hmc
    obtain ⟨b, hb, hbv⟩ := ih
    refine ⟨_, hmc, ?_⟩
    rw [Option.bind_some, hb, effective_node c (named_of_node hg c (hg.child _ _ hE) hne) b,
      effVisible_cases hf hc hE, hbv]

theorem derive_true {w : World} {s : Storage} {g : Graph} (hg : ContextGraph w g) (x : Nat) :
    deriveEffectiveVisibility w s g x = some true ↔ EffVisible w s g x := by
  by_cases hx : Reachable g x
  · obtain ⟨b, hb, hbv⟩ := derive_spec (s := s) hg x hx
    rw [hb, ← hbv]; simp
  · constructor
    · intro h
      exact absurd ((derive_reachable w s g hg.toForest x).1 (by rw [h]; rfl)) hx
    · intro h
      exfalso
      apply hx
      clear hx
      induction h with
      | explicit h => exact h
      | inherited _ hE _ _ _ ih => exact .step ih trivial hE

theorem derive_getD {w : World} {s : Storage} {g : Graph} (hg : ContextGraph w g) (x : Nat) :
    (deriveEffectiveVisibility w s g x).getD false = true ↔ EffVisible w s g x := by
  rw [← derive_true hg]
  cases deriveEffectiveVisibility w s g x <;> simp

/-! ### Contexts containing something visible -/

theorem isType_iff (w : World) (x : Nat) : (w.info x).kind.isTag = true ↔ IsType w x := by
  unfold IsType
  cases (w.info x).kind <;> simp [DeclKind.isTag]

/-- What a set of contexts must satisfy at one of them. -/
def hasHere (w : World) (s : Storage) (m : Members) (vis : Visibilities) (g : Graph)
    (r : Nat → Bool) (id : Nat) : Bool :=
  ((g.children id).any fun c => r c && !isHiddenTag w vis c) ||
    containsVisibleNamedDecls w s m vis g id

theorem hasHere_iff {w : World} {s : Storage} {m : Members} {vis : Visibilities} {g : Graph}
    {V : Nat → Prop} (hV : ∀ x, (vis x).getD false = true ↔ V x) (r : Nat → Bool) (x : Nat) :
    hasHere w s m vis g r x = true ↔
      (∃ c, Edge g x c ∧ r c = true ∧ (IsType w c → V c)) ∨
      (∃ c, Edge g x c ∧ IsType w c ∧ V c) ∨ HasVisibleMember s m V x := by
  unfold hasHere containsVisibleNamedDecls
  simp only [Bool.or_eq_true, List.any_eq_true, Bool.and_eq_true]
  refine or_congr (exists_congr fun c => ?_) (or_congr (exists_congr fun c => ?_)
    (exists_congr fun d => and_congr .rfl ?_))
  · refine and_congr .rfl (and_congr .rfl ?_)
    unfold isHiddenTag
    rw [← isType_iff, ← hV]
    cases (w.info c).kind.isTag <;> cases (vis c).getD false <;> simp
  · rw [isType_iff, hV]; exact .rfl
  · simp only [Bool.not_eq_true']
    refine and_congr .rfl ?_
    unfold explicit
    rw [← hV]
    cases (s.entries d).bind (·.named.visible) <;> simp

theorem hasHere_congr {w : World} {s : Storage} {m : Members} {vis : Visibilities} {g : Graph}
    (r' r : Nat → Bool) (y : Nat) (h : ∀ c, Edge g y c → r' c = r c) :
    hasHere w s m vis g r' y = hasHere w s m vis g r y := by
  rw [Bool.eq_iff_iff, hasHere_iff (V := fun x => (vis x).getD false = true) (fun _ => .rfl),
    hasHere_iff (V := fun x => (vis x).getD false = true) (fun _ => .rfl)]
  refine or_congr (exists_congr fun c => and_congr_right fun hc => ?_) .rfl
  rw [h c hc]

theorem withVisible_spec {w : World} {s : Storage} {m : Members} {vis : Visibilities} {g : Graph}
    (hf : Forest g) {V : Nat → Prop} (hV : ∀ x, (vis x).getD false = true ↔ V x) (x : Nat) :
    declContextsWithVisibleNamedDecls w s m vis g x = true ↔
      Reachable g x ∧ HasVisible w s m V g x := by
  have hr := dfs_rule g hf.toGraphOK (k := {
    completed := fun id (result : Nat → Bool) =>
      if ((g.children id).any fun c => result c && !isHiddenTag w vis c) ||
          containsVisibleNamedDecls w s m vis g id
      then fun x => if x = id then true else result x else result })
    (I := fun v o (r : Nat → Bool) => (∀ x, x ∉ v ∨ x ∈ o → r x = false) ∧
      (∀ x ∈ v, x ∉ o → (r x = true ↔ hasHere w s m vis g r x = true) ∧
        ∀ c, Edge g x c → c ∈ v ∧ c ∉ o))
    (fun _ => false) ?_ ?_ ?_
  · obtain ⟨v, ⟨h1, h2⟩, hnd, h4⟩ := hr
    have h4' : ∀ x, x ∈ v ↔ Reachable g x := fun x => (h4 x).trans (reachable_iff g x)
    unfold declContextsWithVisibleNamedDecls
    generalize dfs g _ _ = r at h1 h2 ⊢
    constructor
    · intro hx
      have hv : x ∈ v := by
        apply Classical.byContradiction
        intro hn
        rw [h1 x (.inl hn)] at hx
        exact absurd hx (by simp)
      refine ⟨(h4' x).1 hv, ?_⟩
      -- induction on the size of the tree below, i.e. on the distance from the bottom
      obtain ⟨d, hd⟩ := reachable_depth hf
      have bound : ∃ B, ∀ y ∈ v, d y ≤ B := by
        clear hx hv h2 h1 h4 h4' hnd
        induction v with
        | nil => exact ⟨0, by simp⟩
        | cons a l ih =>
          obtain ⟨B, hB⟩ := ih
          refine ⟨max (d a) B, fun y hy => ?_⟩
          rcases List.mem_cons.1 hy with rfl | hy
          · exact Nat.le_max_left ..
          · exact Nat.le_trans (hB y hy) (Nat.le_max_right ..)
      obtain ⟨B, hB⟩ := bound
      have main : ∀ n y, B - d y ≤ n → y ∈ v → r y = true → HasVisible w s m V g y := by
        intro n
        induction n with
        | zero =>
          intro y hn hy hry
          rcases (hasHere_iff hV r y).1 ((h2 y hy (by simp)).1.1 hry) with
            ⟨c, hE, _, _⟩ | ⟨c, hE, ht, hvc⟩ | hm
          · have hcv := ((h2 y hy (by simp)).2 c hE).1
            have := hd y c ((h4' c).1 hcv) hE
            have := hB c hcv
            omega
          · exact .type hE ht hvc
          · exact .member hm
        | succ n ih =>
          intro y hn hy hry
          rcases (hasHere_iff hV r y).1 ((h2 y hy (by simp)).1.1 hry) with
            ⟨c, hE, hrc, hcv'⟩ | ⟨c, hE, ht, hvc⟩ | hm
          · have hcv := ((h2 y hy (by simp)).2 c hE).1
            have := hd y c ((h4' c).1 hcv) hE
            exact .nested hE (ih c (by omega) hcv hrc) hcv'
          · exact .type hE ht hvc
          · exact .member hm
      exact main _ x (Nat.le_refl _) hv hx
    · rintro ⟨hx, hc⟩
      induction hc with
      | member hm =>
        exact (h2 _ ((h4' _).2 hx) (by simp)).1.2 ((hasHere_iff hV r _).2 (.inr (.inr hm)))
      | type hE ht hv =>
        exact (h2 _ ((h4' _).2 hx) (by simp)).1.2 ((hasHere_iff hV r _).2
          (.inr (.inl ⟨_, hE, ht, hv⟩)))
      | nested hE _ hv ih =>
        exact (h2 _ ((h4' _).2 hx) (by simp)).1.2 ((hasHere_iff hV r _).2
          (.inl ⟨_, hE, ih (.step hx trivial hE), hv⟩))
  · refine ⟨fun _ _ => rfl, fun x hx hn => ?_⟩
    exact absurd hx hn
  · rintro v o n c r hfacts hE hv ⟨h1, h2⟩
    refine ⟨fun x hx => ?_, fun x hx ho => ?_⟩
    · by_cases hxc : x = c
      · subst hxc; exact h1 x (.inl hv)
      · refine h1 x ?_
        rcases hx with hx | hx
        · exact .inl fun h => hx (by simp [h])
        · exact .inr (by simpa [hxc] using hx)
    · have hxc : x ≠ c := by rintro rfl; exact ho (by simp)
      have hxv : x ∈ v := by simpa [hxc] using hx
      have hxo : x ∉ n :: o := fun h => ho (by simp only [Bool.false_eq_true, if_false]; exact List.mem_cons_of_mem _ h)
      obtain ⟨ha, hb⟩ := h2 x hxv hxo
      refine ⟨ha, fun d hd => ?_⟩
      obtain ⟨hdv, hdo⟩ := hb d hd
      refine ⟨by simp [hdv], ?_⟩
      have hdc : d ≠ c := by rintro rfl; exact hv hdv
      simp only [Bool.false_eq_true, if_false, List.mem_cons, not_or]
      simp only [List.mem_cons, not_or] at hdo
      exact ⟨hdc, hdo.1, hdo.2⟩
  · rintro v o n r hfacts hall ⟨h1, h2⟩
    have hnd := List.nodup_cons.1 hfacts.open_nodup
    have hnv : n ∈ v := hfacts.open_visited n (by simp)
    have hrn : r n = false := h1 n (.inr (by simp))
    have hchild : ∀ c, Edge g n c → c ∉ n :: o :=
      fun c hc => child_not_open hf n o hfacts.path hfacts.open_nodup c hc
    -- the new set
    dsimp only
    have hnew : ∀ x, (if hasHere w s m vis g r n then fun x => if x = n then true else r x else r) x =
        if x = n then hasHere w s m vis g r n else r x := by
      intro x
      by_cases hx : x = n
      · subst hx
        cases hh : hasHere w s m vis g r x <;> simp [hrn]
      · cases hh : hasHere w s m vis g r n <;> simp [hx]
    have hsame : ∀ y, (∀ c, Edge g y c → c ≠ n) →
        hasHere w s m vis g (if hasHere w s m vis g r n then fun x => if x = n then true else r x else r) y
          = hasHere w s m vis g r y := by
      intro y hy
      refine hasHere_congr _ r y fun c hc => ?_
      rw [hnew c, if_neg (hy c hc)]
    refine ⟨fun x hx => ?_, fun x hx ho => ?_⟩
    · have := hnew x
      unfold hasHere at this
      rw [this, if_neg]
      · refine h1 x ?_
        rcases hx with hx | hx
        · exact .inl hx
        · exact .inr (by simp [hx])
      · rintro rfl
        rcases hx with hx | hx
        · exact hx hnv
        · exact hnd.1 hx
    · have e1 := hnew x
      have e2 := hsame x
      unfold hasHere at e1 e2 ⊢
      by_cases hxn : x = n
      · subst hxn
        have hne : ∀ c, Edge g x c → c ≠ x := fun c hc e => hchild c hc (by simp [e])
        refine ⟨?_, fun c hc => ⟨hall c hc, fun h => hchild c hc (by simp [h])⟩⟩
        rw [e1, if_pos rfl, e2 hne]
      · obtain ⟨ha, hb⟩ := h2 x hx (by simp [hxn, ho])
        have hne : ∀ c, Edge g x c → c ≠ n := fun c hc e => (hb c hc).2 (by simp [e])
        refine ⟨?_, fun c hc => ⟨(hb c hc).1, fun h => (hb c hc).2 (by simp [h])⟩⟩
        rw [e1, if_neg hxn, e2 hne]
        exact ha

end Verif
