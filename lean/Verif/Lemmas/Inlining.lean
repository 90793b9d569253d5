import Verif.Lemmas.Sorting
import Verif.Spec.Inlining
/-!
# Lemmas about inlining of base classes
-/
namespace Verif
open Spec

/-! ### Paths -/

/-- Paths in a hierarchy. -/
inductive InTree : Hierarchy → List BaseSpec → Prop where
  | here {b : BaseSpec} {above rest : Hierarchy} : InTree (.cons b above rest) [b]
  | up {b : BaseSpec} {above rest : Hierarchy} {p : List BaseSpec} : InTree above p →
      InTree (.cons b above rest) (b :: p)
  | next {b : BaseSpec} {above rest : Hierarchy} {p : List BaseSpec} : InTree rest p →
      InTree (.cons b above rest) p

theorem InTree.nil {p : List BaseSpec} : ¬ InTree .nil p := by
  intro h
  cases h

theorem inTree_iff {bases : BaseSpecs} : ∀ (h : Hierarchy) (l : List BaseSpec),
    Unfolds bases h l → ∀ p, InTree h p ↔
      ∃ b q, p = b :: q ∧ b ∈ l ∧ (q = [] ∨ InheritancePath bases b.id q) := by
  intro h
  induction h with
  | nil =>
    intro l hu p
    simp only [Unfolds] at hu
    subst hu
    simp [InTree.nil]
  | cons b above rest ih1 ih2 =>
    intro l hu p
    obtain ⟨l', rfl, hu1, hu2⟩ := hu
    have hup : ∀ q, InTree above q ↔ InheritancePath bases b.id q := by
      intro q
      rw [ih1 _ hu1 q]
      constructor
      · rintro ⟨c, r, rfl, hc, rfl | hr⟩
        · exact .direct hc
        · exact .step hc hr
      · intro hq
        cases hq with
        | direct hc => exact ⟨_, _, rfl, hc, .inl rfl⟩
        | step hc hr => exact ⟨_, _, rfl, hc, .inr hr⟩
    constructor
    · intro hp
      cases hp with
      | here => exact ⟨b, [], rfl, by simp, .inl rfl⟩
      | up hq => exact ⟨b, _, rfl, by simp, .inr ((hup _).1 hq)⟩
      | next hq =>
        obtain ⟨c, r, rfl, hc, hr⟩ := (ih2 _ hu2 p).1 hq
        exact ⟨c, r, rfl, List.mem_cons_of_mem _ hc, hr⟩
    · rintro ⟨c, r, rfl, hc, hr⟩
      rcases List.mem_cons.1 hc with rfl | hc
      · rcases hr with rfl | hr
        · exact .here
        · exact .up ((hup _).2 hr)
      · exact .next ((ih2 _ hu2 _).2 ⟨c, r, rfl, hc, hr⟩)

theorem inTree_path {bases : BaseSpecs} {h : Hierarchy} {x : Nat} (hu : Unfolds bases h (bases x))
    (p : List BaseSpec) : InTree h p ↔ InheritancePath bases x p := by
  rw [inTree_iff h _ hu p]
  constructor
  · rintro ⟨c, r, rfl, hc, rfl | hr⟩
    · exact .direct hc
    · exact .step hc hr
  · intro hq
    cases hq with
    | direct hc => exact ⟨_, _, rfl, hc, .inl rfl⟩
    | step hc hr => exact ⟨_, _, rfl, hc, .inr hr⟩

theorem InTree.ne_nil {h : Hierarchy} {p : List BaseSpec} (hp : InTree h p) : p ≠ [] := by
  induction hp with
  | here => simp
  | up => simp
  | next _ ih => exact ih

theorem leadsTo_cons {b : BaseSpec} {p : List BaseSpec} {t : Nat} (hp : p ≠ []) :
    LeadsTo (b :: p) t ↔ LeadsTo p t := by
  unfold LeadsTo
  rw [List.getLast?_cons]
  cases p with
  | nil => exact absurd rfl hp
  | cons c q => simp [List.getLast?_cons]

theorem leadsTo_single {b : BaseSpec} {t : Nat} : LeadsTo [b] t ↔ b.id = t := by
  simp [LeadsTo]

theorem path_ne_nil {bases : BaseSpecs} {x : Nat} {p : List BaseSpec}
    (hp : InheritancePath bases x p) : p ≠ [] := by
  cases hp <;> simp

theorem path_append {bases : BaseSpecs} {x c : Nat} {p q : List BaseSpec}
    (hp : InheritancePath bases x p) (hc : LeadsTo p c) (hq : InheritancePath bases c q) :
    InheritancePath bases x (p ++ q) := by
  induction hp with
  | direct hb =>
    rw [leadsTo_single] at hc
    subst hc
    exact .step hb hq
  | step hb hp ih =>
    rw [leadsTo_cons (path_ne_nil hp)] at hc
    exact .step hb (ih hc)

theorem leadsTo_append {p q : List BaseSpec} {t : Nat} (hq : q ≠ []) :
    LeadsTo (p ++ q) t ↔ LeadsTo q t := by
  unfold LeadsTo
  rw [List.getLast?_append]
  cases q with
  | nil => exact absurd rfl hq
  | cons c r => simp [List.getLast?_cons]

theorem mem_ids {h : Hierarchy} (t : Nat) : t ∈ h.ids ↔ ∃ p, InTree h p ∧ LeadsTo p t := by
  induction h with
  | nil => simp [Hierarchy.ids, InTree.nil]
  | cons b above rest ih1 ih2 =>
    simp only [Hierarchy.ids, List.mem_cons, List.mem_append, ih1, ih2]
    constructor
    · rintro (rfl | ⟨p, hp, ht⟩ | ⟨p, hp, ht⟩)
      · exact ⟨[b], .here, leadsTo_single.2 rfl⟩
      · exact ⟨b :: p, .up hp, (leadsTo_cons hp.ne_nil).2 ht⟩
      · exact ⟨p, .next hp, ht⟩
    · rintro ⟨p, hp, ht⟩
      cases hp with
      | here => exact .inl (leadsTo_single.1 ht).symm
      | up hq => exact .inr (.inl ⟨_, hq, (leadsTo_cons hq.ne_nil).1 ht⟩)
      | next hq => exact .inr (.inr ⟨_, hq, ht⟩)

/-! ### Access along paths -/

theorem mergeAccess_public (a b : Access) :
    mergeAccess a b = .public ↔ a = .public ∧ b = .public := by
  cases a <;> cases b <;> simp [mergeAccess]

theorem foldl_mergeAccess (p : List BaseSpec) : ∀ a,
    p.foldl (fun a c => mergeAccess a c.access) a = .public ↔
      a = .public ∧ ∀ b ∈ p, b.access = .public := by
  induction p with
  | nil => simp
  | cons c p ih =>
    intro a
    simp only [List.foldl_cons, ih, mergeAccess_public, List.forall_mem_cons, and_assoc]

theorem pathAccess_public (p : List BaseSpec) :
    pathAccess p = .public ↔ ∀ b ∈ p, b.access = .public := by
  cases p with
  | nil => simp [pathAccess]
  | cons b p => simp [pathAccess, foldl_mergeAccess]

theorem isValidPath_iff (hidden : List Nat) (p : List BaseSpec) :
    isValidPath hidden p = true ↔ ∀ b ∈ p, b.access = .public ∧ b.id ∉ hidden := by
  simp only [isValidPath, Bool.and_eq_true, decide_eq_true_eq, pathAccess_public,
    Bool.not_eq_true', List.any_eq_false, List.contains_iff_mem]
  constructor
  · rintro ⟨h1, h2⟩ b hb
    exact ⟨h1 b hb, h2 b hb⟩
  · intro h
    exact ⟨fun b hb => (h b hb).1, fun b hb => (h b hb).2⟩

/-! ### `lookupInBases` -/

theorem lookup_sound (t : Nat) : ∀ (h : Hierarchy) (seen : List Nat),
    ∀ p ∈ (lookupInBases t h seen).1, InTree h p ∧ LeadsTo p t := by
  intro h
  induction h with
  | nil => simp [lookupInBases]
  | cons b above rest ih1 ih2 =>
    intro seen p hp
    simp only [lookupInBases, List.mem_append] at hp
    rcases hp with hp | hp
    · by_cases hb : b.id = t
      · rw [if_pos hb] at hp
        simp only [List.mem_singleton] at hp
        subst hp
        exact ⟨.here, leadsTo_single.2 hb⟩
      · rw [if_neg hb] at hp
        split at hp
        · simp only [List.mem_map] at hp
          obtain ⟨q, hq, rfl⟩ := hp
          obtain ⟨h1, h2⟩ := ih1 _ q hq
          exact ⟨.up h1, (leadsTo_cons h1.ne_nil).2 h2⟩
        · simp at hp
    · obtain ⟨h1, h2⟩ := ih2 _ p hp
      exact ⟨.next h1, h2⟩

/-- Virtual bases, as often as they are named. -/
def virtualIds : Hierarchy → List Nat
  | .nil => []
  | .cons b above rest =>
    (if b.isVirtual then [b.id] else []) ++ (virtualIds above ++ virtualIds rest)

theorem lookup_seen (t : Nat) : ∀ (h : Hierarchy) (seen : List Nat),
    ∀ c ∈ (lookupInBases t h seen).2, c ∈ seen ∨ c ∈ virtualIds h := by
  intro h
  induction h with
  | nil => simp [lookupInBases, virtualIds]
  | cons b above rest ih1 ih2 =>
    intro seen c hc
    simp only [lookupInBases] at hc
    simp only [virtualIds, List.mem_append]
    rcases ih2 _ c hc with hc | hc
    · have hs : ∀ c, c ∈ (if b.isVirtual then b.id :: seen else seen) → c ∈ seen ∨
          c ∈ (if b.isVirtual then [b.id] else []) := by
        intro c
        cases b.isVirtual <;> simp
        rintro (rfl | h)
        · exact .inr rfl
        · exact .inl h
      split at hc
      · rcases hs c hc with h | h
        · exact .inl h
        · exact .inr (.inl h)
      · split at hc
        · rcases ih1 _ c hc with h | h
          · rcases hs c h with h | h
            · exact .inl h
            · exact .inr (.inl h)
          · exact .inr (.inr (.inl h))
        · rcases hs c hc with h | h
          · exact .inl h
          · exact .inr (.inl h)
    · exact .inr (.inr (.inr hc))

theorem lookup_complete (t : Nat) : ∀ (h : Hierarchy) (seen : List Nat),
    (virtualIds h).Nodup → (∀ c ∈ seen, c ∉ virtualIds h) → ∀ p, InTree h p → LeadsTo p t →
    ∃ q ∈ (lookupInBases t h seen).1, q <+: p := by
  intro h
  induction h with
  | nil => intro seen _ _ p hp; exact absurd hp InTree.nil
  | cons b above rest ih1 ih2 =>
    intro seen hn hs p hp ht
    simp only [virtualIds] at hn hs
    obtain ⟨hn1, hn2, hn3⟩ := List.nodup_append.1 hn
    obtain ⟨hn4, hn5, hn6⟩ := List.nodup_append.1 hn2
    simp only [lookupInBases, List.mem_append]
    have hvisit : (b.isVirtual && seen.contains b.id) = false := by
      cases hv : b.isVirtual
      · rfl
      · simp only [Bool.true_and]
        cases hc : seen.contains b.id
        · rfl
        · exact absurd (by simp [hv]) (hs b.id (List.contains_iff_mem.1 hc))
    have hs1 : ∀ c ∈ (if b.isVirtual then b.id :: seen else seen), c ∉ virtualIds above := by
      intro c hc hca
      cases hv : b.isVirtual
      · rw [hv] at hc
        exact hs c (by simpa using hc) (by simp [hca])
      · rw [hv] at hc
        simp only [↓reduceIte, List.mem_cons] at hc
        rcases hc with rfl | hc
        · exact hn3 b.id (by simp [hv]) b.id (by simp [hca]) rfl
        · exact hs c hc (by simp [hca])
    have hs1' : ∀ c ∈ (if b.isVirtual then b.id :: seen else seen), c ∉ virtualIds rest := by
      intro c hc hca
      cases hv : b.isVirtual
      · rw [hv] at hc
        exact hs c (by simpa using hc) (by simp [hca])
      · rw [hv] at hc
        simp only [↓reduceIte, List.mem_cons] at hc
        rcases hc with rfl | hc
        · exact hn3 b.id (by simp [hv]) b.id (by simp [hca]) rfl
        · exact hs c hc (by simp [hca])
    have hs2 : ∀ c ∈ (if b.id = t then ([[b]], (if b.isVirtual then b.id :: seen else seen))
        else if (!(b.isVirtual && seen.contains b.id)) = true then
          ((lookupInBases t above (if b.isVirtual then b.id :: seen else seen)).1.map (b :: ·),
            (lookupInBases t above (if b.isVirtual then b.id :: seen else seen)).2)
        else ([], (if b.isVirtual then b.id :: seen else seen))).2, c ∉ virtualIds rest := by
      intro c hc hca
      split at hc
      · exact hs1' c hc hca
      · split at hc
        · rcases lookup_seen t _ _ c hc with h | h
          · exact hs1' c h hca
          · exact hn6 c h c hca rfl
        · exact hs1' c hc hca
    cases hp with
    | here =>
      refine ⟨[b], .inl ?_, List.prefix_rfl⟩
      rw [if_pos (leadsTo_single.1 ht)]
      simp
    | up hq =>
      rename_i q
      by_cases hb : b.id = t
      · refine ⟨[b], .inl ?_, by simp⟩
        rw [if_pos hb]
        simp
      · obtain ⟨r, hr, hpre⟩ := ih1 _ hn4 hs1 q hq ((leadsTo_cons hq.ne_nil).1 ht)
        refine ⟨b :: r, .inl ?_, by simpa using hpre⟩
        rw [if_neg hb, if_pos (by rw [hvisit]; rfl)]
        simp only [List.mem_map]
        exact ⟨r, hr, rfl⟩
    | next hq =>
      obtain ⟨r, hr, hpre⟩ := ih2 _ hn5 hs2 p hq ht
      exact ⟨r, .inr hr, hpre⟩

/-! ### Candidates -/

theorem foldl_setInsert_mem {α : Type} [DecidableEq α] (l : List α) : ∀ (s : List α) (x : α),
    x ∈ l.foldl setInsert s ↔ x ∈ s ∨ x ∈ l := by
  induction l with
  | nil => simp
  | cons y l ih =>
    intro s x
    simp only [List.foldl_cons, ih, List.mem_cons]
    unfold setInsert
    split
    · constructor
      · rintro (h | h)
        · exact .inl h
        · exact .inr (.inr h)
      · rintro (h | rfl | h)
        · exact .inl h
        · exact .inl (by assumption)
        · exact .inr h
    · simp only [List.mem_append, List.mem_singleton, or_assoc]

/-- What the loop over `inline_base` does. -/
theorem addCandidates_spec (l : List Nat) : ∀ (c : Candidates),
    let c' := l.foldl addCandidate c
    c'.hiddenBases = c.hiddenBases ∧
    (∀ x, x ∈ c'.inlineCandidates ↔ x ∈ c.inlineCandidates ∨ x ∈ l) ∧
    (∀ x, x ∈ c'.remaining ↔ x ∈ c.remaining ∨ (x ∈ l ∧ x ∉ c.inlineCandidates)) ∧
    (c.inlineCandidates.Nodup → c'.inlineCandidates.Nodup) ∧
    c'.remaining.length + c.inlineCandidates.length =
      c.remaining.length + c'.inlineCandidates.length := by
  induction l with
  | nil => intro c; simp
  | cons y l ih =>
    intro c
    simp only [List.foldl_cons]
    obtain ⟨h1, h2, h3, h4, h5⟩ := ih (addCandidate c y)
    by_cases hy : y ∈ c.inlineCandidates
    · have he : addCandidate c y = c := by simp [addCandidate, hy]
      rw [he] at h1 h2 h3 h4 h5 ⊢
      refine ⟨h1, fun x => ?_, fun x => ?_, h4, h5⟩
      · rw [h2]
        simp only [List.mem_cons]
        constructor
        · rintro (h | h)
          · exact .inl h
          · exact .inr (.inr h)
        · rintro (h | rfl | h)
          · exact .inl h
          · exact .inl hy
          · exact .inr h
      · rw [h3]
        simp only [List.mem_cons]
        constructor
        · rintro (h | ⟨h, h'⟩)
          · exact .inl h
          · exact .inr ⟨.inr h, h'⟩
        · rintro (h | ⟨rfl | h, h'⟩)
          · exact .inl h
          · exact absurd hy h'
          · exact .inr ⟨h, h'⟩
    · have he : addCandidate c y = { c with inlineCandidates := c.inlineCandidates ++ [y]
                                            remaining := y :: c.remaining } := by
        simp [addCandidate, hy]
      rw [he] at h1 h2 h3 h4 h5 ⊢
      dsimp only at h1 h2 h3 h4 h5 ⊢
      refine ⟨h1, fun x => ?_, fun x => ?_, fun hn => h4 ?_, ?_⟩
      · rw [h2]
        simp only [List.mem_cons, List.mem_append, List.mem_singleton, List.not_mem_nil, or_false,
          or_assoc]
      · rw [h3]
        simp only [List.mem_cons, List.mem_append, List.mem_singleton, List.not_mem_nil, or_false]
        constructor
        · rintro ((rfl | h) | ⟨h, h'⟩)
          · exact .inr ⟨.inl rfl, hy⟩
          · exact .inl h
          · exact .inr ⟨.inr h, fun hx => h' (.inl hx)⟩
        · rintro (h | ⟨rfl | h, h'⟩)
          · exact .inl (.inr h)
          · exact .inl (.inl rfl)
          · by_cases hxy : x = y
            · exact .inl (.inl hxy)
            · exact .inr ⟨h, fun hx => hx.elim h' hxy⟩
      · rw [List.nodup_append]
        refine ⟨hn, by simp, fun a ha b hb => ?_⟩
        simp only [List.mem_singleton] at hb
        rintro rfl
        exact hy (hb ▸ ha)
      · simp only [List.length_append, List.length_cons, List.length_nil] at h5 ⊢
        omega

/-- Invariant of the loop collecting candidates for `r`. -/
structure Collecting (s : Storage) (r : Nat) (c : Candidates) : Prop where
  named : ∀ x ∈ c.inlineCandidates, NamedForInlining s r x
  hidden : ∀ x ∈ c.hiddenBases, HiddenBase s r x
  remaining : ∀ x ∈ c.remaining, x = r ∨ x ∈ c.inlineCandidates
  nodup : c.inlineCandidates.Nodup
  done : ∀ x, x = r ∨ x ∈ c.inlineCandidates → x ∈ c.remaining ∨
    ∀ attrs, getRecord s x = some attrs →
      (∀ b ∈ attrs.inlineBase, b ∈ c.inlineCandidates) ∧ ∀ b ∈ attrs.hideBase, b ∈ c.hiddenBases

theorem getRecord_eq {s : Storage} {x : Nat} {rec : RecordDeclAttrs} :
    getRecord s x = some rec ↔ ∃ attrs, s.entries x = some attrs ∧ attrs.record = some rec := by
  unfold getRecord
  cases s.entries x <;> simp

/-- One round, removing `d` from the stack. -/
theorem collecting_pop {s : Storage} {r d : Nat} {rest : List Nat} {c : Candidates}
    (hc : Collecting s r c) (hr : c.remaining = d :: rest) :
    (getRecord s d = none → Collecting s r { c with remaining := rest }) ∧
    (∀ attrs, getRecord s d = some attrs → Collecting s r
      (attrs.inlineBase.foldl addCandidate
        { c with remaining := rest, hiddenBases := attrs.hideBase.foldl setInsert c.hiddenBases })) := by
  have hd : d = r ∨ d ∈ c.inlineCandidates := hc.remaining d (by rw [hr]; simp)
  have hd' : d = r ∨ NamedForInlining s r d := hd.imp id (hc.named d)
  constructor
  · intro hn
    refine ⟨hc.named, hc.hidden, fun x hx => hc.remaining x (by rw [hr]; simp [hx]), hc.nodup,
      fun x hx => ?_⟩
    rcases hc.done x hx with h | h
    · rw [hr] at h
      rcases List.mem_cons.1 h with rfl | h
      · refine .inr fun attrs ha => ?_
        rw [hn] at ha
        exact absurd ha (by simp)
      · exact .inl h
    · exact .inr h
  · intro attrs ha
    obtain ⟨da, he, hda⟩ := getRecord_eq.1 ha
    obtain ⟨h1, h2, h3, h4, h5⟩ := addCandidates_spec attrs.inlineBase
      { c with remaining := rest, hiddenBases := attrs.hideBase.foldl setInsert c.hiddenBases }
    dsimp only at h1 h2 h3 h4 h5
    refine ⟨fun x hx => ?_, fun x hx => ?_, fun x hx => ?_, h4 hc.nodup, fun x hx => ?_⟩
    · rcases (h2 x).1 hx with h | h
      · exact hc.named x h
      · rcases hd' with rfl | hd'
        · exact .direct he hda h
        · exact .indirect hd' he hda h
    · rw [h1, foldl_setInsert_mem] at hx
      rcases hx with h | h
      · exact hc.hidden x h
      · exact ⟨d, da, attrs, hd', he, hda, h⟩
    · rcases (h3 x).1 hx with h | h
      · rcases hc.remaining x (by rw [hr]; simp [h]) with h | h
        · exact .inl h
        · exact .inr ((h2 x).2 (.inl h))
      · exact .inr ((h2 x).2 (.inr h.1))
    · have old : (x = r ∨ x ∈ c.inlineCandidates) → x ∈ (attrs.inlineBase.foldl addCandidate
          { c with remaining := rest,
                   hiddenBases := attrs.hideBase.foldl setInsert c.hiddenBases }).remaining ∨
          ∀ attrs', getRecord s x = some attrs' →
            (∀ b ∈ attrs'.inlineBase, b ∈ (attrs.inlineBase.foldl addCandidate
              { c with remaining := rest,
                       hiddenBases := attrs.hideBase.foldl setInsert c.hiddenBases }).inlineCandidates) ∧
            ∀ b ∈ attrs'.hideBase, b ∈ (attrs.inlineBase.foldl addCandidate
              { c with remaining := rest,
                       hiddenBases := attrs.hideBase.foldl setInsert c.hiddenBases }).hiddenBases := by
        intro hx
        rcases hc.done x hx with h | h
        · rw [hr] at h
          rcases List.mem_cons.1 h with rfl | h
          · refine .inr fun attrs' ha' => ?_
            rw [ha] at ha'
            simp only [Option.some.injEq] at ha'
            subst ha'
            refine ⟨fun b hb => (h2 b).2 (.inr hb), fun b hb => ?_⟩
            rw [h1, foldl_setInsert_mem]
            exact .inr hb
          · exact .inl ((h3 x).2 (.inl h))
        · refine .inr fun attrs' ha' => ⟨fun b hb => (h2 b).2 (.inl ((h attrs' ha').1 b hb)),
            fun b hb => ?_⟩
          rw [h1, foldl_setInsert_mem]
          exact .inl ((h attrs' ha').2 b hb)
      rcases hx with rfl | hx
      · exact old (.inl rfl)
      · by_cases hin : x ∈ c.inlineCandidates
        · exact old (.inr hin)
        · rcases (h2 x).1 hx with h | h
          · exact absurd h hin
          · exact .inl ((h3 x).2 (.inr ⟨h, hin⟩))

theorem collecting_run {s : Storage} {r : Nat} {univ : List Nat}
    (hu : ∀ x, NamedForInlining s r x → x ∈ univ) :
    ∀ (n : Nat) (c : Candidates), Collecting s r c →
      c.remaining.length + (univ.length - c.inlineCandidates.length) < n →
      Collecting s r (collectCandidates s n c) ∧ (collectCandidates s n c).remaining = [] := by
  intro n
  induction n with
  | zero => intro c _ h; omega
  | succ n ih =>
    intro c hc hlt
    have hlen : ∀ c' : Candidates, Collecting s r c' →
        c'.inlineCandidates.length ≤ univ.length := fun c' hc' =>
      length_le_of_nodup _ _ hc'.nodup (fun x hx => hu x (hc'.named x hx))
    unfold collectCandidates
    split
    · rename_i he
      exact ⟨hc, he⟩
    · rename_i d rest he
      obtain ⟨hp1, hp2⟩ := collecting_pop hc he
      rw [he] at hlt
      simp only [List.length_cons] at hlt
      split
      · rename_i hn
        refine ih _ (hp1 hn) ?_
        dsimp only
        omega
      · rename_i attrs ha
        have hc' := hp2 attrs ha
        refine ih _ hc' ?_
        obtain ⟨_, _, _, _, h5⟩ := addCandidates_spec attrs.inlineBase
          { c with remaining := rest, hiddenBases := attrs.hideBase.foldl setInsert c.hiddenBases }
        dsimp only at h5
        have := hlen _ hc'
        have := hlen _ hc
        dsimp only
        omega

theorem collecting_final {s : Storage} {r : Nat} {c : Candidates} (hc : Collecting s r c)
    (hr : c.remaining = []) :
    (∀ x, x ∈ c.inlineCandidates ↔ NamedForInlining s r x) ∧
    ∀ x, x ∈ c.hiddenBases ↔ HiddenBase s r x := by
  have hdone : ∀ x, x = r ∨ x ∈ c.inlineCandidates → ∀ attrs, getRecord s x = some attrs →
      (∀ b ∈ attrs.inlineBase, b ∈ c.inlineCandidates) ∧ ∀ b ∈ attrs.hideBase, b ∈ c.hiddenBases := by
    intro x hx
    rcases hc.done x hx with h | h
    · rw [hr] at h
      simp at h
    · exact h
  have hall : ∀ x, NamedForInlining s r x → x ∈ c.inlineCandidates := by
    intro x hx
    induction hx with
    | direct h1 h2 h3 => exact (hdone _ (.inl rfl) _ (getRecord_eq.2 ⟨_, h1, h2⟩)).1 _ h3
    | indirect _ h1 h2 h3 ih => exact (hdone _ (.inr ih) _ (getRecord_eq.2 ⟨_, h1, h2⟩)).1 _ h3
  refine ⟨fun x => ⟨hc.named x, hall x⟩, fun x => ⟨hc.hidden x, ?_⟩⟩
  rintro ⟨d, attrs, rec, hd, h1, h2, h3⟩
  exact (hdone d (hd.imp id (hall d)) rec (getRecord_eq.2 ⟨_, h1, h2⟩)).2 x h3

theorem collecting_start (s : Storage) (r : Nat) : Collecting s r { remaining := [r] } where
  named := by simp
  hidden := by simp
  remaining := by simp
  nodup := by simp
  done := by
    rintro x (rfl | h)
    · exact .inl (by simp)
    · simp at h

/-- Named classes are bases. -/
theorem named_base {s : Storage} {bases : BaseSpecs} (hb : NamesBases s bases) {r x : Nat}
    (hx : NamedForInlining s r x) : ∃ p, InheritancePath bases r p ∧ LeadsTo p x := by
  induction hx with
  | direct h1 h2 h3 => exact hb _ _ _ _ h1 h2 h3
  | indirect _ h1 h2 h3 ih =>
    obtain ⟨p, hp, hl⟩ := ih
    obtain ⟨q, hq, hl'⟩ := hb _ _ _ _ h1 h2 h3
    exact ⟨p ++ q, path_append hp hl hq, (leadsTo_append (path_ne_nil hq)).2 hl'⟩

theorem candidates_spec {s : Storage} {bases : BaseSpecs} (hb : NamesBases s bases) {r : Nat}
    {h : Hierarchy} (hu : Unfolds bases h (bases r)) (n : Nat) (hn : h.ids.length + 1 < n) :
    let c := collectCandidates s n { remaining := [r] }
    c.remaining = [] ∧ (∀ x, x ∈ c.inlineCandidates ↔ NamedForInlining s r x) ∧
    ∀ x, x ∈ c.hiddenBases ↔ HiddenBase s r x := by
  have := collecting_run (s := s) (r := r) (univ := h.ids) (fun x hx => by
    obtain ⟨p, hp, hl⟩ := named_base hb hx
    exact (mem_ids x).2 ⟨p, (inTree_path hu p).2 hp, hl⟩) n _ (collecting_start s r)
    (by simp; omega)
  exact ⟨this.2, collecting_final this.1 this.2⟩

/-! ### The policy -/

theorem shouldHide_iff {s : Storage} {bases : BaseSpecs} (hb : NamesBases s bases) {r : Nat}
    {h : Hierarchy} (hu : Unfolds bases h (bases r)) (b : Nat) :
    (createFromAnnotations s h r).shouldHide b = true ↔ HiddenBase s r b := by
  have hc := (candidates_spec hb hu (h.ids.length + 2) (by omega)).2.2 b
  rw [← hc]
  simp [createFromAnnotations, InliningPolicy.make, InliningPolicy.shouldHide]

theorem shouldInline_iff {s : Storage} {bases : BaseSpecs} (hb : NamesBases s bases) {r : Nat}
    {h : Hierarchy} (hu : Unfolds bases h (bases r)) (b : Nat) :
    (createFromAnnotations s h r).shouldInline b = true ↔ NamedForInlining s r b ∧
      ∃ p ∈ (lookupInBases b h []).1, Usable s r p := by
  obtain ⟨_, hc, hh⟩ := candidates_spec hb hu (h.ids.length + 2) (by omega)
  have hu' : ∀ p, isValidPath
      (collectCandidates s (h.ids.length + 2) { remaining := [r] }).hiddenBases p = true ↔
      Usable s r p := by
    intro p
    rw [isValidPath_iff]
    unfold Usable
    constructor <;> intro h b hb
    · exact ⟨(h b hb).1, fun hx => (h b hb).2 ((hh _).2 hx)⟩
    · exact ⟨(h b hb).1, fun hx => (h b hb).2 ((hh _).1 hx)⟩
  simp only [createFromAnnotations, InliningPolicy.make, InliningPolicy.shouldInline,
    List.contains_iff_mem, foldl_setInsert_mem, List.not_mem_nil, false_or, List.mem_filter,
    Bool.and_eq_true, List.any_eq_true, hu', hc]
  constructor
  · rintro ⟨_, h1, h2⟩
    exact ⟨h1, h2⟩
  · rintro ⟨h1, p, hp, h2⟩
    exact ⟨(mem_ids b).2 ⟨p, lookup_sound b h [] p hp⟩, h1, p, hp, h2⟩

/-! ### The list of bases -/

theorem mem_emittedBases {g : Graph} {P : InliningPolicy} (b : Nat) : ∀ h : Hierarchy,
    b ∈ emittedBases g P h ↔ b ∈ g.nodes ∧ P.shouldInline b = false ∧
      ∃ p last, InTree h (p ++ [last]) ∧ last.id = b ∧
        (∀ c ∈ p ++ [last], c.access = .public ∧ P.shouldHide c.id = false) ∧
        ∀ c ∈ p, P.shouldInline c.id = true := by
  intro h
  induction h with
  | nil => simp [emittedBases, InTree.nil]
  | cons c above rest ih1 ih2 =>
    rw [emittedBases, List.mem_append, ih2]
    constructor
    · rintro (hm | ⟨h1, h2, p, last, h3, h4, h5, h6⟩)
      · split at hm
        · simp at hm
        · rename_i hcond
          have hcond' : c.access = .public ∧ P.shouldHide c.id = false := by
            simp only [ne_eq, Bool.or_eq_true, decide_eq_true_eq, not_or,
              Decidable.not_not, Bool.not_eq_true] at hcond
            exact hcond
          split at hm
          · rename_i hi
            obtain ⟨h1, h2, p, last, h3, h4, h5, h6⟩ := ih1.1 hm
            refine ⟨h1, h2, c :: p, last, .up h3, h4, ?_, ?_⟩
            · intro d hd
              rcases List.mem_cons.1 hd with rfl | hd
              · exact hcond'
              · exact h5 d hd
            · intro d hd
              rcases List.mem_cons.1 hd with rfl | hd
              · exact hi
              · exact h6 d hd
          · rename_i hi
            split at hm
            · rename_i hg
              simp only [List.mem_singleton] at hm
              subst hm
              refine ⟨by simpa [Graph.hasNode] using hg, by simpa using hi, [], c, .here, rfl, ?_, by simp⟩
              simpa using hcond'
            · simp at hm
      · exact ⟨h1, h2, p, last, .next h3, h4, h5, h6⟩
    · rintro ⟨h1, h2, p, last, h3, h4, h5, h6⟩
      generalize hq : p ++ [last] = q at h3
      cases h3 with
      | here =>
        left
        obtain ⟨rfl, rfl⟩ : p = [] ∧ last = c := by
          cases p with
          | nil => simpa using hq
          | cons d p => simp at hq
        have h5' := h5 last (by simp)
        subst h4
        simp [h5'.1, h5'.2, h2, Graph.hasNode, h1]
      | up hu =>
        rename_i q'
        left
        cases p with
        | nil =>
          simp only [List.nil_append, List.cons.injEq] at hq
          exact absurd hq.2.symm hu.ne_nil
        | cons d p =>
          simp only [List.cons_append, List.cons.injEq] at hq
          obtain ⟨rfl, rfl⟩ := hq
          have h5' := h5 d (by simp)
          have h6' := h6 d (by simp)
          simp only [h5'.1, h5'.2, h6', ne_eq, not_true_eq_false, decide_false, Bool.or_self,
            Bool.false_eq_true, ↓reduceIte]
          exact ih1.2 ⟨h1, h2, p, last, hu, h4, fun e he => h5 e (by
              rw [List.cons_append]
              exact List.mem_cons_of_mem _ he),
            fun e he => h6 e (by simp [he])⟩
      | next hn => exact .inr ⟨h1, h2, p, last, by rw [hq]; exact hn, h4, h5, h6⟩

/-! ### Paths to the bases that are listed -/

/-- Paths to the bases in `emittedBases`, without and with the last step. -/
def emittedPaths (g : Graph) (P : InliningPolicy) : Hierarchy → List (List BaseSpec × BaseSpec)
  | .nil => []
  | .cons b above rest =>
    (if b.access ≠ .public || P.shouldHide b.id then []
     else if P.shouldInline b.id then (emittedPaths g P above).map fun q => (b :: q.1, q.2)
     else if g.hasNode b.id then [([], b)] else []) ++ emittedPaths g P rest

theorem emittedPaths_map (g : Graph) (P : InliningPolicy) (h : Hierarchy) :
    (emittedPaths g P h).map (·.2.id) = emittedBases g P h := by
  induction h with
  | nil => rfl
  | cons b above rest ih1 ih2 =>
    simp only [emittedPaths, emittedBases, List.map_append, ih2]
    congr 1
    split
    · rfl
    · split
      · rw [List.map_map, ← ih1]; rfl
      · split <;> rfl

theorem mem_emittedPaths {g : Graph} {P : InliningPolicy} : ∀ (h : Hierarchy) (p : List BaseSpec)
    (last : BaseSpec), (p, last) ∈ emittedPaths g P h ↔ InTree h (p ++ [last]) ∧
      (∀ c ∈ p ++ [last], c.access = .public ∧ P.shouldHide c.id = false) ∧
      (∀ c ∈ p, P.shouldInline c.id = true) ∧ P.shouldInline last.id = false ∧ last.id ∈ g.nodes := by
  intro h
  induction h with
  | nil => intro p last; simp [emittedPaths, InTree.nil]
  | cons c above rest ih1 ih2 =>
    intro p last
    rw [emittedPaths, List.mem_append, ih2]
    constructor
    · rintro (hm | ⟨h1, h2⟩)
      · split at hm
        · simp at hm
        · rename_i hcond
          have hcond' : c.access = .public ∧ P.shouldHide c.id = false := by
            simp only [ne_eq, Bool.or_eq_true, decide_eq_true_eq, not_or,
              Decidable.not_not, Bool.not_eq_true] at hcond
            exact hcond
          split at hm
          · rename_i hi
            obtain ⟨⟨q, l⟩, hq, he⟩ := List.mem_map.1 hm
            obtain ⟨rfl, rfl⟩ := Prod.mk.inj he
            obtain ⟨h1, h2, h3, h4⟩ := (ih1 _ _).1 hq
            refine ⟨.up h1, ?_, ?_, h4⟩
            · intro d hd
              rcases List.mem_cons.1 hd with rfl | hd
              · exact hcond'
              · exact h2 d hd
            · intro d hd
              rcases List.mem_cons.1 hd with rfl | hd
              · exact hi
              · exact h3 d hd
          · rename_i hi
            split at hm
            · rename_i hg
              obtain ⟨rfl, rfl⟩ := Prod.mk.inj (List.mem_singleton.1 hm)
              exact ⟨.here, by simpa using hcond', by simp, by simpa using hi,
                by simpa [Graph.hasNode] using hg⟩
            · simp at hm
      · exact ⟨.next h1, h2⟩
    · rintro ⟨h1, h2, h3, h4, h5⟩
      generalize hq : p ++ [last] = q at h1
      cases h1 with
      | here =>
        left
        obtain ⟨rfl, rfl⟩ : p = [] ∧ last = c := by
          cases p with
          | nil => simpa using hq
          | cons d p => simp at hq
        have h2' := h2 last (by simp)
        simp [h2'.1, h2'.2, h4, Graph.hasNode, h5]
      | up hu =>
        left
        cases p with
        | nil =>
          simp only [List.nil_append, List.cons.injEq] at hq
          exact absurd hq.2.symm hu.ne_nil
        | cons d p =>
          simp only [List.cons_append, List.cons.injEq] at hq
          obtain ⟨rfl, rfl⟩ := hq
          have h2' := h2 d (by simp)
          have h3' := h3 d (by simp)
          simp only [h2'.1, h2'.2, h3', ne_eq, not_true_eq_false, decide_false, Bool.or_self,
            Bool.false_eq_true, ↓reduceIte]
          exact List.mem_map.2 ⟨(p, last), (ih1 _ _).2 ⟨hu, fun e he => h2 e (by
              rw [List.cons_append]
              exact List.mem_cons_of_mem _ he),
            fun e he => h3 e (by simp [he]), h4, h5⟩, rfl⟩
      | next hn => subst hq; exact .inr ⟨hn, h2, h3, h4, h5⟩

theorem emittedPaths_head {bases : BaseSpecs} {g : Graph} {P : InliningPolicy} (h : Hierarchy)
    (l : List BaseSpec) (hu : Unfolds bases h l) (p : List BaseSpec) (last : BaseSpec)
    (hm : (p, last) ∈ emittedPaths g P h) : ∃ b ∈ l, ∃ q, p ++ [last] = b :: q := by
  obtain ⟨h1, _⟩ := (mem_emittedPaths h p last).1 hm
  obtain ⟨b, q, e, hb, _⟩ := (inTree_iff h l hu _).1 h1
  exact ⟨b, hb, q, e⟩

theorem emittedPaths_nodup {bases : BaseSpecs} (hd : ∀ x, (bases x).Nodup) {g : Graph}
    {P : InliningPolicy} : ∀ (h : Hierarchy) (l : List BaseSpec), Unfolds bases h l → l.Nodup →
    (emittedPaths g P h).Nodup := by
  intro h
  induction h with
  | nil => intro l _ _; exact List.nodup_nil
  | cons b above rest ih1 ih2 =>
    rintro l ⟨l', rfl, h1, h2⟩ hn
    obtain ⟨hb, hn'⟩ := List.nodup_cons.1 hn
    have hrest : ∀ q ∈ emittedPaths g P rest, (q.1 ++ [q.2]).head? ≠ some b := by
      rintro ⟨p, last⟩ hq e
      obtain ⟨c, hc, q, e'⟩ := emittedPaths_head rest l' h2 p last hq
      rw [e'] at e
      simp only [List.head?_cons, Option.some.injEq] at e
      exact hb (e ▸ hc)
    rw [emittedPaths]
    refine List.nodup_append.2 ⟨?_, ih2 _ h2 hn', ?_⟩
    · split
      · exact List.nodup_nil
      · split
        · refine List.Pairwise.map _ ?_ (ih1 _ h1 (hd _))
          rintro ⟨p, l⟩ ⟨p', l'⟩ hne e
          simp only [Prod.mk.injEq, List.cons.injEq, true_and] at e
          exact hne (by rw [e.1, e.2])
        · split
          · simp
          · exact List.nodup_nil
    · intro q hq q' hq' e
      subst e
      refine hrest q hq' ?_
      split at hq
      · simp at hq
      · split at hq
        · obtain ⟨r, _, rfl⟩ := List.mem_map.1 hq
          rfl
        · split at hq
          · rw [List.mem_singleton.1 hq]; rfl
          · simp at hq

/-- A list of values has no duplicates if they are those of different things. -/
theorem nodup_map_iff {α β : Type} (f : α → β) (l : List α) (hl : l.Nodup) :
    (l.map f).Nodup ↔ ∀ x ∈ l, ∀ y ∈ l, f x = f y → x = y := by
  induction l with
  | nil => simp
  | cons a l ih =>
    obtain ⟨h1, h2⟩ := List.nodup_cons.1 hl
    rw [List.map_cons, List.nodup_cons, ih h2]
    constructor
    · rintro ⟨h3, h4⟩ x hx y hy e
      rcases List.mem_cons.1 hx with rfl | hx' <;> rcases List.mem_cons.1 hy with rfl | hy'
      · rfl
      · exact (h3 (List.mem_map.2 ⟨y, hy', e.symm⟩)).elim
      · exact (h3 (List.mem_map.2 ⟨x, hx', e⟩)).elim
      · exact h4 x hx' y hy' e
    · intro h
      refine ⟨fun hm => ?_, fun x hx y hy => h x (List.mem_cons_of_mem _ hx) y (List.mem_cons_of_mem _ hy)⟩
      obtain ⟨x, hx, e⟩ := List.mem_map.1 hm
      exact h1 (h x (List.mem_cons_of_mem _ hx) a (List.mem_cons_self ..) e ▸ hx)

end Verif
