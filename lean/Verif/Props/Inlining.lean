import Verif.Lemmas.Inlining
import Verif.Lemmas.AttrInv
import Verif.Props.Sorting
/-!
# Properties of inlining and of base classes (C33, C42 – C44)

`bases` are the direct bases of classes, `h` is the hierarchy of bases of the
class `r` (`Unfolds`), which exists for any hierarchy without cycles
(`C42_hierarchies`).  Annotations name only bases (`NamesBases`), as is shown in
`C42_annotations` for the annotations of a translation unit.
-/
namespace Verif
open Spec

/-! ### C42 -/

/-- Class hierarchies without cycles are as assumed below. -/
theorem C42_hierarchies (bases : BaseSpecs) (depth : Nat → Nat)
    (hd : ∀ x, ∀ b ∈ bases x, depth b.id < depth x) (x : Nat) :
    ∃ h, Unfolds bases h (bases x) := by
  have key : ∀ n x, depth x < n → ∃ h, Unfolds bases h (bases x) := by
    intro n
    induction n with
    | zero => intro x h; omega
    | succ n ih =>
      intro x hx
      have : ∀ l : List BaseSpec, (∀ b ∈ l, depth b.id < n) → ∃ h, Unfolds bases h l := by
        intro l
        induction l with
        | nil => exact fun _ => ⟨.nil, rfl⟩
        | cons b l ihl =>
          intro hl
          obtain ⟨h1, hh1⟩ := ih b.id (hl b (by simp))
          obtain ⟨h2, hh2⟩ := ihl fun c hc => hl c (by simp [hc])
          exact ⟨.cons b h1 h2, l, rfl, hh1, hh2⟩
      exact this (bases x) fun b hb => by
        have := hd x b hb
        omega
  exact key _ x (Nat.lt_succ_self _)

/-- Annotations name bases only. -/
theorem C42_annotations (w : World) (root : Tree) (wf : WellFormed w root) (g : Graph) (b : Building)
    (h : buildGraph w root = (some g, b)) (bases : BaseSpecs)
    (hall : ∀ x, ∀ c ∈ (w.info x).allBases, ∃ p, InheritancePath bases x p ∧ LeadsTo p c) :
    NamesBases b.storage bases := by
  intro c attrs rec d hc hr hd
  obtain ⟨n, rfl⟩ := built_base w root wf g b h c attrs hc
  exact hall c d ((firstInsert_names w.toDeclEnv c rec hr).1 d hd)

/-- C42: determining the classes to be inlined stops after at most one round for
each base (and the class itself). -/
theorem C42_terminates (s : Storage) (bases : BaseSpecs) (hb : NamesBases s bases) (r : Nat)
    (h : Hierarchy) (hu : Unfolds bases h (bases r)) (n : Nat) (hn : h.ids.length + 2 ≤ n) :
    (collectCandidates s n { remaining := [r] }).remaining = [] :=
  (candidates_spec hb hu n (by omega)).1

/-- C42: an inlined base is named by `inline_base` on the class or on a base so
named, and there is a public path to it without hidden bases. -/
theorem C42_inlined (s : Storage) (bases : BaseSpecs) (hb : NamesBases s bases) (r : Nat)
    (h : Hierarchy) (hu : Unfolds bases h (bases r)) (b : Nat)
    (hi : (createFromAnnotations s h r).shouldInline b = true) : Inlined s bases r b := by
  obtain ⟨h1, p, hp, h2⟩ := (shouldInline_iff hb hu b).1 hi
  obtain ⟨h3, h4⟩ := lookup_sound b h [] p hp
  exact ⟨h1, p, (inTree_path hu p).1 h3, h4, h2⟩

/-- C42: the inlined bases are the ones named by `inline_base` on the class or on a
base so named to which there is a public path without hidden bases.

Partial: this assumes that no virtual base occurs more than once in the
hierarchy.  Otherwise, bases can be missed: see `C42_virtual_base_missed`. -/
theorem C42_iff_partial (s : Storage) (bases : BaseSpecs) (hb : NamesBases s bases) (r : Nat)
    (h : Hierarchy) (hu : Unfolds bases h (bases r)) (hv : (virtualIds h).Nodup) (b : Nat) :
    (createFromAnnotations s h r).shouldInline b = true ↔ Inlined s bases r b := by
  refine ⟨C42_inlined s bases hb r h hu b, ?_⟩
  rintro ⟨h1, p, hp, hl, hus⟩
  obtain ⟨q, hq, t, rfl⟩ := lookup_complete b h [] hv (by simp) p ((inTree_path hu p).2 hp) hl
  exact (shouldInline_iff hb hu b).2 ⟨h1, q, hq, fun c hc => hus c (by simp [hc])⟩

/-- C42: hidden bases are those named by `hide_base` on the class or on a class
named for inlining. -/
theorem C42_hidden (s : Storage) (bases : BaseSpecs) (hb : NamesBases s bases) (r : Nat)
    (h : Hierarchy) (hu : Unfolds bases h (bases r)) (b : Nat) :
    (createFromAnnotations s h r).shouldHide b = true ↔ HiddenBase s r b :=
  shouldHide_iff hb hu b

/-- `struct 1 {}; struct 2 : 1 {}; struct inline_base(1) 3 : 2 {};
struct 4 : private 1 {}; struct inline_base(3), hide_base(4) 5 : 3, 4 {};` -/
def exBases : BaseSpecs := fun
  | 2 => [{ access := .public, id := 1 }]
  | 3 => [{ access := .public, id := 2 }]
  | 4 => [{ access := .private, id := 1 }]
  | 5 => [{ access := .public, id := 3 }, { access := .public, id := 4 }]
  | _ => []

def exBasesStorage : Storage where
  entries := fun
    | 3 => some { record := some { inlineBase := [1] } }
    | 5 => some { record := some { inlineBase := [3], hideBase := [4] } }
    | _ => none
  size := 2

def exHierarchy : Hierarchy :=
  .cons { access := .public, id := 3 }
    (.cons { access := .public, id := 2 } (.cons { access := .public, id := 1 } .nil .nil) .nil)
    (.cons { access := .public, id := 4 } (.cons { access := .private, id := 1 } .nil .nil) .nil)

example : Unfolds exBases exHierarchy (exBases 5) := by
  simp [Unfolds, exHierarchy, exBases]

example : NamesBases exBasesStorage exBases := by
  intro c attrs rec b hc hr hb
  simp only [exBasesStorage] at hc
  split at hc
  · simp only [Option.some.injEq] at hc
    subst hc
    simp only [Option.some.injEq] at hr
    subst hr
    simp only [List.mem_singleton] at hb
    subst hb
    exact ⟨[{ access := .public, id := 2 }, { access := .public, id := 1 }],
      .step (by simp [exBases]) (.direct (by simp [exBases])), by simp [LeadsTo]⟩
  · simp only [Option.some.injEq] at hc
    subst hc
    simp only [Option.some.injEq] at hr
    subst hr
    simp only [List.mem_singleton] at hb
    subst hb
    exact ⟨[{ access := .public, id := 3 }], .direct (by simp [exBases]), by simp [LeadsTo]⟩
  · simp at hc

example : (virtualIds exHierarchy).Nodup := by simp [virtualIds, exHierarchy]

/-- The base 1 is inlined since it is named on the inlined base 3. -/
example : createFromAnnotations exBasesStorage exHierarchy 5 =
    { inlineBases := [3, 1], hideBases := [4] } := by decide +kernel

/-- `struct 1 {}; struct 2 : 1 {}; struct 3 : private virtual 2 {};
struct 4 : virtual 2 {}; struct inline_base(1) 5 : 3, 4 {};` -/
def exVirtual : BaseSpecs := fun
  | 2 => [{ access := .public, id := 1 }]
  | 3 => [{ access := .private, isVirtual := true, id := 2 }]
  | 4 => [{ access := .public, isVirtual := true, id := 2 }]
  | 5 => [{ access := .public, id := 3 }, { access := .public, id := 4 }]
  | _ => []

def exVirtualStorage : Storage where
  entries := fun
    | 5 => some { record := some { inlineBase := [1] } }
    | _ => none
  size := 1

def exVirtualHierarchy : Hierarchy :=
  .cons { access := .public, id := 3 }
    (.cons { access := .private, isVirtual := true, id := 2 }
      (.cons { access := .public, id := 1 } .nil .nil) .nil)
    (.cons { access := .public, id := 4 }
      (.cons { access := .public, isVirtual := true, id := 2 }
        (.cons { access := .public, id := 1 } .nil .nil) .nil) .nil)

/-- C42 does not hold: a virtual base that has been reached before, via a private
path, is not looked into again, such that the public path to base 1 is missed. -/
theorem C42_virtual_base_missed :
    Unfolds exVirtual exVirtualHierarchy (exVirtual 5) ∧
    Inlined exVirtualStorage exVirtual 5 1 ∧
    (createFromAnnotations exVirtualStorage exVirtualHierarchy 5).shouldInline 1 = false := by
  refine ⟨by simp [Unfolds, exVirtualHierarchy, exVirtual], ⟨?_, ?_⟩, by decide +kernel⟩
  · exact .direct (attrs := { record := some { inlineBase := [1] } }) rfl rfl (by simp)
  · refine ⟨[{ access := .public, id := 4 }, { access := .public, isVirtual := true, id := 2 },
      { access := .public, id := 1 }],
      .step (by simp [exVirtual]) (.step (by simp [exVirtual]) (.direct (by simp [exVirtual]))),
      by simp [LeadsTo], ?_⟩
    have hno : ∀ b, ¬ HiddenBase exVirtualStorage 5 b := by
      rintro b ⟨c, attrs, rec, _, h1, h2, h3⟩
      simp only [exVirtualStorage] at h1
      split at h1
      · simp only [Option.some.injEq] at h1
        subst h1
        simp only [Option.some.injEq] at h2
        subst h2
        simp at h3
      · simp at h1
    intro b hb
    refine ⟨?_, hno _⟩
    simp only [List.mem_cons, List.not_mem_nil, or_false] at hb
    rcases hb with rfl | rfl | rfl <;> rfl

/-! ### C43 -/

/-- C43: a class lists exactly the exposed bases that are visible through inlined
bases. -/
theorem C43_iff (s : Storage) (bases : BaseSpecs) (hb : NamesBases s bases) (g : Graph) (r : Nat)
    (h : Hierarchy) (hu : Unfolds bases h (bases r)) (b : Nat) :
    b ∈ emittedBases g (createFromAnnotations s h r) h ↔
      ExposedBase s bases g (fun c => (createFromAnnotations s h r).shouldInline c = true) r b := by
  rw [mem_emittedBases]
  unfold ExposedBase Usable
  have hh : ∀ c, (createFromAnnotations s h r).shouldHide c = false ↔ ¬ HiddenBase s r c := by
    intro c
    rw [← shouldHide_iff hb hu c]
    simp
  simp only [hh, inTree_path hu, Bool.not_eq_true]

/-- C43, in terms of `Inlined`.

Partial: see `C42_iff_partial`; furthermore, a base can be listed twice, see
`C43_listed_twice`. -/
theorem C43_bases_partial (s : Storage) (bases : BaseSpecs) (hb : NamesBases s bases) (g : Graph)
    (r : Nat) (h : Hierarchy) (hu : Unfolds bases h (bases r)) (hv : (virtualIds h).Nodup) (b : Nat) :
    b ∈ emittedBases g (createFromAnnotations s h r) h ↔
      ExposedBase s bases g (Inlined s bases r) r b := by
  rw [C43_iff s bases hb g r h hu b]
  have he : (fun c => (createFromAnnotations s h r).shouldInline c = true) = Inlined s bases r :=
    funext fun c => propext (C42_iff_partial s bases hb r h hu hv c)
  rw [he]

/-- There is at most one listing. -/
theorem listing_unique {bases : BaseSpecs} {g : Graph} {inlined hidden : Nat → Prop}
    {specs : List BaseSpec} {l l' : List Nat} (h : Listing bases g inlined hidden specs l)
    (h' : Listing bases g inlined hidden specs l') : l = l' := by
  induction h generalizing l' with
  | nil => cases h'; rfl
  | skipped hs _ ih =>
    cases h' with
    | skipped _ h2 => exact ih h2
    | absent _ _ h2 => exact ih h2
    | own h1 h2 _ _ _ => exact (hs.elim (· h1) h2).elim
    | inline h1 h2 _ _ _ => exact (hs.elim (· h1) h2).elim
  | absent hg hi _ ih =>
    cases h' with
    | skipped _ h2 => exact ih h2
    | absent _ _ h2 => exact ih h2
    | own _ _ _ h2 _ => exact (hg h2).elim
    | inline _ _ h2 _ _ => exact (hi h2).elim
  | own ha hh hi hg _ ih =>
    cases h' with
    | skipped hs _ => exact (hs.elim (· ha) hh).elim
    | absent h2 _ _ => exact (h2 hg).elim
    | own _ _ _ _ h2 => rw [ih h2]
    | inline _ _ h2 _ _ => exact (hi h2).elim
  | inline ha hh hi _ _ ih1 ih2 =>
    cases h' with
    | skipped hs _ => exact (hs.elim (· ha) hh).elim
    | absent _ h2 _ => exact (h2 hi).elim
    | own _ _ h2 _ _ => exact (h2 hi).elim
    | inline _ _ _ h1 h2 => rw [ih1 h1, ih2 h2]

/-- C43: bases are listed in the order in which they are declared, with those of an inlined base in
its place.  Python looks up attributes in this order. -/
theorem C43_order (s : Storage) (bases : BaseSpecs) (hb : NamesBases s bases) (g : Graph) (r : Nat)
    (h : Hierarchy) (hu : Unfolds bases h (bases r)) (l : List Nat) :
    Listing bases g (fun c => (createFromAnnotations s h r).shouldInline c = true) (HiddenBase s r)
      (bases r) l ↔ l = emittedBases g (createFromAnnotations s h r) h := by
  have hh := fun c => shouldHide_iff hb hu c
  have key : ∀ (k : Hierarchy) (specs : List BaseSpec), Unfolds bases k specs →
      Listing bases g (fun c => (createFromAnnotations s h r).shouldInline c = true) (HiddenBase s r)
        specs (emittedBases g (createFromAnnotations s h r) k) := by
    intro k
    induction k with
    | nil => intro specs hk; rw [show specs = [] from hk]; exact .nil
    | cons b above rest ih1 ih2 =>
      rintro specs ⟨l', rfl, h1, h2⟩
      have hr := ih2 _ h2
      simp only [emittedBases]
      split
      · next hc =>
        refine .skipped ?_ hr
        simp only [Bool.or_eq_true, decide_eq_true_eq] at hc
        exact hc.imp_right (hh _).1
      · next hc =>
        simp only [Bool.or_eq_true, decide_eq_true_eq, not_or, Decidable.not_not] at hc
        have hhid : ¬ HiddenBase s r b.id := fun h => hc.2 ((hh _).2 h)
        split
        · next hi => exact .inline hc.1 hhid hi (ih1 _ h1) hr
        · next hi =>
          split
          · next hg => exact .own hc.1 hhid hi (by simpa [Graph.hasNode] using hg) hr
          · next hg => exact .absent (by simpa [Graph.hasNode] using hg) hi hr
  exact ⟨fun hl => listing_unique hl (key h _ hu), fun e => e ▸ key h _ hu⟩

/-- C43: no base is listed twice.

Partial: this assumes that no class occurs more than once in the hierarchy. -/
theorem C43_once_partial (g : Graph) (P : InliningPolicy) (h : Hierarchy) (hn : h.ids.Nodup) :
    (emittedBases g P h).Nodup := by
  have : ∀ h : Hierarchy, (emittedBases g P h).Sublist h.ids := by
    intro h
    induction h with
    | nil => exact List.Sublist.refl _
    | cons b above rest ih1 ih2 =>
      simp only [emittedBases, Hierarchy.ids]
      split
      · exact (ih2.trans (List.sublist_append_right _ _)).cons _
      · split
        · exact (ih1.append ih2).cons _
        · split
          · exact (ih2.trans (List.sublist_append_right _ _)).cons₂ _
          · exact (ih2.trans (List.sublist_append_right _ _)).cons _
  exact (this h).nodup hn

/-- C43: a base is listed twice exactly if it is exposed and there are two ways to reach it through
inlined bases. -/
theorem C43_once_iff (s : Storage) (bases : BaseSpecs) (hb : NamesBases s bases)
    (hd : ∀ x, (bases x).Nodup) (g : Graph) (r : Nat) (h : Hierarchy) (hu : Unfolds bases h (bases r)) :
    (emittedBases g (createFromAnnotations s h r) h).Nodup ↔
      ∀ p last p' last', last.id = last'.id → last.id ∈ g.nodes →
        (createFromAnnotations s h r).shouldInline last.id = false →
        VisibleThrough s bases (fun c => (createFromAnnotations s h r).shouldInline c = true) r p last →
        VisibleThrough s bases (fun c => (createFromAnnotations s h r).shouldInline c = true) r p' last' →
        p = p' ∧ last = last' := by
  have hh : ∀ c, (createFromAnnotations s h r).shouldHide c = false ↔ ¬ HiddenBase s r c := by
    intro c
    rw [← shouldHide_iff hb hu c]
    simp
  have hmem : ∀ p last, (p, last) ∈ emittedPaths g (createFromAnnotations s h r) h ↔
      VisibleThrough s bases (fun c => (createFromAnnotations s h r).shouldInline c = true) r p last ∧
      (createFromAnnotations s h r).shouldInline last.id = false ∧ last.id ∈ g.nodes := by
    intro p last
    rw [mem_emittedPaths]
    unfold VisibleThrough Usable
    simp only [hh, inTree_path hu]
    constructor
    · rintro ⟨h1, h2, h3, h4, h5⟩; exact ⟨⟨h1, h2, h3⟩, h4, h5⟩
    · rintro ⟨⟨h1, h2, h3⟩, h4, h5⟩; exact ⟨h1, h2, h3, h4, h5⟩
  rw [← emittedPaths_map, nodup_map_iff _ _ (emittedPaths_nodup hd h _ hu (hd r))]
  constructor
  · intro H p last p' last' e hg hi hv hv'
    have := H (p, last) ((hmem _ _).2 ⟨hv, hi, hg⟩) (p', last')
      ((hmem _ _).2 ⟨hv', by rw [← e]; exact hi, by rw [← e]; exact hg⟩) e
    exact Prod.mk.inj this
  · rintro H ⟨p, last⟩ hx ⟨p', last'⟩ hy e
    obtain ⟨hv, hi, hg⟩ := (hmem _ _).1 hx
    obtain ⟨hv', _⟩ := (hmem _ _).1 hy
    obtain ⟨rfl, rfl⟩ := H p last p' last' e hg hi hv hv'
    rfl

example : exHierarchy.ids = [3, 2, 1, 4, 1] := rfl
/-- Base 2 is not listed for class 5 unless it is exposed. -/
example : emittedBases { root := 0, nodes := [0, 5, 4, 2], children := fun _ => [] }
    { inlineBases := [3], hideBases := [4] } exHierarchy = [2] := by decide +kernel
example : ExposedBase exBasesStorage exBases
    { root := 0, nodes := [0, 5, 4, 2], children := fun _ => [] } (fun c => c = 3) 5 2 := by
  refine ⟨by simp, by simp, [{ access := .public, id := 3 }], { access := .public, id := 2 },
    .step (by simp [exBases]) (.direct (by simp [exBases])), rfl, ?_, by simp⟩
  have hno : ∀ b, HiddenBase exBasesStorage 5 b → b = 4 := by
    rintro b ⟨c, attrs, rec, _, h1, h2, h3⟩
    simp only [exBasesStorage] at h1
    split at h1
    · simp only [Option.some.injEq] at h1
      subst h1
      simp only [Option.some.injEq] at h2
      subst h2
      simp at h3
    · simp only [Option.some.injEq] at h1
      subst h1
      simp only [Option.some.injEq] at h2
      subst h2
      simpa using h3
    · simp at h1
  intro b hb
  simp only [List.cons_append, List.nil_append, List.mem_cons, List.not_mem_nil, or_false] at hb
  rcases hb with rfl | rfl
  · exact ⟨rfl, fun h => by have := hno _ h; simp at this⟩
  · exact ⟨rfl, fun h => by have := hno _ h; simp at this⟩

/-- `struct 1 {}; struct 2 : virtual 1 {}; struct 3 : virtual 1 {};
struct inline_base(2, 3) 4 : 2, 3 {};` -/
def exDiamond : BaseSpecs := fun
  | 2 => [{ access := .public, isVirtual := true, id := 1 }]
  | 3 => [{ access := .public, isVirtual := true, id := 1 }]
  | 4 => [{ access := .public, id := 2 }, { access := .public, id := 3 }]
  | _ => []

def exDiamondStorage : Storage where
  entries := fun
    | 4 => some { record := some { inlineBase := [2, 3] } }
    | _ => none
  size := 1

def exDiamondHierarchy : Hierarchy :=
  .cons { access := .public, id := 2 }
    (.cons { access := .public, isVirtual := true, id := 1 } .nil .nil)
    (.cons { access := .public, id := 3 }
      (.cons { access := .public, isVirtual := true, id := 1 } .nil .nil) .nil)

/-- C43 does not hold: `pybind11::class_<4, 1, 1>` is emitted. -/
theorem C43_listed_twice :
    Unfolds exDiamond exDiamondHierarchy (exDiamond 4) ∧
    emittedBases { root := 0, nodes := [0, 1, 4], children := fun _ => [] }
      (createFromAnnotations exDiamondStorage exDiamondHierarchy 4) exDiamondHierarchy = [1, 1] :=
  ⟨by simp [Unfolds, exDiamondHierarchy, exDiamond], by decide +kernel⟩

/-- The two ways to reach 1 from 4. -/
example : ∀ b ∈ [2, 3], VisibleThrough exDiamondStorage exDiamond
    (fun c => (createFromAnnotations exDiamondStorage exDiamondHierarchy 4).shouldInline c = true) 4
    [{ access := .public, id := b }] { access := .public, isVirtual := true, id := 1 } := by
  have hno : ∀ b, ¬ HiddenBase exDiamondStorage 4 b := by
    rintro b ⟨c, attrs, rec, _, h1, h2, h3⟩
    simp only [exDiamondStorage] at h1
    split at h1
    · simp only [Option.some.injEq] at h1
      subst h1
      simp only [Option.some.injEq] at h2
      subst h2
      simp at h3
    · simp at h1
  intro b hb
  have hi : ∀ b ∈ [2, 3],
      (createFromAnnotations exDiamondStorage exDiamondHierarchy 4).shouldInline b = true := by
    decide +kernel
  refine ⟨?_, ?_, by simpa using hi b hb⟩
  · simp only [List.mem_cons, List.not_mem_nil, or_false] at hb
    rcases hb with rfl | rfl <;> exact .step (by simp [exDiamond]) (.direct (by simp [exDiamond]))
  · intro c hc
    refine ⟨?_, hno _⟩
    simp only [List.cons_append, List.nil_append, List.mem_cons, List.not_mem_nil, or_false] at hc
    rcases hc with rfl | rfl <;> rfl
example : ∀ x, (exDiamond x).Nodup := by
  intro x
  unfold exDiamond
  split <;> decide

/-- `struct 4 : 3, 1 {}` where `struct inline_base 3 : 2 {}`: 2 comes first. -/
example : emittedBases { root := 0, nodes := [0, 1, 2, 4], children := fun _ => [] }
    { inlineBases := [3], hideBases := [] }
    (.cons { access := .public, id := 3 } (.cons { access := .public, id := 2 } .nil .nil)
      (.cons { access := .public, id := 1 } .nil .nil)) = [2, 1] := by decide +kernel
example : Listing exBases { root := 0, nodes := [0, 5, 4, 2], children := fun _ => [] } (fun c => c = 3)
    (fun c => c = 4) [{ access := .public, id := 2 }, { access := .public, id := 4 }] [2] :=
  .own rfl (by decide) (by decide) (by decide) (.skipped (.inr rfl) .nil)

/-! ### C44 -/

/-- C44: what is collected for each declaration found by lookup. -/
theorem C44_found (w : World) (hasLocation : Nat → Bool) (P : InliningPolicy) (f : Found) (d : Nat) :
    foundDecl w hasLocation (some P) f = some d ↔
      Exposable (fun r => P.shouldInline r = true) f ∧ d = f.shadows.getD f.decl ∧
      (w.info d).kind ≠ .namespace ∧ (w.info d).kind ≠ .enum ∧ (w.info d).kind ≠ .record ∧
      (w.info d).kind ≠ .translationUnit ∧ hasLocation d = true := by
  have hctx : ∀ k : DeclKind, k.isLookupContext = false ↔ k ≠ .namespace ∧ k ≠ .enum ∧ k ≠ .record ∧
      k ≠ .translationUnit := by
    intro k
    cases k <;> simp [DeclKind.isLookupContext]
  have hin : shouldInlineDecl (some P) f = true ↔ f.isConstructor = false ∧ f.isDestructor = false ∧
      ∃ r, f.parentRecord = some r ∧ P.shouldInline r = true := by
    unfold shouldInlineDecl
    cases f.isConstructor <;> cases f.isDestructor <;> cases f.parentRecord <;> simp
  unfold foundDecl Exposable
  rw [← hin]
  by_cases h1 : (f.hiddenBy.isSome || !(f.access = .public || f.access = .none)) = true
  · rw [if_pos h1]
    simp only [reduceCtorEq, false_iff]
    rintro ⟨⟨h2, h3, _⟩, _⟩
    rw [h2] at h1
    rcases h3 with h3 | h3 <;> simp [h3] at h1
  · rw [if_neg h1]
    have h1' : f.hiddenBy = none ∧ (f.access = .public ∨ f.access = .none) := by
      simp only [Bool.or_eq_true, Bool.not_eq_true', not_or, Bool.not_eq_true,
        Option.isSome_eq_false_iff, Option.isNone_iff_eq_none, Bool.not_eq_false, decide_eq_true_eq] at h1
      exact h1
    by_cases h2 : (f.inBaseClass && !shouldInlineDecl (some P) f) = true
    · rw [if_pos h2]
      simp only [reduceCtorEq, false_iff]
      rintro ⟨⟨_, _, h3⟩, _⟩
      simp only [Bool.and_eq_true, Bool.not_eq_true'] at h2
      rw [h3 h2.1] at h2
      simp at h2
    · rw [if_neg h2]
      have h2' : f.inBaseClass = true → shouldInlineDecl (some P) f = true := by
        intro h
        simpa [h] using h2
      simp only [h1'.1, h1'.2, true_and]
      split
      · rename_i h3
        simp only [reduceCtorEq, false_iff]
        rintro ⟨_, rfl, h4⟩
        have := (hctx _).2 ⟨h4.1, h4.2.1, h4.2.2.1, h4.2.2.2.1⟩
        rw [this] at h3
        simp at h3
      · rename_i h3
        have h3' := (hctx _).1 (by simpa using h3)
        split
        · rename_i h4
          simp only [reduceCtorEq, false_iff]
          rintro ⟨_, rfl, _, _, _, _, h5⟩
          simp [h5] at h4
        · rename_i h4
          simp only [Option.some.injEq]
          constructor
          · rintro rfl
            exact ⟨h2', rfl, h3'.1, h3'.2.1, h3'.2.2.1, h3'.2.2.2, by simpa using h4⟩
          · rintro ⟨_, rfl, _⟩
            rfl

/-- C44: without inlining (namespaces, enums), nothing found in a base class is
collected. -/
theorem C44_no_policy (w : World) (hasLocation : Nat → Bool) (f : Found) (h : f.inBaseClass = true) :
    foundDecl w hasLocation none f = none := by
  unfold foundDecl shouldInlineDecl
  split
  · rfl
  · simp [h]

/-- C44: what is collected for a class. -/
theorem C44_collected (s : Storage) (bases : BaseSpecs) (hb : NamesBases s bases) (r : Nat)
    (h : Hierarchy) (hu : Unfolds bases h (bases r)) (hv : (virtualIds h).Nodup)
    (w : World) (hasLocation : Nat → Bool) (found : List Found) (d : Nat) :
    d ∈ collectVisibleDecls w hasLocation (some (createFromAnnotations s h r)) found ↔
      ∃ f ∈ found, Exposable (Inlined s bases r) f ∧ d = f.shadows.getD f.decl ∧
        (w.info d).kind ≠ .namespace ∧ (w.info d).kind ≠ .enum ∧ (w.info d).kind ≠ .record ∧
        (w.info d).kind ≠ .translationUnit ∧ hasLocation d = true := by
  have he : (fun c => (createFromAnnotations s h r).shouldInline c = true) = Inlined s bases r :=
    funext fun c => propext (C42_iff_partial s bases hb r h hu hv c)
  simp only [collectVisibleDecls, List.mem_filterMap, C44_found, he]

/-- A member of an inlined base, one of another base, and an inherited constructor. -/
example : collectVisibleDecls { exSort with info := fun | 1 => { kind := .record } | _ => { kind := .method } }
    (fun _ => true) (some { inlineBases := [3], hideBases := [] })
    [{ decl := 10, access := .public }, { decl := 11, access := .protected },
     { decl := 12, access := .public, inBaseClass := true, parentRecord := some 3 },
     { decl := 13, access := .public, inBaseClass := true, parentRecord := some 4 },
     { decl := 14, access := .public, inBaseClass := true, parentRecord := some 3, isConstructor := true },
     { decl := 15, access := .public, hiddenBy := some 10 }, { decl := 1, access := .public },
     { decl := 16, access := .public, shadows := some 17 }] = [10, 12, 17] := by decide +kernel

/-! ### C33 -/

/-- The bases as read when sorting. -/
def accessAndId (bases : BaseSpecs) : Bases := fun x => (bases x).map fun b => (b.access, b.id)

/-- See `C33_before_partial`. -/
theorem before_valid (w : World) (s : Storage) (g : Graph) (bases : BaseSpecs)
    (hrec : ∀ x, ∀ b ∈ bases x, (w.info x).kind = .record)
    (order : List Nat) (hv : ValidOrder w s (accessAndId bases) g order)
    (h : Hierarchy) (x : Nat) (hu : Unfolds bases h (bases x)) (P : InliningPolicy)
    (hin : ∀ c, P.shouldInline c = true → c ∈ g.nodes)
    (pre post : List Nat) (hx : order = pre ++ x :: post) (b : Nat)
    (hb : b ∈ emittedBases g P h) : b ∈ pre := by
  obtain ⟨hbn, _, p, last, hp, hl, hpub, hinl⟩ := (mem_emittedBases b h).1 hb
  have hpath := (inTree_path hu _).1 hp
  have key : ∀ q x, InheritancePath bases x q → (∀ c ∈ q, c.access = .public) →
      (∀ c ∈ q, c.id ∈ g.nodes) → ∀ pre post, order = pre ++ x :: post → ∀ c, LeadsTo q c → c ∈ pre := by
    intro q x hq
    have dep : ∀ (x : Nat) (c : BaseSpec), c ∈ bases x → c.access = .public → c.id ∈ g.nodes →
        ∀ pre post, order = pre ++ x :: post → c.id ∈ pre := by
      intro x c hc ha hcn pre post ho
      refine hv.sorted pre x post ho c.id ⟨?_, .inr ⟨hrec x c hc, hcn, ?_⟩⟩
      · exact hv.perm.mem_iff.1 (by rw [ho]; simp)
      · simp only [accessAndId, List.mem_map]
        exact ⟨c, hc, by rw [ha]⟩
    induction hq with
    | direct hc =>
      intro ha hcn pre post ho c hl
      rw [leadsTo_single] at hl
      subst hl
      exact dep _ _ hc (ha _ (by simp)) (hcn _ (by simp)) pre post ho
    | step hc hq ih =>
      intro ha hcn pre post ho c hl
      rw [leadsTo_cons (path_ne_nil hq)] at hl
      have h1 := dep _ _ hc (ha _ (by simp)) (hcn _ (by simp)) pre post ho
      obtain ⟨pre1, pre2, rfl⟩ := List.append_of_mem h1
      have := ih (fun c hc => ha c (by simp [hc])) (fun c hc => hcn c (by simp [hc])) pre1
        _ (ho.trans (by rw [List.append_assoc, List.cons_append])) c hl
      simp [this]
  refine key _ x hpath (fun c hc => (hpub c hc).1) ?_ pre post hx b ⟨last, by simp, hl⟩
  intro c hc
  rcases List.mem_append.1 hc with hc | hc
  · exact hin _ (hinl c hc)
  · simp only [List.mem_singleton] at hc
    subst hc
    rw [hl]
    exact hbn

/-- C33: the bases listed for a class are introduced before the class.

Partial: this assumes that inlined bases are exposed themselves.  Otherwise the
order does not take bases of inlined bases into account: see
`C33_base_after_derived`. -/
theorem C33_before_partial (w : World) (s : Storage) (g : Graph) (hg : ExposedGraph w g)
    (bases : BaseSpecs) (hself : ∀ x, ∀ b ∈ bases x, b.id ≠ x)
    (hrec : ∀ x, ∀ b ∈ bases x, (w.info x).kind = .record)
    (pick : Pick) (hp : PicksTop w.loc pick)
    (nodes : List Nat) (hn : nodes.Perm g.nodes) (order : List Nat)
    (hr : declContextsSortedByDependencies w (accessAndId bases) pick nodes g
      (findEnclosingScopes w s g) = (order, none))
    (h : Hierarchy) (x : Nat) (hu : Unfolds bases h (bases x)) (P : InliningPolicy)
    (hin : ∀ c, P.shouldInline c = true → c ∈ g.nodes)
    (pre post : List Nat) (hx : order = pre ++ x :: post) (b : Nat)
    (hb : b ∈ emittedBases g P h) : b ∈ pre := by
  have hv := C29_order w s g hg (accessAndId bases) (by
    intro x a hm
    simp only [accessAndId, List.mem_map, Prod.mk.injEq] at hm
    obtain ⟨c, hc, _, rfl⟩ := hm
    exact hself _ c hc rfl) pick hp nodes hn order hr
  exact before_valid w s g bases hrec order hv h x hu P hin pre post hx b hb

/-- The case of `exSort`, where class 5 lists its bases 1 and 3. -/
example : emittedBases exSortGraph { inlineBases := [], hideBases := [] }
    (.cons { access := .public, id := 1 } .nil (.cons { access := .private, id := 2 } .nil
      (.cons { access := .public, id := 3 } .nil .nil))) = [1, 3] := by decide +kernel

/-- `struct 1 {}; struct hidden 2 : 1 {}; struct inline_base(2) 3 : 2 {};
struct 4 { using expose_here = 1; };` -/
def exLate : World := exLoop

def exLateGraph : Graph where
  root := 0
  nodes := [0, 1, 3, 4]
  children := fun | 0 => [3, 4] | 4 => [1] | _ => []

def exLateBases : BaseSpecs := fun
  | 2 => [{ access := .public, id := 1 }]
  | 3 => [{ access := .public, id := 2 }]
  | _ => []

def exLateStorage : Storage where
  entries := fun
    | 3 => some { named := { visible := some true }, record := some { inlineBase := [2] } }
    | 1 => some { named := { visible := some true } }
    | 4 => some { named := { visible := some true } }
    | _ => none
  size := 3

def exLateHierarchy : Hierarchy :=
  .cons { access := .public, id := 2 } (.cons { access := .public, id := 1 } .nil .nil) .nil

theorem exLate_ok : ExposedGraph exLate exLateGraph := by
  refine ⟨⟨⟨⟨by simp [exLateGraph], ?_, ?_⟩, ?_, ?_, ?_⟩, rfl, ?_⟩, ?_, by simp [exLateGraph]⟩
  · intro p c
    simp only [Edge, exLateGraph]
    split <;> simp <;> omega
  · intro p c
    simp only [Edge, exLateGraph]
    split <;> simp
  · intro p q c
    simp only [Edge, exLateGraph]
    split <;> split <;> simp_all <;> omega
  · intro p
    simp only [exLateGraph]
    split <;> simp
  · intro p
    simp only [Edge, exLateGraph]
    split <;> simp
  · intro x hx hne
    simp only [exLate, exLoop]
    split <;> simp_all [exLateGraph]
  · have r0 : Reachable exLateGraph 0 := .root
    have step : ∀ p c, Reachable exLateGraph p → c ∈ exLateGraph.children p →
        Reachable exLateGraph c := fun p c h hc => .step h trivial hc
    have r4 := step 0 4 r0 (by simp [exLateGraph])
    intro x hx
    simp only [exLateGraph, List.mem_cons, List.not_mem_nil, or_false] at hx
    rcases hx with rfl | rfl | rfl | rfl
    · exact r0
    · exact step 4 1 r4 (by simp [exLateGraph])
    · exact step 0 3 r0 (by simp [exLateGraph])
    · exact r4

/-- C33 does not hold: class 3 lists base 1, which is introduced after it. -/
theorem C33_base_after_derived :
    ExposedGraph exLate exLateGraph ∧
    Unfolds exLateBases exLateHierarchy (exLateBases 3) ∧
    emittedBases exLateGraph (createFromAnnotations exLateStorage exLateHierarchy 3) exLateHierarchy =
      [1] ∧
    declContextsSortedByDependencies exLate (accessAndId exLateBases)
      (fun _ => firstSmallest exLate.loc) exLateGraph.nodes exLateGraph
      (findEnclosingScopes exLate exLateStorage exLateGraph) = ([0, 3, 4, 1], none) := by
  refine ⟨exLate_ok, by simp [Unfolds, exLateHierarchy, exLateBases], by decide +kernel, ?_⟩
  exact dfs_eval 40 _ _ _ (fun m : EnclosingScopes => declContextsSortedByDependencies exLate
    (accessAndId exLateBases) (fun _ => firstSmallest exLate.loc) exLateGraph.nodes exLateGraph m) _
    (by decide +kernel)

end Verif
