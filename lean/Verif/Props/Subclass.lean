import Verif.Spec.Subclass
import Verif.Spec.Modules
import Verif.Props.Run
import Verif.Props.ToolExamples
/-!
# C93: subclasses
-/
namespace Verif
open Spec

/-! ### Bases of classes -/

theorem path_extend {bases : BaseSpecs} : ∀ (p : List BaseSpec) (x : Nat) (c : BaseSpec) (q : List BaseSpec),
    InheritancePath bases x (p ++ [c]) → InheritancePath bases c.id q →
    InheritancePath bases x (p ++ c :: q)
  | [], _, _, _, h, hq => by
    cases h with
    | direct h => exact .step h hq
    | step h _ => exact .step h hq
  | [b], _, _, _, h, hq => by
    cases h with
    | step h h' => exact .step h (path_extend [] _ _ _ h' hq)
  | b :: b' :: p, _, _, _, h, hq => by
    cases h with
    | step h h' => exact .step h (path_extend (b' :: p) _ _ _ h' hq)

theorem path_split {bases : BaseSpecs} : ∀ (p : List BaseSpec) (x : Nat) (c : BaseSpec) (q : List BaseSpec),
    InheritancePath bases x (p ++ c :: q) →
    InheritancePath bases x (p ++ [c]) ∧ (q ≠ [] → InheritancePath bases c.id q)
  | [], _, _, [], h => by
    exact ⟨h, fun h => absurd rfl h⟩
  | [], _, _, d :: q, h => by
    cases h with
    | step h h' => exact ⟨.direct h, fun _ => h'⟩
  | b :: p, x, c, q, h => by
    have hne : p ++ c :: q ≠ [] := by simp
    revert hne
    rw [List.cons_append] at h
    generalize hl : p ++ c :: q = l at h
    intro hne
    cases h with
    | direct h => exact absurd rfl hne
    | step h h' =>
      rw [← hl] at h'
      obtain ⟨h1, h2⟩ := path_split p _ c q h'
      exact ⟨.step h h1, h2⟩

theorem path_nonempty {bases : BaseSpecs} {x : Nat} {p : List BaseSpec} (h : InheritancePath bases x p) :
    p ≠ [] := by
  cases h <;> simp

theorem derived_trans (w : EmitWorld) (x y z : Nat) (h : PubliclyDerived w x y) (h' : PubliclyDerived w y z) :
    PubliclyDerived w x z := by
  obtain ⟨p, hp, ⟨c, hc, rfl⟩, hpub⟩ := h
  obtain ⟨q, hq, ⟨d, hd, rfl⟩, hqub⟩ := h'
  obtain ⟨p, rfl⟩ := List.getLast?_eq_some_iff.1 hc
  refine ⟨p ++ c :: q, path_extend _ _ _ _ hp hq, ⟨d, ?_, rfl⟩, ?_⟩
  · have hne := path_nonempty hq
    rw [List.getLast?_append, List.getLast?_cons, hd]
    simp
  · intro b hb
    rcases List.mem_append.1 hb with hb | hb
    · exact hpub b (by simp [hb])
    · rcases List.mem_cons.1 hb with rfl | hb
      · exact hpub b (by simp)
      · exact hqub b hb

theorem inlined_records (w : EmitWorld) (co : ClassesOK w) (x : Nat) (p : List BaseSpec)
    (h : InheritancePath (directBases w) x p) : (w.info x).kind = .record ∧ ∀ c ∈ p, (w.info c.id).kind = .record := by
  induction h with
  | direct hc =>
    refine ⟨(co.records _ _ hc).1, ?_⟩
    intro c hm
    rw [List.mem_singleton] at hm
    subst hm
    exact (co.records _ _ hc).2
  | step hc _ ih =>
    refine ⟨(co.records _ _ hc).1, ?_⟩
    intro c hm
    rcases List.mem_cons.1 hm with rfl | hm
    · exact (co.records _ _ hc).2
    · exact ih.2 c hm

theorem listed_iff (w : EmitWorld) (co : ClassesOK w) (s : Storage) (hb : NamesBases s (directBases w))
    (g : Graph) (x y : Nat) :
    y ∈ listedBases w s g x ↔ ExposedBase s (directBases w) g (InlinedInto w s x) x y := by
  unfold listedBases
  split
  · rename_i hk
    rw [C43_iff s (directBases w) hb g x (w.hierarchy x) (co.unfolds x) y]
    have : InlinedInto w s x = fun c => (createFromAnnotations s (w.hierarchy x) x).shouldInline c = true := by
      funext c
      simp [InlinedInto, hk]
    rw [this]
  · rename_i hk
    constructor
    · intro h
      cases h
    · rintro ⟨_, _, p, last, hp, _⟩
      exact absurd (inlined_records w co x _ hp).1 hk

/-- C93: the bases listed for a class are public bases of it. -/
theorem C93_listed (w : EmitWorld) (co : ClassesOK w) (s : Storage) (hb : NamesBases s (directBases w))
    (g : Graph) (x y : Nat) (h : y ∈ listedBases w s g x) :
    y ∈ g.nodes ∧ PubliclyDerived w x y := by
  obtain ⟨hg, _, p, last, hp, rfl, hu, _⟩ := (listed_iff w co s hb g x y).1 h
  exact ⟨hg, p ++ [last], hp, ⟨last, by simp, rfl⟩, fun b hb => (hu b hb).1⟩

/-- Base by base. -/
inductive ViaBases (listed : Nat → Nat → Prop) (x : Nat) : Nat → Prop where
  | refl : ViaBases listed x x
  | step {y z : Nat} : ViaBases listed x y → listed y z → ViaBases listed x z

theorem via_head {listed : Nat → Nat → Prop} {x y z : Nat} (h : listed x y) (h' : ViaBases listed y z) :
    ViaBases listed x z := by
  induction h' with
  | refl => exact .step .refl h
  | step _ hs ih => exact .step ih hs

theorem first_other {α : Type} (P : α → Prop) : ∀ (l : List α) (a : α), a ∈ l → ¬ P a →
    ∃ q c r, l = q ++ c :: r ∧ (∀ b ∈ q, P b) ∧ ¬ P c
  | b :: l, a, h, hn => by
    by_cases hb : P b
    · have : a ∈ l := by
        rcases List.mem_cons.1 h with rfl | h
        · exact absurd hb hn
        · exact h
      obtain ⟨q, c, r, rfl, h1, h2⟩ := first_other P l a this hn
      refine ⟨b :: q, c, r, rfl, ?_, h2⟩
      intro d hd
      rcases List.mem_cons.1 hd with rfl | hd
      · exact hb
      · exact h1 d hd
    · exact ⟨[], b, l, rfl, by simp, hb⟩

/-- C93: if a class is connected to one of its bases, the latter can be reached by going from
class to listed base. -/
theorem C93_connected (w : EmitWorld) (co : ClassesOK w) (s : Storage) (hb : NamesBases s (directBases w))
    (g : Graph) (x y : Nat) (hx : x ∈ g.nodes) (h : Connected w s (· ∈ g.nodes) x y) :
    ViaBases (fun a b => b ∈ listedBases w s g a) x y := by
  obtain ⟨p, hp, hl, hpub, hopen, hnot⟩ := h
  generalize hn : p.length = n
  induction n using Nat.strongRecOn generalizing x p with
  | _ n ih =>
  have hinl : ∀ z, NamedForInlining s z y ∨ ¬ InlinedInto w s z y := by
    intro z
    by_cases h : InlinedInto w s z y
    · exact .inl (C42_inlined s (directBases w) hb z (w.hierarchy z) (co.unfolds z) y h.2).1
    · exact .inr h
  obtain ⟨last, hlast, rfl⟩ := hl
  obtain ⟨q, c, r, rfl, hq, hc⟩ := first_other (fun b : BaseSpec => InlinedInto w s x b.id) p last
    (List.mem_of_getLast? hlast) ((hinl x).resolve_left (hnot x (by simp)))
  obtain ⟨hp1, hp2⟩ := path_split q x c r hp
  have hxo : ∀ b ∈ q ++ c :: r, Unobstructed w s (· ∈ g.nodes) x b.id := by
    intro b hb
    exact (List.pairwise_cons.1 hopen).1 _ (List.mem_map.2 ⟨b, hb, rfl⟩)
  have hcg : c.id ∈ g.nodes := ((hxo c (by simp)) hx).2.resolve_right hc
  have hlist : c.id ∈ listedBases w s g x := by
    refine (listed_iff w co s hb g x c.id).2 ⟨hcg, hc, q, c, hp1, rfl, ?_, hq⟩
    intro b hm
    have hm' : b ∈ q ++ c :: r := by
      rcases List.mem_append.1 hm with h | h
      · simp [h]
      · rw [List.mem_singleton] at h
        simp [h]
    exact ⟨hpub b hm', (hxo b hm' hx).1⟩
  cases r with
  | nil =>
    rw [List.getLast?_append] at hlast
    simp only [List.getLast?_singleton, Option.some_or, Option.some.injEq] at hlast
    rw [← hlast]
    exact .step .refl hlist
  | cons d r =>
    refine via_head hlist (ih (d :: r).length ?_ c.id hcg (d :: r) (hp2 (by simp)) ⟨last, ?_, rfl⟩
      (fun b hb => hpub b (by simp [List.mem_cons.1 hb])) ?_ ?_ rfl)
    · rw [← hn]
      simp
      omega
    · rw [List.getLast?_append, List.getLast?_cons_cons] at hlast
      cases hd : (d :: r).getLast? with
      | none => simp at hd
      | some e => rw [hd] at hlast; simpa using hlast
    · refine hopen.sublist ?_
      rw [List.map_append, List.map_cons]
      exact (List.sublist_append_right _ _).trans (List.sublist_cons_self _ _)
    · intro z hz
      apply hnot
      rw [List.map_append, List.map_cons]
      exact List.mem_cons_of_mem _ (List.mem_append_right _ hz)

/-! ### The generated code -/

theorem created_iff (w : EmitWorld) (s : Storage) (g : Graph) (vis : Visibilities) (name : Str)
    (order : List Nat) (n : Nat) (T U : Str) :
    CreatedWith (fileLines w s g vis name order n 0) T U ↔
      ∃ x y, x ∈ order ∧ (w.info x).kind = .record ∧ w.typeName x = T ∧ y ∈ listedBases w s g x ∧
        w.typeName y = U := by
  have hdef : ∀ k x id v i, Line.introduce v i ∉ definitionOf w s g vis k x id := by
    intro k x id v i h
    unfold definitionOf at h
    simp only [List.mem_append, List.mem_map, List.mem_singleton] at h
    rcases h with ((h | h) | ⟨_, _, h⟩) | h
    · split at h
      · simp at h
      · cases h
    · cases h
    · cases h
    · cases h
  have hintro : ∀ v i, Line.introduce v i ∈ fileLines w s g vis name order n 0 ↔
      ∃ x, (x, v) ∈ (contextsOf w order).zip (identifiersOf w order) ∧
        i = (Exposer.create w s x).introducer w s g (parentIdentifier w s g order x) := by
    intro v i
    unfold fileLines
    rw [List.mem_append]
    constructor
    · rintro (h | h)
      · rw [if_pos rfl] at h
        simp only [mainOf, List.mem_append, List.mem_map, List.mem_cons, List.mem_filterMap, List.not_mem_nil,
          or_false, reduceCtorEq, and_false, exists_false, false_or] at h
        rcases h with ((⟨⟨x, v'⟩, hp, he⟩)) | ⟨_, _, h⟩
        · cases he
          exact ⟨x, hp, rfl⟩
        · rw [Option.map_eq_some_iff] at h
          obtain ⟨_, _, h⟩ := h
          cases h
      · obtain ⟨p, _, h⟩ := List.mem_flatMap.1 h
        exact absurd h (hdef _ _ _ _ _)
    · rintro ⟨x, hx, rfl⟩
      refine .inl ?_
      rw [if_pos rfl]
      simp only [mainOf, List.mem_append, List.mem_map]
      exact .inl (.inl (.inl (.inr ⟨(x, v), hx, rfl⟩)))
  have hrecord : ∀ x T bases holder parent nm doc flag parent',
      (Exposer.create w s x).introducer w s g parent' = .type (.record T bases holder) parent nm doc flag →
      (w.info x).kind = .record ∧ T = w.typeName x ∧ bases = (listedBases w s g x).map w.typeName := by
    intro x T bases holder parent nm doc flag parent' h
    unfold Exposer.create at h
    unfold listedBases
    cases hk : (w.info x).kind <;> rw [hk] at h <;> dsimp only [Exposer.introducer] at h
    case «namespace» =>
      split at h
      · split at h <;> cases h
      · cases h
    case «enum» =>
      cases h
    case record =>
      simp only [Exposer.contextType] at h
      cases h
      exact ⟨rfl, rfl, by simp⟩
    all_goals cases h
  constructor
  · rintro ⟨v, bases, holder, parent, nm, doc, flag, h, hU⟩
    obtain ⟨x, hz, he⟩ := (hintro _ _).1 h
    obtain ⟨hk, rfl, rfl⟩ := hrecord x T bases holder parent nm doc flag _ he.symm
    obtain ⟨y, hy, rfl⟩ := List.mem_map.1 hU
    exact ⟨x, y, (List.mem_filter.1 (List.of_mem_zip hz).1).1, hk, rfl, hy, rfl⟩
  · rintro ⟨x, y, hx, hk, rfl, hy, rfl⟩
    have hc := own_representative w order x hx (by rw [hk]; decide)
    have hz : ∃ v, (x, v) ∈ (contextsOf w order).zip (identifiersOf w order) := by
      rw [← zip_contexts w order] at hc
      obtain ⟨⟨x', v⟩, h, rfl⟩ := List.mem_map.1 hc
      exact ⟨v, h⟩
    obtain ⟨v, hv⟩ := hz
    have hi : ∃ bases holder nm doc flag, (Exposer.create w s x).introducer w s g (parentIdentifier w s g order x) =
        .type (.record (w.typeName x) bases holder) (parentIdentifier w s g order x) nm doc flag := by
      unfold Exposer.create
      rw [hk]
      exact ⟨_, _, _, _, _, rfl⟩
    obtain ⟨bases, holder, nm, doc, flag, hi⟩ := hi
    refine ⟨v, bases, holder, _, nm, doc, flag, (hintro _ _).2 ⟨x, hv, hi.symm⟩, ?_⟩
    rw [(hrecord x _ _ _ _ _ _ _ _ hi).2.2]
    exact List.mem_map.2 ⟨y, hy, rfl⟩


theorem sub_sound (w : EmitWorld) (co : ClassesOK w) (s : Storage) (hb : NamesBases s (directBases w))
    (g : Graph) (vis : Visibilities) (name : Str) (order : List Nat) (n : Nat) (ho : order.Perm g.nodes)
    (hapart : ∀ x ∈ g.nodes, ∀ y ∈ g.nodes, (w.info x).kind = .record → (w.info y).kind = .record →
      w.typeName x = w.typeName y → x = y)
    (x : Nat) (hx : x ∈ g.nodes) (hk : (w.info x).kind = .record) (T : Str)
    (h : IsSubclass (fileLines w s g vis name order n 0) (w.typeName x) T) :
    ∃ y ∈ g.nodes, (w.info y).kind = .record ∧ T = w.typeName y ∧ (y = x ∨ PubliclyDerived w x y) := by
  induction h with
  | refl => exact ⟨x, hx, hk, rfl, .inl rfl⟩
  | step _ hc ih =>
    obtain ⟨y, hy, hyk, rfl, hxy⟩ := ih
    obtain ⟨y', z, hy', hyk', he, hz, rfl⟩ := (created_iff w s g vis name order n _ _).1 hc
    have : y' = y := hapart y' (ho.mem_iff.1 hy') y hy hyk' hyk he
    subst this
    obtain ⟨hzg, hyz⟩ := C93_listed w co s hb g y' z hz
    have hzk : (w.info z).kind = .record := by
      obtain ⟨p, hp, ⟨c, hl, rfl⟩, _⟩ := hyz
      exact (inlined_records w co y' p hp).2 c (List.mem_of_getLast? hl)
    refine ⟨z, hzg, hzk, rfl, .inr ?_⟩
    rcases hxy with rfl | hxy
    · exact hyz
    · exact derived_trans w x y' z hxy hyz

theorem sub_complete (w : EmitWorld) (co : ClassesOK w) (s : Storage) (hb : NamesBases s (directBases w))
    (g : Graph) (vis : Visibilities) (name : Str) (order : List Nat) (n : Nat) (ho : order.Perm g.nodes)
    (x y : Nat) (hx : x ∈ g.nodes) (h : Connected w s (· ∈ g.nodes) x y) :
    IsSubclass (fileLines w s g vis name order n 0) (w.typeName x) (w.typeName y) := by
  have hv := C93_connected w co s hb g x y hx h
  clear h
  have : IsSubclass (fileLines w s g vis name order n 0) (w.typeName x) (w.typeName y) ∧ y ∈ g.nodes := by
    induction hv with
    | refl => exact ⟨.refl, hx⟩
    | step _ hl ih =>
      refine ⟨.step ih.1 ((created_iff w s g vis name order n _ _).2 ⟨_, _, ho.mem_iff.2 ih.2, ?_, rfl, hl, rfl⟩), ?_⟩
      · unfold listedBases at hl
        split at hl
        · assumption
        · cases hl
      · exact (C93_listed w co s hb g _ _ hl).1
  exact this.1

/-- C93: in Python, an exposed class is a subclass of another one only if this is one of its public
bases in C++.  The converse holds for bases to which the class is connected: there is a
public path to the base along which all classes are exposed or inlined, and none has been
hidden.

Partial: the converse is restricted to such bases.  See `C93_gap` for a class between two others
that is not exposed; the other restrictions are what `hide_base` and `inline_base` are for. -/
theorem C93_run_partial (o : ToolOptions) (i : ToolInput) (ok : InputOK i) (co : ClassesOK i.world)
    (files : Files) (r : ToolResult)
    (hr : runTool o i files = some r) (hx : o.expectFailure = false) (h0 : r.exitCode = 0)
    (hnd : o.outputFiles.Nodup) :
    ∃ name g b main, moduleNameFor o.moduleName i.mainFile = some name ∧
      buildGraph i.world.toWorld i.tree = (some g, b) ∧
      (∀ path, o.outputFiles[0]? = some path →
        (path ≠ ['-'] → r.files path = some (fileText i main)) ∧
        (path = ['-'] → r.printed = [fileText i main])) ∧
      (PrintedApart i.world g → ∀ x, Exposed i.world.toWorld b.storage name g x →
        (i.world.info x).kind = .record → ∀ T, IsSubclass main (i.world.typeName x) T →
        ∃ y, Exposed i.world.toWorld b.storage name g y ∧ T = i.world.typeName y ∧
          (y = x ∨ PubliclyDerived i.world x y)) ∧
      (∀ x y, Exposed i.world.toWorld b.storage name g x →
        Connected i.world b.storage (Exposed i.world.toWorld b.storage name g) x y →
        IsSubclass main (i.world.typeName x) (i.world.typeName y)) := by
  obtain ⟨name, g, b, order, hn, hb, hv, h1, h2, _⟩ := C55_run o i ok files r hr hx h0 hnd
  have hcg := C23_graphs i.world.toWorld i.tree ok.unit g b hb
  have hnb : NamesBases b.storage (directBases i.world) :=
    C42_annotations i.world.toWorld i.tree ok.unit g b hb (directBases i.world) co.all
  have hex : ∀ x, (i.world.info x).kind = .record →
      (x ∈ (analyze i.world.toWorld b.storage i.members name g).pruned.nodes ↔
        Exposed i.world.toWorld b.storage name g x) := by
    intro x hk
    have ht : IsType i.world.toWorld x := .inr hk
    rw [C26_types i.world.toWorld b.storage i.members name g hcg x ht]
    exact ⟨fun h => ⟨ht, h⟩, fun h => h.2⟩
  refine ⟨name, g, b, fileLines i.world b.storage (analyze i.world.toWorld b.storage i.members name g).pruned
    (analyze i.world.toWorld b.storage i.members name g).vis name order o.outputFiles.length 0, hn, hb, ?_, ?_, ?_⟩
  · intro path hp
    exact ⟨fun h => h1 0 path hp h, fun h => h2 0 (h ▸ hp)⟩
  · intro hap x hx hk T hT
    obtain ⟨y, hy, hyk, rfl, h⟩ := sub_sound i.world co b.storage hnb _ _ name order _ hv.perm (by
      intro x hx y hy hxk hyk e
      exact hap x y (.inr hxk) (.inr hyk) ((hex x hxk).1 hx).2.1 ((hex y hyk).1 hy).2.1 e) x
      ((hex x hk).2 hx) hk T hT
    exact ⟨y, (hex y hyk).1 hy, rfl, h⟩
  · intro x y hx hc
    obtain ⟨p, hp, hl, hpub, hopen, hnot⟩ := hc
    obtain ⟨hxk, hpk⟩ := inlined_records i.world co x p hp
    have hall : ∀ z ∈ x :: p.map (·.id), (i.world.info z).kind = .record := by
      intro z hz
      rcases List.mem_cons.1 hz with rfl | hz
      · exact hxk
      · obtain ⟨c, hc, rfl⟩ := List.mem_map.1 hz
        exact hpk c hc
    refine sub_complete i.world co b.storage hnb _ _ name order _ hv.perm x y ((hex x hxk).2 hx)
      ⟨p, hp, hl, hpub, ?_, hnot⟩
    refine List.Pairwise.imp_of_mem ?_ hopen
    intro z c hz hc h hzg
    obtain ⟨h1, h2⟩ := h ((hex z (hall z hz)).1 hzg)
    exact ⟨h1, h2.imp_left (hex c (hall c hc)).2⟩

/-- No annotation `inline_base` or `hide_base` is used. -/
def NoBaseAnnotations (s : Storage) : Prop :=
  ∀ x attrs rec, s.entries x = some attrs → attrs.record = some rec → rec.inlineBase = [] ∧ rec.hideBase = []

theorem connected_plain (w : EmitWorld) (s : Storage) (hs : NoBaseAnnotations s) (exposed : Nat → Prop)
    (x y : Nat) (p : List BaseSpec) (hp : InheritancePath (directBases w) x p) (hl : LeadsTo p y)
    (hpub : ∀ b ∈ p, b.access = .public) (hex : ∀ b ∈ p, exposed b.id) : Connected w s exposed x y := by
  have hin : ∀ z c, ¬ NamedForInlining s z c := by
    intro z c h
    cases h with
    | direct h1 h2 h3 => rw [(hs _ _ _ h1 h2).1] at h3; cases h3
    | indirect _ h1 h2 h3 => rw [(hs _ _ _ h1 h2).1] at h3; cases h3
  have hhide : ∀ z c, ¬ HiddenBase s z c := by
    rintro z c ⟨d, attrs, rec, _, h1, h2, h3⟩
    rw [(hs _ _ _ h1 h2).2] at h3
    cases h3
  refine ⟨p, hp, hl, hpub, ?_, fun z _ => hin z y⟩
  have key : ∀ (l : List Nat) (z : Nat), (∀ c ∈ l, exposed c) → (z :: l).Pairwise (Unobstructed w s exposed) := by
    intro l
    induction l with
    | nil => intro z _; simp
    | cons d l ih =>
      intro z h
      rw [List.pairwise_cons]
      exact ⟨fun c hc _ => ⟨hhide z c, .inl (h c hc)⟩, ih d fun c hc => h c (by simp [hc])⟩
  refine key _ x ?_
  intro c hc
  obtain ⟨b, hb, rfl⟩ := List.mem_map.1 hc
  exact hex b hb

/-- C93: if neither `inline_base` nor `hide_base` is used and the classes between exposed ones are
exposed as well, the subclasses in Python are those classes that derive publicly in C++. -/
theorem C93_mirror_partial (o : ToolOptions) (i : ToolInput) (ok : InputOK i) (co : ClassesOK i.world)
    (files : Files) (r : ToolResult)
    (hr : runTool o i files = some r) (hx : o.expectFailure = false) (h0 : r.exitCode = 0)
    (hnd : o.outputFiles.Nodup) :
    ∃ name g b main, moduleNameFor o.moduleName i.mainFile = some name ∧
      buildGraph i.world.toWorld i.tree = (some g, b) ∧
      (∀ path, o.outputFiles[0]? = some path →
        (path ≠ ['-'] → r.files path = some (fileText i main)) ∧
        (path = ['-'] → r.printed = [fileText i main])) ∧
      (PrintedApart i.world g → NoBaseAnnotations b.storage →
        (∀ x y p, Exposed i.world.toWorld b.storage name g x → Exposed i.world.toWorld b.storage name g y →
          InheritancePath (directBases i.world) x p → LeadsTo p y → (∀ c ∈ p, c.access = .public) →
          ∀ c ∈ p, Exposed i.world.toWorld b.storage name g c.id) →
        ∀ x y, Exposed i.world.toWorld b.storage name g x → Exposed i.world.toWorld b.storage name g y →
          (i.world.info x).kind = .record →
          (IsSubclass main (i.world.typeName x) (i.world.typeName y) ↔ y = x ∨ PubliclyDerived i.world x y)) := by
  obtain ⟨name, g, b, main, h1, h2, h3, h4, h5⟩ := C93_run_partial o i ok co files r hr hx h0 hnd
  refine ⟨name, g, b, main, h1, h2, h3, ?_⟩
  intro hap hno hbetween x y hx hy hk
  constructor
  · intro h
    obtain ⟨z, hz, he, h⟩ := h4 hap x hx hk _ h
    have : y = z := hap y z hy.1 hz.1 hy.2.1 hz.2.1 he
    rw [this]
    exact h
  · rintro (rfl | ⟨p, hp, hl, hpub⟩)
    · exact .refl
    · exact h5 x y hx (connected_plain i.world b.storage hno _ x y p hp hl hpub
        (hbetween x y p hx hy hp hl hpub))

/-! ### Examples -/

local macro "eval_run" : tactic => `(tactic| (
  simp only [handleTranslationUnit, emitModule, findEnclosingScopes, analyze, pruneGraph, hideNamespaces,
    declContextsWithVisibleNamedDecls, deriveEffectiveVisibility, dfs_fuel]
  decide +kernel))

/-- `struct visible B {}; struct H : B {}; struct D : H {};`, with annotations for the others. -/
def exFamily (h d : List Str) : EmitWorld := { exUnit with
  info := fun
    | 0 => { kind := .translationUnit }
    | 1 => { kind := .record, name := t%"B", attrTexts := [lozenge ++ t%"visible"] }
    | 2 => { kind := .record, name := t%"H", attrTexts := h, allBases := [1], bases := [1] }
    | 3 => { kind := .record, name := t%"D", attrTexts := d, allBases := [2, 1], bases := [2] }
    | _ => { kind := .other }
  hasName := fun n x => match x with
    | 1 => n.contains t%"B" | 2 => n.contains t%"H" | 3 => n.contains t%"D" | _ => false
  ancestors := fun | 0 => [] | _ => [0]
  access := fun _ => .none
  fn := fun _ => exPlain t%"f" 0
  typeName := fun | 1 => t%"::B" | 2 => t%"::H" | _ => t%"::D"
  hierarchy := fun
    | 2 => .cons { id := 1, access := .public } .nil .nil
    | 3 => .cons { id := 2, access := .public } (.cons { id := 1, access := .public } .nil .nil) .nil
    | _ => .nil
  found := fun _ => [] }

def exFamilyInput (h d : List Str) : ToolInput where
  mainFile := t%"/src/my-lib.h"
  world := exFamily h d
  tree := .node 0 [.node 1 [], .node 2 [], .node 3 []]
  pick := fun _ => lastSmallest (exFamily h d).loc
  iterate := fun g => g.nodes

theorem exFamily_ok (h d : List Str) : InputOK (exFamilyInput h d) where
  unit := by
    refine ⟨rfl, fun id => ?_, by simp only [exFamilyInput]; decide +kernel, fun id p ps => ?_,
      fun id h => ?_, rfl,
      fun a x => ?_, fun a x => ?_, fun a => ?_⟩
    all_goals simp only [exFamilyInput, exFamily]
    · split <;> simp_all [exUnit]
    · split <;> simp <;> rintro rfl rfl <;> rfl
    · split <;> simp_all [exFamily, exUnit, exFamilyInput]
    · split <;> simp
    · split <;> simp
    · split <;> simp
  emit := by
    refine ⟨by simp [exFamilyInput, exFamily, exUnit], by simp [exFamilyInput, exFamily, exUnit], ?_,
      fun _ _ => rfl⟩
    intro d
    simp only [exFamilyInput, exFamily]
    split <;> rfl
  bases := by
    intro x a
    simp only [exFamilyInput, exFamily, exUnit, EmitWorld.bases]
    split <;> simp [Hierarchy.direct]
  picks := lastSmallest_ok _
  iterate := fun _ => .refl _

theorem exFamily_path (h d : List Str) : InheritancePath (directBases (exFamily h d)) 3
    [{ id := 2, access := .public }, { id := 1, access := .public }] :=
  .step (by simp [directBases, exFamily, Hierarchy.direct]) (.direct (by simp [directBases, exFamily, Hierarchy.direct]))

theorem exFamily_classes (h d : List Str) : ClassesOK (exFamilyInput h d).world where
  unfolds := by
    intro x
    unfold directBases
    simp only [exFamilyInput, exFamily]
    split <;> simp [Unfolds, Hierarchy.direct]
  records := by
    intro x b hb
    simp only [exFamilyInput, exFamily, directBases] at hb ⊢
    split at hb <;> simp [Hierarchy.direct] at hb <;> subst hb <;> simp
  all := by
    have h2 : InheritancePath (directBases (exFamily h d)) 2 [{ id := 1, access := .public }] :=
      .direct (by simp [directBases, exFamily, Hierarchy.direct])
    have h3 : InheritancePath (directBases (exFamily h d)) 3 [{ id := 2, access := .public }] :=
      .direct (by simp [directBases, exFamily, Hierarchy.direct])
    intro x c hc
    have hc : c ∈ ((exFamily h d).info x).allBases := hc
    unfold exFamily at hc
    dsimp only at hc
    split at hc <;> simp at hc
    · subst hc
      exact ⟨_, h2, by simp [LeadsTo]⟩
    · rcases hc with rfl | rfl
      · exact ⟨_, h3, by simp [LeadsTo]⟩
      · exact ⟨_, exFamily_path h d, by simp [LeadsTo]⟩

/-- Different classes are printed differently. -/
theorem exFamily_apart (h d : List Str) (g : Graph) : PrintedApart (exFamilyInput h d).world g := by
  have key : ∀ x, IsType (exFamilyInput h d).world.toWorld x → x = 1 ∨ x = 2 ∨ x = 3 := by
    intro x
    unfold IsType
    simp only [exFamilyInput, exFamily]
    split <;> simp
  intro x y hx hy _ _ h
  rcases key x hx with rfl | rfl | rfl <;> rcases key y hy with rfl | rfl | rfl <;>
    first | rfl | (simp [exFamilyInput, exFamily] at h)

/-- The bases listed for `B`, `H` and `D`, and whether these are exposed. -/
def exFamilyBases (h d : List Str) : Option (List (Bool × List Nat)) :=
  let r := buildGraph (exFamilyInput h d).world.toWorld (exFamilyInput h d).tree
  r.1.map fun g =>
    let a := analyze (exFamilyInput h d).world.toWorld r.2.storage (exFamilyInput h d).members t%"my_lib" g
    [1, 2, 3].map fun x => (decide (x ∈ a.pruned.nodes), listedBases (exFamily h d) r.2.storage a.pruned x)

set_option maxRecDepth 8000 in
example : exFamilyBases [lozenge ++ t%"visible"] [lozenge ++ t%"visible"] =
    some [(true, []), (true, [1]), (true, [2])] := by
  unfold exFamilyBases
  eval_run

set_option maxRecDepth 8000 in
/-- `H` is inlined. -/
example : exFamilyBases [] [lozenge ++ t%"visible", lozenge ++ t%"inline_base(\"H\")"] =
    some [(true, []), (false, [1]), (true, [1])] := by
  unfold exFamilyBases
  eval_run

set_option maxRecDepth 8000 in
/-- `H` is hidden. -/
example : exFamilyBases [lozenge ++ t%"visible"] [lozenge ++ t%"visible", lozenge ++ t%"hide_base(\"H\")"] =
    some [(true, []), (true, [1]), (true, [])] := by
  unfold exFamilyBases
  eval_run

/-- All classes are exposed. -/
example (h d : List Str) : Connected (exFamily h d) { entries := fun _ => none, size := 0 } (· ∈ [1, 2, 3]) 3 1 :=
  connected_plain _ _ (by intro x a r h; cases h) _ _ _ _ (exFamily_path h d) (by simp [LeadsTo]) (by simp) (by simp)

/-- `inline_base("H")` on `D`. -/
def exFamilyStorage : Storage where
  entries := fun | 3 => some { record := some { inlineBase := [2] } } | _ => none
  size := 1

/-- `H` is not exposed, but inlined into `D`. -/
example (h d : List Str) : Connected (exFamily h d)
    exFamilyStorage (· ∈ [1, 3]) 3 1 := by
  have hin : ∀ z c, NamedForInlining
      exFamilyStorage z c → c = 2 := by
    have key : ∀ (z c : Nat) (a : DeclAttrs) (r : RecordDeclAttrs),
        (match z with | 3 => some ({ record := some { inlineBase := [2] } } : DeclAttrs) | _ => none) = some a →
        a.record = some r → (c ∈ r.inlineBase → c = 2) ∧ c ∉ r.hideBase := by
      intro z c a r h hr
      split at h
      · cases h
        cases hr
        simp
      · cases h
    intro z c h
    cases h with
    | direct h1 h2 h3 => exact (key _ _ _ _ h1 h2).1 h3
    | indirect _ h1 h2 h3 => exact (key _ _ _ _ h1 h2).1 h3
  refine ⟨_, exFamily_path h d, by simp [LeadsTo], by simp, ?_, ?_⟩
  · have hhide : ∀ z c, ¬ HiddenBase
        exFamilyStorage z c := by
      rintro z c ⟨x, a, r, _, h1, h2, h3⟩
      unfold exFamilyStorage at h1
      dsimp only at h1
      split at h1
      · cases h1
        cases h2
        cases h3
      · cases h1
    simp only [List.map_cons, List.map_nil, List.pairwise_cons, List.mem_cons, List.not_mem_nil, or_false,
      forall_eq_or_imp, forall_eq, Unobstructed]
    refine ⟨⟨fun _ => ⟨hhide _ _, .inr ⟨rfl, ?_⟩⟩, fun _ => ⟨hhide _ _, .inl (by simp)⟩⟩,
      fun h => absurd h (by simp), by simp⟩
    exact (by decide +kernel : (createFromAnnotations
      exFamilyStorage
      (.cons { id := 2, access := .public } (.cons { id := 1, access := .public } .nil .nil) .nil) 3).shouldInline 2 = true)
  · intro z _ hz
    exact absurd (hin z 1 hz) (by decide)

set_option maxRecDepth 8000 in
theorem exFamily_gap : exFamilyBases [] [lozenge ++ t%"visible"] = some [(true, []), (false, [1]), (true, [])] := by
  unfold exFamilyBases
  eval_run

/-- C93: `struct visible B {}; struct H : B {}; struct visible D : H {};`: `D` derives from `B`
publicly, both are exposed, and yet `D` is not a subclass of `B` in Python. -/
theorem C93_gap : PubliclyDerived (exFamily [] [lozenge ++ t%"visible"]) 3 1 ∧
    ∃ g b, buildGraph (exFamily [] [lozenge ++ t%"visible"]).toWorld
        (exFamilyInput [] [lozenge ++ t%"visible"]).tree = (some g, b) ∧
      let a := analyze (exFamily [] [lozenge ++ t%"visible"]).toWorld b.storage
        (exFamilyInput [] [lozenge ++ t%"visible"]).members t%"my_lib" g
      1 ∈ a.pruned.nodes ∧ 3 ∈ a.pruned.nodes ∧
      ∀ order n, order.Perm a.pruned.nodes → ¬ IsSubclass (fileLines (exFamily [] [lozenge ++ t%"visible"])
        b.storage a.pruned a.vis t%"my_lib" order n 0) t%"::D" t%"::B" := by
  refine ⟨⟨_, exFamily_path _ _, by simp [LeadsTo], by simp⟩, ?_⟩
  have h := exFamily_gap
  unfold exFamilyBases at h
  dsimp only at h
  cases hb : buildGraph (exFamilyInput [] [lozenge ++ t%"visible"]).world.toWorld
      (exFamilyInput [] [lozenge ++ t%"visible"]).tree with
  | mk g b =>
  rw [hb] at h
  cases g with
  | none => cases h
  | some g =>
  refine ⟨g, b, hb, ?_⟩
  simp only [Option.map_some, Option.some.injEq, List.map_cons, List.map_nil, List.cons.injEq, Prod.mk.injEq,
    decide_eq_true_eq, decide_eq_false_iff_not, and_true] at h
  obtain ⟨⟨h1, hb1⟩, ⟨h2, _⟩, h3, hb3⟩ := h
  refine ⟨h1, h3, ?_⟩
  intro order n ho hs
  have key : ∀ x ∈ order, ((exFamily [] [lozenge ++ t%"visible"]).info x).kind = .record → x = 1 ∨ x = 3 := by
    intro x hx hk
    have hx := ho.mem_iff.1 hx
    have : x = 1 ∨ x = 2 ∨ x = 3 := by
      revert hk
      simp only [exFamily]
      split <;> simp
    rcases this with rfl | rfl | rfl
    · exact .inl rfl
    · exact absurd hx h2
    · exact .inr rfl
  cases hs with
  | step _ hc =>
    obtain ⟨x, y, hx, hk, _, hy, _⟩ := (created_iff _ _ _ _ _ _ _ _ _).1 hc
    have hx := key x hx hk
    rcases hx with rfl | rfl
    · exact absurd hy (by
        intro h
        have : y ∈ ([] : List Nat) := hb1 ▸ h
        cases this)
    · exact absurd hy (by
        intro h
        have : y ∈ ([] : List Nat) := hb3 ▸ h
        cases this)

set_option maxRecDepth 8000 in
/-- The code for it. -/
example : (handleTranslationUnit (exFamilyInput [] [lozenge ++ t%"visible"]) t%"my_lib" [t%"/a"]).diags = [] ∧
    (handleTranslationUnit (exFamilyInput [] [lozenge ++ t%"visible"]) t%"my_lib" [t%"/a"]).outputs = [(t%"/a",
    t%"#include \"/src/my-lib.h\"
#include <genpybind/binding-helpers.h>
#include <pybind11/pybind11.h>

void expose_context(::pybind11::module& context);
void expose_context_B(::pybind11::class_<::B>& context);
void expose_context_D(::pybind11::class_<::D>& context);

PYBIND11_MODULE(my_lib, root) {
auto context = root;
auto context_B = ::pybind11::class_<::B>(context, \"B\");
auto context_D = ::pybind11::class_<::D>(context, \"D\");

expose_context(context);
expose_context_B(context_B);
expose_context_D(context_D);
}

void expose_context(::pybind11::module& context) {
(void)context;
}

void expose_context_B(::pybind11::class_<::B>& context) {
}

void expose_context_D(::pybind11::class_<::D>& context) {
}

")] := by
  constructor <;> eval_run

end Verif
