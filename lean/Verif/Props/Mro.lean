import Verif.Lemmas.MroAgree
import Verif.Lemmas.Call
import Verif.Props.Holder
import Verif.Props.Lookup
/-!
# C98: method resolution orders
-/
namespace Verif
open Spec

/-! ### Modules that can be imported -/

/-- What is known about types while a module is imported. -/
structure TypesOK (types : List (Str × List Str)) : Prop where
  names : (types.map (·.1)).Nodup
  paths : (types.map (·.2)).Nodup

theorem createType_spec (st st' : Importing) (path : List Str) (T : Str) (bases : List Str)
    (h : st.createType path T bases = .ok st') (ok : TypesOK st.types) :
    TypesOK st'.types ∧ st'.types.map (·.1) = st.types.map (·.1) ++ [T] ∧ ∀ b ∈ bases, b ∈ st.types.map (·.1) := by
  unfold Importing.createType at h
  split at h
  · cases h
  · rename_i hb
    split at h
    · cases h
    · rename_i hp
      split at h
      · cases h
      · rename_i hn
        cases h
        refine ⟨⟨?_, ?_⟩, by simp, Decidable.not_not.1 hb⟩
        · rw [List.map_append, List.nodup_append]
          refine ⟨ok.names, by simp, ?_⟩
          intro a ha b hb e
          simp only [List.map_cons, List.map_nil, List.mem_singleton] at hb
          subst hb
          exact hn (e ▸ ha)
        · rw [List.map_append, List.nodup_append]
          refine ⟨ok.paths, by simp, ?_⟩
          intro a ha b hb e
          simp only [List.map_cons, List.map_nil, List.mem_singleton] at hb
          subst hb
          exact hp (.inl (e ▸ ha))

theorem line_spec (files : List (List Line)) (st st' : Importing) (l : Line) (h : st.line files l = .ok st')
    (ok : TypesOK st.types) :
    TypesOK st'.types ∧ match createdTypeOf l with
      | none => st'.types = st.types
      | some p => st'.types.map (·.1) = st.types.map (·.1) ++ [p.1] ∧ ∀ b ∈ p.2, b ∈ st.types.map (·.1) := by
  cases l with
  | introduce x i =>
    unfold Importing.line at h
    dsimp only at h
    split at h
    · cases h
    · cases h
    · rename_i parent _ _
      cases hc : st.create (Introducer.object parent i) i with
      | error e => rw [hc] at h; cases h
      | ok st1 =>
        rw [hc] at h
        cases h
        dsimp only
        unfold Importing.create at hc
        split at hc
        · cases hc
          exact ⟨ok, rfl⟩
        · split at hc
          · cases hc
          · cases hc
            exact ⟨ok, rfl⟩
        · exact createType_spec _ _ _ _ _ hc ok
        · exact createType_spec _ _ _ _ _ hc ok
        · cases hc
          exact ⟨ok, rfl⟩
  | call f =>
    unfold Importing.line at h
    dsimp only at h
    split at h
    · cases h
    · cases h
    · cases h
      exact ⟨ok, rfl⟩
  | postamble d l =>
    unfold Importing.line at h
    dsimp only at h
    split at h
    · cases h
    · cases h
      exact ⟨ok, rfl⟩
  | _ =>
    cases h
    exact ⟨ok, rfl⟩

theorem lines_spec (files : List (List Line)) : ∀ (ls : List Line) (st st' : Importing),
    Importing.lines files st ls = .ok st' → TypesOK st.types →
    TypesOK st'.types ∧ st'.types.map (·.1) = st.types.map (·.1) ++ (ls.filterMap createdTypeOf).map (·.1) ∧
    ∀ pre p post, ls.filterMap createdTypeOf = pre ++ p :: post →
      ∀ b ∈ p.2, b ∈ st.types.map (·.1) ∨ b ∈ pre.map (·.1)
  | [], st, st', h, ok => by
    cases h
    refine ⟨ok, by simp, ?_⟩
    intro pre p post he
    cases pre <;> cases he
  | l :: ls, st, st', h, ok => by
    unfold Importing.lines at h
    cases hl : st.line files l with
    | error e => rw [hl] at h; cases h
    | ok st1 =>
      rw [hl] at h
      dsimp only at h
      obtain ⟨ok1, hs⟩ := line_spec files st st1 l hl ok
      obtain ⟨ok', h1, h2⟩ := lines_spec files ls st1 st' h ok1
      refine ⟨ok', ?_⟩
      cases hc : createdTypeOf l with
      | none =>
        rw [hc] at hs
        dsimp only at hs
        rw [List.filterMap_cons_none hc, ← hs]
        exact ⟨h1, h2⟩
      | some q =>
        rw [hc] at hs
        dsimp only at hs
        rw [List.filterMap_cons_some hc]
        refine ⟨by rw [h1, hs.1]; simp, ?_⟩
        intro pre p post he b hb
        cases pre with
        | nil =>
          cases he
          exact .inl (hs.2 b hb)
        | cons q' pre =>
          simp only [List.cons_append, List.cons.injEq] at he
          obtain ⟨rfl, he⟩ := he
          rcases h2 pre p post he b hb with h | h
          · rw [hs.1, List.mem_append, List.mem_singleton] at h
            rcases h with h | rfl
            · exact .inl h
            · exact .inr (by simp)
          · exact .inr (by simp [h])

/-- The types created in the module definition. -/
def creations (files : List (List Line)) : List (Str × List Str) := (files.headD []).filterMap createdTypeOf

theorem import_spec (files : List (List Line)) (st : Importing) (h : importModule files = .ok st) :
    TypesOK st.types ∧ st.types.map (·.1) = (creations files).map (·.1) ∧
    ∀ pre p post, creations files = pre ++ p :: post → ∀ b ∈ p.2, b ∈ pre.map (·.1) := by
  obtain ⟨h1, h2, h3⟩ := lines_spec files _ _ _ h ⟨List.nodup_nil, List.nodup_nil⟩
  refine ⟨h1, by simpa [creations] using h2, ?_⟩
  intro pre p post he b hb
  rcases h3 pre p post he b hb with h | h
  · cases h
  · exact h

/-! ### Orders -/

theorem idx_ne (l : List Str) {c a : Str} (h : c ≠ a) : (c :: l).idxOf a = l.idxOf a + 1 := by
  rw [List.idxOf_cons]
  have : (c == a) = false := by simpa using h
  rw [this]
  rfl

theorem pair_index : ∀ (l : List Str) (a b : Str), l.Nodup → [a, b].Sublist l → l.idxOf a < l.idxOf b
  | [], a, b, _, h => by cases h
  | c :: l, a, b, hn, h => by
    rw [List.nodup_cons] at hn
    rcases List.sublist_cons_iff.1 h with h | ⟨r, he, h⟩
    · have ha : a ∈ l := h.subset (by simp)
      have hb : b ∈ l := h.subset (by simp)
      rw [idx_ne l (c := c) (a := a) fun e => hn.1 (e ▸ ha), idx_ne l (c := c) (a := b) fun e => hn.1 (e ▸ hb)]
      exact Nat.succ_lt_succ (pair_index l a b hn.2 h)
    · simp only [List.cons.injEq] at he
      obtain ⟨rfl, rfl⟩ := he
      have hb : b ∈ l := h.subset (by simp)
      have hne : a ≠ b := fun e => hn.1 (e ▸ hb)
      rw [List.idxOf_cons_self, idx_ne l hne]
      exact Nat.succ_pos _

theorem path_unique : ∀ (l : List (Str × List Str)), (l.map (·.2)).Nodup →
    ∀ T T' a, (T, a) ∈ l → (T', a) ∈ l → T = T'
  | [], _, _, _, _, h, _ => by cases h
  | q :: l, hn, T, T', a, h, h' => by
    rw [List.map_cons, List.nodup_cons] at hn
    rcases List.mem_cons.1 h with e | h1 <;> rcases List.mem_cons.1 h' with e' | h2
    · rw [← e'] at e
      cases e
      rfl
    · rw [← e] at hn
      exact absurd (List.mem_map_of_mem (f := (·.2)) h2) hn.1
    · rw [← e'] at hn
      exact absurd (List.mem_map_of_mem (f := (·.2)) h1) hn.1
    · exact path_unique l hn.2 T T' a h1 h2

/-- C98: method resolution orders are what C95 relies on: they contain the class and its bases,
direct and indirect, and classes come before their bases. -/
theorem C98_mro (files : List (List Line)) (st : Importing) (h : importModule files = .ok st)
    (mros : List (Str × List Str)) (hm : mrosOf files = some mros) :
    MroOK (files.headD []) st.types (mroAt st.types mros) := by
  obtain ⟨ok, hnames, hfirst⟩ := import_spec files st h
  let cs := creations files
  have hcn : (cs.map (·.1)).Nodup := hnames ▸ ok.names
  let listed : Str → List Str := fun T => (cs.lookup T).getD []
  have hlk : ∀ T bs, cs.lookup T = some bs ↔ (T, bs) ∈ cs := fun T bs => lookup_some_iff cs hcn T bs
  let mro : Str → List Str := fun U => (mros.lookup U).getD []
  have hsound := linearize_sound cs [] mros hm (by simpa using hcn) (by
    intro pre p post he b hb
    exact .inr (hfirst pre p post he b hb))
  have hsorted : BasesFirst id listed (cs.map (·.1)) := by
    refine ⟨hcn, fun x _ y _ e => e, ?_⟩
    intro pre T post he b hb
    obtain ⟨p1, p2, h1, rfl, h2⟩ := List.map_eq_append_iff.1 he
    obtain ⟨q, p3, rfl, rfl, rfl⟩ := List.map_eq_cons_iff.1 h2
    have hq : cs.lookup q.1 = some q.2 := (hlk _ _).2 (by rw [h1]; simp)
    have hb' : b ∈ q.2 := by
      have : b ∈ (cs.lookup q.1).getD [] := hb
      rw [hq] at this
      exact this
    exact hfirst p1 q p3 h1 b hb'
  have hord : ∀ T ∈ cs.map (·.1), Linearized id listed mro T := by
    intro T hT
    obtain ⟨q, hq, rfl⟩ := List.mem_map.1 hT
    have hl : listed q.1 = q.2 := by
      have := (hlk q.1 q.2).2 hq
      simp [listed, this]
    have := (hsound q hq).1
    unfold Linearized
    rw [hl]
    simpa using this
  have hfacts := mro_facts id listed (cs.map (·.1)) hsorted mro hord _ (cs.map (·.1)) [] rfl (by simp)
  -- subclasses
  have hcreated : ∀ T U, CreatedWith (files.headD []) T U ↔ U ∈ listed T := by
    intro T U
    constructor
    · rintro ⟨x, bases, holder, parent, name, doc, flag, hl, hU⟩
      have : (T, bases) ∈ cs := List.mem_filterMap.2 ⟨_, hl, rfl⟩
      have := (hlk T bases).2 this
      simp [listed, this, hU]
    · intro hU
      cases hc : cs.lookup T with
      | none => simp [listed, hc] at hU
      | some bs =>
        have hb : U ∈ bs := by simpa [listed, hc] using hU
        obtain ⟨l, hl, he⟩ := List.mem_filterMap.1 ((hlk T bs).1 hc)
        unfold createdTypeOf at he
        split at he
        · cases he
          exact ⟨_, _, _, _, _, _, _, hl, hb⟩
        · cases he
          cases hb
        · cases he
  have hsub : ∀ T U, IsSubclass (files.headD []) T U ↔ Ascends listed T U := by
    intro T U
    constructor
    · intro h
      induction h with
      | refl => exact .refl
      | step _ hs ih => exact .step ih ((hcreated _ _).1 hs)
    · intro h
      induction h with
      | refl => exact .refl
      | step _ hs ih => exact .step ih ((hcreated _ _).2 hs)
  have hmem : ∀ T ∈ cs.map (·.1), ∀ U, U ∈ mro T ↔ Ascends listed T U := by
    intro T hT U
    obtain ⟨_, ⟨t, ht⟩, h3, h4⟩ := hfacts T hT
    constructor
    · intro h
      obtain ⟨z, _, rfl, ha⟩ := h3 U h
      exact ha
    · intro h
      induction h with
      | refl => exact ht ▸ List.mem_cons_self ..
      | step _ hs ih =>
        obtain ⟨z, hz, e, _⟩ := h3 _ ih
        cases e
        exact (h4 _ hz ih _ hs).subset (by simp)
  have hindex : ∀ T ∈ cs.map (·.1), ∀ V ∈ mro T, ∀ U, Ascends listed V U →
      (mro T).idxOf V ≤ (mro T).idxOf U ∧ U ∈ mro T := by
    intro T hT V hV U hU
    obtain ⟨hn, _, h3, h4⟩ := hfacts T hT
    induction hU with
    | refl => exact ⟨Nat.le_refl _, hV⟩
    | step _ hs ih =>
      obtain ⟨z, hz, e, _⟩ := h3 _ ih.2
      cases e
      have hp := h4 _ hz ih.2 _ hs
      exact ⟨Nat.le_of_lt (Nat.lt_of_le_of_lt ih.1 (pair_index _ _ _ hn hp)), hp.subset (by simp)⟩
  -- paths
  have htl : ∀ T a, st.types.lookup T = some a ↔ (T, a) ∈ st.types :=
    fun T a => lookup_some_iff st.types ok.names T a
  have hpath : ∀ T T' a, (T, a) ∈ st.types → (T', a) ∈ st.types → T = T' := path_unique st.types ok.paths
  have hat : ∀ T a, (T, a) ∈ st.types →
      a :: mroAt st.types mros a = (mro T).map fun U => (st.types.lookup U).getD [] := by
    intro T a hTa
    have hT : T ∈ cs.map (·.1) := hnames ▸ List.mem_map_of_mem (f := (·.1)) hTa
    have hfind : st.types.find? (·.2 = a) = some (T, a) := by
      cases hf : st.types.find? (·.2 = a) with
      | none =>
        have := List.find?_eq_none.1 hf (T, a) hTa
        simp at this
      | some p =>
        obtain ⟨U, a'⟩ := p
        have h1 := List.mem_of_find?_eq_some hf
        have h2 := List.find?_some hf
        simp only [decide_eq_true_eq] at h2
        subst h2
        rw [hpath U T _ h1 hTa]
    obtain ⟨_, ⟨t, ht⟩, _⟩ := hfacts T hT
    unfold mroAt
    rw [hfind]
    dsimp only
    have ht' : (mros.lookup T).getD [] = T :: t := ht
    rw [ht', show mro T = T :: t from ht, List.tail_cons, List.map_cons, (htl T a).2 hTa]
    rfl
  have hinj : ∀ U V, U ∈ cs.map (·.1) → V ∈ cs.map (·.1) →
      (st.types.lookup U).getD [] = (st.types.lookup V).getD [] → U = V := by
    intro U V hU hV e
    rw [show cs.map (·.1) = st.types.map (·.1) from hnames.symm] at hU hV
    obtain ⟨⟨_, a⟩, ha, rfl⟩ := List.mem_map.1 hU
    obtain ⟨⟨_, b⟩, hb, rfl⟩ := List.mem_map.1 hV
    dsimp only at e ⊢
    rw [(htl _ _).2 ha, (htl _ _).2 hb] at e
    cases e
    exact hpath _ _ _ ha hb
  have hin : ∀ T ∈ cs.map (·.1), ∀ U ∈ mro T, U ∈ cs.map (·.1) := by
    intro T hT U hU
    obtain ⟨_, _, h3, _⟩ := hfacts T hT
    obtain ⟨z, hz, rfl, _⟩ := h3 U hU
    exact hz
  have hobj : ∀ U ∈ cs.map (·.1), (U, (st.types.lookup U).getD []) ∈ st.types := by
    intro U hU
    rw [show cs.map (·.1) = st.types.map (·.1) from hnames.symm] at hU
    obtain ⟨⟨_, a⟩, ha, rfl⟩ := List.mem_map.1 hU
    dsimp only
    rw [(htl _ _).2 ha]
    exact ha
  constructor
  · intro a ha b
    obtain ⟨⟨T, _⟩, hTa, rfl⟩ := List.mem_map.1 ha
    have hT : T ∈ cs.map (·.1) := hnames ▸ List.mem_map_of_mem (f := (·.1)) hTa
    rw [hat T _ hTa, List.mem_map]
    constructor
    · rintro ⟨U, hU, rfl⟩
      exact ⟨T, U, hTa, hobj U (hin T hT U hU), (hsub T U).2 ((hmem T hT U).1 hU)⟩
    · rintro ⟨T', U, hT', hU, hs⟩
      cases hpath _ _ _ hTa hT'
      exact ⟨U, (hmem T hT U).2 ((hsub T U).1 hs), by rw [(htl _ _).2 hU]; rfl⟩
  · intro a ha
    obtain ⟨⟨T, _⟩, hTa, rfl⟩ := List.mem_map.1 ha
    have hT : T ∈ cs.map (·.1) := hnames ▸ List.mem_map_of_mem (f := (·.1)) hTa
    rw [hat T _ hTa, List.pairwise_map, List.pairwise_iff_forall_sublist]
    intro U V huv hs
    obtain ⟨V', U', hV', hU', hs⟩ := hs
    have hU := huv.subset (show U ∈ [U, V] by simp)
    have hV := huv.subset (show V ∈ [U, V] by simp)
    cases hpath _ _ _ hV' (hobj V (hin T hT V hV))
    cases hpath _ _ _ hU' (hobj U (hin T hT U hU))
    have h1 := (hindex T hT V hV U ((hsub V U).1 hs)).1
    have h2 := pair_index _ _ _ (hfacts T hT).1 huv
    exact absurd (Nat.lt_of_lt_of_le h2 h1) (Nat.lt_irrefl _)

/-! ### Generated modules -/

theorem created_introduced (lines : List Line) : lines.filterMap createdTypeOf =
    (lines.filter fun l => (introducedOf l).isSome).filterMap createdTypeOf := by
  rw [List.filterMap_filter]
  congr 1
  funext l
  cases l <;> simp [introducedOf, createdTypeOf]

/-- Classes and enums, in the order of their creation. -/
def createdTypes (w : EmitWorld) (order : List Nat) : List Nat := (contextsOf w order).filter (isTypeContext w)

theorem creations_eq (w : EmitWorld) (s : Storage) (g : Graph) (vis : Visibilities) (name : Str)
    (order : List Nat) (n : Nat) :
    (fileLines w s g vis name order n 0).filterMap createdTypeOf =
      (createdTypes w order).map fun x => (w.typeName x, (listedBases w s g x).map w.typeName) := by
  rw [created_introduced, main_introduced]
  have : createdTypes w order = (((contextsOf w order).zip (identifiersOf w order)).map (·.1)).filter (isTypeContext w) := by
    rw [zip_contexts]
    rfl
  rw [this]
  generalize (contextsOf w order).zip (identifiersOf w order) = l
  induction l with
  | nil => rfl
  | cons p l ih =>
    obtain ⟨x, v⟩ := p
    rw [List.map_cons, List.map_cons]
    dsimp only
    have key : createdTypeOf (Line.introduce v ((Exposer.create w s x).introducer w s g (parentIdentifier w s g order x))) =
        if isTypeContext w x = true then some (w.typeName x, (listedBases w s g x).map w.typeName) else none := by
      unfold Exposer.create listedBases isTypeContext
      cases hk : (w.info x).kind <;> dsimp only [Exposer.introducer, Exposer.contextType]
      case «namespace» =>
        cases (s.entries x).bind (·.namespace_) with
        | none => rfl
        | some a =>
          dsimp only
          cases a.module <;> rfl
      all_goals rfl
    by_cases ht : isTypeContext w x = true
    · rw [List.filterMap_cons_some (b := (w.typeName x, (listedBases w s g x).map w.typeName))
        (by rw [key, if_pos ht]), List.filter_cons_of_pos (by exact ht), List.map_cons, ih]
    · rw [List.filterMap_cons_none (by rw [key, if_neg ht]), List.filter_cons_of_neg (by exact ht), ih]

/-- What C98 says about a generated module. -/
theorem mro_module (o : ToolOptions) (i : ToolInput) (ok : InputOK i)
    (name : Str) (g : Graph) (b : Building) (order : List Nat)
    (hb : buildGraph i.world.toWorld i.tree = (some g, b)) :
    let a := analyze i.world.toWorld b.storage i.members name g
    ValidOrder i.world.toWorld b.storage i.world.bases a.pruned order →
      ∀ lines : List (List Line), lines = ((List.range o.outputFiles.length).map fun k =>
          fileLines i.world b.storage a.pruned a.vis name order o.outputFiles.length k) →
        (∀ x, x ∈ createdTypes i.world order ↔ Exposed i.world.toWorld b.storage name g x) ∧
        creations lines = ((createdTypes i.world order).map fun x =>
          (i.world.typeName x, (listedBases i.world b.storage a.pruned x).map i.world.typeName)) := by
  intro a hv lines hl
  have hcg := C23_graphs i.world.toWorld i.tree ok.unit g b hb
  refine ⟨fun x => ?_, ?_⟩
  · unfold createdTypes
    rw [List.mem_filter]
    have hkind : isTypeContext i.world x = true ↔ IsType i.world.toWorld x := by
      unfold isTypeContext IsType
      simp only [Bool.or_eq_true, decide_eq_true_eq]
      exact or_comm
    rw [hkind]
    constructor
    · rintro ⟨hc, ht⟩
      exact ⟨ht, (C26_types i.world.toWorld b.storage i.members name g hcg x ht).1
        (hv.perm.mem_iff.1 (List.mem_filter.1 hc).1)⟩
    · rintro ⟨ht, h⟩
      refine ⟨own_representative i.world order x (hv.perm.mem_iff.2
        ((C26_types i.world.toWorld b.storage i.members name g hcg x ht).2 h)) ?_, ht⟩
      rcases ht with h | h <;> rw [h] <;> decide
  · have : lines.headD [] = fileLines i.world b.storage
        (analyze i.world.toWorld b.storage i.members name g).pruned
        (analyze i.world.toWorld b.storage i.members name g).vis name order o.outputFiles.length 0 := by
      have : 0 < o.outputFiles.length := by
        unfold ToolOptions.outputFiles
        cases o.outputs <;> simp
      rw [hl]
      generalize o.outputFiles.length = n at *
      cases n with
      | zero => exact absurd this (by decide)
      | succ n => rw [List.range_succ_eq_map]; rfl
    unfold creations
    rw [this, creations_eq]

/-- What C98 says about runs. -/
theorem mro_run (o : ToolOptions) (i : ToolInput) (ok : InputOK i) (files : Files) (r : ToolResult)
    (hr : runTool o i files = some r) (hx : o.expectFailure = false) (h0 : r.exitCode = 0)
    (hnd : o.outputFiles.Nodup) :
    ∃ name g b order place, moduleNameFor o.moduleName i.mainFile = some name ∧
      buildGraph i.world.toWorld i.tree = (some g, b) ∧
      let a := analyze i.world.toWorld b.storage i.members name g
      ValidOrder i.world.toWorld b.storage i.world.bases a.pruned order ∧
      (∀ x ∈ a.pruned.nodes, Refers i.world b.storage a.pruned order x (place x)) ∧
      (∀ x, x ∈ createdTypes i.world order ↔ Exposed i.world.toWorld b.storage name g x) ∧
      ∃ lines : List (List Line), lines.length = o.outputFiles.length ∧
        creations lines = ((createdTypes i.world order).map fun x =>
          (i.world.typeName x, (listedBases i.world b.storage a.pruned x).map i.world.typeName)) ∧
        (∀ (k : Nat) path ls, o.outputFiles[k]? = some path → lines[k]? = some ls →
          (path ≠ ['-'] → r.files path = some (fileText i ls)) ∧
          (path = ['-'] → r.printed = [fileText i ls])) ∧
        ((∃ st, importModule lines = .ok st) ↔
          (identifiersOf i.world order).Nodup ∧ Importable i.world b.storage a.pruned order place) := by
  obtain ⟨name, g, b, order, place, hn, hb, hv, hpl, lines, hl, h5, h6, h7, _⟩ :=
    run_module o i ok files r hr hx h0 hnd
  obtain ⟨h1, h2⟩ := mro_module o i ok name g b order hb hv lines hl
  exact ⟨name, g, b, order, place, hn, hb, hv, hpl, h1, lines, h5, h2, h6, h7⟩

/-- Orders exist for the names of types exactly if they can be computed one after the other. -/
theorem mros_iff (nm : Nat → Str) (listed : Nat → List Nat) (files : List (List Line)) (cs : List Nat)
    (hc : creations files = cs.map fun x => (nm x, (listed x).map nm)) (st : Importing)
    (h : importModule files = .ok st) :
    (∃ mros, mrosOf files = some mros) ↔ ∃ mro : Str → List Str, ∀ x ∈ cs, Linearized nm listed mro x := by
  obtain ⟨ok, hnames, hfirst⟩ := import_spec files st h
  have hcn : ((creations files).map (·.1)).Nodup := hnames ▸ ok.names
  constructor
  · rintro ⟨mros, hm⟩
    have hsound := linearize_sound (creations files) [] mros hm (by simpa using hcn) (by
      intro pre p post he b hb
      exact .inr (hfirst pre p post he b hb))
    refine ⟨fun U => (mros.lookup U).getD [], fun x hx => ?_⟩
    have := (hsound (nm x, (listed x).map nm) (by rw [hc]; exact List.mem_map.2 ⟨x, hx, rfl⟩)).1
    unfold Linearized
    simpa [List.map_map, Function.comp_def] using this
  · rintro ⟨mro, hm⟩
    refine linearize_complete mro (creations files) [] (by simp) ?_ ?_
    · intro p hp
      rw [hc] at hp
      obtain ⟨x, hx, rfl⟩ := List.mem_map.1 hp
      have := hm x hx
      unfold Linearized at this
      simpa [List.map_map, Function.comp_def] using this
    · intro pre p post he b hb
      exact .inr (hfirst pre p post he b hb)

/-- C98: the generated module can be imported exactly if the conditions of C61 hold and Python
finds a method resolution order for each exposed class. -/
theorem C98_run (o : ToolOptions) (i : ToolInput) (ok : InputOK i) (files : Files) (r : ToolResult)
    (hr : runTool o i files = some r) (hx : o.expectFailure = false) (h0 : r.exitCode = 0)
    (hnd : o.outputFiles.Nodup) :
    ∃ name g b order place, moduleNameFor o.moduleName i.mainFile = some name ∧
      buildGraph i.world.toWorld i.tree = (some g, b) ∧
      let a := analyze i.world.toWorld b.storage i.members name g
      ValidOrder i.world.toWorld b.storage i.world.bases a.pruned order ∧
      (∀ x ∈ a.pruned.nodes, Refers i.world b.storage a.pruned order x (place x)) ∧
      ∃ lines : List (List Line), lines.length = o.outputFiles.length ∧
        (∀ (k : Nat) path ls, o.outputFiles[k]? = some path → lines[k]? = some ls →
          (path ≠ ['-'] → r.files path = some (fileText i ls)) ∧
          (path = ['-'] → r.printed = [fileText i ls])) ∧
        (Loads lines ↔
          (identifiersOf i.world order).Nodup ∧ Importable i.world b.storage a.pruned order place ∧
          ∃ mro : Str → List Str, ∀ x, Exposed i.world.toWorld b.storage name g x →
            Linearized i.world.typeName (listedBases i.world b.storage a.pruned) mro x) := by
  obtain ⟨name, g, b, order, place, hn, hb, hv, hpl, ht, lines, hl, hc, hf, hi⟩ :=
    mro_run o i ok files r hr hx h0 hnd
  refine ⟨name, g, b, order, place, hn, hb, hv, hpl, lines, hl, hf, ?_⟩
  simp only [← ht]
  unfold Loads
  constructor
  · rintro ⟨⟨st, hst⟩, hm⟩
    exact ⟨(hi.1 ⟨st, hst⟩).1, (hi.1 ⟨st, hst⟩).2, (mros_iff _ _ lines _ hc st hst).1 hm⟩
  · rintro ⟨h1, h2, hm⟩
    obtain ⟨st, hst⟩ := hi.2 ⟨h1, h2⟩
    exact ⟨⟨st, hst⟩, (mros_iff _ _ lines _ hc st hst).2 hm⟩

/-- C98: Python finds a method resolution order for a class exactly if no base is listed twice, and the bases
and their own orders do not contradict each other. -/
theorem C98_found (T : Str) (bases : List Str) (mros : List (List Str)) :
    (∃ m, c3 T bases mros = some m) ↔
      bases.Nodup ∧ ∃ order : List Str, order.Nodup ∧ bases.Sublist order ∧ ∀ l ∈ mros, l.Sublist order := by
  constructor
  · rintro ⟨m, h⟩
    obtain ⟨h1, out, _, h2, _, h3, h4⟩ := c3_spec h
    exact ⟨h1, out, h2, h4, h3⟩
  · rintro ⟨h1, order, h2, h3, h4⟩
    exact c3_exists h1 order h2 h3 h4

/-- C98: there always are method resolution orders if whatever the bases of a class have in common comes
from a single class, as in a diamond, and if none of them is a base of another one. -/
theorem C98_joined (o : ToolOptions) (i : ToolInput) (ok : InputOK i) (co : ClassesOK i.world)
    (files : Files) (r : ToolResult)
    (hr : runTool o i files = some r) (hx : o.expectFailure = false) (h0 : r.exitCode = 0)
    (hnd : o.outputFiles.Nodup) :
    ∃ name g b order place, moduleNameFor o.moduleName i.mainFile = some name ∧
      buildGraph i.world.toWorld i.tree = (some g, b) ∧
      let a := analyze i.world.toWorld b.storage i.members name g
      ValidOrder i.world.toWorld b.storage i.world.bases a.pruned order ∧
      (∀ x ∈ a.pruned.nodes, Refers i.world b.storage a.pruned order x (place x)) ∧
      ∃ lines : List (List Line), lines.length = o.outputFiles.length ∧
        (∀ (k : Nat) path ls, o.outputFiles[k]? = some path → lines[k]? = some ls →
          (path ≠ ['-'] → r.files path = some (fileText i ls)) ∧
          (path = ['-'] → r.printed = [fileText i ls])) ∧
        (JoinedOnce (Exposed i.world.toWorld b.storage name g) (listedBases i.world b.storage a.pruned) →
          (Loads lines ↔
            (identifiersOf i.world order).Nodup ∧ Importable i.world b.storage a.pruned order place)) := by
  obtain ⟨name, g, b, order, place, hn, hb, hv, hpl, ht, lines, hl, hc, hf, hi⟩ :=
    mro_run o i ok files r hr hx h0 hnd
  refine ⟨name, g, b, order, place, hn, hb, hv, hpl, lines, hl, hf, fun hd => ?_⟩
  have hcg := C23_graphs i.world.toWorld i.tree ok.unit g b hb
  have hnb : NamesBases b.storage (directBases i.world) :=
    C42_annotations i.world.toWorld i.tree ok.unit g b hb (directBases i.world) co.all
  unfold Loads
  constructor
  · rintro ⟨h, _⟩
    exact hi.1 h
  · intro h
    obtain ⟨st, hst⟩ := hi.2 h
    refine ⟨⟨st, hst⟩, (mros_iff _ _ lines _ hc st hst).2 (mro_joined _ _ _ ?_ ?_)⟩
    · obtain ⟨tok, hnames, hfirst⟩ := import_spec lines st hst
      have hcn : ((createdTypes i.world order).map i.world.typeName).Nodup := by
        have := hnames ▸ tok.names
        rw [hc, List.map_map] at this
        exact this
      have hinj : ∀ x ∈ createdTypes i.world order, ∀ y ∈ createdTypes i.world order,
          i.world.typeName x = i.world.typeName y → x = y := by
        intro x hx y hy e
        exact h.2.types x (List.mem_filter.1 hx).1 y (List.mem_filter.1 hy).1 (List.mem_filter.1 hx).2
          (List.mem_filter.1 hy).2 e
      refine ⟨List.Pairwise.of_map _ (fun a b h e => h (e ▸ rfl)) hcn, hinj, ?_⟩
      intro pre x post he y hy
      have hyt : y ∈ createdTypes i.world order := by
        obtain ⟨hyg, p, hp, ⟨c, hl, rfl⟩, _⟩ := C93_listed i.world co b.storage hnb _ x y hy
        have hk := (inlined_records i.world co x p hp).2 c (List.mem_of_getLast? hl)
        refine (ht _).2 ⟨.inr hk, ?_⟩
        exact (C26_types i.world.toWorld b.storage i.members name g hcg _ (.inr hk)).1 hyg
      have := hfirst _ (i.world.typeName x, (listedBases i.world b.storage _ x).map i.world.typeName) _
        (by rw [hc, he, List.map_append, List.map_cons]) (i.world.typeName y) (List.mem_map_of_mem hy)
      rw [List.map_map] at this
      obtain ⟨z, hz, e⟩ := List.mem_map.1 this
      have := hinj z (by rw [he]; simp [hz]) y hyt e
      exact this ▸ hz
    · intro x hx
      exact hd x ((ht x).1 hx)

/-- Without diamonds nothing has to be joined. -/
theorem joined_of_plain {β : Type} (exposed : β → Prop) (listed : β → List β) (h : NoDiamonds exposed listed) :
    JoinedOnce exposed listed := by
  intro x hx
  obtain ⟨h1, h2⟩ := h x hx
  refine ⟨h1, x, fun y hy y' hy' hne => ⟨fun ha => h2 y hy y' hy' hne y' ha .refl, fun a ha ha' => ?_⟩⟩
  exact (h2 y hy y' hy' hne a ha ha').elim

/-- C98: in particular, if no exposed class is reached from another one in two ways, there always are method resolution
orders. -/
theorem C98_plain (o : ToolOptions) (i : ToolInput) (ok : InputOK i) (co : ClassesOK i.world)
    (files : Files) (r : ToolResult)
    (hr : runTool o i files = some r) (hx : o.expectFailure = false) (h0 : r.exitCode = 0)
    (hnd : o.outputFiles.Nodup) :
    ∃ name g b order place, moduleNameFor o.moduleName i.mainFile = some name ∧
      buildGraph i.world.toWorld i.tree = (some g, b) ∧
      let a := analyze i.world.toWorld b.storage i.members name g
      ValidOrder i.world.toWorld b.storage i.world.bases a.pruned order ∧
      (∀ x ∈ a.pruned.nodes, Refers i.world b.storage a.pruned order x (place x)) ∧
      ∃ lines : List (List Line), lines.length = o.outputFiles.length ∧
        (∀ (k : Nat) path ls, o.outputFiles[k]? = some path → lines[k]? = some ls →
          (path ≠ ['-'] → r.files path = some (fileText i ls)) ∧
          (path = ['-'] → r.printed = [fileText i ls])) ∧
        (NoDiamonds (Exposed i.world.toWorld b.storage name g) (listedBases i.world b.storage a.pruned) →
          (Loads lines ↔
            (identifiersOf i.world order).Nodup ∧ Importable i.world b.storage a.pruned order place)) := by
  obtain ⟨name, g, b, order, place, hn, hb, hv, hpl, lines, hl, hf, hd⟩ := C98_joined o i ok co files r hr hx h0 hnd
  exact ⟨name, g, b, order, place, hn, hb, hv, hpl, lines, hl, hf, fun h => hd (joined_of_plain _ _ h)⟩

theorem emitted_single (bases : BaseSpecs) (h1 : ∀ x, (bases x).length ≤ 1) (g : Graph) (p : InliningPolicy) :
    ∀ (h : Hierarchy) (specs : List BaseSpec), Unfolds bases h specs → specs.length ≤ 1 →
      (emittedBases g p h).length ≤ 1
  | .nil, _, _, _ => by simp [emittedBases]
  | .cons b above rest, specs, hu, hl => by
    obtain ⟨specs', rfl, ha, hr⟩ := hu
    have hspecs : specs' = [] := by
      cases specs' with
      | nil => rfl
      | cons _ _ => simp at hl
    subst hspecs
    cases rest with
    | cons _ _ _ =>
      obtain ⟨_, h, _⟩ := hr
      cases h
    | nil =>
      unfold emittedBases
      rw [show emittedBases g p .nil = [] from rfl, List.append_nil]
      split
      · simp
      · split
        · exact emitted_single bases h1 g p above _ ha (h1 _)
        · split <;> simp

/-- C98: in particular, if no class has got more than one direct base. -/
theorem C98_single (w : EmitWorld) (co : ClassesOK w) (h1 : ∀ x, (directBases w x).length ≤ 1)
    (s : Storage) (g : Graph) (exposed : Nat → Prop) : NoDiamonds exposed (listedBases w s g) := by
  intro x _
  have hl : (listedBases w s g x).length ≤ 1 := by
    unfold listedBases
    split
    · exact emitted_single (directBases w) h1 g _ _ _ (co.unfolds x) (h1 x)
    · simp
  cases he : listedBases w s g x with
  | nil => simp
  | cons b l =>
    cases l with
    | nil => simp
    | cons c l => rw [he] at hl; simp at hl

/-- C95 with the method resolution order Python computes. -/
theorem C95_imported_partial (o : ToolOptions) (i : ToolInput) (ok : InputOK i) (co : ClassesOK i.world)
    (lk : LookupOK i.world) (re : Reopening i.world.toWorld) (hu : NoBareReopening i.world.toWorld i.tree)
    (files : Files) (r : ToolResult) (hr : runTool o i files = some r) (hx : o.expectFailure = false)
    (h0 : r.exitCode = 0) (hnd : o.outputFiles.Nodup) :
    ∃ name g b order place, moduleNameFor o.moduleName i.mainFile = some name ∧
      Placement i name g b order place ∧
      ∃ lines : List (List Line), lines.length = o.outputFiles.length ∧
        (∀ (k : Nat) path ls, o.outputFiles[k]? = some path → lines[k]? = some ls →
          (path ≠ ['-'] → r.files path = some (fileText i ls)) ∧
          (path = ['-'] → r.printed = [fileText i ls])) ∧
        ∀ st, importModule lines = .ok st → ∀ mros, mrosOf lines = some mros → ∀ names,
          PyNames.run (mroAt st.types mros) (.start (st.types.map (·.2)) st.modules)
            (definitions (fun x => decide (x ∈ st.types.map (·.2))) [] st.executed) = .ok names →
          NoBaseAnnotations b.storage →
          ∀ x n c, (i.world.info x).kind = .record →
          (∀ y, DerivesFrom i.world x y → Exposed i.world.toWorld b.storage name g y ∧
            ∀ s ∈ directBases i.world y, s.access = .public) →
          (∀ y, DerivesFrom i.world x y → Declares i.world y n →
            ∃ d, Offers i.world b.storage g y d ∧ FunctionIn i.world b.storage y d ∧
              pythonName i.world b.storage d = n) →
          (∀ y, DerivesFrom i.world x y → names (place y) n ≠ none → Declares i.world y n) →
          CppFinds i.world n x c →
          names (place c) n ≠ none ∧ names.find (mroAt st.types mros) (place x) n = names (place c) n := by
  obtain ⟨name, g, b, order, place, hn, pl, lines, hl, hf, h⟩ :=
    C95_run_partial o i ok co lk re hu files r hr hx h0 hnd
  exact ⟨name, g, b, order, place, hn, pl, lines, hl, hf, fun st hst mros hm =>
    h st hst _ (C98_mro lines st hst mros hm)⟩

/-! ### Examples -/

/-- The order for a diamond. -/
example : c3 t%"D" [t%"H", t%"K"] [[t%"H", t%"B"], [t%"K", t%"B"]] = some [t%"D", t%"H", t%"K", t%"B"] := by
  decide

/-- A base before a class that derives from it. -/
example : c3 t%"D" [t%"B", t%"H"] [[t%"B"], [t%"H", t%"B"]] = none := by decide

local macro "eval_run" : tactic => `(tactic| (
  simp only [handleTranslationUnit, emitModule, findEnclosingScopes, analyze, pruneGraph, hideNamespaces,
    declContextsWithVisibleNamedDecls, deriveEffectiveVisibility, dfs_fuel]
  decide +kernel))

/-- `struct visible B {}; struct visible H : B {}; struct visible K : B {};` and
`struct D : B, H {};` or, if `d` holds, `struct D : H, K {};`. -/
def exTangle (d : Bool) (as : List Str) : EmitWorld := { exUnit with
  info := fun
    | 0 => { kind := .translationUnit }
    | 1 => { kind := .record, name := t%"B", attrTexts := [lozenge ++ t%"visible"] }
    | 2 => { kind := .record, name := t%"H", attrTexts := [lozenge ++ t%"visible"], allBases := [1], bases := [1] }
    | 3 => { kind := .record, name := t%"K", attrTexts := [lozenge ++ t%"visible"], allBases := [1], bases := [1] }
    | 4 => { kind := .record, name := t%"D", attrTexts := as,
             allBases := if d then [2, 1, 3, 1] else [1, 2, 1], bases := if d then [2, 3] else [1, 2] }
    | _ => { kind := .other }
  hasName := fun n x => match x with
    | 1 => n.contains t%"B" | 2 => n.contains t%"H" | 3 => n.contains t%"K" | 4 => n.contains t%"D" | _ => false
  ancestors := fun | 0 => [] | _ => [0]
  access := fun _ => .none
  fn := fun _ => exPlain t%"f" 0
  typeName := fun | 1 => t%"::B" | 2 => t%"::H" | 3 => t%"::K" | _ => t%"::D"
  hierarchy := fun
    | 2 => .cons { id := 1, access := .public } .nil .nil
    | 3 => .cons { id := 1, access := .public } .nil .nil
    | 4 => match d with
      | true => .cons { id := 2, access := .public } (.cons { id := 1, access := .public } .nil .nil)
          (.cons { id := 3, access := .public } (.cons { id := 1, access := .public } .nil .nil) .nil)
      | false => .cons { id := 1, access := .public } .nil
          (.cons { id := 2, access := .public } (.cons { id := 1, access := .public } .nil .nil) .nil)
    | _ => .nil
  found := fun _ => [] }

def exTangleInput (d : Bool) (as : List Str) : ToolInput where
  mainFile := t%"/src/my-lib.h"
  world := exTangle d as
  tree := .node 0 [.node 1 [], .node 2 [], .node 3 [], .node 4 []]
  pick := fun _ => lastSmallest (exTangle d as).loc
  iterate := fun g => g.nodes

theorem exTangle_ok (d : Bool) (as : List Str) : InputOK (exTangleInput d as) where
  unit := by
    refine ⟨rfl, fun id => ?_, by simp only [exTangleInput]; decide +kernel, fun id p ps => ?_,
      fun id h => ?_, rfl,
      fun a x => ?_, fun a x => ?_, fun a => ?_⟩
    all_goals simp only [exTangleInput, exTangle]
    · split <;> simp_all [exUnit]
    · split <;> simp <;> rintro rfl rfl <;> rfl
    · split <;> simp_all [exTangle, exUnit, exTangleInput]
    · split <;> simp
    · split <;> simp
    · split <;> simp
  emit := by
    refine ⟨by simp [exTangleInput, exTangle, exUnit], by simp [exTangleInput, exTangle, exUnit], ?_,
      fun _ _ => rfl⟩
    intro d
    simp only [exTangleInput, exTangle]
    split <;> rfl
  bases := by
    intro x a
    simp only [exTangleInput, exTangle, exUnit, EmitWorld.bases]
    cases d <;> split <;> simp [Hierarchy.direct]
  picks := lastSmallest_ok _
  iterate := fun _ => .refl _

/-- Whether `D` is exposed, and the bases listed for `B`, `H`, `K` and `D`. -/
def exTangleBases (d : Bool) (as : List Str) : Option (Bool × List (List Nat)) :=
  let r := buildGraph (exTangleInput d as).world.toWorld (exTangleInput d as).tree
  r.1.map fun g =>
    let a := analyze (exTangleInput d as).world.toWorld r.2.storage (exTangleInput d as).members t%"my_lib" g
    (([1, 2, 3, 4].all fun x => decide (x ∈ a.pruned.nodes)),
      [1, 2, 3, 4].map fun x => listedBases (exTangle d as) r.2.storage a.pruned x)

def exTwoInlined : List Str := [lozenge ++ t%"visible, inline_base(\"H\", \"K\")"]

set_option maxRecDepth 8000 in
theorem exTangle_order : exTangleBases false [lozenge ++ t%"visible"] = some (true, [[], [1], [1], [1, 2]]) := by
  unfold exTangleBases
  eval_run

set_option maxRecDepth 8000 in
theorem exTangle_twice : exTangleBases true exTwoInlined = some (true, [[], [1], [1], [1, 1]]) := by
  unfold exTangleBases
  eval_run

def exTangleOptions : ToolOptions := { outputs := [t%"/a"] }

/-- A class for which there is no order. -/
theorem tangle_fails (d : Bool) (as : List Str) (L : List Nat)
    (hq : (handleTranslationUnit (exTangleInput d as) t%"my_lib" [t%"/a"]).diags = [])
    (hw : (handleTranslationUnit (exTangleInput d as) t%"my_lib" [t%"/a"]).ioError = false)
    (hb : exTangleBases d as = some (true, [[], [1], [1], L]))
    (hL : ∀ mro : Str → List Str, mro t%"::B" = [t%"::B"] → mro t%"::H" = [t%"::H", t%"::B"] →
      c3 t%"::D" (L.map (exTangle d as).typeName) (L.map fun y => mro ((exTangle d as).typeName y)) = none) :
    ∃ r lines, runTool exTangleOptions (exTangleInput d as) (fun _ => none) = some r ∧ r.exitCode = 0 ∧
      r.diags = [] ∧ r.files t%"/a" = some (fileText (exTangleInput d as) lines) ∧ ¬ Loads [lines] := by
  have hn : moduleNameFor [] (exTangleInput d as).mainFile = some t%"my_lib" :=
    (makeValidIdentifier_eq _).trans (by simp only [exTangleInput]; decide +kernel)
  have hrun : ∃ r, runTool exTangleOptions (exTangleInput d as) (fun _ => none) = some r ∧ r.exitCode = 0 ∧
      r.diags = [] := by
    unfold runTool
    rw [show exTangleOptions.moduleName = [] from rfl, hn]
    refine ⟨_, rfl, ?_, hq⟩
    have h : errorOccurred (exTangleInput d as)
        (handleTranslationUnit (exTangleInput d as) t%"my_lib" [t%"/a"]) = false := by
      unfold errorOccurred
      rw [hq, hw]
      rfl
    dsimp only
    rw [show exTangleOptions.outputFiles = [t%"/a"] from rfl, h]
    rfl
  obtain ⟨r, hr, h0, hd⟩ := hrun
  obtain ⟨name, g, b, order, place, hn', hg, _, _, lines, hl, hf, h⟩ :=
    C98_run exTangleOptions (exTangleInput d as) (exTangle_ok d as) _ r hr rfl h0 (by decide)
  cases hn'.symm.trans hn
  match lines, hl with
  | [lines], _ =>
  refine ⟨r, lines, hr, h0, hd, (hf 0 t%"/a" lines rfl rfl).1 (by decide), fun hi => ?_⟩
  obtain ⟨_, _, mro, hm⟩ := h.1 hi
  unfold exTangleBases at hb
  dsimp only at hb
  rw [hg] at hb
  simp only [Option.map_some, Option.some.injEq, Prod.mk.injEq, List.all_eq_true, decide_eq_true_eq,
    List.map_cons, List.map_nil, List.cons.injEq, and_true] at hb
  obtain ⟨hin, hb1, hb2, _, hb4⟩ := hb
  have hcg := C23_graphs (exTangleInput d as).world.toWorld (exTangleInput d as).tree (exTangle_ok d as).unit g b hg
  have hex : ∀ x ∈ [1, 2, 3, 4], Exposed (exTangleInput d as).world.toWorld b.storage t%"my_lib" g x := by
    intro x hx
    have ht : IsType (exTangleInput d as).world.toWorld x := by
      simp only [List.mem_cons, List.not_mem_nil, or_false] at hx
      rcases hx with rfl | rfl | rfl | rfl <;> exact .inr rfl
    exact ⟨ht, (C26_types _ b.storage (exTangleInput d as).members t%"my_lib" g hcg x ht).1 (hin x hx)⟩
  have h1 := hm 1 (hex 1 (by simp))
  have h2 := hm 2 (hex 2 (by simp))
  have h4 := hm 4 (hex 4 (by simp))
  unfold Linearized at h1 h2 h4
  rw [show listedBases (exTangleInput d as).world b.storage _ 1 = [] from hb1] at h1
  rw [show listedBases (exTangleInput d as).world b.storage _ 2 = [1] from hb2] at h2
  rw [show listedBases (exTangleInput d as).world b.storage _ 4 = L from hb4] at h4
  have e1 : mro t%"::B" = [t%"::B"] := by
    have : c3 t%"::B" [] [] = some (mro t%"::B") := h1
    rw [show c3 t%"::B" [] [] = some [t%"::B"] by decide] at this
    exact (Option.some.inj this).symm
  have e2 : mro t%"::H" = [t%"::H", t%"::B"] := by
    have : c3 t%"::H" [t%"::B"] [mro t%"::B"] = some (mro t%"::H") := h2
    rw [e1, show c3 t%"::H" [t%"::B"] [[t%"::B"]] = some [t%"::H", t%"::B"] by decide] at this
    exact (Option.some.inj this).symm
  have := hL mro e1 e2
  have h4' : c3 t%"::D" (L.map (exTangle d as).typeName) (L.map fun y => mro ((exTangle d as).typeName y)) =
    some (mro t%"::D") := h4
  rw [this] at h4'
  cases h4'

set_option maxRecDepth 8000 in
/-- C98: `struct visible D : B, H {};`, where `H` derives from `B`: there is no diagnostic, but the module
cannot be imported. -/
theorem C98_order : ∃ r lines,
    runTool exTangleOptions (exTangleInput false [lozenge ++ t%"visible"]) (fun _ => none) = some r ∧
    r.exitCode = 0 ∧ r.diags = [] ∧
    r.files t%"/a" = some (fileText (exTangleInput false [lozenge ++ t%"visible"]) lines) ∧ ¬ Loads [lines] := by
  refine tangle_fails false _ [1, 2] (by eval_run) (by eval_run) exTangle_order ?_
  intro mro h1 h2
  have : c3 t%"::D" [t%"::B", t%"::H"] [mro t%"::B", mro t%"::H"] = none := by
    rw [h1, h2]
    decide
  exact this

set_option maxRecDepth 8000 in
/-- C98: `struct visible inline_base("H", "K") D : H, K {};`, where `H` and `K` derive from `B`: `B` is listed
twice (C43), and the module cannot be imported. -/
theorem C98_twice : ∃ r lines,
    runTool exTangleOptions (exTangleInput true exTwoInlined) (fun _ => none) = some r ∧
    r.exitCode = 0 ∧ r.diags = [] ∧
    r.files t%"/a" = some (fileText (exTangleInput true exTwoInlined) lines) ∧ ¬ Loads [lines] := by
  refine tangle_fails true _ [1, 1] (by eval_run) (by eval_run) exTangle_twice ?_
  intro mro h1 _
  have : c3 t%"::D" [t%"::B", t%"::B"] [mro t%"::B", mro t%"::B"] = none := by
    rw [h1]
    decide
  exact this

/-- No class has more than one direct base. -/
example (h d : List Str) : ∀ x, (directBases (exFamily h d) x).length ≤ 1 := by
  intro x
  unfold directBases exFamily
  dsimp only
  split <;> simp [Hierarchy.direct]

/-- `struct 2 : 1 {}; struct 3 : 1 {}; struct 4 : 2, 3 {};` and `struct 5 : 4 {};` -/
def exDiamondListed : Nat → List Nat
  | 2 => [1]
  | 3 => [1]
  | 4 => [2, 3]
  | 5 => [4]
  | _ => []

theorem exDiamond_ascends (x y : Nat) (h : Ascends exDiamondListed x y) :
    x = y ∨ y = 1 ∨ (x = 4 ∨ x = 5) ∧ (y = 2 ∨ y = 3 ∨ y = 4) := by
  induction h with
  | refl => exact .inl rfl
  | step _ hz ih =>
    unfold exDiamondListed at hz
    split at hz <;> simp at hz <;> omega

/-- The condition of `C98_joined` holds for a diamond, that of `C98_plain` does not. -/
example : JoinedOnce (fun _ => True) exDiamondListed ∧ ¬ NoDiamonds (fun _ => True) exDiamondListed := by
  constructor
  · intro x _
    refine ⟨by unfold exDiamondListed; split <;> simp, 1, ?_⟩
    have hpair : ∀ y ∈ exDiamondListed x, ∀ y' ∈ exDiamondListed x, y ≠ y' → x = 4 := by
      intro y hy y' hy' hne
      unfold exDiamondListed at hy hy'
      split at hy <;> simp at hy hy' <;> omega
    intro y hy y' hy' hne
    have := hpair y hy y' hy' hne
    subst this
    simp only [exDiamondListed, List.mem_cons, List.not_mem_nil, or_false] at hy hy'
    refine ⟨fun h => ?_, fun a ha ha' => ?_⟩
    · have := exDiamond_ascends _ _ h
      omega
    · have h1 := exDiamond_ascends _ _ ha
      have h2 := exDiamond_ascends _ _ ha'
      have : a = 1 := by omega
      subst this
      refine ⟨?_, .refl⟩
      rcases hy with rfl | rfl <;> exact .step .refl (by simp [exDiamondListed])
  · intro h
    exact (h 4 trivial).2 2 (by simp [exDiamondListed]) 3 (by simp [exDiamondListed]) (by decide) 1
      (.step .refl (by simp [exDiamondListed])) (.step .refl (by simp [exDiamondListed]))

end Verif
