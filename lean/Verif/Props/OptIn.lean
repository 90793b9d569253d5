import Verif.Spec.OptIn
import Verif.Props.Usable
import Verif.Props.Success
import Verif.Props.ToolExamples
/-!
# C92: nothing is exposed that has not been asked for
-/
namespace Verif
open Spec

theorem own_marked (w : EmitWorld) (x : Nat) (a : DeclAttrs) (ha : ownAttrs w.toWorld x = some a)
    (hn : a ≠ freshAttrs (w.info x)) : Marked w.toWorld x := by
  apply Classical.byContradiction
  intro h
  have hs : shouldSkip (w.info x) = false := by
    rw [ownAttrs_eq] at ha
    split at ha
    · assumption
    · cases ha
  have := (own_unannotated w x hs fun t ht hm => h ⟨t, ht, hm⟩).2
  rw [this] at ha
  cases ha
  exact hn rfl

theorem ownVisible_marked (w : EmitWorld) (x : Nat) (v : Bool) (h : ownVisible w.toWorld x = some v) :
    Marked w.toWorld x := by
  unfold ownVisible at h
  obtain ⟨a, ha, hv⟩ := Option.bind_eq_some_iff.1 h
  refine own_marked w x a ha ?_
  rintro rfl
  unfold freshAttrs at hv
  cases hv

/-- What is stored for declarations no alias refers to. -/
theorem stored_own (w : World) (root : Tree) (wf : WellFormed w root) (g : Graph) (b : Building)
    (h : buildGraph w root = (some g, b)) (x : Nat)
    (h1 : ¬ ∃ e, ExposesHere w root e x) (h2 : ¬ ∃ e, Encourages w root e x) (a : DeclAttrs)
    (ha : b.storage.entries x = some a) : ownAttrs w x = some a ∧ Annotated w x := by
  rw [C53_others w root wf g b h x h1 h2, (traverse_inv w root wf.distinct).entries] at ha
  split at ha
  · rename_i hv
    have hk := visited_not_skip w root x hv
    cases hn : annot w x with
    | false => simp [entryOf, hn] at ha
    | true =>
      rw [(entryOf_own w x hn hk).1, ha]
      exact ⟨rfl, (annot_iff ..).1 hn⟩
  · cases ha

/-- Explicit visibility has been asked for. -/
theorem explicit_requested (w : EmitWorld) (root : Tree) (wf : WellFormed w.toWorld root) (g : Graph)
    (b : Building) (h : buildGraph w.toWorld root = (some g, b)) (x : Nat)
    (he : explicit b.storage x = some true) : Requested w root x := by
  by_cases h2 : ∃ e, Encourages w.toWorld root e x
  · obtain ⟨e, he⟩ := h2
    exact .encouraged he
  by_cases h1 : ∃ e, ExposesHere w.toWorld root e x
  · obtain ⟨a, ha⟩ := h1
    obtain ⟨own, final, al, _, hal, hent, _, hv, _⟩ := C53_expose_here_partial w.toWorld root wf g b h a x ha
    refine .exposed ha ?_
    unfold ownVisible
    rw [hal]
    show al.named.visible = some true
    rw [← hv h2]
    unfold explicit at he
    rw [hent] at he
    exact he
  · unfold explicit at he
    obtain ⟨a, ha, hv⟩ := Option.bind_eq_some_iff.1 he
    refine .annotated ?_
    unfold ownVisible
    rw [(stored_own w.toWorld root wf g b h x h1 h2 a ha).1]
    exact hv

/-- Visible contexts have been asked for. -/
theorem visible_requested (w : EmitWorld) (root : Tree) (wf : WellFormed w.toWorld root) (g : Graph)
    (b : Building) (h : buildGraph w.toWorld root = (some g, b)) (x : Nat)
    (hv : EffVisible w.toWorld b.storage g x) : Requested w root x := by
  have hb := built w.toWorld root wf g b h
  induction hv with
  | explicit _ _ he => exact explicit_requested w root wf g b h _ he
  | @inherited p x _ hE he h3 h4 ih =>
    have hnone : ∀ a, b.storage.entries x = some a → a.named.visible = none := by
      intro a ha
      unfold explicit at he
      rw [ha] at he
      exact he
    rcases (built_edge_iff hb p x).1 hE with ⟨a, ha, hpa⟩ | ⟨h1, ⟨t, ht, rfl⟩, hc, hpx⟩
    · obtain ⟨own, final, al, _, hal, hent, _, _, hv⟩ := C53_expose_here_partial w.toWorld root wf g b h a x ha
      have hfin : final.visible = none := hnone _ hent
      have hau : a ≠ w.unit := by
        rintro rfl
        have h1 := ha.2.2.1
        rw [(wf.unit_kind w.unit).2 rfl] at h1
        cases h1
      refine .moved ha ?_ ((scopeOf_find w.toWorld root wf a p hau).2 hpa.symm) ih h3 h4
      unfold ownVisible
      rw [hal]
      show al.named.visible = none
      rcases hv with hv | hv
      · rw [← hv, hfin]
      · rw [hfin] at hv; cases hv
    · have hu := context_not_unit w.toWorld root wf t.id hc
      refine .nested ih ((scopeOf_find w.toWorld root wf t.id p hu).2 hpx.symm) ?_ h3 h4
      intro hann
      have h2 : ¬ ∃ e, Encourages w.toWorld root e t.id := by
        rintro ⟨e, hee⟩
        obtain ⟨own, _, hent⟩ := C53_encourage w.toWorld root wf g b h e t.id hee h1
        cases hnone _ hent
      have hent := C53_others w.toWorld root wf g b h t.id h1 h2
      rw [(C20_attributes w.toWorld root wf.distinct t ht).1 hann] at hent
      unfold ownVisible
      cases ho : ownAttrs w.toWorld t.id with
      | none => rfl
      | some a => exact hnone a (hent.trans ho)

/-- The attributes of declarations other than types are the ones of their own annotations. -/
theorem attrsOf_own (w : EmitWorld) (root : Tree) (wf : WellFormed w.toWorld root) (g : Graph)
    (b : Building) (h : buildGraph w.toWorld root = (some g, b)) (d : Nat) (a : DeclAttrs)
    (ha : attrsOf w b.storage d = some a) (hk : ¬ IsType w.toWorld d) : ownAttrs w.toWorld d = some a := by
  unfold attrsOf at ha
  cases he : b.storage.entries d with
  | none => rw [he] at ha; exact ha
  | some a' =>
    rw [he] at ha
    cases ha
    exact (stored_own w.toWorld root wf g b h d
      (fun ⟨e, hx⟩ => hk (wf.target_tag e d hx.2.2.2.1))
      (fun ⟨e, hx⟩ => hk (wf.target_tag e d hx.2.2.2.1)) a he).1

/-- What is shown in a context has been asked for. -/
theorem shown_requested (i : ToolInput) (ok : InputOK i) (lk : LookupOK i.world) (name : Str)
    (g : Graph) (b : Building) (h : buildGraph i.world.toWorld i.tree = (some g, b)) (x d : Nat)
    (hx : Contributes i.world.toWorld b.storage name g x)
    (hd : d ∈ proposedDecls i.world (Exposer.create i.world b.storage x) x)
    (hs : shown i.world b.storage (analyze i.world.toWorld b.storage i.members name g).vis x d = true) :
    Requested i.world i.tree d := by
  have hcg := C23_graphs i.world.toWorld i.tree ok.unit g b h
  obtain ⟨a, ha, hv⟩ := (shown_iff i.world b.storage i.members name g hcg x d hx.1 hx.2.1).1 hs
  unfold proposedDecls at hd
  rw [mem_expand] at hd
  simp only [List.mem_append, mem_sortDecls, collected_iff] at hd
  obtain ⟨m, hm, hd⟩ := hd
  have hty : ¬ IsType i.world.toWorld d := by
    have hfn : ∀ y, i.world.specializations y ≠ none → d ∈ specializationsOf i.world y →
        ¬ IsType i.world.toWorld d := by
      intro y hy hd hk
      unfold specializationsOf at hd
      cases hl : i.world.specializations y with
      | none => exact hy hl
      | some l =>
        rw [hl] at hd
        have := ok.emit.specialization y l hl d hd
        rcases hk with hk | hk <;> rw [hk] at this <;> cases this
    cases hl : i.world.specializations m with
    | some l => exact hfn m (by rw [hl]; simp) hd
    | none =>
      have hdm : d = m := by simpa [specializationsOf, hl] using hd
      subst hdm
      rcases hm with hm | hm
      · obtain ⟨f, _, _, _, _, h1, h2, _⟩ := hm
        rintro (hk | hk)
        · exact h1 hk
        · exact h2 hk
      · split at hm
        · unfold collectOperators at hm
          obtain ⟨y, hy, hym⟩ := (mem_expand ..).1 (List.mem_filter.1 hm).1
          cases hl' : i.world.specializations y with
          | some l' => exact hfn y (by rw [hl']; simp) hym
          | none =>
            have hdy : d = y := by simpa [specializationsOf, hl'] using hym
            subst hdy
            have := ok.emit.operator x d hy hl'
            rintro (hk | hk) <;> rw [hk] at this <;> cases this
        · cases hm
  have hown := attrsOf_own i.world i.tree ok.unit g b h d a ha hty
  rcases hv with hv | ⟨hv, hvx⟩
  · refine .annotated ?_
    unfold ownVisible
    rw [hown]
    exact hv
  · have hr := visible_requested i.world i.tree ok.unit g b h x hvx
    have hov : ownVisible i.world.toWorld d = none := by
      unfold ownVisible
      rw [hown]
      exact hv
    rcases hm with ⟨f, hf, ⟨_, hacc, _⟩, rfl, _⟩ | hm
    · exact .member hr hf hacc hd hov
    · split at hm
      · unfold collectOperators at hm
        obtain ⟨y, hy, hym⟩ := (mem_expand ..).1 (List.mem_filter.1 hm).1
        have hdm := (mem_specializations_self i.world lk.specialized y m d hym).1 hd
        subst hdm
        exact .operator hr hy hym hov
      · cases hm

/-- Statements written for a declaration are about it. -/
theorem subjects_declStmts (w : EmitWorld) (e : Exposer) (a : DeclAttrs) (d : Nat) :
    ∀ st ∈ declStmts w e a d, ∀ y ∈ subjects st, y = d := by
  have hgen : ∀ st ∈ (handleDeclGeneric w a d).stmts, ∀ y ∈ subjects st, y = d := by
    unfold handleDeclGeneric
    split
    · simp [Emitted.fail]
    · split
      · split
        · simp [Emitted.none]
        · split
          · simp [Emitted.none]
          · simp [subjects]
      · split
        · split
          · split
            · simp [Emitted.none]
            · simp [subjects]
          · split
            · simp [Emitted.fail]
            · simp [subjects]
        · cases hf : a.function with
          | none => dsimp only; (repeat' split) <;> simp [Emitted.none]
          | some f =>
            dsimp only
            intro st hst
            cases hm : a.method <;>
            · rw [hm] at hst
              dsimp only at hst
              split at hst
              · simp [Emitted.none] at hst
              · split at hst
                · simp [Emitted.none] at hst
                · simp only [List.mem_singleton] at hst
                  subst hst
                  simp [subjects]
  cases e with
  | plain => exact hgen
  | «namespace» n => exact hgen
  | enum x =>
    simp only [declStmts, handleDeclEnum]
    split
    · simp [subjects]
    · simp [Emitted.none]
  | record x p =>
    intro st hst
    simp only [declStmts] at hst
    unfold handleDeclRecord at hst
    cases hc : a.constructor with
    | some c =>
      rw [hc] at hst
      dsimp only at hst
      split at hst
      · simp [Emitted.none] at hst
      · split at hst
        · split at hst
          · simp [Emitted.fail] at hst
          · simp only [List.mem_cons, List.not_mem_nil, or_false] at hst
            rcases hst with rfl | rfl <;> simp [subjects]
        · simp only [List.mem_singleton] at hst
          subst hst
          simp [subjects]
    | none =>
      rw [hc] at hst
      dsimp only at hst
      split at hst
      · split at hst
        · simp [Emitted.none] at hst
        · split at hst
          · simp [Emitted.fail] at hst
          · split at hst
            · simp [Emitted.fail] at hst
            · dsimp only at hst
              split at hst
              · simp [Emitted.none] at hst
              · simp only [List.mem_singleton] at hst
                subst hst
                simp [subjects]
            · split at hst
              · simp [Emitted.none] at hst
              · simp only [List.mem_singleton] at hst
                subst hst
                simp [subjects]
      · split at hst
        · simp at hst
        · split at hst
          · split at hst
            · split at hst
              · simp [Emitted.fail] at hst
              · simp only [List.mem_singleton] at hst
                subst hst
                simp [subjects]
            · simp only [List.mem_singleton] at hst
              subst hst
              simp [subjects]
          · exact hgen st hst

/-- C92: what is written for a context of the module is about declarations that are to be exposed
according to annotations of their own, or to those of a type or namespace they are part of. -/
theorem C92_context (i : ToolInput) (ok : InputOK i) (lk : LookupOK i.world) (name : Str)
    (g : Graph) (b : Building) (h : buildGraph i.world.toWorld i.tree = (some g, b)) (x : Nat)
    (hx : Contributes i.world.toWorld b.storage name g x) :
    ∀ st ∈ (exposeContext i.world (analyze i.world.toWorld b.storage i.members name g).vis b.storage
      (Exposer.create i.world b.storage x) x).emitted.stmts,
      ∀ d ∈ subjects st, Requested i.world i.tree d := by
  have hder := derived_built i.world i.tree ok.unit g b h
  have hreq := fun d => shown_requested i ok lk name g b h x d hx
  intro st hst
  rw [(exposeContext_eq i.world _ b.storage _ x (enum_not_proposed i.world ok.emit b.storage x)).1,
    List.mem_append] at hst
  rcases hst with hst | hst
  · obtain ⟨d, hd, hst⟩ := List.mem_flatMap.1 hst
    unfold declOutput at hst
    cases ha : attrsOf i.world b.storage d with
    | none => rw [ha] at hst; cases hst
    | some a =>
      rw [ha] at hst
      dsimp only at hst
      split at hst
      · rename_i hsv
        intro y hy
        rw [subjects_declStmts _ _ _ _ st hst y hy]
        exact hreq d hd (by unfold shown; rw [ha]; exact hsv)
      · cases hst
  · cases he : Exposer.create i.world b.storage x with
    | record y p =>
      rw [he] at hst hreq
      have := properties_select (fun st => match st with | .property .. => none | st => some st)
        (fun _ _ _ => rfl) i.world (addAll ([], []) (accessors i.world b.storage
          (analyze i.world.toWorld b.storage i.members name g).vis (.record y p) x)).1
      rw [List.filterMap_eq_nil_iff] at this
      have := this st hst
      cases st with
      | property n gt stt =>
        have hin : Stmt.property n gt stt ∈ (exposeContext i.world
            (analyze i.world.toWorld b.storage i.members name g).vis b.storage
            (.record y p) x).emitted.stmts := by
          rw [(exposeContext_eq i.world _ b.storage _ x (by simp)).1, List.mem_append]
          exact .inr hst
        obtain ⟨d, hd, rfl, rfl⟩ := (C36_iff i.world b.storage hder _ y p x n gt stt).1 hin
        intro z hz
        simp only [subjects, List.mem_cons, Option.mem_toList, Option.map_eq_some_iff] at hz
        rcases hz with hz | ⟨q, ⟨d', hd', rfl⟩, hz⟩
        · have hz : z = d := hz
          rw [hz]
          have hm := List.mem_of_getLast? hd
          unfold getters at hm
          obtain ⟨h1, h2⟩ := List.mem_filter.1 hm
          rw [Bool.and_eq_true] at h2
          exact hreq d h1 h2.1
        · have hz : d' = z := hz
          rw [← hz]
          have hm := List.mem_of_getLast? hd'
          unfold setters at hm
          obtain ⟨h1, h2⟩ := List.mem_filter.1 hm
          rw [Bool.and_eq_true] at h2
          exact hreq d' h1 h2.1
      | _ => cases this
    | enum y =>
      rw [he] at hst
      unfold finalStmts finalizeEnum at hst
      dsimp only at hst
      split at hst
      · split at hst
        · simp only [List.mem_singleton] at hst
          subst hst
          simp [subjects]
        · simp [Emitted.none] at hst
      · simp [Emitted.none] at hst
    | _ =>
      rw [he] at hst
      simp only [finalStmts, List.mem_singleton] at hst
      subst hst
      simp [subjects]

/-- C92: classes and enums of the module have been asked for, and modules are only created for
namespaces that contain something that has been. -/
theorem C92_objects (i : ToolInput) (ok : InputOK i) (name : Str)
    (g : Graph) (b : Building) (h : buildGraph i.world.toWorld i.tree = (some g, b)) (x : Nat)
    (hx : x ∈ (analyze i.world.toWorld b.storage i.members name g).pruned.nodes) :
    x = i.world.unit ∨ (IsType i.world.toWorld x ∧ Requested i.world i.tree x) ∨
      (i.world.info x).kind = .namespace ∧ ∃ y, Requested i.world i.tree y := by
  have hcg := C23_graphs i.world.toWorld i.tree ok.unit g b h
  obtain ⟨⟨h1, h2, h3⟩, h4⟩ := (kept_nodes i.world.toWorld b.storage i.members name g hcg x).1 hx
  rcases kind_cases i.world.toWorld g hcg x h1 with rfl | hk | hk | hk
  · exact .inl ((ok.unit.unit_kind _).1 hcg.root_kind)
  · refine .inr (.inr ⟨hk, ?_⟩)
    have hv := h4 hk
    clear h4 hk h3 h2 h1 hx
    induction hv with
    | member hm =>
      obtain ⟨d, _, _, he | ⟨_, hv⟩⟩ := hm
      · exact ⟨d, explicit_requested i.world i.tree ok.unit g b h d he⟩
      · exact ⟨_, visible_requested i.world i.tree ok.unit g b h _ hv⟩
    | type _ _ hv => exact ⟨_, visible_requested i.world i.tree ok.unit g b h _ hv⟩
    | nested _ _ _ ih => exact ih
  · exact .inr (.inl ⟨.inl hk, visible_requested i.world i.tree ok.unit g b h x (h3 x .self (.inl hk))⟩)
  · exact .inr (.inl ⟨.inr hk, visible_requested i.world i.tree ok.unit g b h x (h3 x .self (.inr hk))⟩)

/-- C92: everything executed when the module is imported is about declarations that have been
asked for, or bindings the user has provided for the end of the module. -/
theorem C92_run (i : ToolInput) (ok : InputOK i) (lk : LookupOK i.world) (name : Str)
    (g : Graph) (b : Building) (order : List Nat) (place : Nat → List Str)
    (pl : Placement i name g b order place) :
    ∀ e ∈ executed i name g b order place, ∀ d ∈ subjects e.stmt,
      Requested i.world i.tree d ∨ AtTheEnd i.world.toWorld d := by
  intro e he d hd
  have hcg := C23_graphs i.world.toWorld i.tree ok.unit g b pl.graph
  have hder := derived_built i.world i.tree ok.unit g b pl.graph
  unfold executed executionsOf at he
  rcases List.mem_append.1 he with he | he
  · obtain ⟨x, hx, he⟩ := List.mem_flatMap.1 he
    obtain ⟨st, hst, rfl⟩ := List.mem_map.1 he
    have hn := pl.sorted.perm.mem_iff.1 (List.mem_filter.1 hx).1
    have hc := ((kept_nodes i.world.toWorld b.storage i.members name g hcg x).1 hn).1
    exact .inl (C92_context i ok lk name g b pl.graph x hc st hst d hd)
  · obtain ⟨v, _, hv⟩ := List.mem_filterMap.1 he
    obtain ⟨l, hl, rfl⟩ := Option.map_eq_some_iff.1 hv
    simp only [subjects, List.mem_singleton] at hd
    subst hd
    unfold postambleLambda at hl
    split at hl
    · rename_i f hf
      obtain ⟨a, ha, hf⟩ := Option.bind_eq_some_iff.1 hf
      obtain ⟨o, n, ho, rfl⟩ := hder d a ha
      split at hl
      · exact .inr ⟨o, f, l, ho, hf, by assumption, hl⟩
      · cases hl
    · cases hl

/-- C92: what has been asked for goes back to annotations. -/
theorem C92_marked (w : EmitWorld) (root : Tree) (x : Nat)
    (h : Requested w root x ∨ AtTheEnd w.toWorld x) : ∃ y, Marked w.toWorld y := by
  rcases h with h | ⟨a, v, l, ha, hf, hp, _⟩
  · induction h with
    | annotated h => exact ⟨_, ownVisible_marked w _ _ h⟩
    | encouraged h => exact ⟨_, h.2.1.2.2.1⟩
    | exposed h _ => exact ⟨_, h.2.1.2.2.1⟩
    | moved h => exact ⟨_, h.2.1.2.2.1⟩
    | nested _ _ _ _ _ ih => exact ih
    | member _ _ _ _ _ ih => exact ih
    | operator _ _ _ _ ih => exact ih
  · refine ⟨x, own_marked w x a ha ?_⟩
    rintro rfl
    unfold freshAttrs at hf
    dsimp only at hf
    split at hf <;> cases hf
    cases hp

/-! ### Code without annotations -/

/-- Nothing is annotated. -/
theorem unmarked_nodes (i : ToolInput) (ok : InputOK i) (hn : ∀ x, ¬ Marked i.world.toWorld x) (name : Str)
    (g : Graph) (b : Building) (h : buildGraph i.world.toWorld i.tree = (some g, b)) :
    (analyze i.world.toWorld b.storage i.members name g).pruned.nodes = [i.world.unit] := by
  have hi := (emitInput i ok g b h name).graph
  have hno : ∀ y, ¬ Requested i.world i.tree y := fun y hy =>
    (C92_marked i.world i.tree y (.inl hy)).elim fun z hz => hn z hz
  have hall : ∀ x ∈ (analyze i.world.toWorld b.storage i.members name g).pruned.nodes, x = i.world.unit := by
    intro x hx
    rcases C92_objects i ok name g b h x hx with hx | ⟨_, hx⟩ | ⟨_, y, hy⟩
    · exact hx
    · exact absurd hx (hno x)
    · exact absurd hy (hno y)
  have hroot := reachable_node hi.toGraphOK _ .root
  have hnd := hi.nodup
  revert hall hroot hnd
  generalize (analyze i.world.toWorld b.storage i.members name g).pruned.nodes = l
  intro hall hroot hnd
  match l with
  | [] => cases hroot
  | [x] => rw [hall x (by simp)]
  | x :: y :: l =>
    have h1 := hall x (by simp)
    have h2 := hall y (by simp)
    subst h1
    rw [h2] at hnd
    simp at hnd

/-- C92: without any annotations the tool succeeds, provided the code and its pragmas are correct
and files can be written. -/
theorem C92_success (i : ToolInput) (ok : InputOK i) (lk : LookupOK i.world) (mo : MembersOK i.world)
    (re : Reopening i.world.toWorld) (hn : ∀ x, ¬ Marked i.world.toWorld x)
    (name : Str) (outputs : List Str) (ho : outputs ≠ []) :
    (¬ ErrorReported i (handleTranslationUnit i name outputs)) ↔
      i.earlierErrors = false ∧ (∀ l ∈ i.pragmas, PragmaOK l) ∧ (∀ p ∈ outputs, i.creatable p = true) := by
  have hann : ∀ x, ¬ Annotated i.world.toWorld x := fun x hx => hn x hx.2.2.1
  have hex : ∀ a x, ¬ ExposesHere i.world.toWorld i.tree a x := fun a x hx => hann a hx.2.1
  have hen : ∀ a x, ¬ Encourages i.world.toWorld i.tree a x := fun a x hx => hann a hx.2.1
  have hno : ∀ y, ¬ Requested i.world i.tree y := fun y hy =>
    (C92_marked i.world i.tree y (.inl hy)).elim fun z hz => hn z hz
  have h := C72_success_iff i ok lk mo re (fun s t _ _ _ hs => absurd hs (hann s.id)) name outputs ho
  dsimp only at h
  rw [h]
  constructor
  · exact fun ⟨h1, h2, h3, _⟩ => ⟨h1, h2, h3⟩
  · rintro ⟨h1, h2, h3⟩
    obtain ⟨g, b, hb⟩ := (C72_graph i.world.toWorld i.tree ok.unit).2
      ⟨fun t _ ht => absurd ht (hann t.id), fun a x hx => hx.elim (fun h => absurd h (hex a x)) (fun h => absurd h (hen a x)),
        fun s t _ _ _ _ _ _ _ => ⟨⟨fun h => absurd h (hann s.id), fun h => absurd h (hann t.id)⟩,
          fun h => absurd h (hann s.id)⟩, fun a _ x hx => absurd hx (hex a x)⟩
    have hnodes := unmarked_nodes i ok hn name g b hb
    have hi := (emitInput i ok g b hb name).graph
    have hcg := C23_graphs i.world.toWorld i.tree ok.unit g b hb
    refine ⟨h1, h2, h3, g, b, hb, fun a x hx => absurd hx (hex a x), ?_, ?_⟩
    · have hu : (analyze i.world.toWorld b.storage i.members name g).pruned.root = i.world.unit := by
        have := reachable_node hi.toGraphOK _ .root
        rw [hnodes] at this
        simpa using this
      have key : ∀ p x, ¬ Depends i.world.toWorld b.storage i.world.bases
          (analyze i.world.toWorld b.storage i.members name g).pruned p x := by
        rintro p x ⟨hx, hd⟩
        have hxu : x = i.world.unit := by rw [hnodes] at hx; simpa using hx
        rcases hd with hd | ⟨hk, _⟩
        · have h1 := ((C29_scope i.world.toWorld b.storage _ hi x hx).2.1 p).2 hd
          rw [(C29_scope i.world.toWorld b.storage _ hi x hx).1.2 (hxu.trans hu.symm)] at h1
          cases h1
        · rw [hxu, (ok.unit.unit_kind i.world.unit).2 rfl] at hk
          cases hk
      rintro ⟨x, hx⟩
      cases hx with
      | one h => exact key _ _ h
      | more _ h => exact key _ _ h
    · intro x hc hv
      have hxu : x = i.world.unit := by
        have := (kept_nodes i.world.toWorld b.storage i.members name g hcg x).2 ⟨hc, hv⟩
        rw [hnodes] at this
        simpa using this
      have hk : (i.world.info x).kind = .translationUnit := by
        rw [hxu]; exact (ok.unit.unit_kind i.world.unit).2 rfl
      have hnr : (i.world.info x).kind ≠ .record := by rw [hk]; simp
      refine ⟨fun d _ => ⟨[], ?_, by simp, by simp, fun _ ht => absurd ht (hn d)⟩, fun d _ hvd => ?_,
        fun h => absurd h hnr, fun h => absurd h hnr, fun h => absurd h hnr⟩
      · have hm : ∀ t ∈ (i.world.info d).attrTexts, ¬ marker <+: t := fun t ht hm => hn d ⟨t, ht, hm⟩
        revert hm
        generalize (i.world.info d).attrTexts = l
        intro hm
        induction l with
        | nil => exact .nil
        | cons t l ih => exact .other t l [] (hm t (by simp)) (ih fun t' ht' => hm t' (by simp [ht']))
      · exfalso
        obtain ⟨a, ha, hvd⟩ := hvd
        rcases hvd with hvd | ⟨_, hvd⟩
        · unfold attrsOf at ha
          cases he : b.storage.entries d with
          | none =>
            rw [he] at ha
            refine hn d (own_marked i.world d a ha ?_)
            rintro rfl
            unfold freshAttrs at hvd
            cases hvd
          | some a' =>
            rw [he] at ha
            cases ha
            exact hno d (explicit_requested i.world i.tree ok.unit g b hb d (by unfold explicit; rw [he]; exact hvd))
        · exact hno x (visible_requested i.world i.tree ok.unit g b hb x hvd)

/-- C92: without any annotations the generated module is empty. -/
theorem C92_lines (i : ToolInput) (ok : InputOK i) (lk : LookupOK i.world)
    (hn : ∀ x, ¬ Marked i.world.toWorld x) (name : Str)
    (g : Graph) (b : Building) (h : buildGraph i.world.toWorld i.tree = (some g, b)) (order : List Nat)
    (hv : ValidOrder i.world.toWorld b.storage i.world.bases
      (analyze i.world.toWorld b.storage i.members name g).pruned order) (n k : Nat) :
    (fileLines i.world b.storage (analyze i.world.toWorld b.storage i.members name g).pruned
      (analyze i.world.toWorld b.storage i.members name g).vis name order n k).flatMap (Line.emit i.world) =
      if k = 0 then skeleton name else [] := by
  have hnodes := unmarked_nodes i ok hn name g b h
  have hi := (emitInput i ok g b h name).graph
  have hcg := C23_graphs i.world.toWorld i.tree ok.unit g b h
  have hder := derived_built i.world i.tree ok.unit g b h
  have hord : order = [i.world.unit] := by
    have := hv.perm
    rw [hnodes] at this
    exact List.perm_singleton.1 this
  have hno : ∀ y, ¬ Requested i.world i.tree y := fun y hy =>
    (C92_marked i.world i.tree y (.inl hy)).elim fun z hz => hn z hz
  have hk := (ok.unit.unit_kind i.world.unit).2 rfl
  have hcr : Exposer.create i.world b.storage i.world.unit = .plain := by unfold Exposer.create; rw [hk]
  have hu : (analyze i.world.toWorld b.storage i.members name g).pruned.root = i.world.unit := by
    have := reachable_node hi.toGraphOK _ .root
    rw [hnodes] at this
    simpa using this
  have hin : i.world.unit ∈ (analyze i.world.toWorld b.storage i.members name g).pruned.nodes := by
    rw [hnodes]; simp
  have hc := ((kept_nodes i.world.toWorld b.storage i.members name g hcg _).1 hin).1
  have hst : (exposeContext i.world (analyze i.world.toWorld b.storage i.members name g).vis b.storage
      .plain i.world.unit).emitted.stmts = [.useContext] := by
    rw [(exposeContext_eq i.world _ b.storage _ i.world.unit (by simp)).1]
    have : (proposedDecls i.world .plain i.world.unit).flatMap
        (declOutput i.world b.storage (analyze i.world.toWorld b.storage i.members name g).vis .plain
          i.world.unit) = [] := by
      rw [List.flatMap_eq_nil_iff]
      intro d hd
      unfold declOutput
      cases ha : attrsOf i.world b.storage d with
      | none => rfl
      | some a =>
        dsimp only
        split
        · rename_i hs
          exact absurd (shown_requested i ok lk name g b h i.world.unit d hc (by rw [hcr]; exact hd)
            (by unfold shown; rw [ha]; exact hs)) (hno d)
        · rfl
    rw [this]
    rfl
  have hpost : (i.world.unitVars.filterMap fun v => (postambleLambda b.storage v).map (Line.postamble v)) = [] := by
    rw [List.filterMap_eq_nil_iff]
    intro v _
    rw [Option.map_eq_none_iff]
    cases hl : postambleLambda b.storage v with
    | none => rfl
    | some l =>
      exfalso
      unfold postambleLambda at hl
      split at hl
      · rename_i f hf
        obtain ⟨a, ha, hf⟩ := Option.bind_eq_some_iff.1 hf
        obtain ⟨o, n, ho, rfl⟩ := hder v a ha
        split at hl
        · obtain ⟨y, hy⟩ := C92_marked i.world i.tree v (.inr ⟨o, f, l, ho, hf, by assumption, hl⟩)
          exact hn y hy
        · cases hl
      · cases hl
  have hctx : contextsOf i.world order = [i.world.unit] := by
    rw [hord]
    simp [contextsOf, representative, sameContext]
  have hid : identifiersOf i.world order = [t%"context"] := by
    unfold identifiersOf
    rw [hctx]
    have : contextLabel i.world i.world.unit = .translationUnit := by
      unfold contextLabel
      rw [hk]
      rfl
    simp only [List.map_cons, List.map_nil, this]
    decide +kernel
  have hpar : parentIdentifier i.world b.storage (analyze i.world.toWorld b.storage i.members name g).pruned order
      i.world.unit = t%"root" := by
    unfold parentIdentifier
    rw [(C29_scope i.world.toWorld b.storage _ hi _ hin).1.2 hu.symm]
  have hct : contextTypeOf i.world b.storage (analyze i.world.toWorld b.storage i.members name g).pruned
      i.world.unit = .module := by unfold contextTypeOf; rw [hcr]; rfl
  unfold fileLines mainOf
  rw [hpost, hctx, hid]
  by_cases hk0 : k = 0
  · subst hk0
    simp only [List.zip_cons_cons, List.zip_nil_right, List.map_cons, List.map_nil, definitionOf, hcr,
      hpar, hct, List.zipIdx, List.length_cons, List.length_nil, Nat.zero_add, Nat.zero_mul, Nat.zero_div,
      decide_true, List.filter_cons, List.filter_nil, if_true, List.flatMap_cons, List.flatMap_nil, hst,
      List.append_nil, List.cons_append, List.nil_append, ne_eq, not_true_eq_false, if_false]
    show t%"void expose_context(::pybind11::module& context);\n" ++ (t%"\n" ++
      ((t%"PYBIND11_MODULE(" ++ name ++ t%", root) {\n") ++ (t%"auto context = root;\n" ++ (t%"\n" ++
      (t%"expose_context(context);\n" ++ (t%"}\n\n" ++ (t%"void expose_context(::pybind11::module& context) {\n" ++
      (t%"(void)context;\n" ++ (t%"}\n\n")))))))))  = skeleton name
    unfold skeleton
    simp only [List.append_assoc, List.cons_append, List.nil_append]
  · have : ¬ 0 = k := fun h => hk0 h.symm
    simp [hk0, this, List.zipIdx]

/-- C92 for whole runs: without any annotations the files contain an empty module. -/
theorem C92_unannotated (o : ToolOptions) (i : ToolInput) (ok : InputOK i) (lk : LookupOK i.world)
    (hn : ∀ x, ¬ Marked i.world.toWorld x) (files : Files) (r : ToolResult)
    (hr : runTool o i files = some r) (hx : o.expectFailure = false) (h0 : r.exitCode = 0)
    (hnd : o.outputFiles.Nodup) :
    ∃ name, moduleNameFor o.moduleName i.mainFile = some name ∧
      let text := fun k => (includeLines i).flatMap (· ++ ['\n']) ++ ['\n'] ++ if k = 0 then skeleton name else []
      (∀ k path, o.outputFiles[k]? = some path → path ≠ ['-'] → r.files path = some (text k)) ∧
      (∀ k, o.outputFiles[k]? = some ['-'] → r.printed = [text k]) := by
  obtain ⟨name, g, b, order, hname, hb, hv, h1, h2, _⟩ := C55_run o i ok files r hr hx h0 hnd
  refine ⟨name, hname, ?_, ?_⟩
  · intro k path hk hp
    rw [h1 k path hk hp]
    unfold fileText
    dsimp only
    rw [C92_lines i ok lk hn name g b hb order hv]
  · intro k hk
    rw [h2 k hk]
    unfold fileText
    dsimp only
    rw [C92_lines i ok lk hn name g b hb order hv]

/-! ### Examples -/

/-- The class has been asked for, and with it its method, but not the other one. -/
example : Requested exUnit exUnitTree 1 ∧ Requested exUnit exUnitTree 2 ∧ ownVisible exUnit.toWorld 3 = some false ∧
    3 ∈ (exUnit.found 1).map (·.decl) := by
  have h1 : Requested exUnit exUnitTree 1 := .annotated (by decide +kernel)
  refine ⟨h1, .member (f := ⟨2, none, false, .public, false, false, some 1, none⟩) h1 (by simp [exUnit]) (.inl rfl)
    (by simp [exUnit, specializationsOf]) (by decide +kernel), by decide +kernel, by simp [exUnit]⟩

/-- The same code without annotations. -/
def exPlainInput : ToolInput := { exInput with
  world := { exUnit with info := fun x => { exUnit.info x with attrTexts := [] } } }

theorem exPlain_ok : InputOK exPlainInput where
  unit := by
    refine ⟨rfl, fun id => ?_, by decide +kernel, fun id p ps => ?_, fun id h => ?_, rfl,
      fun a x => ?_, fun a x => ?_, fun a => ?_⟩
    all_goals simp only [exPlainInput, exUnit]
    · split <;> simp_all
    · split <;> simp <;> rintro rfl rfl <;> rfl
    · split <;> simp_all [exPlainInput, exUnit]
    · split <;> simp
    · split <;> simp
    · split <;> simp
  emit := by
    refine ⟨by simp [exPlainInput, exUnit], by simp [exPlainInput, exUnit], ?_, fun _ _ => rfl⟩
    intro d
    simp only [exPlainInput, exUnit]
    split <;> (try rfl) <;> (split <;> simp_all) <;> rfl
  bases := by
    intro x a
    simp [exPlainInput, exUnit, EmitWorld.bases, Hierarchy.direct]
  picks := lastSmallest_ok _
  iterate := fun _ => .refl _

theorem exPlain_lookup : LookupOK exPlainInput.world where
  same := by
    have key : ∀ x, (exUnit.info x).kind = .namespace → x = 4 := by
      intro x
      simp only [exUnit]
      split <;> simp
    intro x y h
    rw [key x h.1, key y h.2.1]
  operators := by simp [exPlainInput, exUnit]
  specialized := by simp [exPlainInput, exUnit]

theorem exPlain_unmarked : ∀ x, ¬ Marked exPlainInput.world.toWorld x := by
  rintro x ⟨t, ht, _⟩
  cases ht

theorem exPlain_members : MembersOK exPlainInput.world where
  ofClass := by
    intro x f hf d hd
    simp only [exPlainInput, exUnit] at hf hd ⊢
    split at hf
    · simp
    · simp only [List.mem_singleton] at hf
      subst hf
      simp only [specializationsOf, Option.getD_none, List.mem_singleton] at hd
      subst hd
      simp
    · cases hf
  ofUnit := by
    intro x f hf d hd
    simp only [exPlainInput, exUnit] at hf hd ⊢
    split <;> simp
  once := by
    intro x hk
    have hx : x = 1 := by
      revert hk
      simp only [exPlainInput, exUnit]
      split <;> simp
    subst hx
    simp [exPlainInput, exUnit, specializationsOf]
  distinct := by simp [exPlainInput, exUnit, specializationsOf]

theorem exPlain_reopening : Reopening exPlainInput.world.toWorld where
  name := by
    rintro x y ⟨_, _, h⟩
    have h : x = y := h
    subst h
    simp
  scope := by
    rintro x y p q ⟨h1, h2, h⟩ hp hq
    have h : x = y := h
    subst h
    have hu : x ≠ exPlainInput.world.toWorld.unit := by
      rintro rfl
      cases h1
    exact .inl (((scopeOf_find _ _ exPlain_ok.unit x p hu).1 hp).symm.trans
      ((scopeOf_find _ _ exPlain_ok.unit x q hu).1 hq))
  access := by
    intro x hk
    have : x = 4 := by
      revert hk
      simp only [exPlainInput, exUnit]
      split <;> simp
    subst this
    rfl

/-- C92: the tool succeeds for it; the same code with annotations gives something else. -/
theorem C92_example : ∃ r, runTool exOptions exPlainInput (fun _ => none) = some r ∧ r.exitCode = 0 ∧
    r.files t%"/a" = some t%"#include \"/src/my-lib.h\"
#include <genpybind/binding-helpers.h>
#include <pybind11/pybind11.h>
#include <x.h>

void expose_context(::pybind11::module& context);

PYBIND11_MODULE(my_lib, root) {
auto context = root;

expose_context(context);
}

void expose_context(::pybind11::module& context) {
(void)context;
}

" := by
  obtain ⟨name, r, hn, hr⟩ := C50_total exOptions exPlainInput fun _ => none
  have hname : moduleNameFor exOptions.moduleName exPlainInput.mainFile = some t%"my_lib" :=
    (makeValidIdentifier_eq _).trans (by decide +kernel)
  cases hn.symm.trans hname
  have h0 : r.exitCode = 0 := by
    rw [C50_exit _ _ _ _ _ hname hr]
    refine ⟨fun h => absurd h ((C92_success exPlainInput exPlain_ok exPlain_lookup exPlain_members exPlain_reopening
      exPlain_unmarked _ _ (by decide)).2 ⟨rfl, ?_, fun _ _ => rfl⟩), by simp [exOptions]⟩
    intro l hl
    have : l = { tokens := [.identifier t%"include", .filename t%"<x.h>"] } := by
      simpa [exPlainInput, exInput] using hl
    subst this
    exact .inr (.inl ⟨t%"<x.h>", by simp [IncludePragma]⟩)
  refine ⟨r, hr, h0, ?_⟩
  obtain ⟨name', hn', h1, _⟩ := C92_unannotated exOptions exPlainInput exPlain_ok exPlain_lookup exPlain_unmarked _ r hr
    rfl h0 (by decide)
  cases hn'.symm.trans hname
  rw [h1 0 t%"/a" rfl (by decide)]
  decide +kernel

end Verif
