import Verif.Spec.Members
import Verif.Props.Run
import Verif.Props.Inlining
import Verif.Props.ClassOperators
import Verif.Props.ToolExamples
import Verif.Props.Introducer
/-!
# C71: the functions of the objects of a module
-/
namespace Verif
open Spec

/-- Declarations of the same namespace have the same visibility. -/
theorem same_visible (w : EmitWorld) (root : Tree) (wf : WellFormed w.toWorld root)
    (re : Reopening w.toWorld) (hu : NoBareReopening w.toWorld root) (g : Graph) (b : Building)
    (h : buildGraph w.toWorld root = (some g, b)) (x : Nat) (hx : EffVisible w.toWorld b.storage g x)
    (hrx : Reachable g x) (y : Nat) (hy : Reachable g y) (hxy : SameNamespace w.toWorld x y) :
    EffVisible w.toWorld b.storage g y := by
  have hcg := C23_graphs w.toWorld root wf g b h
  induction hx generalizing y with
  | @explicit x hr hne he =>
    obtain ⟨p, hp⟩ := namespace_parent w g hcg x hr hxy.1
    obtain ⟨q, hq⟩ := namespace_parent w g hcg y hy hxy.2.1
    refine .explicit hy ?_ ?_
    · rintro rfl
      have := hxy.2.1
      rw [hcg.root_kind] at this
      cases this
    · unfold explicit at he ⊢
      rw [← same_entries w root wf hu g b h p q x y hp hq hxy]
      exact he
  | @inherited p x hp hE he h1 h2 ih =>
    obtain ⟨q, hq⟩ := namespace_parent w g hcg y hy hxy.2.1
    have hv : EffVisible w.toWorld b.storage g q := by
      rcases re.scope x y p q hxy (namespace_scope w root wf g b h p x hE hxy.1).2
        (namespace_scope w root wf g b h q y hq hxy.2.1).2 with rfl | hs
      · exact hp
      · have hrp : Reachable g p := by
          obtain ⟨p', hp'⟩ : ∃ p', Edge g p' x ∧ Reachable g p' := by
            cases hrx with
            | root => exact absurd hxy.1 (by rw [hcg.root_kind]; decide)
            | step hr _ hE' => exact ⟨_, hE', hr⟩
          rw [hcg.unique _ _ _ hE hp'.1]
          exact hp'.2
        have hrq : Reachable g q := by
          obtain ⟨q', hq'⟩ : ∃ q', Edge g q' y ∧ Reachable g q' := by
            cases hy with
            | root => exact absurd hxy.2.1 (by rw [hcg.root_kind]; decide)
            | step hr _ hE' => exact ⟨_, hE', hr⟩
          rw [hcg.unique _ _ _ hq hq'.1]
          exact hq'.2
        exact ih hrp q hrq hs
    refine .inherited hv hq ?_ ?_ ?_
    · unfold explicit at he ⊢
      rw [← same_entries w root wf hu g b h p q x y hE hq hxy]
      exact he
    · rw [re.access y hxy.2.1]; decide
    · rw [re.access y hxy.2.1]; decide

/-- The default visibility used when the contents of a context are exposed. -/
theorem vis_iff (w : World) (s : Storage) (m : Members) (name : Str) (g : Graph)
    (hg : ContextGraph w g) (x : Nat) (hx : Reachable g x) (ho : ¬ InOther w s name g x) :
    ((analyze w s m name g).vis x).getD false = true ↔ EffVisible w s g x := by
  have := ((C24_hides_exactly w s name g hg (declContextsWithVisibleNamedDecls w s m
    (deriveEffectiveVisibility w s g) g) (deriveEffectiveVisibility w s g) x hx).2 ho).2
  unfold analyze
  dsimp only
  rw [this]
  obtain ⟨h1, h2, -⟩ := C23_visibility w s g hg x
  constructor
  · intro h
    cases hd : deriveEffectiveVisibility w s g x with
    | none => rw [hd] at h; cases h
    | some b =>
      rw [hd] at h
      cases b with
      | true => exact h1.1 hd
      | false => cases h
  · intro h
    rw [h1.2 h]
    rfl

/-- Visible declarations are the ones shown. -/
theorem shown_iff (w : EmitWorld) (s : Storage) (m : Members) (name : Str) (g : Graph)
    (hg : ContextGraph w.toWorld g) (x d : Nat) (hx : Reachable g x)
    (ho : ¬ InOther w.toWorld s name g x) :
    shown w s (analyze w.toWorld s m name g).vis x d = true ↔ VisibleIn w s g x d := by
  have hv := vis_iff w.toWorld s m name g hg x hx ho
  unfold shown VisibleIn
  cases attrsOf w s d with
  | none => simp
  | some a =>
    simp only [Option.some.injEq, exists_eq_left']
    cases a.named.visible with
    | none => simpa using hv
    | some b => cases b <;> simp

/-- What is collected for a context. -/
theorem collected_iff (w : EmitWorld) (s : Storage) (x m : Nat) :
    m ∈ collectVisibleDecls w.toWorld w.hasLocation (Exposer.create w s x).inliningPolicy (w.found x) ↔
      FoundIn w s x m := by
  unfold FoundIn
  have key : ∀ f, foundDecl w.toWorld w.hasLocation (Exposer.create w s x).inliningPolicy f = some m ↔
      (Exposable (InlinedInto w s x) f ∧ m = f.shadows.getD f.decl ∧
        (w.info m).kind ≠ .namespace ∧ (w.info m).kind ≠ .enum ∧ (w.info m).kind ≠ .record ∧
        (w.info m).kind ≠ .translationUnit ∧ w.hasLocation m = true) := by
    intro f
    by_cases hk : (w.info x).kind = .record
    · have hc : (Exposer.create w s x).inliningPolicy =
          some (createFromAnnotations s (w.hierarchy x) x) := by
        unfold Exposer.create
        rw [hk]
        rfl
      have hI : InlinedInto w s x =
          fun r => (createFromAnnotations s (w.hierarchy x) x).shouldInline r = true := by
        funext r
        simp [InlinedInto, hk]
      rw [hc, hI]
      exact C44_found w.toWorld w.hasLocation _ f m
    · have hc : (Exposer.create w s x).inliningPolicy = none := by
        unfold Exposer.create
        cases hkk : (w.info x).kind <;> first | rfl | exact absurd hkk hk
      rw [hc]
      by_cases hb : f.inBaseClass = true
      · rw [C44_no_policy w.toWorld w.hasLocation f hb]
        simp only [reduceCtorEq, false_iff]
        rintro ⟨⟨_, _, h3⟩, _⟩
        obtain ⟨_, _, r, _, hr⟩ := h3 hb
        exact hk hr.1
      · have he : Exposable (InlinedInto w s x) f ↔ Exposable (fun _ => False) f := by
          simp [Exposable, hb]
        rw [he]
        have h0 : foundDecl w.toWorld w.hasLocation none f =
            foundDecl w.toWorld w.hasLocation (some (createFromAnnotations s (w.hierarchy x) x)) f := by
          unfold foundDecl
          simp [hb]
        rw [h0, C44_found]
        simp [Exposable, hb]
  unfold collectVisibleDecls
  rw [List.mem_filterMap]
  constructor
  · rintro ⟨f, hf, h⟩
    exact ⟨f, hf, (key f).1 h⟩
  · rintro ⟨f, hf, h⟩
    exact ⟨f, hf, (key f).2 h⟩

/-- What is proposed to the exposer of a context, operators found by argument dependent
lookup aside. -/
theorem proposed_iff (w : EmitWorld) (ok : LookupOK w) (s : Storage) (x d : Nat)
    (hd : (w.info x).kind = .record → overloadsOperator (w.info d) = false) :
    d ∈ proposedDecls w (Exposer.create w s x) x ↔
      ∃ m, FoundIn w s x m ∧ d ∈ specializationsOf w m := by
  unfold proposedDecls
  rw [mem_expand]
  simp only [List.mem_append, mem_sortDecls, collected_iff]
  constructor
  · rintro ⟨m, hm | hm, h⟩
    · exact ⟨m, hm, h⟩
    · exfalso
      split at hm
      · rename_i hk
        unfold collectOperators at hm
        obtain ⟨h1, _⟩ := List.mem_filter.1 hm
        obtain ⟨y, hy, hym⟩ := (mem_expand ..).1 h1
        have hdm := (mem_specializations_self w ok.specialized y m d hym).1 h
        subst hdm
        have := ok.operators x y hy d hym
        rw [hd hk] at this
        cases this
      · cases hm
  · rintro ⟨m, hm, h⟩
    exact ⟨m, .inl hm, h⟩

/-- The statements executed for the contexts. -/
theorem executed_iff {α : Type} (w : EmitWorld) (s : Storage) (vis : Visibilities) (order : List Nat)
    (place : Nat → List Str) (F : Stmt → Option α) (hF : ∀ v l, F (.manual v l) = none)
    (object : List Str) (v : α) :
    (∃ e ∈ executionsOf w s vis order place, e.object = object ∧ F e.stmt = some v) ↔
      ∃ x ∈ contextsOf w order, place x = object ∧
        v ∈ (exposeContext w vis s (Exposer.create w s x) x).emitted.stmts.filterMap F := by
  unfold executionsOf
  constructor
  · rintro ⟨e, he, ho, hv⟩
    rcases List.mem_append.1 he with he | he
    · obtain ⟨x, hx, he⟩ := List.mem_flatMap.1 he
      obtain ⟨st, hst, rfl⟩ := List.mem_map.1 he
      exact ⟨x, hx, ho, List.mem_filterMap.2 ⟨st, hst, hv⟩⟩
    · obtain ⟨u, _, hu⟩ := List.mem_filterMap.1 he
      obtain ⟨l, _, rfl⟩ := Option.map_eq_some_iff.1 hu
      rw [hF] at hv
      cases hv
  · rintro ⟨x, hx, ho, hv⟩
    obtain ⟨st, hst, hv⟩ := List.mem_filterMap.1 hv
    refine ⟨_, List.mem_append_left _ (List.mem_flatMap.2 ⟨x, hx, List.mem_map.2 ⟨st, hst, rfl⟩⟩), ho, hv⟩

/-- Contexts that are kept have a kind. -/
theorem kind_cases (w : World) (g : Graph) (hg : ContextGraph w g) (x : Nat) (hx : Reachable g x) :
    x = g.root ∨ (w.info x).kind = .namespace ∨ (w.info x).kind = .enum ∨ (w.info x).kind = .record := by
  by_cases h : x = g.root
  · exact .inl h
  · cases hx with
    | root => exact absurd rfl h
    | step _ _ hE => exact .inr (hg.node_kind x (hg.child _ _ hE) h)

/-- The contexts in the pruned graph. -/
theorem kept_nodes (w : World) (s : Storage) (m : Members) (name : Str) (g : Graph)
    (hg : ContextGraph w g) (x : Nat) :
    x ∈ (analyze w s m name g).pruned.nodes ↔
      Contributes w s name g x ∧ ((w.info x).kind = .namespace → HasVisible w s m (EffVisible w s g) g x) := by
  obtain ⟨hpg, hroot, hedge, hreach⟩ := C26_places w s m name g hg
  have hbr : ∀ a, Below g a g.root → a = g.root := by
    intro a ha
    generalize hr : g.root = r at ha
    cases ha with
    | self => rfl
    | step _ hE => exact absurd (hr ▸ hE) (hg.root_top _)
  have hsub : x ∈ (analyze w s m name g).pruned.nodes → Reachable g x := by
    intro h
    have := (hreach x).1 h
    clear h
    induction this with
    | root => rw [hroot]; exact .root
    | step _ _ hE ih => exact .step ih trivial ((hedge _ _).1 hE).1
  constructor
  · intro h
    rcases kind_cases w g hg x (hsub h) with rfl | hk | hk | hk
    · refine ⟨⟨.root, ?_, ?_⟩, ?_⟩
      · rintro ⟨n, hn, hb⟩
        have := hbr n hb
        subst this
        have := hn.1
        rw [hg.root_kind] at this
        cases this
      · intro a hb ht
        have := hbr a hb
        subst this
        rcases ht with h | h <;> rw [hg.root_kind] at h <;> cases h
      · intro hk
        rw [hg.root_kind] at hk
        cases hk
    · obtain ⟨h1, h2, h3, h4⟩ := (C26_namespaces w s m name g hg x hk).1 h
      exact ⟨⟨h1, h2, h3⟩, fun _ => h4⟩
    · exact ⟨(C26_types w s m name g hg x (.inl hk)).1 h, fun h' => by rw [hk] at h'; cases h'⟩
    · exact ⟨(C26_types w s m name g hg x (.inr hk)).1 h, fun h' => by rw [hk] at h'; cases h'⟩
  · rintro ⟨hc, hv⟩
    rcases kind_cases w g hg x hc.1 with rfl | hk | hk | hk
    · rw [hreach, ← hroot]
      exact .root
    · exact (C26_namespaces w s m name g hg x hk).2 ⟨hc.1, hc.2.1, hc.2.2, hv hk⟩
    · exact (C26_types w s m name g hg x (.inl hk)).2 hc
    · exact (C26_types w s m name g hg x (.inr hk)).2 hc

/-- What is written for the contexts of an object, given what is written for each context. -/
theorem contents_written {α : Type} (i : ToolInput) (wf : WellFormed i.world.toWorld i.tree)
    (name : Str) (g : Graph) (b : Building) (order : List Nat) (place : Nat → List Str)
    (pl : Placement i name g b order place)
    (F : Stmt → Option α) (v : α) (Q : Nat → Prop)
    (hQ : ∀ x, Contributes i.world.toWorld b.storage name g x →
      (v ∈ (exposeContext i.world (analyze i.world.toWorld b.storage i.members name g).vis b.storage
        (Exposer.create i.world b.storage x) x).emitted.stmts.filterMap F ↔ Q x))
    (hsame : ∀ x y, SameNamespace i.world.toWorld x y → Reachable g x → Reachable g y → Q x → Q y)
    (object : List Str) :
    (∃ x ∈ contextsOf i.world order, place x = object ∧
        v ∈ (exposeContext i.world (analyze i.world.toWorld b.storage i.members name g).vis b.storage
          (Exposer.create i.world b.storage x) x).emitted.stmts.filterMap F) ↔
      ∃ x, Fills i.world.toWorld b.storage i.members name g place x object ∧ Q x := by
  obtain ⟨h, hv, hpl⟩ := pl
  have hcg := C23_graphs i.world.toWorld i.tree wf g b h
  have hk := kept_nodes i.world.toWorld b.storage i.members name g hcg
  have heg := C29_graphs i.world.toWorld b.storage i.members name g hcg
  unfold Fills
  constructor
  · rintro ⟨x, hx, hp, hv'⟩
    have hxo : x ∈ order := (List.mem_filter.1 hx).1
    obtain ⟨h1, h2⟩ := (hk x).1 (hv.perm.mem_iff.1 hxo)
    exact ⟨x, ⟨h1, h2, hp⟩, (hQ x h1).1 hv'⟩
  · rintro ⟨x, ⟨h1, h2, hp⟩, hq⟩
    have hxn := (hk x).2 ⟨h1, h2⟩
    have hxo := hv.perm.mem_iff.2 hxn
    obtain ⟨r, hr⟩ := representative_isSome i.world order x hxo
    obtain ⟨hs, hro⟩ := representative_same i.world order x r hr
    have hrn := hv.perm.mem_iff.1 hro
    have hrr : representative i.world order r = some r := by
      rw [← representative_congr i.world order x r hs, hr]
    have hpr : place r = place x := by
      by_cases hrx : r = x
      · rw [hrx]
      · exact refers_unique _ _ _ heg order (.again hr hrx (hpl r hrn)) (hpl x hxn)
    have hrc := (hk r).1 hrn
    refine ⟨r, List.mem_filter.2 ⟨hro, by simp [hrr]⟩, hpr.trans hp, (hQ r hrc.1).2 ?_⟩
    rcases sameContext_cases i.world x r hs with rfl | hn
    · exact hq
    · exact hsame x r hn h1.1 hrc.1.1 hq

/-- What is executed for an object, given what is written for each context. -/
theorem contents_iff {α : Type} (i : ToolInput) (wf : WellFormed i.world.toWorld i.tree)
    (name : Str) (g : Graph) (b : Building) (order : List Nat) (place : Nat → List Str)
    (pl : Placement i name g b order place)
    (F : Stmt → Option α) (hF : ∀ v l, F (.manual v l) = none) (v : α) (Q : Nat → Prop)
    (hQ : ∀ x, Contributes i.world.toWorld b.storage name g x →
      (v ∈ (exposeContext i.world (analyze i.world.toWorld b.storage i.members name g).vis b.storage
        (Exposer.create i.world b.storage x) x).emitted.stmts.filterMap F ↔ Q x))
    (hsame : ∀ x y, SameNamespace i.world.toWorld x y → Reachable g x → Reachable g y → Q x → Q y)
    (object : List Str) :
    Has (executed i name g b order place) object F v ↔
      ∃ x, Fills i.world.toWorld b.storage i.members name g place x object ∧ Q x := by
  unfold Has executed
  rw [executed_iff _ _ _ _ _ F hF]
  exact contents_written i wf name g b order place pl F v Q hQ hsame object

/-- The functions written by an exposer. -/
theorem functions_mem (w : EmitWorld) (s : Storage) (hd : Derived w s) (vis : Visibilities)
    (e : Exposer) (he : ∀ x, e ≠ .enum x) (x d : Nat) (isStatic : Bool) (name : Str) (p : FnPtr) :
    (d, isStatic, name, p) ∈ (exposeContext w vis s e x).emitted.stmts.filterMap functionOf ↔
      d ∈ proposedDecls w e x ∧ shown w s vis x d = true ∧ isPlainFunction (w.info d) = true ∧
        (w.fn d).isDeleted = false ∧ isAccessor w s d = false ∧
        (∀ r q, e = .record r q → isOperator (w.info d) = false) ∧
        isStatic = ((w.info d).kind.isMethod && (w.fn d).isStatic) ∧ name = pythonName w s d ∧
        p = emitFunctionPointer w d := by
  rw [C56_functions w s hd vis e he x]
  simp only [List.mem_map, List.mem_filter, Prod.mk.injEq]
  cases e with
  | enum y => exact absurd rfl (he y)
  | _ =>
    simp only [Bool.and_eq_true, Bool.not_eq_true', Bool.true_and, Bool.false_and, reduceCtorEq,
      false_implies, implies_true, and_true, true_and, Exposer.record.injEq]
    constructor
    · rintro ⟨d', ⟨⟨h1, h2⟩, h3⟩, rfl, rfl, rfl, rfl⟩
      simp_all
    · rintro ⟨h1, h2, h3, h4, h5, h6⟩
      refine ⟨d, ?_⟩
      simp_all

/-- The functions written for one context. -/
theorem functions_of_context (w : EmitWorld) (ok : EmitOK w) (lk : LookupOK w) (s : Storage)
    (hd : Derived w s) (vis : Visibilities) (x : Nat) (d : Nat) (isStatic : Bool) (name : Str) (p : FnPtr) :
    (d, isStatic, name, p) ∈
        (exposeContext w vis s (Exposer.create w s x) x).emitted.stmts.filterMap functionOf ↔
      (w.info x).kind ≠ .enum ∧ (∃ m, FoundIn w s x m ∧ d ∈ specializationsOf w m) ∧
        shown w s vis x d = true ∧ FunctionIn w s x d ∧
        isStatic = ((w.info d).kind.isMethod && (w.fn d).isStatic) ∧ name = pythonName w s d ∧
        p = emitFunctionPointer w d := by
  have hc : ∀ y, Exposer.create w s x = .enum y → y ∉ proposedDecls w (Exposer.create w s x) x := by
    intro y hx hm
    obtain ⟨rfl, hk⟩ := (create_kind w s x).1 y hx
    have := proposed_kind w ok _ _ _ hm
    rw [hk] at this
    cases this
  by_cases hk : (w.info x).kind = .enum
  · have hce : Exposer.create w s x = .enum x := by
      unfold Exposer.create
      rw [hk]
    rw [hce] at hc ⊢
    simp only [hk, ne_eq, not_true_eq_false, false_and, iff_false]
    rw [selected w vis s (.enum x) x functionOf (fun _ => none) hc]
    · simp
    · intro m
      unfold finalStmts finalizeEnum
      dsimp only
      split
      · split <;> rfl
      · rfl
    · intro d a _ _
      unfold declStmts handleDeclEnum
      dsimp only
      split <;> rfl
  · have he : ∀ y, Exposer.create w s x ≠ .enum y := fun y hy => hk ((create_kind w s x).1 y hy).2
    have hr : (w.info x).kind = .record ↔ ∃ r q, Exposer.create w s x = .record r q := by
      unfold Exposer.create
      cases (w.info x).kind <;> simp
    rw [functions_mem w s hd vis _ he]
    have hpi := proposed_iff w lk s x d
    constructor
    · rintro ⟨h1, h2, h3, h4, h5, h6, h7⟩
      have h6' : (w.info x).kind = .record → isOperator (w.info d) = false := by
        intro h
        obtain ⟨r, q, h⟩ := hr.1 h
        exact h6 r q h
      refine ⟨hk, (hpi fun h => ?_).1 h1, h2, ⟨h3, h4, h5, h6'⟩, h7⟩
      simp [overloadsOperator, h6' h]
    · rintro ⟨_, h1, h2, ⟨h3, h4, h5, h6⟩, h7⟩
      refine ⟨(hpi fun h => ?_).2 h1, h2, h3, h4, h5, fun r q h => h6 (hr.2 ⟨r, q, h⟩), h7⟩
      simp [overloadsOperator, h6 h]

/-- Offers of a namespace are those of all its declarations. -/
theorem same_offers (i : ToolInput) (ok : InputOK i) (lk : LookupOK i.world)
    (re : Reopening i.world.toWorld) (hu : NoBareReopening i.world.toWorld i.tree) (g : Graph) (b : Building)
    (h : buildGraph i.world.toWorld i.tree = (some g, b)) (x y : Nat)
    (hxy : SameNamespace i.world.toWorld x y) (hx : Reachable g x) (hy : Reachable g y) (d : Nat)
    (hd : Offers i.world b.storage g x d) : Offers i.world b.storage g y d := by
  have hI : InlinedInto i.world b.storage x = InlinedInto i.world b.storage y := by
    funext r
    unfold InlinedInto
    rw [hxy.1, hxy.2.1]
    simp
  obtain ⟨⟨m, hm, hdm⟩, a, ha, hv⟩ := hd
  refine ⟨⟨m, ?_, hdm⟩, a, ha, ?_⟩
  · unfold FoundIn at hm ⊢
    rw [← hI, ← lk.same x y hxy]
    exact hm
  · rcases hv with hv | ⟨hn, hv⟩
    · exact .inl hv
    · exact .inr ⟨hn, same_visible i.world i.tree ok.unit re hu g b h x hv hx y hy hxy⟩

/-- C71: the functions of the objects of the module: exactly the visible ones that are found in
one of their contexts. -/
theorem C71_functions (i : ToolInput) (ok : InputOK i) (lk : LookupOK i.world)
    (re : Reopening i.world.toWorld) (hu : NoBareReopening i.world.toWorld i.tree)
    (name : Str) (g : Graph) (b : Building) (order : List Nat) (place : Nat → List Str)
    (pl : Placement i name g b order place)
    (object : List Str) (d : Nat) (isStatic : Bool) (python : Str) (p : FnPtr) :
    Has (executed i name g b order place) object functionOf (d, isStatic, python, p) ↔
      (∃ x, Fills i.world.toWorld b.storage i.members name g place x object ∧
        (i.world.info x).kind ≠ .enum ∧ Offers i.world b.storage g x d ∧
        FunctionIn i.world b.storage x d) ∧
      isStatic = ((i.world.info d).kind.isMethod && (i.world.fn d).isStatic) ∧
      python = pythonName i.world b.storage d ∧ p = emitFunctionPointer i.world d := by
  have hcg := C23_graphs i.world.toWorld i.tree ok.unit g b pl.graph
  have hder := derived_built i.world i.tree ok.unit g b pl.graph
  rw [contents_iff i ok.unit name g b order place pl functionOf (fun _ _ => rfl) _
    (fun x => ((i.world.info x).kind ≠ .enum ∧ Offers i.world b.storage g x d ∧
        FunctionIn i.world b.storage x d) ∧
      isStatic = ((i.world.info d).kind.isMethod && (i.world.fn d).isStatic) ∧
      python = pythonName i.world b.storage d ∧ p = emitFunctionPointer i.world d)]
  · constructor
    · rintro ⟨x, hf, h1, h2⟩
      exact ⟨⟨x, hf, h1⟩, h2⟩
    · rintro ⟨⟨x, hf, h1⟩, h2⟩
      exact ⟨x, hf, h1, h2⟩
  · intro x hx
    rw [functions_of_context i.world ok.emit lk b.storage hder, shown_iff i.world b.storage i.members name g hcg
      x d hx.1 hx.2.1]
    unfold Offers
    constructor
    · rintro ⟨h1, h2, h3, h4, h5⟩
      exact ⟨⟨h1, ⟨h2, h3⟩, h4⟩, h5⟩
    · rintro ⟨⟨h1, ⟨h2, h3⟩, h4⟩, h5⟩
      exact ⟨h1, h2, h3, h4, h5⟩
  · rintro x y hxy hx hy ⟨⟨h1, h2, h3, h4, h5, h6⟩, h7⟩
    refine ⟨⟨?_, same_offers i ok lk re hu g b pl.graph x y hxy hx hy d h2, h3, h4, h5, ?_⟩, h7⟩
    · rw [hxy.2.1]; decide
    · rw [hxy.2.1]; intro h; cases h

/-- What is executed for an object, given which of the declarations that are offered result in
it. -/
theorem offered_contents {α : Type} (i : ToolInput) (ok : InputOK i) (lk : LookupOK i.world)
    (re : Reopening i.world.toWorld) (hu : NoBareReopening i.world.toWorld i.tree)
    (name : Str) (g : Graph) (b : Building) (order : List Nat) (place : Nat → List Str)
    (pl : Placement i name g b order place) (F : Stmt → Option α) (hF : ∀ v l, F (.manual v l) = none)
    (v : α) (d : Nat) (P : Nat → Prop)
    (hctx : ∀ x, v ∈ (exposeContext i.world (analyze i.world.toWorld b.storage i.members name g).vis b.storage
        (Exposer.create i.world b.storage x) x).emitted.stmts.filterMap F ↔
          d ∈ proposedDecls i.world (Exposer.create i.world b.storage x) x ∧
          shown i.world b.storage (analyze i.world.toWorld b.storage i.members name g).vis x d = true ∧ P x)
    (hop : ∀ x, P x → (i.world.info x).kind = .record → overloadsOperator (i.world.info d) = false)
    (hP : ∀ x y, SameNamespace i.world.toWorld x y → P x → P y) (object : List Str) :
    Has (executed i name g b order place) object F v ↔
      ∃ x, Fills i.world.toWorld b.storage i.members name g place x object ∧
        Offers i.world b.storage g x d ∧ P x := by
  have hcg := C23_graphs i.world.toWorld i.tree ok.unit g b pl.graph
  rw [contents_iff i ok.unit name g b order place pl F hF _
    (fun x => Offers i.world b.storage g x d ∧ P x)]
  · intro x hx
    have hpi := proposed_iff i.world lk b.storage x d
    rw [hctx x, shown_iff i.world b.storage i.members name g hcg x d hx.1 hx.2.1]
    unfold Offers
    constructor
    · rintro ⟨h1, h2, h3⟩
      exact ⟨⟨(hpi (hop x h3)).1 h1, h2⟩, h3⟩
    · rintro ⟨⟨h1, h2⟩, h3⟩
      exact ⟨(hpi (hop x h3)).2 h1, h2, h3⟩
  · rintro x y hxy hx hy ⟨h1, h2⟩
    exact ⟨same_offers i ok lk re hu g b pl.graph x y hxy hx hy d h1, hP x y hxy h2⟩

/-- Enums are not among the declarations considered for them. -/
theorem enum_not_proposed (w : EmitWorld) (ok : EmitOK w) (s : Storage) (x : Nat) :
    ∀ y, Exposer.create w s x = .enum y → y ∉ proposedDecls w (Exposer.create w s x) x := by
  intro y hx hm
  obtain ⟨rfl, hk⟩ := (create_kind w s x).1 y hx
  have := proposed_kind w ok _ _ _ hm
  rw [hk] at this
  cases this

/-- Statements that are only written for classes. -/
theorem only_classes {α : Type} (w : EmitWorld) (ok : EmitOK w) (s : Storage) (vis : Visibilities)
    (F : Stmt → Option α) (h1 : ∀ d a b c e, F (.enumValue d a b c e) = none) (h2 : F .exportValues = none)
    (h3 : F .useContext = none) (h4 : ∀ a d, (handleDeclGeneric w a d).stmts.filterMap F = [])
    (x : Nat) (hk : (w.info x).kind ≠ .record) :
    (exposeContext w vis s (Exposer.create w s x) x).emitted.stmts.filterMap F = [] := by
  rw [selected w vis s _ x F (fun _ => none) (enum_not_proposed w ok s x)]
  · simp
  · intro m
    cases he : Exposer.create w s x with
    | record y p => exact absurd ((create_kind w s x).2 y p he).2 hk
    | enum y =>
      unfold finalStmts finalizeEnum
      dsimp only
      split
      · split <;> simp [h2, Emitted.none]
      · rfl
    | _ => simp [finalStmts, h3]
  · intro d a _ _
    cases he : Exposer.create w s x with
    | record y p => exact absurd ((create_kind w s x).2 y p he).2 hk
    | enum y =>
      unfold declStmts handleDeclEnum
      dsimp only
      split <;> simp [h1, Emitted.none]
    | _ => simpa [declStmts] using h4 a d

/-- C71: the constructors of the classes of the module. -/
theorem C71_constructors (i : ToolInput) (ok : InputOK i) (lk : LookupOK i.world)
    (re : Reopening i.world.toWorld) (hu : NoBareReopening i.world.toWorld i.tree)
    (name : Str) (g : Graph) (b : Building) (order : List Nat) (place : Nat → List Str)
    (pl : Placement i name g b order place) (object : List Str) (d : Nat) (types : List Str) :
    Has (executed i name g b order place) object initOf (d, types) ↔
      (∃ x, Fills i.world.toWorld b.storage i.members name g place x object ∧
        (i.world.info x).kind = .record ∧ Offers i.world b.storage g x d ∧ callable i.world x d = true) ∧
      types = (i.world.fn d).params.map (·.originalType) := by
  have hder := derived_built i.world i.tree ok.unit g b pl.graph
  rw [offered_contents i ok lk re hu name g b order place pl initOf (fun _ _ => rfl) _ d
    (fun x => (i.world.info x).kind = .record ∧ callable i.world x d = true ∧
      types = (i.world.fn d).params.map (·.originalType))]
  · constructor
    · rintro ⟨x, h1, h2, h3, h4, h5⟩
      exact ⟨⟨x, h1, h3, h2, h4⟩, h5⟩
    · rintro ⟨⟨x, h1, h3, h2, h4⟩, h5⟩
      exact ⟨x, h1, h2, h3, h4, h5⟩
  · intro x
    by_cases hk : (i.world.info x).kind = .record
    · have hc : Exposer.create i.world b.storage x =
          .record x (createFromAnnotations b.storage (i.world.hierarchy x) x) := by
        unfold Exposer.create
        rw [hk]
      rw [hc, C41_constructors i.world ok.emit b.storage hder]
      simp only [List.mem_map, List.mem_filter, Prod.mk.injEq]
      constructor
      · rintro ⟨y, ⟨⟨h1, h2⟩, h3⟩, rfl, rfl⟩
        exact ⟨h1, h2, hk, h3, rfl⟩
      · rintro ⟨h1, h2, _, h3, rfl⟩
        exact ⟨d, ⟨⟨h1, h2⟩, h3⟩, rfl, rfl⟩
    · rw [only_classes i.world ok.emit b.storage _ initOf (fun _ _ _ _ _ => rfl) rfl rfl ?_ x hk]
      · simp [hk]
      · intro a d
        unfold handleDeclGeneric
        repeat' (first | rfl | split | (dsimp only; split))
  · rintro x ⟨_, h, _⟩ _
    unfold callable at h
    simp only [Bool.and_eq_true, decide_eq_true_eq] at h
    simp [overloadsOperator, h.1.1.1]
  · rintro x y hxy ⟨h, _⟩
    rw [hxy.1] at h
    cases h

theorem dataMember_shape {w : EmitWorld} {s : Storage} (hd : Derived w s) {d : Nat}
    {v : FieldOrVarDeclAttrs} (h : DataMember w s d v) :
    (w.info d).kind = .field ∨ (w.info d).kind = .var := by
  obtain ⟨a, ha, hv, _⟩ := h
  exact (attrsOf_shape w s hd d a ha).fieldOrVar.1 (by rw [hv]; rfl)

/-- C71: the data members of the classes of the module. -/
theorem C71_members (i : ToolInput) (ok : InputOK i) (lk : LookupOK i.world)
    (re : Reopening i.world.toWorld) (hu : NoBareReopening i.world.toWorld i.tree)
    (name : Str) (g : Graph) (b : Building) (order : List Nat) (place : Nat → List Str)
    (pl : Placement i name g b order place) (object : List Str) (d : Nat)
    (isReadonly isStatic : Bool) (python cpp : Str) :
    Has (executed i name g b order place) object fieldOf (d, isReadonly, isStatic, python, cpp) ↔
      (∃ x, Fills i.world.toWorld b.storage i.members name g place x object ∧
        (i.world.info x).kind = .record ∧ Offers i.world b.storage g x d) ∧
      ∃ v, DataMember i.world b.storage d v ∧
        isReadonly = (i.world.isConstType d || v.readonly) ∧
        isStatic = decide ((i.world.info d).kind = .var) ∧
        python = pythonName i.world b.storage d ∧ cpp = i.world.qualifiedName d := by
  have hder := derived_built i.world i.tree ok.unit g b pl.graph
  rw [offered_contents i ok lk re hu name g b order place pl fieldOf (fun _ _ => rfl) _ d
    (fun x => (i.world.info x).kind = .record ∧ ∃ v, DataMember i.world b.storage d v ∧
        isReadonly = (i.world.isConstType d || v.readonly) ∧
        isStatic = decide ((i.world.info d).kind = .var) ∧
        python = pythonName i.world b.storage d ∧ cpp = i.world.qualifiedName d)]
  · constructor
    · rintro ⟨x, h1, h2, h3, h4⟩
      exact ⟨⟨x, h1, h3, h2⟩, h4⟩
    · rintro ⟨⟨x, h1, h3, h2⟩, h4⟩
      exact ⟨x, h1, h2, h3, h4⟩
  · intro x
    by_cases hk : (i.world.info x).kind = .record
    · have hc : Exposer.create i.world b.storage x =
          .record x (createFromAnnotations b.storage (i.world.hierarchy x) x) := by
        unfold Exposer.create
        rw [hk]
      rw [hc, C57_members i.world b.storage hder]
      simp only [List.mem_filterMap, List.mem_filter]
      constructor
      · rintro ⟨y, ⟨h1, h2⟩, h3⟩
        cases ha : attrsOf i.world b.storage y with
        | none => rw [ha] at h3; cases h3
        | some a =>
          rw [ha] at h3
          simp only [Option.bind_some] at h3
          cases hv : a.fieldOrVar with
          | none => rw [hv] at h3; cases h3
          | some v =>
            rw [hv] at h3
            dsimp only at h3
            split at h3
            · rename_i hm
              simp only [Option.some.injEq, Prod.mk.injEq] at h3
              obtain ⟨rfl, rfl, rfl, rfl, rfl⟩ := h3
              exact ⟨h1, h2, hk, v, ⟨a, ha, hv, hm⟩, rfl, rfl, rfl, rfl⟩
            · cases h3
      · rintro ⟨h1, h2, _, v, ⟨a, ha, hv, hm⟩, rfl, rfl, rfl, rfl⟩
        refine ⟨d, ⟨h1, h2⟩, ?_⟩
        rw [ha]
        simp [hv, hm]
    · rw [only_classes i.world ok.emit b.storage _ fieldOf (fun _ _ _ _ _ => rfl) rfl rfl ?_ x hk]
      · simp [hk]
      · intro a d
        unfold handleDeclGeneric
        repeat' (first | rfl | split | (dsimp only; split))
  · rintro x ⟨_, v, h, _⟩ _
    rcases dataMember_shape hder h with h | h <;> simp [overloadsOperator, h, DeclKind.isFunction]
  · rintro x y hxy ⟨h, _⟩
    rw [hxy.1] at h
    cases h

/-- C71: the attributes of the objects of the module: annotated aliases, and the variables of
namespaces. -/
theorem C71_attributes (i : ToolInput) (ok : InputOK i) (lk : LookupOK i.world)
    (re : Reopening i.world.toWorld) (hu : NoBareReopening i.world.toWorld i.tree)
    (name : Str) (g : Graph) (b : Building) (order : List Nat) (place : Nat → List Str)
    (pl : Placement i name g b order place) (object : List Str) (d : Nat) (python cpp : Str) :
    Has (executed i name g b order place) object attributeOf (d, python, cpp) ↔
      (∃ x, Fills i.world.toWorld b.storage i.members name g place x object ∧
        (i.world.info x).kind ≠ .enum ∧ Offers i.world b.storage g x d ∧
        (AliasFor i.world b.storage d cpp ∨
          (i.world.info x).kind ≠ .record ∧ (i.world.info d).kind = .var ∧ cpp = i.world.qualifiedName d ∧
            ∃ v, DataMember i.world b.storage d v)) ∧
      python = pythonName i.world b.storage d := by
  have hder := derived_built i.world i.tree ok.unit g b pl.graph
  rw [offered_contents i ok lk re hu name g b order place pl attributeOf (fun _ _ => rfl) _ d
    (fun x => ((i.world.info x).kind ≠ .enum ∧
        (AliasFor i.world b.storage d cpp ∨
          (i.world.info x).kind ≠ .record ∧ (i.world.info d).kind = .var ∧ cpp = i.world.qualifiedName d ∧
            ∃ v, DataMember i.world b.storage d v)) ∧
      python = pythonName i.world b.storage d)]
  · constructor
    · rintro ⟨x, h1, h2, ⟨h3, h4⟩, h5⟩
      exact ⟨⟨x, h1, h3, h2, h4⟩, h5⟩
    · rintro ⟨⟨x, h1, h3, h2, h4⟩, h5⟩
      exact ⟨x, h1, h2, ⟨h3, h4⟩, h5⟩
  · intro x
    by_cases hk : (i.world.info x).kind = .record
    · have hc : Exposer.create i.world b.storage x =
          .record x (createFromAnnotations b.storage (i.world.hierarchy x) x) := by
        unfold Exposer.create
        rw [hk]
      rw [hc, C58_class_attributes i.world b.storage hder]
      simp only [List.mem_filterMap, List.mem_filter]
      constructor
      · rintro ⟨y, ⟨h1, h2⟩, h3⟩
        cases ha : attrsOf i.world b.storage y with
        | none => rw [ha] at h3; cases h3
        | some a =>
          rw [ha] at h3
          dsimp only at h3
          cases ht : a.typedefName with
          | none => rw [ht] at h3; cases h3
          | some t =>
            rw [ht] at h3
            dsimp only at h3
            split at h3
            · cases h3
            · rename_i hn
              obtain ⟨u, hu', he⟩ := Option.map_eq_some_iff.1 h3
              simp only [Prod.mk.injEq] at he
              obtain ⟨rfl, rfl, rfl⟩ := he
              simp only [not_or, Bool.not_eq_true] at hn
              exact ⟨h1, h2, ⟨by rw [hk]; decide, .inl ⟨a, t, ha, ht, hn.1, hn.2, hu'⟩⟩, rfl⟩
      · rintro ⟨h1, h2, ⟨_, ⟨a, t, ha, ht, hn, he, hg⟩ | ⟨h, _⟩⟩, rfl⟩
        · refine ⟨d, ⟨h1, h2⟩, ?_⟩
          rw [ha]
          simp [ht, hn, he, hg]
        · exact absurd hk h
    · by_cases hk' : (i.world.info x).kind = .enum
      · have hc : Exposer.create i.world b.storage x = .enum x := by
          unfold Exposer.create
          rw [hk']
        have hnp := enum_not_proposed i.world ok.emit b.storage x
        rw [hc] at hnp ⊢
        rw [selected i.world _ b.storage _ x attributeOf (fun _ => none) hnp]
        · simp [hk']
        · intro m
          unfold finalStmts finalizeEnum
          dsimp only
          split
          · split <;> rfl
          · rfl
        · intro d a _ _
          unfold declStmts handleDeclEnum
          dsimp only
          split <;> rfl
      · rw [C58_attributes i.world b.storage hder _ _ (fun y hy => hk' ((create_kind _ _ x).1 y hy).2)
          (fun y p hy => hk ((create_kind _ _ x).2 y p hy).2)]
        simp only [List.mem_filterMap, List.mem_filter]
        constructor
        · rintro ⟨y, ⟨h1, h2⟩, h3⟩
          cases ha : attrsOf i.world b.storage y with
          | none => rw [ha] at h3; cases h3
          | some a =>
            rw [ha] at h3
            dsimp only at h3
            cases ht : a.typedefName with
            | none =>
              rw [ht] at h3
              cases hv : a.fieldOrVar with
              | none => rw [hv] at h3; cases h3
              | some v =>
                rw [hv] at h3
                dsimp only at h3
                split at h3
                · rename_i hm
                  simp only [Option.some.injEq, Prod.mk.injEq] at h3
                  obtain ⟨rfl, rfl, rfl⟩ := h3
                  exact ⟨h1, h2, ⟨hk', .inr ⟨hk, hm.2, rfl, v, a, ha, hv, hm.1⟩⟩, rfl⟩
                · cases h3
            | some t =>
              rw [ht] at h3
              dsimp only at h3
              split at h3
              · cases h3
              · rename_i hn
                obtain ⟨u, hu', he⟩ := Option.map_eq_some_iff.1 h3
                simp only [Prod.mk.injEq] at he
                obtain ⟨rfl, rfl, rfl⟩ := he
                simp only [not_or, Bool.not_eq_true] at hn
                exact ⟨h1, h2, ⟨hk', .inl ⟨a, t, ha, ht, hn.1, hn.2, hu'⟩⟩, rfl⟩
        · rintro ⟨h1, h2, ⟨_, ⟨a, t, ha, ht, hn, he, hg⟩ | ⟨_, hkd, rfl, v, a, ha, hv, hm⟩⟩, rfl⟩
          · refine ⟨d, ⟨h1, h2⟩, ?_⟩
            rw [ha]
            simp [ht, hn, he, hg]
          · have ht : a.typedefName = none := by
              cases ht : a.typedefName with
              | none => rfl
              | some t =>
                have := (attrsOf_shape _ _ hder d a ha).typedefName.1 (by rw [ht]; rfl)
                rw [hkd] at this
                cases this
            refine ⟨d, ⟨h1, h2⟩, ?_⟩
            rw [ha]
            simp [ht, hv, hm, hkd]
  · rintro x ⟨⟨_, ⟨a, t, ha, ht, _⟩ | ⟨_, hk, _⟩⟩, _⟩ _
    · have := (attrsOf_shape _ _ hder d a ha).typedefName.1 (by rw [ht]; rfl)
      simp [overloadsOperator, this, DeclKind.isFunction]
    · simp [overloadsOperator, hk, DeclKind.isFunction]
  · rintro x y hxy ⟨⟨_, h⟩, h'⟩
    refine ⟨⟨by rw [hxy.2.1]; decide, ?_⟩, h'⟩
    rcases h with h | ⟨_, h⟩
    · exact .inl h
    · exact .inr ⟨by rw [hxy.2.1]; decide, h⟩

/-- C71: the enumerators of the enums of the module. -/
theorem C71_enumerators (i : ToolInput) (ok : InputOK i) (lk : LookupOK i.world)
    (re : Reopening i.world.toWorld) (hu : NoBareReopening i.world.toWorld i.tree)
    (name : Str) (g : Graph) (b : Building) (order : List Nat) (place : Nat → List Str)
    (pl : Placement i name g b order place) (object : List Str) (d : Nat) (python cpp : Str) :
    Has (executed i name g b order place) object enumeratorOf (d, python, cpp) ↔
      (∃ x, Fills i.world.toWorld b.storage i.members name g place x object ∧
        (i.world.info x).kind = .enum ∧ Offers i.world b.storage g x d ∧
        cpp = i.world.typeName x ++ t%"::" ++ (i.world.info d).name) ∧
      (i.world.info d).kind = .enumConstant ∧ python = pythonName i.world b.storage d := by
  rw [offered_contents i ok lk re hu name g b order place pl enumeratorOf (fun _ _ => rfl) _ d
    (fun x => ((i.world.info x).kind = .enum ∧
        cpp = i.world.typeName x ++ t%"::" ++ (i.world.info d).name) ∧
      (i.world.info d).kind = .enumConstant ∧ python = pythonName i.world b.storage d)]
  · constructor
    · rintro ⟨x, h1, h2, ⟨h3, h4⟩, h5⟩
      exact ⟨⟨x, h1, h3, h2, h4⟩, h5⟩
    · rintro ⟨⟨x, h1, h3, h2, h4⟩, h5⟩
      exact ⟨x, h1, h2, ⟨h3, h4⟩, h5⟩
  · intro x
    have hnp := enum_not_proposed i.world ok.emit b.storage x
    have hgen : ∀ a d, (handleDeclGeneric i.world a d).stmts.filterMap enumeratorOf = [] := by
      intro a d
      unfold handleDeclGeneric
      repeat' (first | rfl | split | (dsimp only; split))
    by_cases hk : (i.world.info x).kind = .enum
    · have hc : Exposer.create i.world b.storage x = .enum x := by
        unfold Exposer.create
        rw [hk]
      rw [hc] at hnp ⊢
      rw [selected i.world _ b.storage _ x enumeratorOf (fun d =>
        if (i.world.info d).kind = .enumConstant then
          some (d, pythonName i.world b.storage d, i.world.typeName x ++ t%"::" ++ (i.world.info d).name)
        else none) hnp]
      · simp only [List.mem_filterMap, List.mem_filter]
        constructor
        · rintro ⟨y, ⟨h1, h2⟩, h3⟩
          split at h3
          · rename_i hy
            simp only [Option.some.injEq, Prod.mk.injEq] at h3
            obtain ⟨rfl, rfl, rfl⟩ := h3
            exact ⟨h1, h2, ⟨hk, rfl⟩, hy, rfl⟩
          · cases h3
        · rintro ⟨h1, h2, ⟨_, rfl⟩, hy, rfl⟩
          exact ⟨d, ⟨h1, h2⟩, by simp [hy]⟩
      · intro m
        unfold finalStmts finalizeEnum
        dsimp only
        split
        · split <;> rfl
        · rfl
      · intro d a ha _
        unfold declStmts handleDeclEnum
        dsimp only
        by_cases hy : (i.world.info d).kind = .enumConstant
        · have hn := pythonName_eq i.world b.storage d a ha
          rw [if_neg (by rw [hy]; simp [DeclKind.isFunction])] at hn
          simp [hy, enumeratorOf, hn]
        · simp [hy, Emitted.none]
    · rw [selected i.world _ b.storage _ x enumeratorOf (fun _ => none) hnp]
      · simp [hk]
      · intro m
        cases he : Exposer.create i.world b.storage x with
        | record y p => exact properties_select enumeratorOf (fun _ _ _ => rfl) i.world m
        | enum y => exact absurd ((create_kind _ _ x).1 y he).2 hk
        | _ => rfl
      · intro d a _ _
        cases he : Exposer.create i.world b.storage x with
        | record y p =>
          simp only [declStmts]
          unfold handleDeclRecord
          repeat' (first | rfl | exact hgen _ _ | split | (dsimp only; split))
        | enum y => exact absurd ((create_kind _ _ x).1 y he).2 hk
        | _ => simpa [declStmts] using hgen a d
  · rintro x ⟨_, h, _⟩ _
    simp [overloadsOperator, h, DeclKind.isFunction]
  · rintro x y hxy ⟨⟨h, _⟩, _⟩
    rw [hxy.1] at h
    cases h

/-- The statements that define operators are those of the operators of classes. -/
def operatorDecl (st : Stmt) : Option Nat := (operatorOf st).map (·.1)

/-- C71: the operators of the classes of the module: members, and free functions that have an
operand of the class. -/
theorem C71_operators (i : ToolInput) (ok : InputOK i)
    (oo : ∀ r, (i.world.info r).kind = .record → OperatorsOK i.world r)
    (name : Str) (g : Graph) (b : Building) (order : List Nat) (place : Nat → List Str)
    (pl : Placement i name g b order place) (object : List Str) (d : Nat) :
    Has (executed i name g b order place) object operatorDecl d ↔
      ∃ x, Fills i.world.toWorld b.storage i.members name g place x object ∧
        (i.world.info x).kind = .record ∧
        ((∃ m, FoundIn i.world b.storage x m ∧ d ∈ specializationsOf i.world m) ∨
          isFreeOperator i.world x d) ∧
        VisibleIn i.world b.storage g x d ∧ definesOperator i.world x d = true := by
  have hcg := C23_graphs i.world.toWorld i.tree ok.unit g b pl.graph
  have hder := derived_built i.world i.tree ok.unit g b pl.graph
  rw [contents_iff i ok.unit name g b order place pl operatorDecl (fun _ _ => rfl) _
    (fun x => (i.world.info x).kind = .record ∧
        ((∃ m, FoundIn i.world b.storage x m ∧ d ∈ specializationsOf i.world m) ∨
          isFreeOperator i.world x d) ∧
        VisibleIn i.world b.storage g x d ∧ definesOperator i.world x d = true)]
  · intro x hx
    by_cases hk : (i.world.info x).kind = .record
    · have hc : Exposer.create i.world b.storage x =
          .record x (createFromAnnotations b.storage (i.world.hierarchy x) x) := by
        unfold Exposer.create
        rw [hk]
      have hcol := collected_iff i.world b.storage x
      rw [hc] at hcol ⊢
      have hmem : (∃ m, FoundIn i.world b.storage x m ∧ d ∈ specializationsOf i.world m) ↔
          isMember i.world (createFromAnnotations b.storage (i.world.hierarchy x) x) x d := by
        unfold isMember
        constructor
        · rintro ⟨m, hm, hd⟩
          obtain ⟨f, hf, he⟩ := List.mem_filterMap.1 ((hcol m).2 hm)
          exact ⟨f, hf, m, he, hd⟩
        · rintro ⟨f, hf, m, he, hd⟩
          exact ⟨m, (hcol m).1 (List.mem_filterMap.2 ⟨f, hf, he⟩), hd⟩
      rw [hmem, ← shown_iff i.world b.storage i.members name g hcg x d hx.1 hx.2.1]
      have h59 := C59_operators i.world b.storage hder (analyze i.world.toWorld b.storage i.members name g).vis
        x hk (oo x hk) (createFromAnnotations b.storage (i.world.hierarchy x) x) d
      constructor
      · intro h
        obtain ⟨st, hst, he⟩ := List.mem_filterMap.1 h
        obtain ⟨⟨d', n, l⟩, hv, rfl⟩ := Option.map_eq_some_iff.1 he
        exact ⟨hk, h59.1 ⟨n, l, List.mem_filterMap.2 ⟨st, hst, hv⟩⟩⟩
      · rintro ⟨_, h⟩
        obtain ⟨n, l, h⟩ := h59.2 h
        obtain ⟨st, hst, he⟩ := List.mem_filterMap.1 h
        exact List.mem_filterMap.2 ⟨st, hst, by simp [operatorDecl, he]⟩
    · rw [only_classes i.world ok.emit b.storage _ operatorDecl (fun _ _ _ _ _ => rfl) rfl rfl ?_ x hk]
      · simp [hk]
      · intro a d
        unfold handleDeclGeneric
        repeat' (first | rfl | split | (dsimp only; split))
  · rintro x y hxy _ _ ⟨h, _⟩
    rw [hxy.1] at h
    cases h

/-- A declaration that is visible keeps the namespace it is found in, if it is stored with its
annotations. -/
theorem keeps_namespace (i : ToolInput) (g : Graph) (b : Building) (x d : Nat)
    (hk : (i.world.info x).kind = .namespace) (hf : FoundIn i.world b.storage x d)
    (hi : i.isImplicit d = false)
    (hs : (b.storage.entries d).isSome = true ∨ ∀ a, ownAttrs i.world.toWorld d = some a → a.named.visible = none)
    (hv : VisibleIn i.world b.storage g x d) :
    HasVisible i.world.toWorld b.storage i.members (EffVisible i.world.toWorld b.storage g) g x := by
  have hc : (Exposer.create i.world b.storage x).inliningPolicy = none := by
    unfold Exposer.create
    rw [hk]
    rfl
  have hm := (collected_iff i.world b.storage x d).2 hf
  rw [hc] at hm
  refine .member ⟨d, hm, hi, ?_⟩
  obtain ⟨a, ha, hv⟩ := hv
  unfold attrsOf at ha
  unfold explicit
  cases he : b.storage.entries d with
  | some a' =>
    rw [he] at ha
    cases ha
    exact hv
  | none =>
    rw [he] at ha hs
    have := (hs.resolve_left (by simp)) a ha
    rw [this] at hv
    exact .inr ⟨rfl, (hv.resolve_left (by simp)).2⟩

/-- The annotations of functions in the translation unit are stored. -/
theorem stored_visibility (w : EmitWorld) (root : Tree) (wf : WellFormed w.toWorld root) (g : Graph)
    (b : Building) (h : buildGraph w.toWorld root = (some g, b)) (t : Tree) (ht : Occurs w.toWorld root t)
    (hk : (w.info t.id).kind.isFunction = true) (hdep : w.dependentContext t.id = false) :
    (b.storage.entries t.id).isSome = true ∨
      ∀ a, ownAttrs w.toWorld t.id = some a → a.named.visible = none := by
  have htg : (w.info t.id).kind ≠ .enum ∧ (w.info t.id).kind ≠ .record ∧
      (w.info t.id).kind ≠ .translationUnit ∧ (w.info t.id).kind ≠ .linkageSpec := by
    refine ⟨?_, ?_, ?_, ?_⟩ <;> (intro e; rw [e] at hk; cases hk)
  have ht' : ∀ a, (w.info a).aliasTarget = some t.id → False := by
    intro a ha
    rcases wf.target_tag a _ ha with h | h
    · exact htg.1 h
    · exact htg.2.1 h
  rw [C53_others w.toWorld root wf g b h t.id (fun ⟨a, ha⟩ => ht' a ha.2.2.2.1)
    (fun ⟨a, ha⟩ => ht' a ha.2.2.2.1)]
  obtain ⟨h1, h2⟩ := C20_attributes w.toWorld root wf.distinct t ht
  by_cases ha : Annotated w.toWorld t.id
  · rw [h1 ha]
    cases hown : ownAttrs w.toWorld t.id with
    | some a => exact .inl rfl
    | none => exact .inr fun a h => by cases h
  · refine .inr fun a hown => ?_
    have hs : shouldSkip (w.info t.id) = false := by
      rw [ownAttrs_eq] at hown
      split at hown
      · assumption
      · cases hown
    have hno : ∀ x ∈ (w.info t.id).attrTexts, ¬ marker <+: x := by
      intro x hx hm
      refine ha ⟨htg.2.2.1, htg.2.2.2, ⟨x, hx, hm⟩, hdep, ?_⟩
      rintro (h | h)
      · exact absurd h htg.1
      · exact absurd h htg.2.1
    rw [(own_unannotated w t.id hs hno).2] at hown
    cases hown
    rfl

/-- C71: every function that is declared in a context of the module and visible there becomes
part of the object of the context.  Partial: specializations of function templates can be
missing, see `C71_template_lost`. -/
theorem C71_complete_partial (i : ToolInput) (ok : InputOK i) (lk : LookupOK i.world)
    (re : Reopening i.world.toWorld) (hu : NoBareReopening i.world.toWorld i.tree)
    (name : Str) (g : Graph) (b : Building) (order : List Nat) (place : Nat → List Str)
    (pl : Placement i name g b order place) (x : Nat) (t : Tree) (ht : Occurs i.world.toWorld i.tree t)
    (hx : Contributes i.world.toWorld b.storage name g x) (hk : (i.world.info x).kind ≠ .enum)
    (hf : FoundIn i.world b.storage x t.id) (hs : i.world.specializations t.id = none)
    (hi : i.isImplicit t.id = false) (hdep : i.world.dependentContext t.id = false)
    (hv : VisibleIn i.world b.storage g x t.id) (hfn : FunctionIn i.world b.storage x t.id) :
    Has (executed i name g b order place) (place x) functionOf
      (t.id, (i.world.info t.id).kind.isMethod && (i.world.fn t.id).isStatic,
        pythonName i.world b.storage t.id, emitFunctionPointer i.world t.id) := by
  refine (C71_functions i ok lk re hu name g b order place pl _ _ _ _ _).2
    ⟨⟨x, ⟨hx, fun hn => ?_, rfl⟩, hk, ⟨⟨t.id, hf, ?_⟩, hv⟩, hfn⟩, rfl, rfl, rfl⟩
  · refine keeps_namespace i g b x t.id hn hf hi ?_ hv
    refine stored_visibility i.world i.tree ok.unit g b pl.graph t ht ?_ hdep
    have := hfn.1
    unfold isPlainFunction at this
    simp only [Bool.or_eq_true, decide_eq_true_eq] at this
    rcases this with (h | h) | h <;> rw [h] <;> rfl
  · simp [specializationsOf, hs]

/-- C71: if the tool succeeds and the module can be imported, its objects have the functions
they are supposed to have; what has been executed determines the other contents in the same
way. -/
theorem C71_run (o : ToolOptions) (i : ToolInput) (ok : InputOK i) (lk : LookupOK i.world)
    (re : Reopening i.world.toWorld) (hu : NoBareReopening i.world.toWorld i.tree) (files : Files)
    (r : ToolResult) (hr : runTool o i files = some r) (hx : o.expectFailure = false) (h0 : r.exitCode = 0)
    (hnd : o.outputFiles.Nodup) :
    ∃ name g b order place, moduleNameFor o.moduleName i.mainFile = some name ∧
      Placement i name g b order place ∧
      ∃ lines : List (List Line), lines.length = o.outputFiles.length ∧
        (∀ (k : Nat) path ls, o.outputFiles[k]? = some path → lines[k]? = some ls →
          (path ≠ ['-'] → r.files path = some (fileText i ls)) ∧
          (path = ['-'] → r.printed = [fileText i ls])) ∧
        ∀ st, importModule lines = .ok st →
          st.executed = executed i name g b order place ∧
          ∀ object d isStatic python p,
            Has st.executed object functionOf (d, isStatic, python, p) ↔
              (∃ x, Fills i.world.toWorld b.storage i.members name g place x object ∧
                (i.world.info x).kind ≠ .enum ∧ Offers i.world b.storage g x d ∧
                FunctionIn i.world b.storage x d) ∧
              isStatic = ((i.world.info d).kind.isMethod && (i.world.fn d).isStatic) ∧
              python = pythonName i.world b.storage d ∧ p = emitFunctionPointer i.world d := by
  obtain ⟨name, g, b, order, place, hn, hg, hv, hp, lines, hl, hf, _, hst⟩ :=
    C69_module o i ok files r hr hx h0 hnd
  have pl : Placement i name g b order place := ⟨hg, hv, hp⟩
  refine ⟨name, g, b, order, place, hn, pl, lines, hl, hf, fun st h => ?_⟩
  obtain ⟨he, _⟩ := hst st h
  refine ⟨he, fun object d isStatic python p => ?_⟩
  rw [he]
  exact C71_functions i ok lk re hu name g b order place pl object d isStatic python p

/-! ### Examples -/

theorem exInput_lookup : LookupOK exInput.world where
  same := by
    have key : ∀ x, (exUnit.info x).kind = .namespace → x = 4 := by
      intro x
      simp only [exUnit]
      split <;> simp
    intro x y h
    rw [key x h.1, key y h.2.1]
  operators := by simp [exInput, exUnit]
  specialized := by simp [exInput, exUnit]

/-- The method `f` of the class `S` is offered and results in a function. -/
example : ∃ g b, buildGraph exInput.world.toWorld exInput.tree = (some g, b) ∧
    (∃ m, FoundIn exInput.world b.storage 1 m ∧ 2 ∈ specializationsOf exInput.world m) ∧
    VisibleIn exInput.world b.storage g 1 2 ∧ FunctionIn exInput.world b.storage 1 2 := by
  have hs : ((buildGraph exInput.world.toWorld exInput.tree).1).isSome = true := by decide +kernel
  obtain ⟨g, hg⟩ := Option.isSome_iff_exists.1 hs
  have hb : buildGraph exInput.world.toWorld exInput.tree =
      (some g, (buildGraph exInput.world.toWorld exInput.tree).2) := by rw [← hg]
  have he1 : explicit (buildGraph exInput.world.toWorld exInput.tree).2.storage 1 = some true := by
    decide +kernel
  have hE : ((buildGraph exInput.world.toWorld exInput.tree).1.map fun g => (g.children g.root, g.root)) =
      some ([1, 4], 0) := by decide +kernel
  rw [hg] at hE
  simp only [Option.map_some, Option.some.injEq, Prod.mk.injEq] at hE
  refine ⟨g, _, hb, ⟨2, ?_, by simp [specializationsOf, exInput, exUnit]⟩, ?_, ?_⟩
  · exact ⟨_, List.mem_map.2 ⟨2, by simp, rfl⟩, ⟨rfl, by simp, by simp⟩, rfl, by decide, by decide, by decide,
      by decide, rfl⟩
  · have hat : (attrsOf exInput.world (buildGraph exInput.world.toWorld exInput.tree).2.storage 2).map
        (·.named.visible) = some none := by decide +kernel
    obtain ⟨a, ha, hv⟩ := Option.map_eq_some_iff.1 hat
    refine ⟨a, ha, .inr ⟨hv, .explicit (.step .root trivial ?_) ?_ he1⟩⟩
    · show 1 ∈ g.children g.root
      rw [hE.1]; simp
    · rw [hE.2]; decide
  · exact ⟨by decide +kernel, by decide +kernel, by decide +kernel, fun _ => by decide +kernel⟩

/-- Rewrites a run to a form that can be evaluated. -/
local macro "eval_run" : tactic => `(tactic| (
  simp only [handleTranslationUnit, emitModule, findEnclosingScopes, analyze, pruneGraph, hideNamespaces,
    declContextsWithVisibleNamedDecls, deriveEffectiveVisibility, dfs_fuel]
  decide +kernel))

/-- `namespace n { template <typename T> GENPYBIND(visible) void f(); }`, where the template 2
has been instantiated as 3. -/
def exTemplate : EmitWorld := { exUnit with
  info := fun
    | 0 => { kind := .translationUnit }
    | 1 => { kind := .namespace, name := t%"n" }
    | 3 => { kind := .function, name := t%"f", attrTexts := [lozenge ++ t%"visible"] }
    | _ => { kind := .other }
  ancestors := fun | 0 => [] | 2 => [1, 0] | 3 => [1, 0] | _ => [0]
  access := fun _ => .none
  fn := fun _ => exPlain t%"::n::f<int>" 0
  specializations := fun | 2 => some [3] | _ => none
  found := fun | 1 => [⟨2, none, false, .none, false, false, none, none⟩] | _ => [] }

def exTemplateInput : ToolInput where
  mainFile := t%"/src/my-lib.h"
  world := exTemplate
  tree := .node 0 [.node 1 [.node 2 [.node 3 []]]]
  pick := fun _ => lastSmallest exTemplate.loc
  iterate := fun g => g.nodes

set_option maxRecDepth 4000 in
/-- C71: the specialization is annotated as visible, is found in its namespace and would become
a function, but the namespace is dropped, as the template itself has no annotations.  There is
no diagnostic. -/
theorem C71_template_lost :
    ((attrsOf exTemplate (buildGraph exTemplate.toWorld exTemplateInput.tree).2.storage 3).map
      (·.named.visible)) = some (some true) ∧
    FoundIn exTemplate (buildGraph exTemplate.toWorld exTemplateInput.tree).2.storage 1 2 ∧
    3 ∈ specializationsOf exTemplate 2 ∧
    FunctionIn exTemplate (buildGraph exTemplate.toWorld exTemplateInput.tree).2.storage 1 3 ∧
    (handleTranslationUnit exTemplateInput t%"my_lib" [t%"/a"]).diags = [] ∧
    (handleTranslationUnit exTemplateInput t%"my_lib" [t%"/a"]).outputs =
      [(t%"/a", t%"#include \"/src/my-lib.h\"
#include <genpybind/binding-helpers.h>
#include <pybind11/pybind11.h>

void expose_context(::pybind11::module& context);

PYBIND11_MODULE(my_lib, root) {
auto context = root;

expose_context(context);
}

void expose_context(::pybind11::module& context) {
(void)context;
}

")] := by
  refine ⟨by decide +kernel, ⟨_, List.mem_singleton.2 rfl, ⟨rfl, by simp, by simp⟩, rfl, by decide, by decide,
    by decide, by decide, rfl⟩, by simp [specializationsOf, exTemplate], ⟨by decide +kernel, by decide +kernel,
    by decide +kernel, fun _ => by decide +kernel⟩, ?_, ?_⟩ <;> eval_run

/-- `namespace n {} namespace n GENPYBIND(visible) { void f(); GENPYBIND(visible) void g(); }` -/
def exFirst (g : List Str) : EmitWorld := { exUnit with
  info := fun
    | 0 => { kind := .translationUnit }
    | 1 => { kind := .namespace, name := t%"n" }
    | 2 => { kind := .namespace, name := t%"n", attrTexts := [lozenge ++ t%"visible"] }
    | 3 => { kind := .function, name := t%"f" }
    | 4 => { kind := .function, name := t%"g", attrTexts := g }
    | _ => { kind := .other }
  ancestors := fun | 0 => [] | 3 => [2, 0] | 4 => [2, 0] | _ => [0]
  canonical := fun | 2 => 1 | x => x
  access := fun _ => .none
  fn := fun | 3 => exPlain t%"::n::f" 0 | _ => exPlain t%"::n::g" 0
  found := fun
    | 1 | 2 => [⟨3, none, false, .none, false, false, none, none⟩, ⟨4, none, false, .none, false, false, none, none⟩]
    | _ => [] }

def exFirstInput (g : List Str) : ToolInput where
  mainFile := t%"/src/my-lib.h"
  world := exFirst g
  tree := .node 0 [.node 1 [], .node 2 [.node 3 [], .node 4 []]]
  pick := fun _ => lastSmallest (exFirst g).loc
  iterate := fun g => g.nodes

/-- The functions that are exposed for the example. -/
def exFirstFunctions (g : List Str) : List (List Nat) :=
  let b := buildGraph (exFirst g).toWorld (exFirstInput g).tree
  match b.1 with
  | none => []
  | some graph =>
    let a := analyze (exFirst g).toWorld b.2.storage (exFirstInput g).members t%"my_lib" graph
    let m := emitModule (exFirst g) b.2.storage a.pruned a.vis (exFirstInput g).pick a.pruned.nodes 1 t%"my_lib"
    [(m.stream 0).filterMap fun
      | .stmt s => (functionOf s).map (·.1)
      | _ => none]

/-- C71 needs that annotated namespaces are not opened without annotations: `f` is not exposed
although its namespace is visible, as the first declaration is not annotated; if `g` is not
annotated, the first declaration is dropped and both functions are exposed. -/
theorem C71_bare_first :
    exFirstFunctions [lozenge ++ t%"visible"] = [[4]] ∧ exFirstFunctions [] = [[3, 4]] := by
  constructor <;> (unfold exFirstFunctions; eval_run)

end Verif
