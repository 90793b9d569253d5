import Verif.Spec.Usable
import Verif.Props.Members
/-!
# Lemmas about what the generated code refers to
-/
namespace Verif
open Spec

/-- What lies around the scope of a declaration. -/
theorem ancestors_suffix (w : World) (root : Tree) (wf : WellFormed w root) (x p : Nat)
    (pre post : List Nat) (h : w.ancestors x = pre ++ p :: post) : w.ancestors p = post := by
  induction pre generalizing x with
  | nil => exact wf.nested x p post h
  | cons q pre ih => exact ih q (wf.nested x q _ h)

/-- The attributes of a type that no alias refers to. -/
theorem own_explicit (w : World) (root : Tree) (wf : WellFormed w root) (g : Graph) (b : Building)
    (h : buildGraph w root = (some g, b)) (t : Tree) (ht : Occurs w root t)
    (h1 : ¬ ∃ e, ExposesHere w root e t.id) (h2 : ¬ ∃ e, Encourages w root e t.id)
    (he : explicit b.storage t.id = some true) :
    ∃ a, ownAttrs w t.id = some a ∧ a.named.visible = some true := by
  unfold explicit at he
  rw [C53_others w root wf g b h t.id h1 h2] at he
  obtain ⟨h3, h4⟩ := C20_attributes w root wf.distinct t ht
  by_cases ha : Annotated w t.id
  · rw [h3 ha] at he
    cases ho : ownAttrs w t.id with
    | none => rw [ho] at he; cases he
    | some a => rw [ho] at he; exact ⟨a, rfl, he⟩
  · rw [h4 ha] at he; cases he

/-- Contexts that are reached through visible types can be named. -/
theorem nameable_context (w : EmitWorld) (root : Tree) (wf : WellFormed w.toWorld root) (nm : NamingOK w)
    (src : NameableTypes w.toWorld root) (g : Graph) (b : Building)
    (h : buildGraph w.toWorld root = (some g, b)) (x : Nat) (hr : Reachable g x)
    (hv : ∀ a, Below g a x → IsType w.toWorld a → EffVisible w.toWorld b.storage g a) :
    Nameable w.toWorld x ∧ Qualifies w.toWorld x := by
  have hb := built w.toWorld root wf g b h
  have hcg := C23_graphs w.toWorld root wf g b h
  have halias : ∀ a y, (w.info a).kind = .typedefName → Annotated w.toWorld a →
      (∃ o t, ownAttrs w.toWorld a = some o ∧ o.typedefName = some t) →
      (w.info a).aliasTarget = some y → Nameable w.toWorld y ∧ Qualifies w.toWorld y := by
    rintro a y hk ha ⟨o, _, ho, _⟩ hy
    refine ⟨src.aliases a o hk ho (.inr ha) y hy, ?_⟩
    rcases wf.target_tag a y hy with h | h
    · exact .inr (.inr (.inr (.inl h)))
    · exact .inr (.inr (.inr (.inr h)))
  induction hr with
  | root =>
    have hk := hcg.root_kind
    have := (wf.unit_kind g.root).1 hk
    refine ⟨⟨nm.scopes _ (.inl hk), ?_⟩, .inl hk⟩
    rw [this, wf.top]
    intro y hy
    cases hy
  | @step p x hp _ hE ih =>
    have ihp := ih fun a ha => hv a (.step ha hE)
    rcases (built_edge_iff hb p x).1 hE with ⟨a, ha, _⟩ | ⟨h1, ⟨t, ht, rfl⟩, hc, hpx⟩
    · obtain ⟨_, ha1, ha2, ha3, o, q, ho, hq, _⟩ := ha
      exact halias a x ha2 ha1 ⟨o, q, ho, hq⟩ ha3
    · have hu := context_not_unit w.toWorld root wf t.id hc
      obtain ⟨pre, post, hanc, _, hpre⟩ := (scopeOf_find w.toWorld root wf t.id p hu).2 hpx.symm
      have hpost := ancestors_suffix w.toWorld root wf t.id p pre post hanc
      have hq := src.locals t ht hc
      have hx : Open w.toWorld t.id := by
        rcases hc with hk | ⟨hk, _⟩
        · exact nm.scopes _ (.inr (.inl hk))
        · have hty : IsType w.toWorld t.id := hk
          cases hv t.id .self hty with
          | explicit _ _ he =>
            by_cases h2 : ∃ e, Encourages w.toWorld root e t.id
            · obtain ⟨a, _, ha1, ha2, ha3, o, q, ho, hq, _⟩ := h2
              exact (halias a _ ha2 ha1 ⟨o, q, ho, hq⟩ ha3).1.1
            · obtain ⟨a, ha, hav⟩ := own_explicit w.toWorld root wf g b h t ht h1 h2 he
              exact src.types t.id a hty ha hav
          | inherited _ _ _ h3 h4 =>
            unfold Open
            cases hacc : w.access t.id with
            | «public» => exact .inl rfl
            | none => exact .inr rfl
            | «private» => exact absurd hacc h3
            | «protected» => exact absurd hacc h4
      refine ⟨⟨hx, ?_⟩, ?_⟩
      · intro y hy
        refine ⟨?_, hq y hy⟩
        rw [hanc, List.mem_append, List.mem_cons] at hy
        rcases hy with hy | rfl | hy
        · rcases hq y (by rw [hanc]; simp [hy]) with h | h | h | h | h
          · exact nm.scopes y (.inl h)
          · exact nm.scopes y (.inr (.inl h))
          · exact nm.scopes y (.inr (.inr h))
          · exact absurd h (hpre y hy).2.1
          · exact absurd h (hpre y hy).2.2.1
        · exact ihp.1.1
        · rw [← hpost] at hy
          exact (ihp.1.2 y hy).1
      · rcases hc with hk | ⟨hk | hk, _⟩
        · exact .inr (.inl hk)
        · exact .inr (.inr (.inr (.inl hk)))
        · exact .inr (.inr (.inr (.inr hk)))

/-- Members of a context that can be named can be named. -/
theorem nameable_member (w : EmitWorld) (nm : NamingOK w) (s : Storage) (src : NameableMembers w s)
    (x m d : Nat) (hx : Nameable w.toWorld x ∧ Qualifies w.toWorld x) (hm : FoundIn w s x m)
    (hd : d ∈ specializationsOf w m) : Nameable w.toWorld d := by
  have hN : Nameable w.toWorld m := by
    obtain ⟨f, hf, ⟨_, hacc, hbase⟩, rfl, _⟩ := hm
    cases hs : f.shadows with
    | some y => exact src.usings x f hf hacc y hs
    | none =>
      show Nameable w.toWorld f.decl
      have ho : ∀ y, w.access y = f.access → Open w.toWorld y := by
        intro y hy
        unfold Open
        rw [hy]
        exact hacc
      have key : ∀ z, Nameable w.toWorld z ∧ Qualifies w.toWorld z → (∀ y ∈ w.ancestors f.decl,
          y = z ∨ y ∈ w.ancestors z ∨ ((w.info y).kind = .translationUnit ∨ (w.info y).kind = .namespace ∨
            (w.info y).kind = .linkageSpec) ∨ (w.info y).kind = .enum ∧ w.access y = f.access) →
          Nameable w.toWorld f.decl := by
        intro z hz hall
        refine ⟨ho _ (nm.members x f hf hs), fun y hy => ?_⟩
        rcases hall y hy with rfl | h | h | ⟨h, h'⟩
        · exact ⟨hz.1.1, hz.2⟩
        · exact hz.1.2 y h
        · refine ⟨nm.scopes y h, ?_⟩
          rcases h with h | h | h
          · exact .inl h
          · exact .inr (.inl h)
          · exact .inr (.inr (.inl h))
        · exact ⟨ho y h', .inr (.inr (.inr (.inl h)))⟩
      cases hb : f.inBaseClass with
      | false => exact key x hx (nm.within x f hf hs hb)
      | true =>
        obtain ⟨_, _, r, hpr, hin⟩ := hbase hb
        exact key r ⟨src.bases x r hin, .inr (.inr (.inr (.inr (nm.parent x f hf r hpr))))⟩ (nm.inherited x f hf hs hb r hpr)
  unfold specializationsOf at hd
  cases hsp : w.specializations m with
  | none =>
    rw [hsp] at hd
    simp only [Option.getD_none, List.mem_singleton] at hd
    exact hd ▸ hN
  | some l =>
    rw [hsp] at hd
    obtain ⟨h1, h2⟩ := nm.specialized m l hsp d hd
    unfold Nameable Open
    rw [h1, h2]
    exact hN

/-- What is proposed to an exposer: what the context offers, and operators that are found by
argument dependent lookup. -/
theorem proposed_cases (w : EmitWorld) (ok : LookupOK w) (nm : NamingOK w) (s : Storage) (x d : Nat)
    (h : d ∈ proposedDecls w (Exposer.create w s x) x) :
    (∃ m, FoundIn w s x m ∧ d ∈ specializationsOf w m) ∨
      (w.info x).kind = .record ∧ supportsOperator (w.info d) = true ∧ (w.info d).kind.isMethod = false := by
  unfold proposedDecls at h
  rw [mem_expand] at h
  simp only [List.mem_append, mem_sortDecls, collected_iff] at h
  obtain ⟨m, hm | hm, h⟩ := h
  · exact .inl ⟨m, hm, h⟩
  · split at hm
    · rename_i hk
      unfold collectOperators at hm
      obtain ⟨h1, _⟩ := List.mem_filter.1 hm
      obtain ⟨y, hy, hym⟩ := (mem_expand ..).1 h1
      have hdm := (mem_specializations_self w ok.specialized y m d hym).1 h
      subst hdm
      have ho := ok.operators x y hy d hym
      refine .inr ⟨hk, ?_, nm.free x y hy d hym⟩
      unfold overloadsOperator isOperator at ho
      unfold supportsOperator
      cases hop : (w.info d).operator with
      | none => rw [hop] at ho; simp at ho
      | some k => rw [hop] at ho; simp_all
    · cases hm

/-- What generic exposers write can be used. -/
theorem usable_generic (w : EmitWorld) (t : Traits) (s : Storage) (hder : Derived w s)
    (root : Tree) (st : NameableTypes w.toWorld root) (sm : NameableMembers w s) (x d : Nat) (a : DeclAttrs)
    (ha : attrsOf w s d = some a) (hN : Nameable w.toWorld d) (su : Suitable w s t d)
    (hal : ∀ o, (w.info d).kind = .typedefName → ownAttrs w.toWorld d = some o →
      a.named.visible = o.named.visible) :
    ∀ st ∈ (handleDeclGeneric w a d).stmts, Referable w t x st := by
  have hs := attrsOf_shape w s hder d a ha
  unfold handleDeclGeneric
  split
  · simp [Emitted.fail]
  · split
    · rename_i q hq
      split
      · simp [Emitted.none]
      · rename_i hvis
        split
        · simp [Emitted.none]
        · rename_i target htag
          simp only [List.mem_singleton, forall_eq]
          have hk := hs.typedefName.1 (by rw [hq]; rfl)
          obtain ⟨o, ho⟩ : ∃ o, ownAttrs w.toWorld d = some o := by
            unfold attrsOf at ha
            cases he : s.entries d with
            | some a' =>
              obtain ⟨o, _, ho, _⟩ := hder d a' he
              exact ⟨o, ho⟩
            | none => rw [he] at ha; exact ⟨a, ha⟩
          have hv : o.named.visible ≠ none := by
            rw [← hal o hk ho]
            intro e
            rw [e] at hvis
            simp at hvis
          obtain ⟨y, hy⟩ := sm.complete d o hk ho hv (by rw [htag]; simp)
          exact ⟨y, hy, st.aliases d o hk ho (.inl hv) y hy⟩
    · split
      · split
        · split
          · simp [Emitted.none]
          · simp [Referable]
        · split
          · simp [Emitted.fail]
          · simp only [List.mem_singleton, forall_eq]
            exact hN
      · have hf : ∀ c : Bool, ∀ st ∈ (if c = true then Emitted.none else match a.function with
            | some f =>
              if (w.fn d).isDeleted then Emitted.none
              else
                let fallback := if (w.info d).operator = some .call then t%"__call__" else []
                let args := emitParameters f ((w.fn d).params.map (·.param))
                { stmts := [.function d ((w.info d).kind.isMethod && (w.fn d).isStatic)
                    (emitSpelling (w.info d) a.named fallback) (emitFunctionPointer w d)
                    (getDocstring w d) args.1 (emitPolicies f)]
                  diags := args.2 }
            | none => Emitted.none).stmts, Referable w t x st := by
          intro c
          split
          · simp [Emitted.none]
          · split
            · rename_i f hf
              split
              · simp [Emitted.none]
              · rename_i hdel
                simp only [List.mem_singleton, forall_eq]
                have hk : (w.info d).kind.isFunction = true := by
                  rcases hs.function.1 (by rw [hf]; rfl) with h | h | h | h <;> rw [h] <;> rfl
                exact ⟨rfl, hN, by simpa using hdel, su.function hk⟩
            · simp [Emitted.none]
        exact hf _

/-- What the exposers of classes write can be used. -/
theorem usable_record (w : EmitWorld) (t : Traits) (s : Storage) (hder : Derived w s)
    (root : Tree) (st : NameableTypes w.toWorld root) (sm : NameableMembers w s) (x d : Nat) (a : DeclAttrs)
    (ha : attrsOf w s d = some a)
    (hN : (Nameable w.toWorld d ∧ Suitable w s t d) ∨
      supportsOperator (w.info d) = true ∧ (w.info d).kind.isMethod = false)
    (hal : ∀ o, (w.info d).kind = .typedefName → ownAttrs w.toWorld d = some o →
      a.named.visible = o.named.visible) :
    ∀ st ∈ (handleDeclRecord w x [] a d).2.stmts, Referable w t x st := by
  have hs := attrsOf_shape w s hder d a ha
  have hop : (w.info d).kind.isMethod = true → Nameable w.toWorld d := by
    intro h
    rcases hN with h' | ⟨_, h'⟩
    · exact h'.1
    · rw [h] at h'; cases h'
  intro st hst
  unfold handleDeclRecord at hst
  cases hc : a.constructor with
  | some c =>
    have hk := hs.constructor.1 (by rw [hc]; rfl)
    have hN' := hop (by rw [hk]; rfl)
    rw [hc] at hst
    dsimp only at hst
    split at hst
    · simp [Emitted.none] at hst
    · rename_i hn
      have hn' : (w.fn d).isDeleted = false ∧ w.isAbstract x = false := by
        simp only [Bool.or_eq_true, not_or, Bool.not_eq_true] at hn
        exact ⟨hn.1.2, hn.2⟩
      split at hst
      · split at hst
        · simp [Emitted.fail] at hst
        · simp only [List.mem_cons, List.not_mem_nil, or_false] at hst
          rcases hst with rfl | rfl <;> exact ⟨hN', hn'⟩
      · simp only [List.mem_singleton] at hst
        subst hst
        exact ⟨hN', hn'⟩
  | none =>
    rw [hc] at hst
    dsimp only at hst
    split at hst
    · split at hst
      · simp [Emitted.none] at hst
      · rename_i hdel
        have hdel : (w.fn d).isDeleted = false := by simpa using hdel
        split at hst
        · simp [Emitted.fail] at hst
        · split at hst
          · simp [Emitted.fail] at hst
          · dsimp only at hst
            split at hst
            · simp [Emitted.none] at hst
            · simp only [List.mem_singleton] at hst
              subst hst
              exact ⟨hdel, hop⟩
          · split at hst
            · simp [Emitted.none] at hst
            · simp only [List.mem_singleton] at hst
              subst hst
              exact ⟨hdel, hop⟩
    · rename_i hno
      obtain ⟨hN, su⟩ := hN.resolve_right (fun h => hno h.1)
      split at hst
      · simp at hst
      · split at hst
        · split at hst
          · split at hst
            · simp [Emitted.fail] at hst
            · simp only [List.mem_singleton] at hst
              subst hst
              trivial
          · simp only [List.mem_singleton] at hst
            subst hst
            exact ⟨hN, su.data⟩
        · exact usable_generic w t s hder root ‹_› sm x d a ha hN su hal _ hst

end Verif
