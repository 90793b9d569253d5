import Verif.Lemmas.Said
import Verif.Props.Success
import Verif.Spec.Reasons
/-!
# Lemmas: diagnostics reported until the graph has been built
-/
namespace Verif
open Spec

/-! ### Order -/

theorem precedes_sublist {l l' : List Nat} (h : l.Sublist l') {a b : Nat} (hp : Precedes l a b) :
    Precedes l' a b := by
  obtain ⟨pre, mid, post, rfl⟩ := hp
  rw [List.append_assoc, List.cons_append] at h
  obtain ⟨l1, l2, rfl, -, h2⟩ := List.append_sublist_iff.1 h
  obtain ⟨m1, m2, rfl, h3, h4⟩ := List.cons_sublist_iff.1 h2
  obtain ⟨n1, n2, rfl, -, h6⟩ := List.append_sublist_iff.1 h4
  obtain ⟨o1, o2, rfl, h7, -⟩ := List.cons_sublist_iff.1 h6
  obtain ⟨p1, p2, rfl⟩ := List.append_of_mem h3
  obtain ⟨q1, q2, rfl⟩ := List.append_of_mem h7
  exact ⟨l1 ++ p1, p2 ++ n1 ++ q1, q2 ++ o2, by simp⟩

theorem firstIn_find {l l' : List Nat} (h : l.Sublist l') (p : Nat → Bool) (P : Nat → Prop)
    (hP : ∀ x, P x ↔ x ∈ l ∧ p x = true) (f : Nat) (hf : l.find? p = some f) : FirstIn l' P f := by
  refine ⟨(hP f).2 ⟨List.mem_of_find?_eq_some hf, List.find?_some hf⟩, fun u hu hne => ?_⟩
  obtain ⟨hu1, hu2⟩ := (hP u).1 hu
  refine precedes_sublist h ?_
  obtain ⟨-, pre, post, rfl, hpre⟩ := List.find?_eq_some_iff_append.1 hf
  rcases List.mem_append.1 hu1 with hm | hm
  · have := hpre u hm
    rw [hu2] at this
    cases this
  · rcases List.mem_cons.1 hm with rfl | hm
    · exact absurd rfl hne
    · obtain ⟨a, b, rfl⟩ := List.append_of_mem hm
      exact ⟨pre, a, b, by simp⟩

mutual
theorem closes_ends (w : World) : ∀ t, (closes (events w t)).Sublist (ends t)
  | .node id children => by
    simp only [events, ends]
    split
    · exact List.nil_sublist _
    · simp only [List.cons_append, closes, closes_append]
      refine (closesAll_ends w children).append ?_
      split
      · simp [closes]
      · exact List.nil_sublist _
theorem closesAll_ends (w : World) : ∀ ts, (closes (eventsAll w ts)).Sublist (endsAll ts)
  | [] => by simp [eventsAll, closes, endsAll]
  | t :: ts => by
    simp only [eventsAll, endsAll, closes_append]
    exact (closes_ends w t).append (closesAll_ends w ts)
end

/-! ### The collector -/

/-- Where a diagnostic of the collector comes from, after visiting `v` and checking `k`. -/
def CollectorSaid (w : World) (v k : List Nat) (g : Diag) : Prop :=
  (∃ x ∈ v, annot w x = true ∧ g ∈ (firstInsert w.toDeclEnv x).2) ∨
  (∃ x ∈ v, isAlias w x = true ∧ g ∈ warnIfAliasHasQualifiers w x) ∨
  ∃ x ∈ k, ∃ f, k.find? (fun y => w.canonical y = w.canonical x) = some f ∧ equalFinal w x f = false ∧
    (g = ⟨x, .needToMatchFirstDecl, []⟩ ∨ g = ⟨f, .noteDeclaredAt, []⟩)

theorem collectorSaid_mono {w : World} {v k v' k' : List Nat} {g : Diag} (h : CollectorSaid w v k g) :
    CollectorSaid w (v ++ v') (k ++ k') g := by
  rcases h with ⟨x, hx, h⟩ | ⟨x, hx, h⟩ | ⟨x, hx, f, hf, h⟩
  · exact .inl ⟨x, by simp [hx], h⟩
  · exact .inr (.inl ⟨x, by simp [hx], h⟩)
  · refine .inr (.inr ⟨x, by simp [hx], f, ?_, h⟩)
    rw [List.find?_append, hf]
    rfl

theorem visitDecl_diags (w : World) (c : Collected) (id : Nat) :
    (visitDecl w c id).diags = c.diags ++
      (if annot w id then (c.storage.insert w.toDeclEnv id).2 else []) ++
      (if isAlias w id then warnIfAliasHasQualifiers w id else []) := by
  unfold visitDecl annot isAlias
  cases hk : (w.info id).kind <;>
    simp only [DeclKind.isNamed, DeclKind.isTag, visitNamedDecl, visitTypedefNameDecl, visitContext, hk,
      Bool.true_and, Bool.false_and, Bool.false_or, if_true, if_false, Bool.not_eq_true',
      reduceCtorEq, Bool.false_eq_true, Bool.or_false, Bool.or_true, decide_true, decide_false] <;>
    cases shouldSkip (w.info id) <;> cases w.dependentContext id <;>
      cases hasAnnotations (w.info id) <;> simp

theorem collector_run {w : World} (evs : List Ev) {v k : List Nat} {c : Collected}
    (h : CollInv w v k c) (hs : ∀ g ∈ c.diags, CollectorSaid w v k g) (ho : Ordered w v evs) :
    ∀ g ∈ (evs.foldl (runEv w) c).diags, CollectorSaid w (v ++ visits evs) (k ++ closes evs) g := by
  induction evs generalizing v k c with
  | nil => simpa [visits, closes] using hs
  | cons e evs ih =>
    cases e with
    | visit x =>
      have hn := ih (collInv_visit h x ho.1 ho.2.1) (fun g hg => ?_) ho.2.2
      · simpa [visits, closes, runEv] using hn
      · rw [visitDecl_diags] at hg
        rcases List.mem_append.1 hg with hg | hg
        · rcases List.mem_append.1 hg with hg | hg
          · have := collectorSaid_mono (v' := [x]) (k' := []) (hs g hg)
            simpa using this
          · split at hg
            · rename_i ha
              rw [insert_empty w _ x ha ho.2.1 (by simp [Storage.has, h.entries, ho.1])] at hg
              exact .inl ⟨x, by simp, ha, hg⟩
            · cases hg
        · split at hg
          · rename_i ha
            exact .inr (.inl ⟨x, by simp, ha, hg⟩)
          · cases hg
    | close x =>
      have hn := ih (collInv_close h x ho.1) (fun g hg => ?_) ho.2
      · simpa [visits, closes, runEv] using hn
      · have old : g ∈ c.diags → CollectorSaid w v (k ++ [x]) g := by
          intro hg
          have := collectorSaid_mono (v' := []) (k' := [x]) (hs g hg)
          simpa using this
        unfold errorIfAnnotationsDoNotMatchFirstDecl at hg
        cases hf : c.firstDecls (w.canonical x) with
        | none => rw [hf] at hg; exact old hg
        | some f =>
          rw [hf] at hg
          dsimp only at hg
          split at hg
          · exact old hg
          · rename_i hne
            rw [h.first] at hf
            have hfk : f ∈ k := List.mem_of_find?_eq_some hf
            have heq : c.storage.equal x f = equalFinal w x f := by
              refine equal_congr _ _ _ _ ?_ ?_
              · rw [h.entries, if_pos ho.1]
              · rw [h.entries, if_pos (h.closed f hfk)]
            rw [heq] at hne
            rcases List.mem_append.1 hg with hg | hg
            · exact old hg
            · refine .inr (.inr ⟨x, by simp, f, ?_, by simpa using hne, by simpa using hg⟩)
              rw [List.find?_append, hf]
              rfl

theorem collector_said (w : World) (root : Tree) (hd : (ids root).Nodup) :
    ∀ g ∈ (traverse w {} root).diags, CollectorSaid w (visited w root) (closes (events w root)) g := by
  have hn : (visited w root).Nodup := (visited_sublist w root).nodup hd
  rw [(traverse_events w root {} hn (fun _ _ => rfl)).1]
  have h0 : CollInv w [] [] {} := by
    refine ⟨fun x => ?_, fun n => ?_, ?_, rfl, rfl, by simp⟩
    · simp [Storage.empty]
    · simp
    · simp [hasErrors]
  have := collector_run (events w root) h0 (by simp) (ordered_events w root [] (by simpa using hn))
  rwa [visits_events, List.nil_append, List.nil_append] at this

theorem opens_iff (w : World) (root : Tree) (n x : Nat) :
    Opens w root n x ↔ x ∈ closes (events w root) ∧ (fun y => decide (w.canonical y = n)) x = true := by
  simp only [decide_eq_true_eq]
  constructor
  · rintro ⟨hk, hc, t, ht, rfl, hr⟩
    exact ⟨closes_of_occurs w root t ht hk hr, hc⟩
  · rintro ⟨hx, hc⟩
    obtain ⟨t, ht, rfl, hk, hr⟩ := closes_sub w root x hx
    exact ⟨hk, hc, t, ht, rfl, hr⟩

theorem saysSame_iff (w : World) (root : Tree) (s t : Tree) (hs : Occurs w root s) (ht : Occurs w root t) :
    entryOf w s.id = entryOf w t.id ↔ SaysSame w s.id t.id := by
  have key : ∀ t, Occurs w root t → (Annotated w t.id → entryOf w t.id = ownAttrs w t.id ∧
      entryOf w t.id ≠ none) ∧ (¬ Annotated w t.id → entryOf w t.id = none) := by
    intro t ht
    have hv := visited_not_skip w root t.id (occurs_visited w root t ht)
    refine ⟨fun ha => ?_, fun ha => ?_⟩
    · have h := entryOf_own w t.id ((annot_iff ..).2 ha) hv
      refine ⟨h.1.symm, ?_⟩
      rw [h.2]
      simp
    · unfold entryOf
      rw [if_neg (by rw [annot_iff]; exact ha)]
  obtain ⟨hs1, hs2⟩ := key s hs
  obtain ⟨ht1, ht2⟩ := key t ht
  unfold SaysSame
  by_cases h1 : Annotated w s.id <;> by_cases h2 : Annotated w t.id
  · rw [(hs1 h1).1, (ht1 h2).1]; simp [h1, h2]
  · rw [ht2 h2]; simp [h1, h2, (hs1 h1).2]
  · rw [hs2 h1]
    simp only [h1, h2, iff_true, false_implies, and_true, iff_false]
    exact fun h => (ht1 h2).2 h.symm
  · rw [hs2 h1, ht2 h2]; simp [h1, h2]

theorem collector_reason (w : World) (root : Tree) (hd : (ids root).Nodup) (g : Diag)
    (hg : g ∈ (traverse w {} root).diags) : SourceReason w root g := by
  rcases collector_said w root hd g hg with ⟨x, hx, ha, h⟩ | ⟨x, hx, ha, h⟩ | ⟨x, hx, f, hf, he, h⟩
  · obtain ⟨t, ht, rfl⟩ := (mem_visited ..).1 hx
    exact .own t g ht ((annot_iff ..).1 ha) (insert_said w.toDeclEnv t.id g h)
  · obtain ⟨t, ht, rfl⟩ := (mem_visited ..).1 hx
    unfold warnIfAliasHasQualifiers at h
    split at h
    · rename_i hq
      rw [List.mem_singleton] at h
      subst h
      obtain ⟨-, han, hk⟩ := (mem_aliases (root := root) ..).1 (List.mem_filter.2 ⟨hx, ha⟩)
      exact .qualifiers t ht han hk hq
    · cases h
  · have hox := (opens_iff w root (w.canonical x) x).2 ⟨hx, by simp⟩
    have hof : FirstIn (ends root) (Opens w root (w.canonical x)) f :=
      firstIn_find (closes_ends w root) _ _ (opens_iff w root (w.canonical x)) f hf
    have hno : ¬ SaysSame w x f := by
      obtain ⟨kx, -, t, ht, rfl, -⟩ := hox
      obtain ⟨kf, -, u, hu, rfl, -⟩ := hof.1
      rw [← saysSame_iff w root t u ht hu, ← equalFinal_namespace w _ _ kx kf]
      simp [he]
    rcases h with rfl | rfl
    · exact .differs x f hof hox hno
    · exact .first x f hof hox hno

/-! ### The builder -/

/-- Where a diagnostic about the aliases `as` comes from. -/
def AliasSaid (w : World) (as : List Nat) (g : Diag) : Prop :=
  (∃ a ∈ as, ∃ x, (w.info a).aliasTarget = some x ∧
    ((aliasAttrs w a).encourage = true ∨ (aliasAttrs w a).exposeHere = true) ∧
    g ∈ (firstInsert w.toDeclEnv x).2) ∨
  ∃ a ∈ as, ∃ x f, (w.info a).aliasTarget = some x ∧ (aliasAttrs w a).exposeHere = true ∧
    relocatedBy w as x = some f ∧ a ≠ f ∧ (g = ⟨a, .alreadyExposedElsewhere, [(w.info x).name]⟩ ∨
      g = ⟨f, .previouslyExposedHere, [(w.info x).name]⟩)

theorem aliasSaid_snoc {w : World} {as : List Nat} {g : Diag} (h : AliasSaid w as g) (a : Nat) :
    AliasSaid w (as ++ [a]) g := by
  rcases h with ⟨b, hb, h⟩ | ⟨b, hb, x, f, h1, h2, hr, h⟩
  · exact .inl ⟨b, by simp [hb], h⟩
  · refine .inr ⟨b, by simp [hb], x, f, h1, h2, ?_, h⟩
    rw [relocated_snoc w as a x b hb h1 h2, hr]

theorem processAlias_said {w : World} {c : Collected} {as : List Nat} {b : Building}
    (h : BuildInv w c as b) (a : Nat) (ha : c.storage.entries a = entryOf w a) (hna : a ∉ as)
    (htag : ∀ a x, (w.info a).aliasTarget = some x → (w.info x).kind.isTag = true)
    (hkind : (w.info a).kind.isTag = false)
    (hcomplete : ∀ x, (w.info a).aliasTarget = some x → shouldSkip (w.info x) = false)
    (htgt : (w.info a).aliasTarget ≠ none) :
    ∀ g ∈ (processAlias w b a).diags, g ∈ b.diags ∨ AliasSaid w (as ++ [a]) g := by
  have hent : b.storage.entries a = entryOf w a := by
    rw [h.entries, if_neg, ha]
    intro ht
    simp only [touched, List.any_eq_true, Bool.and_eq_true, decide_eq_true_eq] at ht
    obtain ⟨a', _, h1, _⟩ := ht
    rw [htag _ _ h1] at hkind
    exact absurd hkind (by simp)
  have hattrs : ((b.storage.entries a).bind (·.typedefName)).getD {} = aliasAttrs w a := by
    rw [hent]; rfl
  obtain ⟨x, hx⟩ := Option.ne_none_iff_exists'.1 htgt
  intro g hg
  unfold processAlias at hg
  simp only [hattrs, hx] at hg
  by_cases h0 : (aliasAttrs w a).encourage = true ∨ (aliasAttrs w a).exposeHere = true
  · have hgd : (!(aliasAttrs w a).encourage && !(aliasAttrs w a).exposeHere) = false := by
      revert h0; cases (aliasAttrs w a).encourage <;> cases (aliasAttrs w a).exposeHere <;> simp
    rw [hgd] at hg
    simp only [Bool.false_eq_true, if_false] at hg
    have hins : g ∈ b.diags ++ (b.storage.insert w.toDeclEnv x).2 →
        g ∈ b.diags ∨ AliasSaid w (as ++ [a]) g := by
      intro hg
      rcases List.mem_append.1 hg with hg | hg
      · exact .inl hg
      · right
        refine .inl ⟨a, by simp, x, hx, h0, ?_⟩
        cases hh : b.storage.has x with
        | true =>
          unfold Storage.insert at hg
          rw [if_neg (by simp [hcomplete x hx]), if_pos hh] at hg
          cases hg
        | false => rwa [insert_eq _ _ _ (hcomplete x hx) hh] at hg
    cases hex : (aliasAttrs w a).exposeHere with
    | false =>
      rw [hex] at hg
      simp only [Bool.false_eq_true, if_false] at hg
      apply hins
      cases he : (aliasAttrs w a).encourage <;> (rw [he] at hg; simpa using hg)
    | true =>
      rw [hex] at hg
      simp only [if_true] at hg
      unfold addEdgeForExposeHereAlias at hg
      cases hr : b.relocated x with
      | none =>
        apply hins
        cases he : (aliasAttrs w a).encourage <;>
          (rw [he] at hg; simpa [hr, propagate_eq] using hg)
      | some f =>
        have hg' : g ∈ (b.diags ++ (b.storage.insert w.toDeclEnv x).2) ++
            [⟨a, .alreadyExposedElsewhere, [(w.info x).name]⟩,
             ⟨f, .previouslyExposedHere, [(w.info x).name]⟩] := by
          cases he : (aliasAttrs w a).encourage <;> (rw [he] at hg; simpa [hr] using hg)
        rcases List.mem_append.1 hg' with hg' | hg'
        · exact hins hg'
        · right
          rw [h.relocated] at hr
          have hfm : f ∈ as := by
            unfold relocatedBy at hr
            exact List.mem_of_find?_eq_some hr
          refine .inr ⟨a, by simp, x, f, hx, hex, ?_, fun e => hna (e ▸ hfm), by simpa using hg'⟩
          unfold relocatedBy at hr ⊢
          rw [find?_snoc, hr]
          rfl
  · have hgd : (!(aliasAttrs w a).encourage && !(aliasAttrs w a).exposeHere) = true := by
      revert h0; cases (aliasAttrs w a).encourage <;> cases (aliasAttrs w a).exposeHere <;> simp
    rw [if_pos hgd] at hg
    exact .inl hg

theorem aliases_said {w : World} {c : Collected} (l : List Nat) {as : List Nat} {b : Building}
    (h : BuildInv w c as b) (hn : (as ++ l).Nodup)
    (hb : ∀ g ∈ b.diags, g ∈ c.diags ∨ AliasSaid w as g)
    (ha : ∀ a ∈ l, c.storage.entries a = entryOf w a)
    (htag : ∀ a x, (w.info a).aliasTarget = some x → (w.info x).kind.isTag = true)
    (hkind : ∀ a ∈ l, (w.info a).kind.isTag = false)
    (hcomplete : ∀ a ∈ l, ∀ x, (w.info a).aliasTarget = some x → shouldSkip (w.info x) = false)
    (htgt : ∀ a ∈ l, (w.info a).aliasTarget ≠ none)
    (hbase : ∀ x e, c.storage.entries x = some e → e = base w x) :
    ∀ g ∈ (l.foldl (processAlias w) b).diags, g ∈ c.diags ∨ AliasSaid w (as ++ l) g := by
  induction l generalizing as b with
  | nil => simpa using hb
  | cons a l ih =>
    rw [List.foldl_cons]
    have hna : a ∉ as := by
      intro hm
      rw [List.nodup_append] at hn
      exact hn.2.2 a hm a (by simp) rfl
    have := ih (buildInv_step h a (ha a (by simp)) htag (hkind a (by simp))
      (hcomplete a (by simp)) hbase) (by simpa using hn) (fun g hg => ?_)
      (fun a' h => ha a' (by simp [h]))
      (fun a' h => hkind a' (by simp [h])) (fun a' h => hcomplete a' (by simp [h]))
      (fun a' h => htgt a' (by simp [h]))
    · simpa using this
    · rcases processAlias_said h a (ha a (by simp)) hna htag (hkind a (by simp)) (hcomplete a (by simp))
        (htgt a (by simp)) g hg with hg | hg
      · rcases hb g hg with hg | hg
        · exact .inl hg
        · exact .inr (aliasSaid_snoc hg a)
      · exact .inr hg

/-- Everything reported until the graph has been built is justified. -/
theorem build_reason (w : World) (root : Tree) (wf : WellFormed w root) (g : Diag)
    (hg : g ∈ (buildGraph w root).2.diags) : SourceReason w root g := by
  have hc := traverse_inv w root wf.distinct
  have hcoll := collector_reason w root wf.distinct g
  unfold buildGraph at hg
  simp only at hg
  cases he : hasErrors (traverse w {} root).diags with
  | true =>
    rw [he] at hg
    exact hcoll hg
  | false =>
    rw [he] at hg
    simp only [Bool.false_eq_true, if_false] at hg
    have hg' : g ∈ ((traverse w {} root).aliases.foldl (processAlias w)
        { graph := .start w.unit, storage := (traverse w {} root).storage,
          diags := (traverse w {} root).diags }).diags := by
      split at hg <;> exact hg
    clear hg
    have hn : ((visited w root).filter (isAlias w)).Nodup :=
      ((visited_sublist w root).nodup wf.distinct).filter _
    have hok := ((C20_errors_iff w root wf.distinct).1 he).1
    have hskip : ∀ a ∈ (visited w root).filter (isAlias w), ∀ x, (w.info a).aliasTarget = some x →
        shouldSkip (w.info x) = false := by
      intro a ha x hx
      rw [shouldSkip_false_iff_tag _ (wf.target_tag a x hx)]
      exact wf.target_complete a x hx ((mem_aliases ..).1 ha).2.1.2.2.2.1
    have htgt : ∀ a ∈ (visited w root).filter (isAlias w), (w.info a).aliasTarget ≠ none := by
      intro a ha
      obtain ⟨⟨t, ht, rfl⟩, han, hkind⟩ := (mem_aliases ..).1 ha
      obtain ⟨_, _, _, _, hx⟩ := (C72_annotations w.toDeclEnv t.id
        (annotated_not_skip w root t ht han)).1 (hok t ht han)
      exact hx hkind han.2.2.1
    have hal := aliases_said ((visited w root).filter (isAlias w))
      (buildInv_start w (traverse w {} root)) (by simpa using hn) (fun g hg => .inl hg)
      (fun a ha => by rw [hc.entries, if_pos (List.mem_filter.1 ha).1])
      (fun a x hx => by rw [isTag_iff]; exact wf.target_tag a x hx)
      (fun a ha => by rw [((mem_aliases ..).1 ha).2.2]; rfl)
      hskip htgt
      (fun x e he => by
        rw [hc.entries] at he
        split at he
        · unfold entryOf at he
          split at he
          · exact (Option.some.inj he).symm
          · exact absurd he (by simp)
        · exact absurd he (by simp)) g (by rw [← hc.aliases]; exact hg')
    rw [List.nil_append] at hal
    rcases hal with hg | ⟨a, ha, x, hx, hk, hg⟩ | ⟨a, ha, x, f, hx, hex, hr, hne, hg⟩
    · exact hcoll hg
    · refine .target a x g ?_ (insert_said w.toDeclEnv x g hg)
      rcases hk with hk | hk
      · exact .inr ((encourages_iff ..).2 ⟨ha, hx, hk⟩)
      · exact .inl ((exposesHere_iff ..).2 ⟨ha, hx, hk⟩)
    · have hE : ExposesHere w root a x := (exposesHere_iff ..).2 ⟨ha, hx, hex⟩
      have hF : FirstIn (ids root) (fun a => ExposesHere w root a x) f := by
        refine firstIn_find (List.Sublist.trans List.filter_sublist (visited_sublist w root)) _ _ ?_ f hr
        intro y
        rw [exposesHere_iff]
        simp
      rcases hg with rfl | rfl
      · exact .again a f x hF hE hne
      · exact .previous a f x hF hE hne

end Verif
