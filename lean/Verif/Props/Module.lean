import Verif.Lemmas.Module
import Verif.Props.Sorting
import Verif.Props.Exposer
/-!
# C28, C34, C35, C46, C54: the module definition and its parts
-/
namespace Verif
open Spec

/-! ### C54 -/

/-- C54: one identifier is stored for each context and one for the module itself, and
none of the assertions fails. -/
theorem C54_identifiers (w : EmitWorld) (s : Storage) (order : List Nat) (hn : order.Nodup) :
    (nameContexts w s order).entries = order.length + 1 ∧ (nameContexts w s order).failed = false :=
  ⟨(named_all w s order hn).entries, (named_all w s order hn).failed⟩

/-- C54: this also holds at any earlier time. -/
theorem C54_bound (w : EmitWorld) (s : Storage) (pre post : List Nat) (hn : (pre ++ post).Nodup) :
    (nameContexts w s pre).entries ≤ (pre ++ post).length + 1 := by
  rw [(named_all w s pre (List.nodup_append.1 hn).1).entries, List.length_append]
  omega

/-! ### C34 -/

theorem emitPostamble_eq (s : Storage) (vars : List Nat) : emitPostamble s vars =
    vars.filterMap fun v => (postambleLambda s v).map (Line.postamble v) := by
  unfold emitPostamble
  congr 1
  funext v
  unfold postambleLambda
  cases (s.entries v).bind (·.fieldOrVar) with
  | none => rfl
  | some a =>
    dsimp only [Option.getD_some]
    cases a.postamble with
    | false => rfl
    | true => cases a.manualBindings <;> rfl

/-- C34: if there is a cycle of dependencies, it is reported and nothing is written. -/
theorem C34_outcome (w : EmitWorld) (s : Storage) (g : Graph) (vis : Visibilities) (pick : Pick)
    (nodes : List Nat) (hi : EmitInput w g pick nodes) (streams : Nat) (name : Str) :
    (¬ (∃ x, Steps (Depends w.toWorld s w.bases g) x x) ∧ ∃ order, ValidOrder w.toWorld s w.bases g order ∧
      declContextsSortedByDependencies w.toWorld w.bases pick nodes g
        (findEnclosingScopes w.toWorld s g) = (order, none)) ∨
    (∃ x, Steps (Depends w.toWorld s w.bases g) x x) ∧ ∃ c, emitModule w s g vis pick nodes streams name =
      { storage := s, diags := [{ decl := c, kind := .exposeHereCycle }], writes := [] } := by
  rcases sort_cases (s := s) hi.graph hi.bases pick hi.picks nodes hi.perm with
    ⟨st, hs, ⟨hno, hperm, he⟩ | ⟨hcyc, c, hc, _, he⟩⟩
  · exact .inl ⟨hno, _, C29_order w.toWorld s g hi.graph w.bases hi.bases pick hi.picks nodes hi.perm _ he, he⟩
  · refine .inr ⟨hcyc, c, ?_⟩
    unfold emitModule
    dsimp only
    rw [he]

/-- C34: everything that is written, and to which file: the module definition in the
first one, and the definition of the function of each context.  Definitions depend on
the storage before anything is written. -/
theorem C34_written (w : EmitWorld) (ok : EmitOK w) (s : Storage) (g : Graph) (vis : Visibilities)
    (pick : Pick) (nodes : List Nat) (hi : EmitInput w g pick nodes) (streams : Nat) (name : Str)
    (order : List Nat) (hr : declContextsSortedByDependencies w.toWorld w.bases pick nodes g
      (findEnclosingScopes w.toWorld s g) = (order, none)) :
    (emitModule w s g vis pick nodes streams name).writes =
      (mainOf w s g name order).map (0, ·) ++
      ((contextsOf w order).zip (identifiersOf w order)).zipIdx.flatMap fun p =>
        (definitionOf w s g vis (p.2 * streams / (contextsOf w order).length) p.1.1 p.1.2).map
          (p.2 * streams / (contextsOf w order).length, ·) := by
  have hv := C29_order w.toWorld s g hi.graph w.bases hi.bases pick hi.picks nodes hi.perm order hr
  have hnd : order.Nodup := hv.perm.nodup_iff.2 hi.graph.nodup
  have hnm := named_all w s order hnd
  have hwl := worklist_eq w s order _ hnm
  have hlen : (nameContexts w s order).worklist.length = (contextsOf w order).length := by
    rw [← hnm.contexts, List.length_map]
  unfold emitModule
  dsimp only
  rw [hr]
  dsimp only
  rw [defineItems_writes w ok g vis streams _ s _ hnm.exposers _ 0 ⟨fun _ => rfl, fun _ _ => rfl⟩]
  rw [hlen]
  congr 1
  · congr 1
    unfold emitMain mainOf
    rw [hwl, emitPostamble_eq]
    simp only [List.map_map, List.append_assoc]
    congr 1
    congr 1
    congr 1
    congr 1
    refine List.map_congr_left fun p hp => ?_
    simp only [Function.comp_apply]
    congr 2
    unfold parentContext parentIdentifier
    have hx : p.1 ∈ order := by
      have : p.1 ∈ contextsOf w order := by
        rw [← zip_contexts]
        exact List.mem_map.2 ⟨p, hp, rfl⟩
      exact (List.mem_filter.1 this).1
    have hsc := C29_scope w.toWorld s g hi.graph p.1 (hv.perm.mem_iff.1 hx)
    cases hq : findEnclosingScopes w.toWorld s g p.1 with
    | none => simp [hnm.root]
    | some o =>
      cases o with
      | none => simp [hnm.root]
      | some q =>
        have hqm := (hsc.2.2.1 q ((hsc.2.1 q).1 hq)).1
        simp only [Option.getD_some]
        rw [named_identifier w s order hnd q (hv.perm.mem_iff.2 hqm)]
        rfl
  · rw [hwl, List.zipIdx_map, List.flatMap_map]
    rfl

/-- What is written to one of the files. -/
theorem stream_eq (w : EmitWorld) (ok : EmitOK w) (s : Storage) (g : Graph) (vis : Visibilities)
    (pick : Pick) (nodes : List Nat) (hi : EmitInput w g pick nodes) (streams : Nat) (name : Str)
    (order : List Nat) (hr : declContextsSortedByDependencies w.toWorld w.bases pick nodes g
      (findEnclosingScopes w.toWorld s g) = (order, none)) (k : Nat) :
    (emitModule w s g vis pick nodes streams name).stream k =
      (if k = 0 then mainOf w s g name order else []) ++
      (((contextsOf w order).zip (identifiersOf w order)).zipIdx.filter fun p =>
          p.2 * streams / (contextsOf w order).length = k).flatMap fun p =>
        definitionOf w s g vis k p.1.1 p.1.2 := by
  unfold ModuleOutput.stream
  rw [C34_written w ok s g vis pick nodes hi streams name order hr, List.filter_append, List.map_append]
  congr 1
  · rw [List.filter_map, List.map_map]
    by_cases hk : k = 0
    · subst hk
      simp [Function.comp_def]
    · have : ¬ 0 = k := fun e => hk e.symm
      simp [Function.comp_def, hk, this]
  · generalize ((contextsOf w order).zip (identifiersOf w order)).zipIdx = l
    induction l with
    | nil => rfl
    | cons p l ih =>
      rw [List.flatMap_cons, List.filter_append, List.map_append, ih, List.filter_cons]
      by_cases hk : p.2 * streams / (contextsOf w order).length = k
      · rw [if_pos (by simpa using hk), List.flatMap_cons]
        congr 1
        rw [List.filter_map, List.map_map, hk]
        simp [Function.comp_def]
      · rw [if_neg (by simpa using hk), List.filter_map, List.map_map]
        simp [Function.comp_def, hk]

/-- Part of a file with definitions. -/
theorem definitions_scoped (w : EmitWorld) (s : Storage) (g : Graph) (vis : Visibilities) (k : Nat)
    (vs : List Str) (l : List ((Nat × Str) × Nat)) : ∀ fs : List (Str × ContextType),
      (k = 0 → ∀ p ∈ l, (p.1.2, contextTypeOf w s g p.1.1) ∈ fs) →
      WellScoped fs vs (l.flatMap fun p => definitionOf w s g vis k p.1.1 p.1.2) := by
  have stm : ∀ (st : List Stmt) fs rest, WellScoped fs vs rest →
      WellScoped fs vs (st.map Line.stmt ++ rest) := by
    intro st fs rest h
    induction st with
    | nil => exact h
    | cons a st ih => exact ih
  induction l with
  | nil => intro fs _; trivial
  | cons p l ih =>
    intro fs h
    rw [List.flatMap_cons]
    have hrest := fun fs h => ih fs h
    generalize (l.flatMap fun p => definitionOf w s g vis k p.1.1 p.1.2) = rest at hrest
    unfold definitionOf
    by_cases hk : k = 0
    · rw [if_neg (by simpa using hk)]
      simp only [List.nil_append, List.append_assoc, List.cons_append]
      refine ⟨h hk p (by simp), stm _ _ _ ?_⟩
      exact hrest fs fun hk q hq => h hk q (by simp [hq])
    · rw [if_pos (by simpa using hk)]
      simp only [List.nil_append, List.append_assoc, List.cons_append]
      refine ⟨by simp, stm _ _ _ ?_⟩
      exact hrest _ fun hk' => absurd hk' hk

/-- The parent of a context is the module itself or introduced before it. -/
theorem parent_before (w : EmitWorld) (s : Storage) (g : Graph) (hg : ExposedGraph w.toWorld g)
    (order : List Nat) (hv : ValidOrder w.toWorld s w.bases g order)
    (pre post : List (Nat × Str)) (p : Nat × Str)
    (hl : (contextsOf w order).zip (identifiersOf w order) = pre ++ p :: post) :
    parentIdentifier w s g order p.1 ∈ t%"root" :: pre.map (·.2) ∧
    ∀ q, findEnclosingScopes w.toWorld s g p.1 = some (some q) → ∃ r ∈ pre,
      representative w order q = some r.1 ∧ identifierOf w order q = r.2 := by
  have hnd : order.Nodup := hv.perm.nodup_iff.2 hg.nodup
  have hc : contextsOf w order = pre.map (·.1) ++ p.1 :: post.map (·.1) := by
    rw [← zip_contexts w order, hl]
    simp
  have hx : p.1 ∈ order := by
    have : p.1 ∈ contextsOf w order := by rw [hc]; simp
    exact (List.mem_filter.1 this).1
  have hsc := C29_scope w.toWorld s g hg p.1 (hv.perm.mem_iff.1 hx)
  have key : ∀ q, findEnclosingScopes w.toWorld s g p.1 = some (some q) → ∃ r ∈ pre,
      representative w order q = some r.1 ∧ identifierOf w order q = r.2 := by
    intro q hq
    have hE := (hsc.2.1 q).1 hq
    obtain ⟨a, b, hab⟩ := List.append_of_mem hx
    have hqa : q ∈ a := hv.sorted a p.1 b hab q ⟨hv.perm.mem_iff.1 hx, .inl hE⟩
    obtain ⟨r, hr⟩ := representative_isSome w a q hqa
    have hra := (representative_same w a q r hr).2
    have hr' : representative w order q = some r := by
      rw [hab, representative_append w a _ q hqa]
      exact hr
    have hrc : r ∈ contextsOf w order := by
      refine List.mem_filter.2 ⟨by rw [hab]; simp [hra], ?_⟩
      simpa using representative_idem w order q r hr'
    have hrp : r ∈ pre.map (·.1) := by
      -- the contexts before `p` are those in `a`
      have hsplit : contextsOf w order = (a.filter fun x => representative w order x = some x) ++
          p.1 :: (b.filter fun x => representative w order x = some x) := by
        have hpc : representative w order p.1 = some p.1 := by
          have : p.1 ∈ contextsOf w order := by rw [hc]; simp
          simpa using (List.mem_filter.1 this).2
        have h2 : contextsOf w order = (a ++ p.1 :: b).filter fun x => representative w order x = some x := by
          unfold contextsOf
          rw [← hab]
        rw [h2, List.filter_append, List.filter_cons, if_pos (by simpa using hpc)]
      have hnd' := contextsOf_nodup w order hnd
      rw [hc] at hsplit
      have heq := append_cons_inj (by rw [← hc]; exact hnd') hsplit
      rw [heq.1]
      refine List.mem_filter.2 ⟨hra, ?_⟩
      simpa using representative_idem w order q r hr'
    obtain ⟨r', hr'm, rfl⟩ := List.mem_map.1 hrp
    refine ⟨r', hr'm, hr', ?_⟩
    have hz : r' ∈ (contextsOf w order).zip (identifiersOf w order) := by rw [hl]; simp [hr'm]
    rw [← identifierOf_zip w order hnd r' hz]
    unfold identifierOf
    rw [hr', representative_idem w order q _ hr']
  refine ⟨?_, key⟩
  unfold parentIdentifier
  split
  · rename_i q hq
    obtain ⟨r, hr, _, he⟩ := key q hq
    rw [he]
    exact List.mem_cons_of_mem _ (List.mem_map.2 ⟨r, hr, rfl⟩)
  · simp

theorem introducer_parent (w : EmitWorld) (s : Storage) (g : Graph) (e : Exposer) (p : Str) :
    (e.introducer w s g p).parent = p := by
  unfold Exposer.introducer
  repeat' (first | rfl | split)

/-- C34: in every file functions are declared before they are called or defined, and
variables are introduced before they are used. -/
theorem C34_scoped (w : EmitWorld) (ok : EmitOK w) (s : Storage) (g : Graph) (vis : Visibilities)
    (pick : Pick) (nodes : List Nat) (hi : EmitInput w g pick nodes) (streams : Nat) (name : Str)
    (order : List Nat) (hr : declContextsSortedByDependencies w.toWorld w.bases pick nodes g
      (findEnclosingScopes w.toWorld s g) = (order, none)) (k : Nat) :
    WellScoped [] [] ((emitModule w s g vis pick nodes streams name).stream k) := by
  have hv := C29_order w.toWorld s g hi.graph w.bases hi.bases pick hi.picks nodes hi.perm order hr
  rw [stream_eq w ok s g vis pick nodes hi streams name order hr k]
  by_cases hk : k = 0
  · subst hk
    rw [if_pos rfl]
    unfold mainOf
    dsimp only
    generalize hl : (contextsOf w order).zip (identifiersOf w order) = l
    have hdefs : ∀ fs, (∀ p ∈ l, (p.2, contextTypeOf w s g p.1) ∈ fs) →
        WellScoped fs [] ((l.zipIdx.filter fun p =>
          decide (p.2 * streams / (contextsOf w order).length = 0)).flatMap
            fun p => definitionOf w s g vis 0 p.1.1 p.1.2) := by
      intro fs hfs
      refine definitions_scoped w s g vis 0 [] _ fs fun _ p hp => ?_
      have := (List.mem_filter.1 hp).1
      exact hfs p.1 (List.fst_mem_of_mem_zipIdx this)
    generalize ((l.zipIdx.filter fun p =>
          decide (p.2 * streams / (contextsOf w order).length = 0)).flatMap
            fun p => definitionOf w s g vis 0 p.1.1 p.1.2) = defs at hdefs
    have hpost : ∀ fs vs, (∀ p ∈ l, (p.2, contextTypeOf w s g p.1) ∈ fs) →
        WellScoped fs vs ((w.unitVars.filterMap fun v => (postambleLambda s v).map (Line.postamble v)) ++
          .moduleEnd :: defs) := by
      intro fs vs hfs
      generalize w.unitVars = vars
      induction vars with
      | nil => exact hdefs fs hfs
      | cons v vars ih =>
        rw [List.filterMap_cons]
        cases postambleLambda s v with
        | none => exact ih
        | some x => exact ih
    have hcalls : ∀ (m : List (Nat × Str)) fs vs, (∀ p ∈ l, (p.2, contextTypeOf w s g p.1) ∈ fs) →
        (∀ p ∈ m, p ∈ l) → (∀ p ∈ l, p.2 ∈ vs) →
        WellScoped fs vs (m.map (fun p => Line.call p.2) ++
          ((w.unitVars.filterMap fun v => (postambleLambda s v).map (Line.postamble v)) ++
          .moduleEnd :: defs)) := by
      intro m fs vs hfs hm hvs
      induction m with
      | nil => exact hpost fs vs hfs
      | cons p m ih =>
        exact ⟨⟨_, hfs p (hm p (by simp))⟩, hvs p (hm p (by simp)), ih fun q hq => hm q (by simp [hq])⟩
    have hintro : ∀ (m pre : List (Nat × Str)) fs vs, l = pre ++ m →
        (∀ p ∈ l, (p.2, contextTypeOf w s g p.1) ∈ fs) →
        (∀ v ∈ t%"root" :: pre.map (·.2), v ∈ vs) →
        WellScoped fs vs (m.map (fun p => Line.introduce p.2 ((Exposer.create w s p.1).introducer w s g
            (parentIdentifier w s g order p.1))) ++ .blank :: (l.map (fun p => Line.call p.2) ++
          ((w.unitVars.filterMap fun v => (postambleLambda s v).map (Line.postamble v)) ++
          .moduleEnd :: defs))) := by
      intro m
      induction m with
      | nil =>
        intro pre fs vs hpre hfs hvs
        refine hcalls l fs vs hfs (fun _ h => h) fun p hp => hvs _ ?_
        rw [List.append_nil] at hpre
        rw [← hpre]
        exact List.mem_cons_of_mem _ (List.mem_map.2 ⟨p, hp, rfl⟩)
      | cons p m ih =>
        intro pre fs vs hpre hfs hvs
        refine ⟨?_, ?_⟩
        · rw [introducer_parent]
          exact hvs _ (parent_before w s g hi.graph order hv pre m p (hl.trans hpre)).1
        · refine ih (pre ++ [p]) fs _ (by simpa using hpre) hfs fun v hvm => ?_
          simp only [List.map_append, List.map_cons, List.map_nil, List.mem_cons, List.mem_append,
            List.not_mem_nil, or_false] at hvm
          rcases hvm with rfl | hvm | rfl
          · exact List.mem_cons_of_mem _ (hvs _ (by simp))
          · exact List.mem_cons_of_mem _ (hvs _ (List.mem_cons_of_mem _ hvm))
          · simp
    have hdecl : ∀ (m : List (Nat × Str)) fs, (∀ p ∈ l, p ∈ m ∨ (p.2, contextTypeOf w s g p.1) ∈ fs) →
        WellScoped fs [] (m.map (fun p => Line.declare p.2 (contextTypeOf w s g p.1)) ++
          .blank :: .moduleBegin name ::
          (l.map (fun p => Line.introduce p.2 ((Exposer.create w s p.1).introducer w s g
            (parentIdentifier w s g order p.1))) ++ .blank :: (l.map (fun p => Line.call p.2) ++
          ((w.unitVars.filterMap fun v => (postambleLambda s v).map (Line.postamble v)) ++
          .moduleEnd :: defs)))) := by
      intro m
      induction m with
      | nil =>
        intro fs hfs
        exact hintro l [] fs _ rfl (fun p hp => (hfs p hp).resolve_left (by simp)) (by simp)
      | cons p m ih =>
        intro fs hfs
        refine ih _ fun q hq => ?_
        rcases hfs q hq with h | h
        · rcases List.mem_cons.1 h with rfl | h
          · exact .inr (by simp)
          · exact .inl h
        · exact .inr (List.mem_cons_of_mem _ h)
    have := hdecl l [] fun p hp => .inl hp
    simpa using this
  · rw [if_neg hk]
    exact definitions_scoped w s g vis k [] _ [] fun h => absurd h hk

theorem filterMap_none {α β : Type} {f : α → Option β} {l : List α} (h : ∀ x ∈ l, f x = none) :
    l.filterMap f = [] := List.filterMap_eq_nil_iff.2 h

theorem filterMap_const {α β : Type} (l : List α) : l.filterMap (fun _ => (none : Option β)) = [] :=
  filterMap_none fun _ _ => rfl

theorem bind_const {α β : Type} (o : Option α) : (o.bind fun _ => (none : Option β)) = none := by
  cases o <;> rfl

theorem main_select {β : Type} (w : EmitWorld) (s : Storage) (g : Graph) (name : Str) (order : List Nat)
    (sel : Line → Option β) (h1 : ∀ f t, sel (.declare f t) = none) (h2 : sel .blank = none)
    (h3 : ∀ n, sel (.moduleBegin n) = none) (h4 : sel .moduleEnd = none) :
    (mainOf w s g name order).filterMap sel =
      (((contextsOf w order).zip (identifiersOf w order)).filterMap fun p => sel (.introduce p.2
        ((Exposer.create w s p.1).introducer w s g (parentIdentifier w s g order p.1)))) ++
      ((identifiersOf w order).filterMap fun x => sel (.call x)) ++
      (w.unitVars.filterMap fun v => (postambleLambda s v).bind fun x => sel (.postamble v x)) := by
  unfold mainOf
  dsimp only
  simp only [List.filterMap_append, List.filterMap_map, List.filterMap_cons, List.filterMap_nil, h2, h3, h4,
    List.filterMap_filterMap, List.append_nil]
  rw [filterMap_none (fun p _ => by simp [h1]), List.nil_append]
  simp only [List.append_assoc]
  congr 1
  congr 1
  · have : (identifiersOf w order).filterMap (fun x => sel (.call x)) =
        (((contextsOf w order).zip (identifiersOf w order)).map (·.2)).filterMap (fun x => sel (.call x)) := by
      rw [zip_identifiers]
    rw [this, List.filterMap_map]
    rfl
  · congr 1
    funext v
    cases postambleLambda s v <;> rfl

theorem definition_select {β : Type} (w : EmitWorld) (s : Storage) (g : Graph) (vis : Visibilities)
    (k x : Nat) (f : Str) (sel : Line → Option β) (h1 : ∀ f t, sel (.declare f t) = none)
    (h2 : ∀ st, sel (.stmt st) = none) (h3 : sel .defineEnd = none) :
    (definitionOf w s g vis k x f).filterMap sel = (sel (.defineBegin f (contextTypeOf w s g x))).toList := by
  unfold definitionOf
  simp only [List.filterMap_append, List.filterMap_map, List.filterMap_cons, List.filterMap_nil, h3]
  rw [filterMap_none (l := Exposing.emitted _ |>.stmts) (fun p _ => by simp [h2])]
  split <;> cases sel (.defineBegin f (contextTypeOf w s g x)) <;> simp [h1]

/-- C34: every variable is introduced once and every function is called once, in the
module definition and in the order of dependencies; the parameter of a function is the
variable of the same context (`Line.emit`). -/
theorem C34_calls (w : EmitWorld) (ok : EmitOK w) (s : Storage) (g : Graph) (vis : Visibilities)
    (pick : Pick) (nodes : List Nat) (hi : EmitInput w g pick nodes) (streams : Nat) (name : Str)
    (order : List Nat) (hr : declContextsSortedByDependencies w.toWorld w.bases pick nodes g
      (findEnclosingScopes w.toWorld s g) = (order, none)) :
    (emitModule w s g vis pick nodes streams name).writes.filterMap
        (fun p => (introducedOf p.2).map (p.1, ·)) = (identifiersOf w order).map (0, ·) ∧
    (emitModule w s g vis pick nodes streams name).writes.filterMap
        (fun p => (calledOf p.2).map (p.1, ·)) = (identifiersOf w order).map (0, ·) := by
  have hdef : ∀ sel : Line → Option Str, (∀ f t, sel (.declare f t) = none) →
      (∀ st, sel (.stmt st) = none) → sel .defineEnd = none → (∀ f t, sel (.defineBegin f t) = none) →
      ∀ l : List ((Nat × Str) × Nat), (l.flatMap fun p =>
        (definitionOf w s g vis (p.2 * streams / (contextsOf w order).length) p.1.1 p.1.2).map
          (p.2 * streams / (contextsOf w order).length, ·)).filterMap
            (fun p => (sel p.2).map (p.1, ·)) = [] := by
    intro sel h1 h2 h3 h4 l
    induction l with
    | nil => rfl
    | cons p l ih =>
      rw [List.flatMap_cons, List.filterMap_append, ih, List.append_nil, List.filterMap_map]
      refine filterMap_none fun x hx => ?_
      have := definition_select w s g vis (p.2 * streams / (contextsOf w order).length) p.1.1 p.1.2
        sel h1 h2 h3
      rw [h4] at this
      have := (List.filterMap_eq_nil_iff.1 this) x hx
      simp [this]
  have hmain : ∀ sel : Line → Option Str, ((mainOf w s g name order).map (0, ·)).filterMap
      (fun p => (sel p.2).map (p.1, ·)) = ((mainOf w s g name order).filterMap sel).map (0, ·) := by
    intro sel
    rw [List.filterMap_map, List.map_filterMap]
    rfl
  rw [C34_written w ok s g vis pick nodes hi streams name order hr]
  refine ⟨?_, ?_⟩
  · rw [List.filterMap_append, hdef introducedOf (fun _ _ => rfl) (fun _ => rfl) rfl (fun _ _ => rfl),
      List.append_nil, hmain, main_select w s g name order introducedOf (fun _ _ => rfl) rfl
        (fun _ => rfl) rfl]
    congr 1
    simp only [introducedOf, filterMap_const, bind_const, List.append_nil]
    conv => rhs; rw [← zip_identifiers]
    exact congrFun List.filterMap_eq_map _
  · rw [List.filterMap_append, hdef calledOf (fun _ _ => rfl) (fun _ => rfl) rfl (fun _ _ => rfl),
      List.append_nil, hmain, main_select w s g name order calledOf (fun _ _ => rfl) rfl
        (fun _ => rfl) rfl]
    congr 1
    simp only [calledOf, filterMap_const, bind_const, List.append_nil, List.nil_append]
    simp

/-- C34: every function is defined once, in one of the files, with the same type as in
its declaration. -/
theorem C34_defined (w : EmitWorld) (ok : EmitOK w) (s : Storage) (g : Graph) (vis : Visibilities)
    (pick : Pick) (nodes : List Nat) (hi : EmitInput w g pick nodes) (streams : Nat) (name : Str)
    (order : List Nat) (hr : declContextsSortedByDependencies w.toWorld w.bases pick nodes g
      (findEnclosingScopes w.toWorld s g) = (order, none)) :
    (emitModule w s g vis pick nodes streams name).writes.filterMap
        (fun p => (definedOf p.2).map (p.1, ·)) =
      ((contextsOf w order).zip (identifiersOf w order)).zipIdx.map fun p =>
        (p.2 * streams / (contextsOf w order).length, p.1.2, contextTypeOf w s g p.1.1) := by
  rw [C34_written w ok s g vis pick nodes hi streams name order hr, List.filterMap_append]
  have hmain : ((mainOf w s g name order).map (0, ·)).filterMap
      (fun p => (definedOf p.2).map (p.1, ·)) = [] := by
    rw [List.filterMap_map]
    have := main_select w s g name order definedOf (fun _ _ => rfl) rfl (fun _ => rfl) rfl
    simp only [definedOf, filterMap_const, bind_const, List.append_nil] at this
    have := List.filterMap_eq_nil_iff.1 this
    exact filterMap_none fun x hx => by simp [this x hx]
  rw [hmain, List.nil_append]
  generalize ((contextsOf w order).zip (identifiersOf w order)).zipIdx = l
  induction l with
  | nil => rfl
  | cons p l ih =>
    rw [List.flatMap_cons, List.filterMap_append, ih, List.map_cons, List.filterMap_map]
    have := definition_select w s g vis (p.2 * streams / (contextsOf w order).length) p.1.1 p.1.2
      definedOf (fun _ _ => rfl) (fun _ => rfl) rfl
    have h2 : (definitionOf w s g vis (p.2 * streams / (contextsOf w order).length) p.1.1 p.1.2).filterMap
        ((fun q : Nat × Line => (definedOf q.2).map (q.1, ·)) ∘
          (p.2 * streams / (contextsOf w order).length, ·)) =
        ((definitionOf w s g vis (p.2 * streams / (contextsOf w order).length) p.1.1 p.1.2).filterMap
          definedOf).map (p.2 * streams / (contextsOf w order).length, ·) := by
      rw [List.map_filterMap]
      rfl
    rw [h2, this]
    rfl

/-! ### C46 -/

/-- C46: the manual bindings annotated with `postamble` are at the end of the module
definition, after all calls, once each and in the order of their declarations. -/
theorem C46_postamble (w : EmitWorld) (ok : EmitOK w) (s : Storage) (g : Graph) (vis : Visibilities)
    (pick : Pick) (nodes : List Nat) (hi : EmitInput w g pick nodes) (streams : Nat) (name : Str)
    (order : List Nat) (hr : declContextsSortedByDependencies w.toWorld w.bases pick nodes g
      (findEnclosingScopes w.toWorld s g) = (order, none)) :
    ∃ before after, (emitModule w s g vis pick nodes streams name).writes = before ++
        (w.unitVars.filterMap fun v => (postambleLambda s v).map fun l => (0, Line.postamble v l)) ++
        (0, .moduleEnd) :: after ∧
      (∀ p ∈ before, postambleOf p.2 = none) ∧
      (∀ p ∈ after, postambleOf p.2 = none ∧ calledOf p.2 = none ∧ introducedOf p.2 = none) := by
  rw [C34_written w ok s g vis pick nodes hi streams name order hr]
  let l : List (Nat × Str) := (contextsOf w order).zip (identifiersOf w order)
  refine ⟨((l.map fun p => Line.declare p.2 (contextTypeOf w s g p.1)) ++ [Line.blank, Line.moduleBegin name] ++
    (l.map fun p => Line.introduce p.2 ((Exposer.create w s p.1).introducer w s g
      (parentIdentifier w s g order p.1))) ++ [Line.blank] ++ (l.map fun p => Line.call p.2)).map (0, ·),
    l.zipIdx.flatMap fun p =>
        (definitionOf w s g vis (p.2 * streams / (contextsOf w order).length) p.1.1 p.1.2).map
          (p.2 * streams / (contextsOf w order).length, ·), ?_, ?_, ?_⟩
  · unfold mainOf
    dsimp only
    simp only [List.map_append, List.append_assoc, List.map_filterMap, Option.map_map]
    rfl
  · intro p hp
    obtain ⟨x, hx, rfl⟩ := List.mem_map.1 hp
    simp only [List.mem_append, List.mem_map, List.mem_cons, List.not_mem_nil, or_false] at hx
    rcases hx with (((⟨q, _, rfl⟩ | rfl | rfl) | ⟨q, _, rfl⟩) | rfl) | ⟨q, _, rfl⟩ <;> rfl
  · intro p hp
    obtain ⟨q, _, hq⟩ := List.mem_flatMap.1 hp
    obtain ⟨x, hx, rfl⟩ := List.mem_map.1 hq
    unfold definitionOf at hx
    simp only [List.mem_append, List.mem_map, List.mem_cons, List.not_mem_nil, or_false] at hx
    rcases hx with ((hx | rfl) | ⟨q, _, rfl⟩) | rfl
    · split at hx
      · rw [List.mem_singleton] at hx
        subst hx
        exact ⟨rfl, rfl, rfl⟩
      · cases hx
    all_goals exact ⟨rfl, rfl, rfl⟩

/-- C46: a manual binding is in a definition or at the end of the module definition,
never both. -/
theorem C46_exclusive (w : EmitWorld) (s : Storage) (d l l' : Nat) (h : manualLambda w s d = some l) :
    postambleLambda s d ≠ some l' := by
  unfold manualLambda at h
  unfold postambleLambda
  cases hs : s.entries d with
  | none => simp
  | some a =>
    have : attrsOf w s d = some a := by
      unfold attrsOf
      rw [hs]
    rw [this] at h
    simp only [Option.bind_some] at h ⊢
    cases hv : a.fieldOrVar with
    | none => simp
    | some v =>
      rw [hv] at h
      dsimp only at h ⊢
      cases hp : v.postamble with
      | true => simp [hp] at h
      | false => simp

/-! ### C35 -/

theorem count_below (n k m : Nat) (hk : 0 < k) (hm : m ≤ n * k) :
    ((List.range n).filter fun i => decide (i * k < m)).length = (m + k - 1) / k := by
  have hiff : ∀ i, i * k < m ↔ i < (m + k - 1) / k := by
    intro i
    rw [Nat.lt_div_iff_mul_lt hk]
    omega
  have hle : (m + k - 1) / k ≤ n := by
    rw [← Nat.lt_succ_iff, Nat.div_lt_iff_lt_mul hk, Nat.succ_mul]
    omega
  have h2 : (List.range n).filter (fun i => decide (i * k < m)) =
      (List.range n).filter (fun i => decide (i < (m + k - 1) / k)) :=
    List.filter_congr fun i _ => by rw [decide_eq_decide]; exact hiff i
  rw [h2]
  generalize (m + k - 1) / k = c at hle
  obtain ⟨d, rfl⟩ := Nat.exists_eq_add_of_le hle
  rw [List.range_add, List.filter_append, List.length_append]
  have h3 : (List.range c).filter (fun i => decide (i < c)) = List.range c :=
    List.filter_eq_self.2 fun i hi => by simpa using hi
  have h4 : ((List.range d).map (c + ·)).filter (fun i => decide (i < c)) = [] :=
    List.filter_eq_nil_iff.2 fun i hi => by
      obtain ⟨j, _, rfl⟩ := List.mem_map.1 hi
      simp
  rw [h3, h4]
  simp

/-- The number of definitions in file `j` if `n` definitions go to `k` files. -/
theorem chunk_size (n k j : Nat) (hk : 0 < k) (hn : 0 < n) (hj : j < k) :
    ((List.range n).filter fun i => decide (i * k / n = j)).length =
      ((j + 1) * n + k - 1) / k - (j * n + k - 1) / k := by
  have hb : (j + 1) * n ≤ n * k := by
    rw [Nat.mul_comm n k]
    exact Nat.mul_le_mul_right n hj
  have ha : j * n ≤ n * k := Nat.le_trans (Nat.mul_le_mul_right n (Nat.le_succ j)) hb
  rw [← count_below n k _ hk hb, ← count_below n k _ hk ha]
  have split : ∀ l : List Nat, (l.filter fun i => decide (i * k < (j + 1) * n)).length =
      (l.filter fun i => decide (i * k < j * n)).length + (l.filter fun i => decide (i * k / n = j)).length := by
    intro l
    induction l with
    | nil => rfl
    | cons i l ih =>
      have h1 : i * k / n = j ↔ j * n ≤ i * k ∧ i * k < (j + 1) * n := by
        rw [← Nat.le_div_iff_mul_le hn, ← Nat.div_lt_iff_lt_mul hn]
        generalize i * k / n = x
        omega
      have h2 : j * n ≤ (j + 1) * n := Nat.mul_le_mul_right n (Nat.le_succ j)
      simp only [List.filter_cons, decide_eq_true_eq]
      by_cases ha : i * k < j * n
      · rw [if_pos (Nat.lt_of_lt_of_le ha h2), if_pos ha, if_neg (by rw [h1]; omega)]
        simp only [List.length_cons, ih]
        omega
      · by_cases hb : i * k < (j + 1) * n
        · rw [if_pos hb, if_neg ha, if_pos (h1.2 ⟨by omega, hb⟩)]
          simp only [List.length_cons, ih]
          omega
        · rw [if_neg hb, if_neg ha, if_neg (by rw [h1]; omega)]
          exact ih
  rw [split]
  omega

/-- C35: definitions are written to existing files, consecutive ones to the same or the
next file. -/
theorem C35_files (n k i : Nat) (hk : 0 < k) (hi : i < n) :
    i * k / n < k ∧ ∀ i', i ≤ i' → i * k / n ≤ i' * k / n := by
  refine ⟨?_, fun i' h => Nat.div_le_div_right (Nat.mul_le_mul_right k h)⟩
  rw [Nat.div_lt_iff_lt_mul (by omega), Nat.mul_comm k n]
  exact Nat.mul_lt_mul_of_pos_right hi hk

/-- C35: the numbers of definitions in two files differ by at most one. -/
theorem C35_even (n k j j' : Nat) (hk : 0 < k) (hj : j < k) (hj' : j' < k) :
    ((List.range n).filter fun i => decide (i * k / n = j)).length ≤
      ((List.range n).filter fun i => decide (i * k / n = j')).length + 1 := by
  rcases Nat.eq_zero_or_pos n with rfl | hn
  · simp
  · rw [chunk_size n k j hk hn hj, chunk_size n k j' hk hn hj']
    have bound : ∀ a, n / k ≤ ((a + 1) * n + k - 1) / k - (a * n + k - 1) / k ∧
        ((a + 1) * n + k - 1) / k - (a * n + k - 1) / k ≤ n / k + 1 := by
      intro a
      have e : (a + 1) * n + k - 1 = (a * n + k - 1) + n := by
        rw [Nat.succ_mul]
        omega
      rw [e]
      generalize a * n + k - 1 = m
      have h1 := Nat.div_add_mod m k
      have h2 := Nat.div_add_mod n k
      have h3 := Nat.mod_lt m hk
      have h4 := Nat.mod_lt n hk
      have h5 : m / k + n / k ≤ (m + n) / k := by
        rw [Nat.le_div_iff_mul_le hk, Nat.add_mul, Nat.mul_comm _ k, Nat.mul_comm (n / k) k]
        omega
      have h6 : (m + n) / k < m / k + n / k + 2 := by
        rw [Nat.div_lt_iff_lt_mul hk, Nat.add_mul, Nat.add_mul, Nat.mul_comm _ k, Nat.mul_comm (n / k) k]
        omega
      clear h1 h2 h3 h4
      generalize (m + n) / k = x at *
      generalize m / k = y at *
      generalize n / k = z at *
      omega
    have h1 := (bound j).2
    have h2 := (bound j').1
    exact Nat.le_trans h1 (Nat.add_le_add_right h2 1)

/-- C35: for the files written: nothing goes to other files, and the numbers of
definitions differ by at most one. -/
theorem C35_written (w : EmitWorld) (ok : EmitOK w) (s : Storage) (g : Graph) (vis : Visibilities)
    (pick : Pick) (nodes : List Nat) (hi : EmitInput w g pick nodes) (streams : Nat) (hs : 0 < streams)
    (name : Str) (order : List Nat) (hr : declContextsSortedByDependencies w.toWorld w.bases pick nodes g
      (findEnclosingScopes w.toWorld s g) = (order, none)) :
    (∀ k, streams ≤ k → (emitModule w s g vis pick nodes streams name).stream k = []) ∧
    ∀ j < streams, ∀ j' < streams,
      (((emitModule w s g vis pick nodes streams name).stream j).filterMap definedOf).length ≤
      (((emitModule w s g vis pick nodes streams name).stream j').filterMap definedOf).length + 1 := by
  have idx : ∀ p ∈ ((contextsOf w order).zip (identifiersOf w order)).zipIdx,
      p.2 < (contextsOf w order).length := by
    intro p hp
    have := List.snd_lt_of_mem_zipIdx hp
    rw [List.length_zip, identifiers_length, Nat.min_self] at this
    omega
  refine ⟨fun k hk => ?_, fun j hj j' hj' => ?_⟩
  · rw [stream_eq w ok s g vis pick nodes hi streams name order hr, if_neg (by omega), List.nil_append,
      List.filter_eq_nil_iff.2, List.flatMap_nil]
    intro p hp
    have := (C35_files (contextsOf w order).length streams p.2 hs (idx p hp)).1
    simp only [decide_eq_true_eq]
    omega
  · have len : ∀ k, (((emitModule w s g vis pick nodes streams name).stream k).filterMap definedOf).length =
        ((List.range (contextsOf w order).length).filter fun i =>
          decide (i * streams / (contextsOf w order).length = k)).length := by
      intro k
      rw [stream_eq w ok s g vis pick nodes hi streams name order hr, List.filterMap_append]
      have h0 : (if k = 0 then mainOf w s g name order else []).filterMap definedOf = [] := by
        split
        · have := main_select w s g name order definedOf (fun _ _ => rfl) rfl (fun _ => rfl) rfl
          simpa only [definedOf, filterMap_const, bind_const, List.append_nil] using this
        · rfl
      rw [h0, List.nil_append]
      have h1 : ∀ l : List ((Nat × Str) × Nat), ((l.flatMap fun p =>
          definitionOf w s g vis k p.1.1 p.1.2).filterMap definedOf).length = l.length := by
        intro l
        induction l with
        | nil => rfl
        | cons p l ih =>
          rw [List.flatMap_cons, List.filterMap_append, definition_select w s g vis k p.1.1 p.1.2 definedOf
            (fun _ _ => rfl) (fun _ => rfl) rfl, List.length_append, ih]
          simp [definedOf]
          omega
      rw [h1]
      have h2 : (List.range (contextsOf w order).length) =
          ((contextsOf w order).zip (identifiersOf w order)).zipIdx.map (·.2) := by
        rw [List.zipIdx_map_snd, List.length_zip, identifiers_length, Nat.min_self]
        exact (List.range_eq_range' ..)
      rw [h2, List.filter_map, List.length_map]
      rfl
    rw [len, len]
    exact C35_even _ streams j j' hs hj hj'

end Verif
