import Verif.Lemmas.Import
import Verif.Props.Objects
import Verif.Props.ModuleExamples
import Verif.Props.Inlining
/-!
# C61, C62: importing the generated module
-/
namespace Verif
open Spec

/-- The translation unit comes first. -/
theorem root_first (w : EmitWorld) (s : Storage) (g : Graph) (hg : ExposedGraph w.toWorld g)
    (order : List Nat) (hv : ValidOrder w.toWorld s w.bases g order) :
    ∃ rest, order = g.root :: rest := by
  have hroot : g.root ∈ order := hv.perm.mem_iff.2 hg.root
  cases order with
  | nil => cases hroot
  | cons x rest =>
    refine ⟨rest, ?_⟩
    by_cases hx : x = g.root
    · rw [hx]
    · obtain ⟨q, hq⟩ := (C29_scope w.toWorld s g hg x (hv.perm.mem_iff.1 (by simp))).2.2.2 hx
      have := hv.sorted [] x rest rfl q ⟨hv.perm.mem_iff.1 (by simp), .inl hq⟩
      cases this

theorem root_identifier (w : EmitWorld) (s : Storage) (g : Graph) (hg : ExposedGraph w.toWorld g)
    (order : List Nat) (hv : ValidOrder w.toWorld s w.bases g order) :
    identifierOf w order g.root = t%"context" := by
  obtain ⟨rest, rfl⟩ := root_first w s g hg order hv
  have hrep : representative w (g.root :: rest) g.root = some g.root := by
    simp [representative, sameContext_refl]
  have hc : contextsOf w (g.root :: rest) = g.root ::
      rest.filter fun x => representative w (g.root :: rest) x = some x := by
    unfold contextsOf
    rw [List.filter_cons, if_pos (by simpa using hrep)]
  have hl : (contextLabel w g.root).baseName.getD [] = t%"context" := by
    have : contextLabel w g.root = .translationUnit := by
      unfold contextLabel
      rw [hg.root_kind]
      rfl
    rw [this]
    have : ContextLabel.translationUnit.baseName = some t%"context" :=
      (makeValidIdentifier_eq _).trans (by decide +kernel)
    rw [this]
    rfl
  unfold identifierOf
  rw [hrep]
  dsimp only
  unfold identifiersOf
  rw [hc, List.map_cons, hl, discriminateAll, List.zip_cons_cons, List.lookup, beq_self_eq_true]
  rfl

/-- The parts of the first file. -/
theorem first_file (w : EmitWorld) (s : Storage) (g : Graph) (name : Str)
    (order : List Nat) (defs : List Line) :
    mainOf w s g name order ++ defs =
      ((((contextsOf w order).zip (identifiersOf w order)).map fun p =>
          Line.declare p.2 (contextTypeOf w s g p.1)) ++ [.blank, .moduleBegin name]) ++
      ((((contextsOf w order).zip (identifiersOf w order)).map fun p => (p.2,
          (Exposer.create w s p.1).introducer w s g (parentIdentifier w s g order p.1))).map
        fun p => Line.introduce p.1 p.2) ++
      (.blank :: (((contextsOf w order).zip (identifiersOf w order)).map fun p => Line.call p.2) ++
        (w.unitVars.filterMap fun v => (postambleLambda s v).map (Line.postamble v)) ++
        (.moduleEnd :: defs)) := by
  simp [mainOf, List.map_map, Function.comp_def]

/-- Definitions do nothing when the module definition is executed. -/
theorem skip_definitions (files : List (List Line)) (w : EmitWorld) (s : Storage) (g : Graph)
    (vis : Visibilities) (k : Nat) (l : List ((Nat × Str) × Nat)) (st : Importing) :
    ∀ x ∈ l.flatMap (fun p => definitionOf w s g vis k p.1.1 p.1.2), st.line files x = .ok st := by
  intro x hx
  obtain ⟨p, _, hx⟩ := List.mem_flatMap.1 hx
  unfold definitionOf at hx
  simp only [List.mem_append, List.mem_map, List.mem_cons, List.not_mem_nil, or_false] at hx
  rcases hx with ((hx | rfl) | ⟨_, _, rfl⟩) | rfl
  · split at hx
    · rw [List.mem_singleton] at hx
      subst hx
      rfl
    · cases hx
  all_goals rfl

/-- Files of the module. -/
def generatedFiles (o : ModuleOutput) (streams : Nat) : List (List Line) :=
  (List.range streams).map o.stream

/-- Every `expose_` function is found. -/
theorem linked_eq (w : EmitWorld) (ok : EmitOK w) (s : Storage) (g : Graph)
    (vis : Visibilities) (pick : Pick) (nodes : List Nat) (hi : EmitInput w g pick nodes)
    (streams : Nat) (name : Str) (order : List Nat)
    (hr : declContextsSortedByDependencies w.toWorld w.bases pick nodes g
      (findEnclosingScopes w.toWorld s g) = (order, none))
    (hid : (identifiersOf w order).Nodup) (hs : 0 < streams) (p : Nat × Str)
    (hp : p ∈ (contextsOf w order).zip (identifiersOf w order)) :
    linked (generatedFiles (emitModule w s g vis pick nodes streams name) streams) p.2 =
      some (exposeContext w vis s (Exposer.create w s p.1) p.1).emitted.stmts := by
  have hb : ∀ k, bodies ((emitModule w s g vis pick nodes streams name).stream k) =
      (((contextsOf w order).zip (identifiersOf w order)).zipIdx.filter fun p =>
          p.2 * streams / (contextsOf w order).length = k).map fun p =>
        (p.1.2, (exposeContext w vis s (Exposer.create w s p.1.1) p.1.1).emitted.stmts) := by
    intro k
    rw [stream_eq w ok s g vis pick nodes hi streams name order hr k, bodies_append_skip, bodies_definitions]
    intro x hx
    split at hx
    · have := main_select w s g name order definedOf (fun _ _ => rfl) rfl (fun _ => rfl) rfl
      simp only [definedOf, filterMap_const, bind_const, List.append_nil] at this
      exact List.filterMap_eq_nil_iff.1 this x hx
    · cases hx
  have hnd : ((((contextsOf w order).zip (identifiersOf w order)).zipIdx).map
      fun q : (Nat × Str) × Nat => q.1.2).Nodup := by
    have e : (((contextsOf w order).zip (identifiersOf w order)).zipIdx).map
        (fun q : (Nat × Str) × Nat => q.1.2) = identifiersOf w order := by
      have : (fun q : (Nat × Str) × Nat => q.1.2) = (fun p : Nat × Str => p.2) ∘ Prod.fst := rfl
      rw [this, ← List.map_map, List.zipIdx_map_fst, zip_identifiers]
    rw [e]
    exact hid
  obtain ⟨j, hj, hpj⟩ := List.getElem_of_mem hp
  have hpm : (p, j) ∈ ((contextsOf w order).zip (identifiersOf w order)).zipIdx := by
    rw [List.mk_mem_zipIdx_iff_getElem?, List.getElem?_eq_getElem hj, hpj]
  have hlen : j < (contextsOf w order).length := by
    rw [List.length_zip, identifiers_length] at hj
    omega
  have hone := filter_eq_single (fun q : (Nat × Str) × Nat => q.1.2) _ (p, j) hpm hnd
  have hlt : j * streams / (contextsOf w order).length < streams := by
    apply Nat.div_lt_of_lt_mul
    exact Nat.mul_lt_mul_of_pos_right hlen hs
  unfold linked generatedFiles
  have : (((List.range streams).map (emitModule w s g vis pick nodes streams name).stream).flatMap
      bodies).filter (fun q => decide (q.1 = p.2)) =
      [(p.2, (exposeContext w vis s (Exposer.create w s p.1) p.1).emitted.stmts)] := by
    rw [List.flatMap_map, filter_flatMap]
    refine Eq.trans ?_ (range_flatMap_single streams _ hlt _)
    congr 1
    funext k
    rw [hb k, List.filter_map]
    have e : ((((contextsOf w order).zip (identifiersOf w order)).zipIdx.filter fun q =>
        decide (q.2 * streams / (contextsOf w order).length = k)).filter
          ((fun q : Str × List Stmt => decide (q.1 = p.2)) ∘ fun q : (Nat × Str) × Nat =>
            (q.1.2, (exposeContext w vis s (Exposer.create w s q.1.1) q.1.1).emitted.stmts))) =
        [(p, j)].filter fun q : (Nat × Str) × Nat =>
          decide (q.2 * streams / (contextsOf w order).length = k) := by
      rw [← hone, List.filter_filter, List.filter_filter]
      refine List.filter_congr fun q _ => ?_
      simp only [Function.comp_apply]
      rw [Bool.and_comm]
    rw [e]
    by_cases hk : j * streams / (contextsOf w order).length = k
    · simp [hk]
    · simp [hk]
  rw [this]

/-- The calls of `expose_` functions. -/
theorem lines_calls (files : List (List Line)) (l : List (Nat × Str)) (stmts : Nat → List Stmt)
    (place : Nat → List Str) (hl : ∀ p ∈ l, linked files p.2 = some (stmts p.1)) :
    ∀ st : Importing, (∀ p ∈ l, st.vars.lookup p.2 = some (place p.1)) →
      st.lines files (l.map fun p => Line.call p.2) = .ok { st with
        executed := st.executed ++ l.flatMap fun p => (stmts p.1).map fun c =>
          { object := place p.1, stmt := c, known := st.types } } := by
  induction l with
  | nil =>
    intro st _
    simp [Importing.lines]
  | cons p l ih =>
    intro st h
    simp only [List.map_cons, Importing.lines, Importing.line]
    rw [h p (by simp), hl p (by simp)]
    dsimp only
    refine (ih (fun q hq => hl q (by simp [hq])) { st with executed := st.executed ++
      ((stmts p.1).map fun c => { object := place p.1, stmt := c, known := st.types }) }
      (fun q hq => h q (by simp [hq]))).trans ?_
    simp

theorem lines_postamble (files : List (List Line)) (l : List (Nat × Nat)) :
    ∀ st : Importing, st.vars.lookup t%"context" = some [] →
      st.lines files (l.map fun p => Line.postamble p.1 p.2) = .ok { st with
        executed := st.executed ++ l.map fun p =>
          { object := [], stmt := .manual p.1 p.2, known := st.types } } := by
  induction l with
  | nil =>
    intro st _
    simp [Importing.lines]
  | cons p l ih =>
    intro st h
    simp only [List.map_cons, Importing.lines, Importing.line]
    rw [h]
    dsimp only
    refine (ih { st with executed := st.executed ++
      [{ object := [], stmt := .manual p.1 p.2, known := st.types }] } h).trans ?_
    simp

/-- Importing with distinct identifiers. -/
theorem import_distinct (w : EmitWorld) (ok : EmitOK w) (s : Storage) (g : Graph)
    (vis : Visibilities) (pick : Pick) (nodes : List Nat) (hi : EmitInput w g pick nodes)
    (streams : Nat) (hs : 0 < streams) (name : Str) (order : List Nat)
    (hr : declContextsSortedByDependencies w.toWorld w.bases pick nodes g
      (findEnclosingScopes w.toWorld s g) = (order, none))
    (hid : (identifiersOf w order).Nodup)
    (place : Nat → List Str) (hpl : ∀ x ∈ g.nodes, Refers w s g order x (place x)) :
    (Importable w s g order place → ∃ st,
      importModule (generatedFiles (emitModule w s g vis pick nodes streams name) streams) = .ok st ∧
      st.types = typesOf w order place ∧ st.executed = executionsOf w s vis order place ∧
      st.modules = modulesOf w s order place) ∧
    (¬ Importable w s g order place → ∃ e,
      importModule (generatedFiles (emitModule w s g vis pick nodes streams name) streams) = .error e) := by
  have hg := hi.graph
  have hv := C29_order w.toWorld s g hg w.bases hi.bases pick hi.picks nodes hi.perm order hr
  have hnd : order.Nodup := hv.perm.nodup_iff.2 hg.nodup
  obtain ⟨env, hrun, henv⟩ := C28_objects w ok s g vis pick nodes hi streams name order hr hid
  have hlook : ∀ x ∈ g.nodes, env.lookup (identifierOf w order x) = some (place x) := by
    intro x hx
    obtain ⟨path, h1, h2⟩ := henv x hx
    rw [h2, refers_unique w s g hg order h1 (hpl x hx)]
  have hmem : ∀ p ∈ (contextsOf w order).zip (identifiersOf w order), p.1 ∈ g.nodes := by
    intro p hp
    have : p.1 ∈ contextsOf w order := by
      rw [← zip_contexts]
      exact List.mem_map.2 ⟨p, hp, rfl⟩
    exact hv.perm.mem_iff.1 (List.mem_filter.1 this).1
  have hvar : ∀ p ∈ (contextsOf w order).zip (identifiersOf w order),
      env.lookup p.2 = some (place p.1) := by
    intro p hp
    rw [← identifierOf_zip w order hnd p hp]
    exact hlook p.1 (hmem p hp)
  have hctx : env.lookup t%"context" = some [] := by
    rw [← root_identifier w s g hg order hv, hlook g.root hg.root,
      refers_unique w s g hg order (hpl g.root hg.root) .root]
  obtain ⟨n, rfl⟩ : ∃ n, streams = n + 1 := ⟨streams - 1, by omega⟩
  -- the first file
  have hfirst : (generatedFiles (emitModule w s g vis pick nodes (n + 1) name) (n + 1)).headD [] =
      (emitModule w s g vis pick nodes (n + 1) name).stream 0 := by
    unfold generatedFiles
    rw [List.range_succ_eq_map]
    rfl
  have hlinked := linked_eq w ok s g vis pick nodes hi (n + 1) name order hr hid hs
  unfold importModule
  rw [hfirst]
  rw [stream_eq w ok s g vis pick nodes hi (n + 1) name order hr, if_pos rfl] at hrun ⊢
  rw [first_file w s g name order] at hrun ⊢
  generalize generatedFiles (emitModule w s g vis pick nodes (n + 1) name) (n + 1) = files at hlinked ⊢
  have hskip := skip_definitions files w s g vis 0
    (((contextsOf w order).zip (identifiersOf w order)).zipIdx.filter fun p =>
      p.2 * (n + 1) / (contextsOf w order).length = 0)
  have hnone : ∀ x ∈ (((contextsOf w order).zip (identifiersOf w order)).zipIdx.filter fun p =>
      p.2 * (n + 1) / (contextsOf w order).length = 0).flatMap
      (fun p => definitionOf w s g vis 0 p.1.1 p.1.2), introducedOf x = none := by
    intro x hx
    obtain ⟨p, _, hx⟩ := List.mem_flatMap.1 hx
    have := definition_select w s g vis 0 p.1.1 p.1.2 introducedOf (fun _ _ => rfl) (fun _ => rfl) rfl
    exact List.filterMap_eq_nil_iff.1 this x hx
  generalize ((((contextsOf w order).zip (identifiersOf w order)).zipIdx.filter fun p =>
      decide (p.2 * (n + 1) / (contextsOf w order).length = 0)).flatMap
      fun p => definitionOf w s g vis 0 p.1.1 p.1.2) = defs at hrun hskip hnone ⊢
  -- introducers
  have hrunI : runIntroducers [(t%"root", [])] ((((contextsOf w order).zip (identifiersOf w order)).map
      fun p => (p.2, (Exposer.create w s p.1).introducer w s g (parentIdentifier w s g order p.1))).map
        fun p => Line.introduce p.1 p.2) = some env := by
    rw [run_append, run_append, run_skip] at hrun
    · simp only [Option.bind_some] at hrun
      cases h : runIntroducers [(t%"root", [])] ((((contextsOf w order).zip (identifiersOf w order)).map
          fun p => (p.2, (Exposer.create w s p.1).introducer w s g (parentIdentifier w s g order p.1))).map
            fun p => Line.introduce p.1 p.2) with
      | none => rw [h] at hrun; cases hrun
      | some e =>
        rw [h] at hrun
        simp only [Option.bind_some] at hrun
        rw [run_skip] at hrun
        · exact hrun
        · intro x hx
          simp only [List.mem_append, List.mem_cons, List.mem_map, List.mem_filterMap] at hx
          rcases hx with ((rfl | ⟨p, _, rfl⟩) | ⟨v, _, hx⟩) | rfl | hx
          · rfl
          · rfl
          · obtain ⟨l, _, rfl⟩ := Option.map_eq_some_iff.1 hx
            rfl
          · rfl
          · exact hnone x hx
    · intro x hx
      simp only [List.mem_append, List.mem_cons, List.mem_map, List.not_mem_nil, or_false] at hx
      rcases hx with ⟨p, _, rfl⟩ | rfl | rfl <;> rfl
  have hcreate : ∀ (l : List (Nat × Str)) (st : Importing),
      (∀ p ∈ l, p ∈ (contextsOf w order).zip (identifiersOf w order)) →
      creates st ((l.map fun p => (p.2, (Exposer.create w s p.1).introducer w s g
        (parentIdentifier w s g order p.1))).map fun p => ((env.lookup p.1).getD [], p.2)) =
      createContexts w s g place st (l.map (·.1)) := by
    intro l
    induction l with
    | nil => intro st _; rfl
    | cons p l ih =>
      intro st h
      simp only [List.map_cons, creates, createContexts]
      rw [hvar p (h p (by simp)), Option.getD_some, create_eq]
      congr 1
      funext st
      exact ih st fun q hq => h q (by simp [hq])
  have hintro := lines_introduce files _ _ _ hrunI { vars := [(t%"root", [])] } rfl
  rw [hcreate _ _ (fun _ h => h), zip_contexts] at hintro
  have hctxs := createContexts_ok w s g place (contextsOf w order) [] { vars := [(t%"root", [])] } rfl rfl
  simp only [List.nil_append] at hctxs
  have hpre : ∀ st : Importing, st.lines files ((((contextsOf w order).zip (identifiersOf w order)).map
      fun p => Line.declare p.2 (contextTypeOf w s g p.1)) ++ [.blank, .moduleBegin name]) = .ok st := by
    intro st
    refine lines_skip files st _ fun x hx => ?_
    simp only [List.mem_append, List.mem_cons, List.mem_map, List.not_mem_nil, or_false] at hx
    rcases hx with ⟨p, _, rfl⟩ | rfl | rfl <;> rfl
  rw [List.append_assoc, lines_append, hpre]
  dsimp only [Except.bind]
  rw [lines_append, hintro]
  constructor
  · intro him
    rw [hctxs.1 fun mid x post h => (importable_iff w s g order hnd place).2 him mid x post h]
    dsimp only [Except.bind, Except.map]
    rw [List.append_assoc, List.cons_append, ← List.singleton_append, lines_append,
      lines_skip files _ [Line.blank] (by simp [Importing.line])]
    dsimp only [Except.bind]
    rw [lines_append, lines_calls files _ (fun x =>
      (exposeContext w vis s (Exposer.create w s x) x).emitted.stmts) place hlinked _ hvar]
    dsimp only [Except.bind]
    have hpost : (w.unitVars.filterMap fun v => (postambleLambda s v).map (Line.postamble v)) =
        (w.unitVars.filterMap fun v => (postambleLambda s v).map fun l => (v, l)).map
          fun p => Line.postamble p.1 p.2 := by
      rw [List.map_filterMap]
      congr 1
      funext v
      cases postambleLambda s v <;> rfl
    rw [hpost, lines_append, lines_postamble files _ _ hctx]
    dsimp only [Except.bind]
    refine ⟨_, lines_skip files _ _ ?_, rfl, ?_, rfl⟩
    · intro x hx
      rcases List.mem_cons.1 hx with rfl | hx
      · rfl
      · exact hskip _ x hx
    · unfold executionsOf
      dsimp only
      rw [List.nil_append]
      congr 1
      · conv => rhs; rw [← zip_contexts w order, List.flatMap_map]
        rfl
      · rw [List.map_filterMap]
        congr 1
        funext v
        cases postambleLambda s v <;> rfl
  · intro him
    cases hc : createContexts w s g place { vars := [(t%"root", [])] } (contextsOf w order) with
    | error e => exact ⟨e, rfl⟩
    | ok st =>
      exact absurd ((importable_iff w s g order hnd place).1 (hctxs.2 ⟨st, hc⟩)) him

theorem create_keeps_vars (st st' : Importing) (path : List Str) (i : Introducer)
    (h : st.create path i = .ok st') : st'.vars = st.vars := by
  have ht : ∀ name bases, st.createType path name bases = .ok st' → st'.vars = st.vars := by
    intro name bases h
    unfold Importing.createType at h
    split at h
    · cases h
    · split at h
      · cases h
      · split at h
        · cases h
        · cases h; rfl
  cases i with
  | same p => cases h; rfl
  | submodule p n =>
    unfold Importing.create at h
    dsimp only at h
    split at h
    · cases h
    · cases h; rfl
  | type t p n a d =>
    cases t with
    | record n b h' => exact ht _ _ h
    | enum n => exact ht _ _ h
    | module => cases h; rfl

/-- Variables are introduced only once. -/
theorem lines_vars (files : List (List Line)) (l : List Line) :
    ∀ st st' : Importing, st.lines files l = .ok st' → (st.vars.map (·.1)).Nodup →
      (st'.vars.map (·.1)) = (l.filterMap introducedOf).reverse ++ st.vars.map (·.1) ∧
      (st'.vars.map (·.1)).Nodup := by
  induction l with
  | nil =>
    intro st st' h hn
    cases h
    exact ⟨rfl, hn⟩
  | cons x l ih =>
    intro st st' h hn
    unfold Importing.lines at h
    cases hx : st.line files x with
    | error e => rw [hx] at h; cases h
    | ok st1 =>
      rw [hx] at h
      dsimp only at h
      have key : st1.vars.map (·.1) = (introducedOf x).toList ++ st.vars.map (·.1) ∧
          (st1.vars.map (·.1)).Nodup := by
        cases x with
        | introduce v i =>
          unfold Importing.line at hx
          dsimp only at hx
          cases h1 : st.vars.lookup i.parent with
          | none => rw [h1] at hx; cases hx
          | some p =>
            cases h2 : st.vars.lookup v with
            | some q => rw [h1, h2] at hx; cases hx
            | none =>
              rw [h1, h2] at hx
              dsimp only at hx
              cases h3 : st.create (Introducer.object p i) i with
              | error e => rw [h3] at hx; cases hx
              | ok st2 =>
                rw [h3] at hx
                cases hx
                have := create_keeps_vars _ _ _ _ h3
                simp only [List.map_cons, introducedOf, Option.toList_some, List.singleton_append]
                rw [this]
                refine ⟨rfl, List.nodup_cons.2 ⟨(lookup_mem_keys _ _).1 h2, hn⟩⟩
        | call f =>
          unfold Importing.line at hx
          dsimp only at hx
          split at hx
          · cases hx
          · cases hx
          · cases hx; exact ⟨rfl, hn⟩
        | postamble d la =>
          unfold Importing.line at hx
          dsimp only at hx
          split at hx
          · cases hx
          · cases hx; exact ⟨rfl, hn⟩
        | _ => cases hx; exact ⟨rfl, hn⟩
      obtain ⟨h1, h2⟩ := ih st1 st' h key.2
      refine ⟨?_, h2⟩
      rw [h1, key.1, List.filterMap_cons]
      cases introducedOf x <;> simp

/-- C61: importing the generated module succeeds exactly if identifiers are distinct, no
name of a class or enum is taken, and bases come first.  Then every class and enum is at
the place determined by the scopes around them before any other statement is executed;
then the statements for each context are executed on its object, one context after the
other, and finally the `postamble` bindings on the module itself. -/
theorem C61_import (w : EmitWorld) (ok : EmitOK w) (s : Storage) (g : Graph)
    (vis : Visibilities) (pick : Pick) (nodes : List Nat) (hi : EmitInput w g pick nodes)
    (streams : Nat) (hs : 0 < streams) (name : Str) (order : List Nat)
    (hr : declContextsSortedByDependencies w.toWorld w.bases pick nodes g
      (findEnclosingScopes w.toWorld s g) = (order, none))
    (place : Nat → List Str) (hpl : ∀ x ∈ g.nodes, Refers w s g order x (place x)) :
    ((identifiersOf w order).Nodup ∧ Importable w s g order place → ∃ st,
      importModule (generatedFiles (emitModule w s g vis pick nodes streams name) streams) = .ok st ∧
      st.types = typesOf w order place ∧ st.executed = executionsOf w s vis order place ∧
      st.modules = modulesOf w s order place) ∧
    (¬ ((identifiersOf w order).Nodup ∧ Importable w s g order place) → ∃ e,
      importModule (generatedFiles (emitModule w s g vis pick nodes streams name) streams) = .error e) := by
  constructor
  · rintro ⟨hid, him⟩
    exact (import_distinct w ok s g vis pick nodes hi streams hs name order hr hid place hpl).1 him
  · intro hn
    by_cases hid : (identifiersOf w order).Nodup
    · exact (import_distinct w ok s g vis pick nodes hi streams hs name order hr hid place hpl).2
        fun h => hn ⟨hid, h⟩
    · cases him : importModule (generatedFiles (emitModule w s g vis pick nodes streams name) streams) with
      | error e => exact ⟨e, rfl⟩
      | ok st =>
        refine absurd ?_ hid
        obtain ⟨n, rfl⟩ : ∃ n, streams = n + 1 := ⟨streams - 1, by omega⟩
        have hfirst : (generatedFiles (emitModule w s g vis pick nodes (n + 1) name) (n + 1)).headD [] =
            (emitModule w s g vis pick nodes (n + 1) name).stream 0 := by
          unfold generatedFiles
          rw [List.range_succ_eq_map]
          rfl
        unfold importModule at him
        obtain ⟨h1, h2⟩ := lines_vars _ _ _ _ him (by simp)
        rw [hfirst, stream_eq w ok s g vis pick nodes hi (n + 1) name order hr, if_pos rfl,
          List.filterMap_append] at h1
        have hm := main_select w s g name order introducedOf (fun _ _ => rfl) rfl (fun _ => rfl) rfl
        rw [h1] at h2
        have h3 := (List.nodup_append.1 h2).1
        rw [(List.reverse_perm _).nodup_iff] at h3
        have h4 := (List.nodup_append.1 h3).1
        rw [hm] at h4
        simp only [introducedOf, filterMap_const, bind_const, List.append_nil] at h4
        rw [← zip_identifiers w order]
        have e : (fun p : Nat × Str => some p.2) = some ∘ fun p => p.2 := rfl
        rw [e, List.filterMap_eq_map] at h4
        exact h4

theorem own_representative (w : EmitWorld) (order : List Nat) (x : Nat) (hx : x ∈ order)
    (hk : (w.info x).kind ≠ .namespace) : x ∈ contextsOf w order := by
  obtain ⟨r, hr⟩ := representative_isSome w order x hx
  obtain ⟨hs, _⟩ := representative_same w order x r hr
  have : x = r := by
    unfold sameContext at hs
    simp only [Bool.or_eq_true, Bool.and_eq_true, decide_eq_true_eq] at hs
    exact hs.resolve_right fun h => hk h.1.1
  exact List.mem_filter.2 ⟨hx, by rw [hr, this]; simp⟩

theorem filter_split {α : Type} (q : α → Bool) : ∀ (l pre post : List α) (x : α),
    l.filter q = pre ++ x :: post → ∃ pre' post', l = pre' ++ x :: post' ∧ pre'.filter q = pre := by
  intro l
  induction l with
  | nil => intro pre post x h; simp at h
  | cons y l ih =>
    intro pre post x h
    rw [List.filter_cons] at h
    by_cases hy : q y = true
    · rw [if_pos hy] at h
      cases pre with
      | nil =>
        cases h
        exact ⟨[], l, rfl, rfl⟩
      | cons z pre =>
        rw [List.cons_append, List.cons.injEq] at h
        obtain ⟨rfl, h⟩ := h
        obtain ⟨a, b, rfl, e⟩ := ih pre post x h
        exact ⟨y :: a, b, rfl, by rw [List.filter_cons, if_pos hy, e]⟩
    · rw [if_neg hy] at h
      obtain ⟨a, b, rfl, e⟩ := ih pre post x h
      exact ⟨y :: a, b, rfl, by rw [List.filter_cons, if_neg hy, e]⟩

/-- See `C61_bases_partial`. -/
theorem bases_valid (w : EmitWorld) (s : Storage) (g : Graph) (order : List Nat)
    (hv : ValidOrder w.toWorld s w.bases g order)
    (hrec : ∀ x, ∀ b ∈ (w.hierarchy x).direct, (w.info x).kind = .record ∧ (w.info b.id).kind = .record)
    (hu : ∀ x, Unfolds (fun x => (w.hierarchy x).direct) (w.hierarchy x) (w.hierarchy x).direct)
    (hin : ∀ x c, (createFromAnnotations s (w.hierarchy x) x).shouldInline c = true → c ∈ g.nodes)
    (pre : List Nat) (x : Nat) (post : List Nat) (hc : contextsOf w order = pre ++ x :: post)
    (b : Nat) (hb : b ∈ listedBases w s g x) :
    ∃ y ∈ pre, isTypeContext w y = true ∧ w.typeName y = w.typeName b := by
  obtain ⟨pre', post', ho, he⟩ := filter_split _ order pre post x hc
  unfold listedBases at hb
  split at hb
  · have hbp := before_valid w.toWorld s g (fun x => (w.hierarchy x).direct) (fun x b hb => (hrec x b hb).1) order hv
      (w.hierarchy x) x (hu x) (createFromAnnotations s (w.hierarchy x) x) (hin x) pre' post' ho b hb
    obtain ⟨_, _, p, last, hp, hl, _, _⟩ := (mem_emittedBases b (w.hierarchy x)).1 hb
    have hpath := (inTree_path (hu x) _).1 hp
    have hkind : ∀ q x, InheritancePath (fun x => (w.hierarchy x).direct) x q → ∀ c ∈ q,
        (w.info c.id).kind = .record := by
      intro q x hq
      induction hq with
      | direct hc =>
        intro c hm
        rw [List.mem_singleton] at hm
        subst hm
        exact (hrec _ _ hc).2
      | step hc _ ih =>
        intro c hm
        rcases List.mem_cons.1 hm with rfl | hm
        · exact (hrec _ _ hc).2
        · exact ih c hm
    have hbk : (w.info b).kind = .record := by
      rw [← hl]
      exact hkind _ x hpath last (by simp)
    refine ⟨b, ?_, by simp [isTypeContext, hbk], rfl⟩
    rw [← he]
    have hm := own_representative w order b (by rw [ho]; simp [hbp]) (by rw [hbk]; decide)
    exact List.mem_filter.2 ⟨hbp, (List.mem_filter.1 hm).2⟩
  · cases hb

/-- C61: the condition on bases holds if inlined bases are exposed themselves (see C33,
and `C33_base_after_derived` for what happens otherwise). -/
theorem C61_bases_partial (w : EmitWorld) (s : Storage) (g : Graph) (pick : Pick) (nodes : List Nat)
    (hi : EmitInput w g pick nodes) (order : List Nat)
    (hr : declContextsSortedByDependencies w.toWorld w.bases pick nodes g
      (findEnclosingScopes w.toWorld s g) = (order, none))
    (hrec : ∀ x, ∀ b ∈ (w.hierarchy x).direct, (w.info x).kind = .record ∧ (w.info b.id).kind = .record)
    (hu : ∀ x, Unfolds (fun x => (w.hierarchy x).direct) (w.hierarchy x) (w.hierarchy x).direct)
    (hin : ∀ x c, (createFromAnnotations s (w.hierarchy x) x).shouldInline c = true → c ∈ g.nodes)
    (pre : List Nat) (x : Nat) (post : List Nat) (hc : contextsOf w order = pre ++ x :: post)
    (b : Nat) (hb : b ∈ listedBases w s g x) :
    ∃ y ∈ pre, isTypeContext w y = true ∧ w.typeName y = w.typeName b := by
  exact bases_valid w s g order
    (C29_order w.toWorld s g hi.graph w.bases hi.bases pick hi.picks nodes hi.perm order hr) hrec hu hin pre x post
    hc b hb

/-- The objects in `exMod`. -/
def exModPlace : Nat → List Str := fun
  | 1 => [t%"E"] | 2 => [t%"n"] | 3 => [t%"n", t%"A"] | 4 => [t%"n"] | 5 => [t%"n", t%"B"] | _ => []

example : ∀ x ∈ exModGraph.nodes, PlacedAt exMod exModStorage exModGraph x (exModPlace x) := by
  have h2 : PlacedAt exMod exModStorage exModGraph 2 [t%"n"] :=
    placed_own _ _ _ 0 2 [] _ (by simp [Edge, exModGraph]) .root (by decide +kernel) (by decide +kernel)
  have h4 : PlacedAt exMod exModStorage exModGraph 4 [t%"n"] :=
    placed_own _ _ _ 0 4 [] _ (by simp [Edge, exModGraph]) .root (by decide +kernel) (by decide +kernel)
  intro x hx
  simp only [exModGraph, List.mem_cons, List.not_mem_nil, or_false] at hx
  rcases hx with rfl | rfl | rfl | rfl | rfl | rfl
  · exact .root
  · exact placed_own _ _ _ 0 1 [] _ (by simp [Edge, exModGraph]) .root (by decide +kernel) (by decide +kernel)
  · exact h2
  · exact placed_own _ _ _ 2 3 [t%"n"] _ (by simp [Edge, exModGraph]) h2 (by decide +kernel) (by decide +kernel)
  · exact h4
  · exact placed_own _ _ _ 4 5 [t%"n"] _ (by simp [Edge, exModGraph]) h4 (by decide +kernel) (by decide +kernel)

theorem exMod_importable : Importable exMod exModStorage exModGraph [0, 1, 2, 3, 4, 5] exModPlace := by
  refine ⟨by decide +kernel, by decide +kernel, ?_⟩
  have hc : contextsOf exMod [0, 1, 2, 3, 4, 5] = [0, 1, 2, 3, 5] := by decide +kernel
  intro pre x post h b hb
  rw [hc] at h
  have hx : x ∈ [0, 1, 2, 3, 5] := by rw [h]; simp
  by_cases h5 : x = 5
  · subst h5
    have hbs : listedBases exMod exModStorage exModGraph 5 = [3] := by decide +kernel
    rw [hbs, List.mem_singleton] at hb
    subst hb
    have := (append_cons_inj (a := [0, 1, 2, 3]) (b := []) (by decide) h).1
    exact ⟨3, by rw [← this]; simp, by decide +kernel, rfl⟩
  · have : ∀ x ∈ [0, 1, 2, 3], listedBases exMod exModStorage exModGraph x = [] := by decide +kernel
    rw [this x (by revert hx; simp; omega)] at hb
    cases hb

example : typesOf exMod [0, 1, 2, 3, 4, 5] exModPlace =
    [(t%"::E", [t%"E"]), (t%"::n::A", [t%"n", t%"A"]), (t%"::n::B", [t%"n", t%"B"])] := by
  decide +kernel

/-- `namespace visible 1 { struct 2 {}; } namespace visible 3 { struct 4 {}; }`, where both
classes are called `X`. -/
def exClash : EmitWorld := { exMod with
  info := fun
    | 0 => { kind := .translationUnit }
    | 1 => { kind := .namespace, name := t%"a", attrTexts := [lozenge ++ t%"visible"] }
    | 2 => { kind := .record, name := t%"X" }
    | 3 => { kind := .namespace, name := t%"b", attrTexts := [lozenge ++ t%"visible"] }
    | _ => { kind := .record, name := t%"X" }
  canonical := fun x => x
  qualifiedName := fun | 1 => t%"a" | _ => t%"b"
  typeName := fun | 2 => t%"::a::X" | _ => t%"::b::X"
  hierarchy := fun _ => .nil
  unitVars := [] }

def exClashGraph : Graph where
  root := 0
  nodes := [0, 1, 2, 3, 4]
  children := fun | 0 => [1, 3] | 1 => [2] | 3 => [4] | _ => []

def exClashStorage : Storage where
  entries := fun x => if x ∈ [1, 2, 3, 4] then ownAttrs exClash.toWorld x else none
  size := 4

/-- C61: without an error of the tool the generated module may not be importable, because
names of classes are not compared: here two namespaces that are not submodules contain
classes of the same name. -/
theorem C61_name_taken :
    (emitModule exClash exClashStorage exClashGraph exAll (fun _ => lastSmallest exClash.loc)
      [0, 1, 2, 3, 4] 1 t%"m").diags = [] ∧
    importModule (generatedFiles (emitModule exClash exClashStorage exClashGraph exAll
      (fun _ => lastSmallest exClash.loc) [0, 1, 2, 3, 4] 1 t%"m") 1) =
      .error (.nameTaken t%"::b::X") := by
  rw [emitModule_with]
  let result := fun m : EnclosingScopes =>
    ((emitModuleWith exClash exClashStorage exClashGraph exAll (fun _ => lastSmallest exClash.loc)
      [0, 1, 2, 3, 4] 1 t%"m" m).diags,
    match importModule (generatedFiles (emitModuleWith exClash exClashStorage exClashGraph exAll
      (fun _ => lastSmallest exClash.loc) [0, 1, 2, 3, 4] 1 t%"m" m) 1) with
    | .error e => some e
    | .ok _ => none)
  have : result (findEnclosingScopes exClash.toWorld exClashStorage exClashGraph) =
      ([], some (.nameTaken t%"::b::X")) := dfs_eval 40 _ _ _ result _ (by decide +kernel)
  dsimp only [result] at this
  rw [Prod.mk.injEq] at this
  refine ⟨this.1, ?_⟩
  have h := this.2
  split at h
  · rename_i e he
    rw [Option.some.injEq] at h
    rw [← h]
    exact he
  · cases h

/-! ### C62 -/

/-- The class an attribute created for an alias refers to: the value of
`getObjectForType` (public/genpybind/binding-helpers.h:20-32), or `none` for `None`. -/
def aliasValue (e : Execution) : Option (Option (List Str)) :=
  match e.stmt with
  | .typeAttr _ _ target => some (e.known.lookup target)
  | _ => none

/-- C62: the value of an alias does not depend on the order of declarations.  It is the
class or enum if this is exposed anywhere in the module, even later in the same file or
in one of the other files, and `None` otherwise. -/
theorem C62_alias (w : EmitWorld) (s : Storage) (g : Graph) (vis : Visibilities) (order : List Nat)
    (hn : order.Nodup) (place : Nat → List Str) (him : Importable w s g order place)
    (e : Execution) (he : e ∈ executionsOf w s vis order place) (d : Nat) (n target : Str)
    (hst : e.stmt = .typeAttr d n target) :
    (∀ x ∈ order, isTypeContext w x = true → w.typeName x = target →
      aliasValue e = some (some (place x))) ∧
    ((∀ x ∈ order, isTypeContext w x = true → w.typeName x ≠ target) → aliasValue e = some none) := by
  have hk : e.known = typesOf w order place := by
    unfold executionsOf at he
    rcases List.mem_append.1 he with he | he
    · obtain ⟨x, _, he⟩ := List.mem_flatMap.1 he
      obtain ⟨st, _, rfl⟩ := List.mem_map.1 he
      rfl
    · obtain ⟨v, _, he⟩ := List.mem_filterMap.1 he
      obtain ⟨l, _, rfl⟩ := Option.map_eq_some_iff.1 he
      rfl
  unfold aliasValue
  rw [hst, hk]
  dsimp only
  constructor
  · intro x hx tx e
    have hxc : x ∈ contextsOf w order := own_representative w order x hx (by
      unfold isTypeContext at tx
      simp only [Bool.or_eq_true, decide_eq_true_eq] at tx
      rcases tx with h | h <;> rw [h] <;> decide)
    subst e
    have := lookup_map_fst (typesOf w order place) ?_ (w.typeName x, place x)
      (List.mem_map.2 ⟨x, List.mem_filter.2 ⟨hxc, tx⟩, rfl⟩)
    · exact congrArg some this
    · have hnd := contextsOf_nodup w order hn
      unfold typesOf
      rw [List.map_map]
      refine (List.pairwise_map).2 ?_
      refine List.Pairwise.imp_of_mem ?_ (List.Pairwise.sublist List.filter_sublist hnd)
      intro a b ha hb hne e
      obtain ⟨ha, ta⟩ := List.mem_filter.1 ha
      obtain ⟨hb, tb⟩ := List.mem_filter.1 hb
      exact hne (him.types a ha b hb ta tb e)
  · intro h
    rw [(lookup_mem_keys _ _).2]
    intro hm
    obtain ⟨p, hp, e⟩ := List.mem_map.1 hm
    obtain ⟨x, hx, rfl⟩ := List.mem_map.1 hp
    obtain ⟨hx, tx⟩ := List.mem_filter.1 hx
    exact h x (List.mem_filter.1 hx).1 tx e

/-- C62, for the result of importing the generated files. -/
theorem C62_imported (w : EmitWorld) (ok : EmitOK w) (s : Storage) (g : Graph)
    (vis : Visibilities) (pick : Pick) (nodes : List Nat) (hi : EmitInput w g pick nodes)
    (streams : Nat) (hs : 0 < streams) (name : Str) (order : List Nat)
    (hr : declContextsSortedByDependencies w.toWorld w.bases pick nodes g
      (findEnclosingScopes w.toWorld s g) = (order, none))
    (place : Nat → List Str) (hpl : ∀ x ∈ g.nodes, Refers w s g order x (place x)) (st : Importing)
    (him : importModule (generatedFiles (emitModule w s g vis pick nodes streams name) streams) = .ok st)
    (e : Execution) (he : e ∈ st.executed) (d : Nat) (n target : Str)
    (hst : e.stmt = .typeAttr d n target) :
    (∀ x ∈ g.nodes, isTypeContext w x = true → w.typeName x = target →
      aliasValue e = some (some (place x))) ∧
    ((∀ x ∈ g.nodes, isTypeContext w x = true → w.typeName x ≠ target) → aliasValue e = some none) := by
  have hv := C29_order w.toWorld s g hi.graph w.bases hi.bases pick hi.picks nodes hi.perm order hr
  have h61 := C61_import w ok s g vis pick nodes hi streams hs name order hr place hpl
  by_cases h : (identifiersOf w order).Nodup ∧ Importable w s g order place
  · obtain ⟨st', h1, _, h3, _⟩ := h61.1 h
    rw [him] at h1
    cases h1
    rw [h3] at he
    have := C62_alias w s g vis order (hv.perm.nodup_iff.2 hi.graph.nodup) place h.2 e he d n target hst
    exact ⟨fun x hx => this.1 x (hv.perm.mem_iff.2 hx), fun h => this.2 fun x hx =>
      h x (hv.perm.mem_iff.1 hx)⟩
  · obtain ⟨e, h1⟩ := h61.2 h
    rw [him] at h1
    cases h1

/-- `exMod` with `using 8 GENPYBIND(visible) = n::B` in the translation unit. -/
def exAlias : EmitWorld := { exMod with
  info := fun
    | 8 => { kind := .typedefName, name := t%"T", attrTexts := [lozenge ++ t%"visible"],
             aliasTarget := some 5 }
    | x => exMod.info x
  aliasTag := fun | 8 => some t%"::n::B" | _ => none
  found := fun | 0 => [{ decl := 8, access := .none }] | _ => [] }

/-- The alias is executed first, before the functions for the class; still it gets its
value. -/
example : (executionsOf exAlias exModStorage exAll [0, 1, 2, 3, 4, 5] exModPlace).head? =
    some { object := [], stmt := .typeAttr 8 t%"T" t%"::n::B",
           known := typesOf exAlias [0, 1, 2, 3, 4, 5] exModPlace } := by decide +kernel
example : isTypeContext exAlias 5 = true ∧ exAlias.typeName 5 = t%"::n::B" ∧
    exModPlace 5 = [t%"n", t%"B"] := by decide +kernel

end Verif
