import Verif.Lemmas.ReannotateRun
/-!
# Lemmas: what is written if members are annotated differently
-/
namespace Verif
open Spec

/-! ### Names of properties -/

theorem collect_names (id : Nat) (k : AnnotationKind) (l : List LiteralValue) (n : Str)
    (h : n ∈ l.map fun v => (collectIdentifier id k v).1) :
    n ∈ [] :: l.filterMap fun
      | .string s => some s
      | _ => none := by
  obtain ⟨v, hv, rfl⟩ := List.mem_map.1 h
  unfold collectIdentifier
  split
  · rename_i s
    split
    · exact List.mem_cons_of_mem _ (List.mem_filterMap.2 ⟨_, hv, rfl⟩)
    · exact List.mem_cons_self
  · exact List.mem_cons_self

theorem ensure_args {σ : Type} (d : Dispatcher σ) (c : Bool × List Diag) :
    (d.ensure c).args = d.args ∧ (d.ensure c).attrs = d.attrs := by
  unfold Dispatcher.ensure
  split
  · split <;> exact ⟨rfl, rfl⟩
  · exact ⟨rfl, rfl⟩

theorem collected_names {P : MethodDeclAttrs → Prop} (d : Dispatcher MethodDeclAttrs) (k : LiteralKind)
    (t : LiteralValue → Str × List Diag) (p : List Str → MethodDeclAttrs → Bool × MethodDeclAttrs × List Diag)
    (h : P d.attrs) (hp : P (p (d.args.map fun v => (t v).1) d.attrs).2.1) :
    P (d.variadicCollect k t p).attrs := by
  have hk : (d.checkArgKinds k).2.args = d.args ∧ (d.checkArgKinds k).2.attrs = d.attrs := by
    unfold Dispatcher.checkArgKinds
    split <;> exact ⟨rfl, rfl⟩
  unfold Dispatcher.variadicCollect
  split
  · dsimp only
    rw [hk.1, hk.2]
    split
    · exact hp
    · show P (d.checkArgKinds k).2.attrs
      rw [hk.2]; exact h
  · exact h

/-- The names are among those given. -/
def NamesIn (l : List Str) (x : MethodDeclAttrs) : Prop :=
  (∀ n ∈ x.getterFor, n ∈ l) ∧ ∀ n ∈ x.setterFor, n ∈ l

theorem processMethod_names (id : Nat) (d : DeclInfo) (a : Annotation) (l : List Str)
    (hl : ∀ n ∈ accessed [a], n ∈ l) (x : MethodDeclAttrs) (h : NamesIn l x) :
    NamesIn l (processMethod id d a x).attrs := by
  unfold processMethod
  dsimp only
  split
  · rename_i hk
    refine collected_names (P := NamesIn l) _ _ _ _ ?_ ?_
    · rw [(ensure_args _ _).2]; exact h
    · rw [(ensure_args _ _).2, (ensure_args _ _).1]
      split
      · exact h
      · refine ⟨fun n hn => ?_, h.2⟩
        rcases (mem_foldl_setInsert _ _ _).1 hn with hn | hn
        · exact h.1 n hn
        · refine hl n ?_
          unfold accessed
          rw [List.flatMap_cons, if_pos (.inl hk)]
          exact List.mem_append_left _ (collect_names _ _ _ _ hn)
  · rename_i hk
    refine collected_names (P := NamesIn l) _ _ _ _ ?_ ?_
    · rw [(ensure_args _ _).2]; exact h
    · rw [(ensure_args _ _).2, (ensure_args _ _).1]
      split
      · exact h
      · refine ⟨h.1, fun n hn => ?_⟩
        rcases (mem_foldl_setInsert _ _ _).1 hn with hn | hn
        · exact h.2 n hn
        · refine hl n ?_
          unfold accessed
          rw [List.flatMap_cons, if_pos (.inr hk)]
          exact List.mem_append_left _ (collect_names _ _ _ _ hn)
  · exact h

/-- What is preserved by each handler for each of the annotations is preserved by processing them. -/
theorem applyAnnotations_inv' {P : DeclAttrs → Prop} (env : DeclEnv) (id : Nat) (as : List Annotation)
    (hh : ∀ h ∈ handlers env id, ∀ a ∈ as, ∀ x, P x → P (h a x).attrs) :
    ∀ x, P x → P (applyAnnotations env id x as).1 := by
  have any : ∀ (hs : List Handler) (a : Annotation), (∀ h ∈ hs, ∀ x, P x → P (h a x).attrs) →
      ∀ x, P x → P (anyHandler hs a x).attrs := by
    intro hs a
    induction hs with
    | nil => exact fun _ _ h => h
    | cons h hs ih =>
      intro hh x hx
      have h1 := hh h (by simp) x hx
      simp only [anyHandler]
      split
      · exact h1
      · exact ih (fun h' hm => hh h' (by simp [hm])) _ h1
  induction as with
  | nil => exact fun _ h => h
  | cons a as ih =>
    intro x hx
    have h1 := any _ a (fun h hm => hh h hm a List.mem_cons_self) x hx
    simp only [applyAnnotations]
    refine ih (fun h hm b hb => hh h hm b (List.mem_cons_of_mem _ hb)) _ ?_
    unfold applyAnnotation
    dsimp only
    split <;> exact h1

theorem accessed_mem (as : List Annotation) (a : Annotation) (ha : a ∈ as) (n : Str)
    (hn : n ∈ accessed [a]) : n ∈ accessed as := by
  unfold accessed at *
  rw [List.flatMap_cons, List.flatMap_nil, List.append_nil] at hn
  exact List.mem_flatMap.2 ⟨a, ha, hn⟩

/-- A declaration only contributes to the properties named by its annotations. -/
theorem firstInsert_accessed (env : DeclEnv) (id : Nat) (m : MethodDeclAttrs)
    (h : (firstInsert env id).1.method = some m) : NamesIn (accessedBy id (env.info id).attrTexts) m := by
  let Q : DeclAttrs → Prop := fun x =>
    ∀ m, x.method = some m → NamesIn (accessedBy id (env.info id).attrTexts) m
  suffices hs : Q (firstInsert env id).1 from hs m h
  unfold firstInsert
  dsimp only
  refine applyAnnotations_inv' (P := Q) env id _ ?_ _ ?_
  · intro h hh a ha x hx
    simp only [handlers, List.mem_cons, List.not_mem_nil, or_false] at hh
    rcases hh with rfl | rfl | rfl | rfl | rfl | rfl | rfl | rfl | rfl | rfl | rfl
    · exact hx
    all_goals first
      | exact liftHandler_inv (P := Q) a x hx (fun y _ => hx)
      | exact liftHandler_inv (P := Q) a x hx (fun y hy rec hr => by
            simp only [Option.some.injEq] at hr
            subst hr
            exact processMethod_names id _ a _ (fun n hn => accessed_mem _ a ha n hn) y (hx y hy))
  · have h0 : Q (freshAttrs (env.info id)) := by
      intro m hr
      simp only [freshAttrs] at hr
      split at hr
      · simp only [Option.some.injEq] at hr
        subst hr
        exact ⟨by simp, by simp⟩
      · simp at hr
    split
    · exact h0
    · exact h0

/-- Only records have the attributes of records. -/
theorem firstInsert_record (env : DeclEnv) (id : Nat) (h : (env.info id).kind ≠ .record) :
    (firstInsert env id).1.record = none := by
  refine firstInsert_inv (P := fun x => x.record = none) env id ?_ ?_ ?_
  · intro h hh a x hx
    simp only [handlers, List.mem_cons, List.not_mem_nil, or_false] at hh
    rcases hh with rfl | rfl | rfl | rfl | rfl | rfl | rfl | rfl | rfl | rfl | rfl
    · exact hx
    all_goals first
      | exact liftHandler_inv (P := fun x => x.record = none) a x hx (fun y _ => hx)
      | exact liftHandler_inv (P := fun x => x.record = none) a x hx (fun y hy => by
            rw [hx] at hy; cases hy)
  · simp only [freshAttrs, supportsRecord]
    simp [h]
  · exact fun x n h => h

/-! ### Maps of properties -/

/-- Maps that agree on all other properties have the same other entries. -/
theorem sorted_filter (P : Str → Bool) (m m' : PropertyMap) (h : m.Sorted) (h' : m'.Sorted)
    (hm : ∀ n, P n = false → m'.lookup n = m.lookup n) :
    m'.filter (fun e => !P e.1) = m.filter (fun e => !P e.1) := by
  have nd : ∀ m : PropertyMap, m.Sorted → m.Nodup := by
    intro m h
    refine List.Pairwise.imp (fun {a b} hab => ?_) h
    rintro rfl
    rw [strLt_irrefl] at hab; cases hab
  have hp : (m'.filter fun e => !P e.1).Perm (m.filter fun e => !P e.1) := by
    refine (List.perm_ext_iff_of_nodup ((nd _ h').filter _) ((nd _ h).filter _)).2 ?_
    rintro ⟨n, p⟩
    rw [List.mem_filter, List.mem_filter, mem_iff_lookup m' h', mem_iff_lookup m h]
    cases hn : P n with
    | true => simp
    | false => rw [hm n hn]
  refine List.Perm.eq_of_pairwise (le := fun (a b : Str × Property) => strLt a.1 b.1 = true) ?_
    (List.Pairwise.filter _ h') (List.Pairwise.filter _ h) hp
  intro a b _ _ hab hba
  have := strLt_trans _ _ _ hab hba
  rw [strLt_irrefl] at this; cases this

/-- The maps of both runs. -/
structure OffP (P : Str → Bool) (m m' : PropertyMap) : Prop where
  sorted : m.Sorted
  sorted' : m'.Sorted
  agree : ∀ n, P n = false → m'.lookup n = m.lookup n

theorem off_set {P : Str → Bool} {m m' : PropertyMap} (h : OffP P m m') (n : Str)
    (f : Property → Property) :
    OffP P (m.set n (f (m.get n))) (m'.set n (f (m'.get n))) := by
  refine ⟨set_sorted _ _ _ h.sorted, set_sorted _ _ _ h.sorted', fun k hk => ?_⟩
  rw [set_lookup, set_lookup]
  by_cases e : k = n
  · subst e
    rw [if_pos rfl, if_pos rfl]
    unfold PropertyMap.get
    rw [h.agree k hk]
  · rw [if_neg e, if_neg e]
    exact h.agree k hk

theorem off_set_left {P : Str → Bool} {m m' : PropertyMap} (h : OffP P m m') (n : Str) (hn : P n = true)
    (p : Property) : OffP P (m.set n p) m' := by
  refine ⟨set_sorted _ _ _ h.sorted, h.sorted', fun k hk => ?_⟩
  rw [set_lookup, if_neg]
  · exact h.agree k hk
  · rintro rfl
    rw [hn] at hk; cases hk

theorem off_symm {P : Str → Bool} {m m' : PropertyMap} (h : OffP P m m') : OffP P m' m :=
  ⟨h.sorted', h.sorted, fun n hn => (h.agree n hn).symm⟩

theorem off_both {P : Str → Bool} {m m' : PropertyMap} (h : OffP P m m') (id : Nat)
    (attrs : MethodDeclAttrs) : OffP P (addProperties m id attrs).1 (addProperties m' id attrs).1 := by
  have hg : ∀ (l : List Str) (st st' : PropertyMap × List Diag), OffP P st.1 st'.1 →
      OffP P (l.foldl (addGetter id) st).1 (l.foldl (addGetter id) st').1 := by
    intro l
    induction l with
    | nil => exact fun _ _ h => h
    | cons n l ih => exact fun st st' h => ih _ _ (off_set h n fun p => { p with getter := some id })
  have hs : ∀ (l : List Str) (st st' : PropertyMap × List Diag), OffP P st.1 st'.1 →
      OffP P (l.foldl (addSetter id) st).1 (l.foldl (addSetter id) st').1 := by
    intro l
    induction l with
    | nil => exact fun _ _ h => h
    | cons n l ih => exact fun st st' h => ih _ _ (off_set h n fun p => { p with setter := some id })
  exact hs _ _ _ (hg _ _ _ h)

theorem off_one {P : Str → Bool} {m m' : PropertyMap} (h : OffP P m m') (id : Nat)
    (attrs : MethodDeclAttrs) {l : List Str} (hn : NamesIn l attrs) (hl : ∀ n ∈ l, P n = true) :
    OffP P (addProperties m id attrs).1 m' := by
  have hg : ∀ (l : List Str) (st : PropertyMap × List Diag), (∀ n ∈ l, P n = true) → OffP P st.1 m' →
      OffP P (l.foldl (addGetter id) st).1 m' := by
    intro l
    induction l with
    | nil => exact fun _ _ h => h
    | cons n l ih =>
      intro st hl h
      exact ih _ (fun k hk => hl k (List.mem_cons_of_mem _ hk))
        (off_set_left h n (hl n List.mem_cons_self) _)
  have hs : ∀ (l : List Str) (st : PropertyMap × List Diag), (∀ n ∈ l, P n = true) → OffP P st.1 m' →
      OffP P (l.foldl (addSetter id) st).1 m' := by
    intro l
    induction l with
    | nil => exact fun _ _ h => h
    | cons n l ih =>
      intro st hl h
      exact ih _ (fun k hk => hl k (List.mem_cons_of_mem _ hk))
        (off_set_left h n (hl n List.mem_cons_self) _)
  exact hs _ _ (fun n h => hl n (hn.2 n h)) (hg _ _ (fun n h => hl n (hn.1 n h)) h)

/-! ### Statements for a declaration -/

/-- All of it is about the members. -/
def About (D : Nat → Bool) (P : Str → Bool) (l : List Stmt) : Prop :=
  ∀ st ∈ l, concerns D P (.stmt st) = true

section
variable {w : EmitWorld} {D : Nat → Bool} {texts : Nat → List Str} {P : Str → Bool}

theorem about_nil : About D P [] := fun _ h => (by cases h)

theorem about_one {st : Stmt} (h : concerns D P (.stmt st) = true) : About D P [st] := by
  intro x hx
  rw [List.mem_singleton.1 hx]; exact h

theorem generic_about (w : EmitWorld) (a : DeclAttrs) (x : Nat) (hx : D x = true) :
    About D P (handleDeclGeneric w a x).stmts := by
  unfold handleDeclGeneric
  dsimp only
  repeat' split
  all_goals first | exact about_nil | exact about_one hx

theorem enum_about (w : EmitWorld) (e : Nat) (a : DeclAttrs) (x : Nat) (hx : D x = true) :
    About D P (handleDeclEnum w e a x).stmts := by
  unfold handleDeclEnum
  split
  · exact about_one hx
  · exact about_nil

theorem record_about (w : EmitWorld) (r : Nat) (m : PropertyMap) (a : DeclAttrs) (x : Nat)
    (hx : D x = true) : About D P (handleDeclRecord w r m a x).2.stmts := by
  unfold handleDeclRecord
  dsimp only
  repeat' split
  all_goals first
    | exact about_nil
    | exact about_one hx
    | exact generic_about w a x hx
    | (intro st hst
       rcases List.mem_cons.1 hst with rfl | hst
       · exact hx
       · rw [List.mem_singleton.1 hst]; exact hx)

/-- The properties after handling a declaration. -/
theorem record_map (w : EmitWorld) (r : Nat) (a : DeclAttrs) (x : Nat) :
    (∀ m, (handleDeclRecord w r m a x).1 = m) ∨
    ((a.method.getD {}).getterFor ≠ [] ∨ (a.method.getD {}).setterFor ≠ []) ∧
      ∀ m, (handleDeclRecord w r m a x).1 = (addProperties m x (a.method.getD {})).1 := by
  by_cases hc : a.constructor = none ∧ supportsOperator (w.info x) = false ∧
      (!(a.method.getD {}).getterFor.isEmpty || !(a.method.getD {}).setterFor.isEmpty) = true
  · refine .inr ⟨?_, fun m => ?_⟩
    · have := hc.2.2
      simpa using this
    · unfold handleDeclRecord
      dsimp only
      rw [hc.1]
      dsimp only
      rw [if_neg (by rw [hc.2.1]; simp), if_pos hc.2.2]
  · refine .inl fun m => ?_
    unfold handleDeclRecord
    dsimp only
    repeat' split
    all_goals first
      | rfl
      | (rename_i h1 h2 h3
         exact absurd ⟨h1, by simpa using h2, h3⟩ hc)

theorem record_stmts (w : EmitWorld) (r : Nat) (m m' : PropertyMap) (a : DeclAttrs) (x : Nat) :
    (handleDeclRecord w r m' a x).2.stmts = (handleDeclRecord w r m a x).2.stmts := by
  unfold handleDeclRecord
  dsimp only
  repeat' split
  all_goals rfl

/-! ### The body of a function -/

/-- Statements that are not about the members. -/
def otherStmts (D : Nat → Bool) (P : Str → Bool) (l : List Stmt) : List Stmt :=
  l.filter fun st => !concerns D P (.stmt st)

theorem otherStmts_append (l m : List Stmt) : otherStmts D P (l ++ m) = otherStmts D P l ++ otherStmts D P m :=
  List.filter_append ..

theorem otherStmts_about {l : List Stmt} (h : About D P l) : otherStmts D P l = [] := by
  unfold otherStmts
  rw [List.filter_eq_nil_iff]
  intro st hst
  rw [h st hst]; simp

/-- The exposers of both runs. -/
structure OffE (w : EmitWorld) (D : Nat → Bool) (texts : Nat → List Str) (P : Str → Bool)
    (e e' : Exposing) : Prop where
  storage : Off w D texts e.storage e'.storage
  props : OffP P e.properties e'.properties
  stmts : otherStmts D P e'.emitted.stmts = otherStmts D P e.emitted.stmts

theorem off_emit {e e' : Exposing} (h : OffE w D texts P e e') {o o' : Emitted}
    (ho : otherStmts D P o'.stmts = otherStmts D P o.stmts) : OffE w D texts P (e.emit o) (e'.emit o') := by
  refine ⟨h.storage, h.props, ?_⟩
  show otherStmts D P (e'.emitted.stmts ++ o'.stmts) = otherStmts D P (e.emitted.stmts ++ o.stmts)
  rw [otherStmts_append, otherStmts_append, h.stmts, ho]

/-- A declaration that is the same in both runs. -/
theorem off_same {e e' : Exposing} (h : OffE w D texts P e e') (x : Exposer) (a : DeclAttrs) (d : Nat) :
    OffE w D texts P (x.handleDeclImpl w e a d) (x.handleDeclImpl (reannotate w texts) e' a d) := by
  cases x with
  | plain => exact off_emit h rfl
  | «namespace» n => exact off_emit h rfl
  | enum n => exact off_emit h rfl
  | record n p =>
    have hr : ∀ m, handleDeclRecord (reannotate w texts) n m a d = handleDeclRecord w n m a d := fun _ => rfl
    unfold Exposer.handleDeclImpl
    dsimp only
    rw [hr]
    refine off_emit (o := (handleDeclRecord w n e.properties a d).2)
      (o' := (handleDeclRecord w n e'.properties a d).2)
      (e := { e with properties := (handleDeclRecord w n e.properties a d).1 })
      (e' := { e' with properties := (handleDeclRecord w n e'.properties a d).1 })
      ⟨h.storage, ?_, h.stmts⟩ (by rw [record_stmts w n e.properties e'.properties a d])
    dsimp only
    rcases record_map w n a d with hm | ⟨_, hm⟩
    · rw [hm, hm]; exact h.props
    · rw [hm, hm]; exact off_both h.props d _

/-- A member, handled in the first run. -/
theorem off_left {e e' : Exposing} (h : OffE w D texts P e e') (x : Exposer) (w₁ : EmitWorld) (a : DeclAttrs)
    (d : Nat) (hd : D d = true) (hn : ∃ l, NamesIn l (a.method.getD {}) ∧ ∀ n ∈ l, P n = true) :
    OffE w D texts P (x.handleDeclImpl w₁ e a d) e' := by
  obtain ⟨l, hl, hl'⟩ := hn
  have key : ∀ (e : Exposing) (o : Emitted), OffE w D texts P e e' → About D P o.stmts →
      OffE w D texts P (e.emit o) e' := by
    intro e o h ho
    refine ⟨h.storage, h.props, ?_⟩
    show otherStmts D P e'.emitted.stmts = otherStmts D P (e.emitted.stmts ++ o.stmts)
    rw [otherStmts_append, otherStmts_about ho, List.append_nil]
    exact h.stmts
  cases x with
  | plain => exact key _ _ h (generic_about w₁ a d hd)
  | «namespace» n => exact key _ _ h (generic_about w₁ a d hd)
  | enum n => exact key _ _ h (enum_about w₁ n a d hd)
  | record n p =>
    refine key _ _ ⟨h.storage, ?_, h.stmts⟩ (record_about w₁ n _ a d hd)
    dsimp only
    rcases record_map w₁ n a d with hm | ⟨_, hm⟩
    · rw [hm]; exact h.props
    · rw [hm]; exact off_one h.props d _ hl hl'

/-- A member, handled in the second run. -/
theorem off_right {e e' : Exposing} (h : OffE w D texts P e e') (x : Exposer) (w₁ : EmitWorld) (a : DeclAttrs)
    (d : Nat) (hd : D d = true) (hn : ∃ l, NamesIn l (a.method.getD {}) ∧ ∀ n ∈ l, P n = true) :
    OffE w D texts P e (x.handleDeclImpl w₁ e' a d) := by
  obtain ⟨l, hl, hl'⟩ := hn
  have key : ∀ (e' : Exposing) (o : Emitted), OffE w D texts P e e' → About D P o.stmts →
      OffE w D texts P e (e'.emit o) := by
    intro e' o h ho
    refine ⟨h.storage, h.props, ?_⟩
    show otherStmts D P (e'.emitted.stmts ++ o.stmts) = otherStmts D P e.emitted.stmts
    rw [otherStmts_append, otherStmts_about ho, List.append_nil]
    exact h.stmts
  cases x with
  | plain => exact key _ _ h (generic_about w₁ a d hd)
  | «namespace» n => exact key _ _ h (generic_about w₁ a d hd)
  | enum n => exact key _ _ h (enum_about w₁ n a d hd)
  | record n p =>
    refine key _ _ ⟨h.storage, ?_, h.stmts⟩ (record_about w₁ n _ a d hd)
    dsimp only
    rcases record_map w₁ n a d with hm | ⟨_, hm⟩
    · rw [hm]; exact h.props
    · rw [hm]; exact off_symm (off_one (off_symm h.props) d _ hl hl')

theorem off_names {a : DeclAttrs} {env : DeclEnv} {d : Nat} (ha : a = (firstInsert env d).1)
    (hp : ∀ n ∈ accessedBy d (env.info d).attrTexts, P n = true) :
    ∃ l, NamesIn l (a.method.getD {}) ∧ ∀ n ∈ l, P n = true := by
  refine ⟨_, ?_, hp⟩
  subst ha
  cases hm : (firstInsert env d).1.method with
  | none => exact ⟨fun n h => (by cases h), fun n h => (by cases h)⟩
  | some m => exact firstInsert_accessed env d m hm

theorem off_propose (h : OnlyAnnotated w D texts) (hc : Covers w D texts P) (x : Exposer) (v : Bool)
    {e e' : Exposing} (he : OffE w D texts P e e') (d : Nat) :
    OffE w D texts P (x.propose w v e d) (x.propose (reannotate w texts) v e' d) := by
  have h1 := off_insert h he.storage d
  unfold Exposer.propose
  dsimp only
  generalize he1 : ({ e with storage := (e.storage.insert w.toDeclEnv d).1, emitted := { e.emitted with
    diags := e.emitted.diags ++ (e.storage.insert w.toDeclEnv d).2 } } : Exposing) = e1
  generalize he2 : ({ e' with storage := (e'.storage.insert (reannotate w texts).toDeclEnv d).1, emitted := { e'.emitted with
    diags := e'.emitted.diags ++ (e'.storage.insert (reannotate w texts).toDeclEnv d).2 } } : Exposing) = e2
  have hE : OffE w D texts P e1 e2 := by
    subst he1 he2
    exact ⟨h1, he.props, he.stmts⟩
  clear he1 he2 h1 he
  unfold Exposer.handleDecl
  cases hd : D d with
  | false =>
    rw [hE.storage.off d hd]
    split
    · exact hE
    · split
      · exact off_same hE x _ d
      · exact hE
  | true =>
    have hl : ∀ a, e1.storage.entries d = some a → ∀ {f f' : Exposing}, OffE w D texts P f f' →
        OffE w D texts P (x.handleDeclImpl w f a d) f' := fun a ha f f' hf =>
      off_left hf x w a d hd (off_names (hE.storage.own d a hd ha) (hc.before d hd))
    have hr : ∀ a, e2.storage.entries d = some a → ∀ {f f' : Exposing}, OffE w D texts P f f' →
        OffE w D texts P f (x.handleDeclImpl (reannotate w texts) f' a d) := fun a ha f f' hf =>
      off_right hf x _ a d hd (off_names (hE.storage.own' d a hd ha) (hc.after d hd))
    cases h1 : e1.storage.entries d with
    | none =>
      cases h2 : e2.storage.entries d with
      | none => exact hE
      | some b =>
        dsimp only
        split
        · exact hr b h2 hE
        · exact hE
    | some a =>
      cases h2 : e2.storage.entries d with
      | none =>
        dsimp only
        split
        · exact hl a h1 hE
        · exact hE
      | some b =>
        dsimp only
        by_cases k1 : a.named.visible.getD v = true
        · rw [if_pos k1]
          split
          · exact hr b h2 (hl a h1 hE)
          · exact hl a h1 hE
        · rw [if_neg k1]
          split
          · exact hr b h2 hE
          · exact hE

theorem off_props (w₁ : EmitWorld) {m m' : PropertyMap} (h : OffP P m m') :
    otherStmts D P (emitProperties w₁ m').stmts = otherStmts D P (emitProperties w₁ m).stmts := by
  have key : ∀ m : PropertyMap, otherStmts D P (emitProperties w₁ m).stmts =
      (emitProperties w₁ (m.filter fun e => !P e.1)).stmts := by
    intro m
    rw [emitProperties_stmts, emitProperties_stmts]
    unfold otherStmts
    induction m with
    | nil => rfl
    | cons e m ih =>
      rw [List.filterMap_cons, List.filter_cons]
      cases hg : e.2.getter with
      | none =>
        rw [Option.map_none]
        dsimp only
        rw [ih]
        split
        · rw [List.filterMap_cons, hg]; rfl
        · rfl
      | some g =>
        rw [Option.map_some]
        dsimp only
        rw [List.filter_cons]
        cases hp : P e.1 with
        | true =>
          rw [show concerns D P (.stmt (.property e.1 (emitFunctionPointer w₁ g)
            (e.2.setter.map (emitFunctionPointer w₁)))) = true from hp]
          exact ih
        | false =>
          rw [show concerns D P (.stmt (.property e.1 (emitFunctionPointer w₁ g)
            (e.2.setter.map (emitFunctionPointer w₁)))) = false from hp]
          simp only [Bool.not_false, if_true]
          rw [ih, List.filterMap_cons, hg]
          rfl
  rw [key, key, sorted_filter P m m' h.sorted h.sorted' h.agree]

theorem off_sort (l : List Nat) : sortDecls (reannotate w texts).toWorld l = sortDecls w.toWorld l := by
  have hi : ∀ x l, insertDecl (reannotate w texts).toWorld x l = insertDecl w.toWorld x l := by
    intro x l
    induction l with
    | nil => rfl
    | cons y l ih =>
      unfold insertDecl
      rw [ih]
      rfl
  induction l with
  | nil => rfl
  | cons x l ih =>
    show insertDecl _ x (sortDecls _ l) = insertDecl _ x (sortDecls _ l)
    rw [ih, hi]

theorem off_proposed (x : Exposer) (c : Nat) :
    proposedDecls (reannotate w texts) x c = proposedDecls w x c := by
  unfold proposedDecls
  dsimp only
  rw [off_sort]
  rfl

/-- What is exposed for a context that is no member. -/
theorem off_context (h : OnlyAnnotated w D texts) (hc : Covers w D texts P) {s s' : Storage}
    (hs : Off w D texts s s') (vis : Visibilities) (x : Exposer) (c : Nat)
    (hx : ∀ e, x = .enum e → D e = false) :
    otherStmts D P (exposeContext (reannotate w texts) vis s' x c).emitted.stmts =
      otherStmts D P (exposeContext w vis s x c).emitted.stmts := by
  have hf : ∀ (l : List Nat) (e e' : Exposing), OffE w D texts P e e' →
      OffE w D texts P (l.foldl (x.propose w ((vis c).getD false)) e)
        (l.foldl (x.propose (reannotate w texts) ((vis c).getD false)) e') := by
    intro l
    induction l with
    | nil => exact fun _ _ h => h
    | cons d l ih => exact fun e e' he => ih _ _ (off_propose h hc x _ he d)
  have h0 : OffE w D texts P { storage := s } { storage := s' } :=
    ⟨hs, ⟨.nil, .nil, fun _ _ => rfl⟩, rfl⟩
  have h1 := hf (proposedDecls w x c) _ _ h0
  unfold exposeContext
  rw [off_proposed]
  revert h1
  generalize (proposedDecls w x c).foldl (x.propose w ((vis c).getD false)) { storage := s } = e
  generalize (proposedDecls w x c).foldl (x.propose (reannotate w texts) ((vis c).getD false))
    { storage := s' } = e'
  intro h1
  unfold Exposer.finalizeDefinition
  cases x with
  | plain => exact (off_emit h1 rfl).stmts
  | «namespace» n => exact (off_emit h1 rfl).stmts
  | enum n =>
    refine (off_emit h1 ?_).stmts
    unfold finalizeEnum
    rw [h1.storage.off n (hx n rfl)]
    rfl
  | record n p =>
    have hw : (emitProperties (reannotate w texts) e'.properties).stmts =
        (emitProperties w e'.properties).stmts := by
      rw [emitProperties_stmts, emitProperties_stmts]
      rfl
    exact (off_emit (o' := emitProperties (reannotate w texts) e'.properties)
      h1 (by rw [hw]; exact off_props w h1.props)).stmts

/-! ### The module -/

theorem off_record (h : OnlyAnnotated w D texts) {s s' : Storage} (hs : Off w D texts s s') :
    getRecord s' = getRecord s := by
  funext x
  unfold getRecord
  cases hx : D x with
  | false => rw [hs.off x hx]
  | true =>
    have h1 := (h.member x hx).2.2.1
    have k1 : (s.entries x).bind (·.record) = none := by
      cases he : s.entries x with
      | none => rfl
      | some a =>
        rw [hs.own x a hx he]
        exact firstInsert_record _ _ h1
    have k2 : (s'.entries x).bind (·.record) = none := by
      cases he : s'.entries x with
      | none => rfl
      | some a =>
        rw [hs.own' x a hx he]
        exact firstInsert_record (reannotate w texts).toDeclEnv _ h1
    rw [k1, k2]

theorem off_create (h : OnlyAnnotated w D texts) {s s' : Storage} (hs : Off w D texts s s') (x : Nat) :
    Exposer.create (reannotate w texts) s' x = Exposer.create w s x := by
  have hr := off_record h hs
  have hcc : ∀ n c, collectCandidates s' n c = collectCandidates s n c := by
    intro n
    induction n with
    | zero => exact fun _ => rfl
    | succ n ih =>
      intro c
      unfold collectCandidates
      rw [hr]
      simp only [ih]
  unfold Exposer.create
  show (match (w.info x).kind with | .namespace => _ | .enum => _ | .record => _ | _ => _) =
    (match (w.info x).kind with | .namespace => _ | .enum => _ | .record => _ | _ => _)
  unfold createFromAnnotations
  simp only [hcc]
  rfl
end

/-! ### Hidden members -/

section
variable {w : EmitWorld} {D : Nat → Bool}

/-- Nothing is about the members. -/
def Without (D : Nat → Bool) (l : List Stmt) : Prop :=
  ∀ st ∈ l, concerns D (fun _ => false) (.stmt st) = false

theorem without_decl (l : List Stmt) (x : Nat) (hx : D x = false)
    (h : About (fun d => d == x) (fun _ => false) l) : Without D l := by
  intro st hst
  have := h st hst
  cases st <;> first
    | rfl
    | (simp only [concerns, beq_iff_eq] at this ⊢
       rw [this]; exact hx)

/-- State of an exposer none of whose members is visible. -/
structure HiddenE (w : EmitWorld) (D : Nat → Bool) (e : Exposing) : Prop where
  own : ∀ d a, D d = true → e.storage.entries d = some a → a = (firstInsert w.toDeclEnv d).1
  stmts : Without D e.emitted.stmts

theorem without_append {l m : List Stmt} (h : Without D l) (h' : Without D m) : Without D (l ++ m) := by
  intro st hst
  rcases List.mem_append.1 hst with hst | hst
  · exact h st hst
  · exact h' st hst

theorem hidden_emit {e : Exposing} (h : HiddenE w D e) {o : Emitted} (ho : Without D o.stmts) :
    HiddenE w D (e.emit o) := ⟨h.own, without_append h.stmts ho⟩

theorem hidden_propose (hh : ∀ d, D d = true → (firstInsert w.toDeclEnv d).1.named.visible = some false)
    (x : Exposer) (v : Bool) {e : Exposing} (h : HiddenE w D e) (d : Nat) :
    HiddenE w D (x.propose w v e d) := by
  have h1 : HiddenE w D { e with storage := (e.storage.insert w.toDeclEnv d).1, emitted := { e.emitted with
      diags := e.emitted.diags ++ (e.storage.insert w.toDeclEnv d).2 } } := by
    refine ⟨fun y a hy ha => ?_, h.stmts⟩
    obtain ⟨a1, _⟩ := insert_result w.toWorld e.storage d
    dsimp only at ha
    rw [a1] at ha
    dsimp only at ha
    split at ha
    · rename_i he
      rw [he.1]
      exact (Option.some.inj ha).symm
    · exact h.own y a hy ha
  unfold Exposer.propose
  dsimp only
  revert h1
  generalize ({ e with storage := (e.storage.insert w.toDeclEnv d).1, emitted := { e.emitted with
    diags := e.emitted.diags ++ (e.storage.insert w.toDeclEnv d).2 } } : Exposing) = e1
  intro h1
  unfold Exposer.handleDecl
  split
  · exact h1
  rename_i a ha
  split
  · rename_i hv
    cases hd : D d with
    | true =>
      rw [h1.own d a hd ha, hh d hd] at hv
      cases hv
    | false =>
      have hx : (fun y => y == d) d = true := by simp
      cases x with
      | plain => exact hidden_emit h1 (without_decl _ d hd (generic_about w a d hx))
      | «namespace» n => exact hidden_emit h1 (without_decl _ d hd (generic_about w a d hx))
      | enum n => exact hidden_emit h1 (without_decl _ d hd (enum_about w n a d hx))
      | record n p =>
        exact hidden_emit (e := { e1 with properties := (handleDeclRecord w n e1.properties a d).1 })
          ⟨h1.own, h1.stmts⟩ (without_decl _ d hd (record_about w n _ a d hx))
  · exact h1

theorem hidden_context (hh : ∀ d, D d = true → (firstInsert w.toDeclEnv d).1.named.visible = some false)
    {s : Storage} (hs : ∀ d a, D d = true → s.entries d = some a → a = (firstInsert w.toDeclEnv d).1)
    (vis : Visibilities) (x : Exposer) (c : Nat) :
    Without D (exposeContext w vis s x c).emitted.stmts := by
  have hf : ∀ (l : List Nat) (e : Exposing), HiddenE w D e →
      HiddenE w D (l.foldl (x.propose w ((vis c).getD false)) e) := by
    intro l
    induction l with
    | nil => exact fun _ h => h
    | cons d l ih => exact fun e he => ih _ (hidden_propose hh x _ he d)
  have h1 := hf (proposedDecls w x c) { storage := s } ⟨hs, fun _ h => (by cases h)⟩
  unfold exposeContext
  revert h1
  generalize (proposedDecls w x c).foldl (x.propose w ((vis c).getD false)) { storage := s } = e
  intro h1
  have one : ∀ st : Stmt, concerns D (fun _ => false) (.stmt st) = false → Without D [st] := by
    intro st h x hx
    rw [List.mem_singleton.1 hx]; exact h
  unfold Exposer.finalizeDefinition
  cases x with
  | plain => exact (hidden_emit h1 (one _ rfl)).stmts
  | «namespace» n => exact (hidden_emit h1 (one _ rfl)).stmts
  | enum n =>
    refine (hidden_emit h1 ?_).stmts
    unfold finalizeEnum
    split
    · split
      · exact one _ rfl
      · exact fun _ h => (by cases h)
    · exact fun _ h => (by cases h)
  | record n p =>
    refine (hidden_emit h1 ?_).stmts
    rw [emitProperties_stmts]
    intro st hst
    obtain ⟨y, _, hy⟩ := List.mem_filterMap.1 hst
    cases hg : y.2.getter with
    | none => rw [hg] at hy; cases hy
    | some g =>
      rw [hg] at hy
      cases hy
      rfl
end

theorem parse_hidden (d : Nat) : (parseAllTexts d [] [lozenge ++ t%"hidden"]).1 = [⟨.hidden, []⟩] := by
  have h1 : consumeFront lozenge (lozenge ++ t%"hidden") = some t%"hidden" := by decide +kernel
  have h2 : parseAnnotationsInto t%"hidden" [] = (none, [⟨.hidden, []⟩]) := by decide +kernel
  unfold parseAllTexts
  rw [h1]
  dsimp only
  rw [h2]
  rfl

/-- The annotation `hidden`. -/
theorem firstInsert_hidden (env : DeclEnv) (d : Nat) (h : (env.info d).attrTexts = [lozenge ++ t%"hidden"]) :
    (firstInsert env d).1.named.visible = some false ∧
    ∀ v, (firstInsert env d).1.fieldOrVar = some v → v.postamble = false := by
  have hp := parse_hidden d
  have ha : ∀ x, (applyAnnotations env d x [⟨.hidden, []⟩]).1 =
      { x with named := { x.named with visible := some false } } := fun x => rfl
  unfold firstInsert
  dsimp only
  rw [h, hp, ha]
  refine ⟨rfl, fun v hv => ?_⟩
  have hf : ∀ v, (freshAttrs (env.info d)).fieldOrVar = some v → v.postamble = false := by
    intro v hv
    unfold freshAttrs at hv
    dsimp only at hv
    split at hv
    · cases hv; rfl
    · cases hv
  refine hf v ?_
  dsimp only at hv
  split at hv <;> exact hv

end Verif
