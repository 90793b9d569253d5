import Verif.Props.Evaluate
import Verif.Props.Working
import Verif.Spec.Access
/-!
# C103: attributes of objects in Python; C104: hashing
-/
namespace Verif
open Spec

/-- Definitions that are no enumerators come from a statement. -/
theorem definitions_stmt (isClass : List Str → Bool) (l before : List Execution) (d : Definition)
    (h : d ∈ definitions isClass before l) (hs : ∀ v, enumeratorOf d.stmt ≠ some v) :
    ∃ e ∈ l, definedBy isClass e.object e.stmt = some d := by
  induction l generalizing before with
  | nil => cases h
  | cons e l ih =>
    unfold definitions at h
    rcases List.mem_append.1 h with h | h
    · rcases List.mem_append.1 h with h | h
      · exact ⟨e, List.mem_cons_self, by simpa using h⟩
      · unfold exportedBy at h
        split at h
        · obtain ⟨b, _, hb⟩ := List.mem_filterMap.1 h
          split at hb
          · rename_i heq
            split at hb
            · cases hb
              exact absurd (by rw [heq]; rfl) (hs _)
            · cases hb
          · cases hb
        · cases h
    · obtain ⟨e', he', h⟩ := ih _ h
      exact ⟨e', List.mem_cons_of_mem _ he', h⟩

/-- Definitions with data. -/
theorem read_defined (isClass : List Str → Bool) (o : List Str) (s : Stmt) (r : Target)
    (h : readFrom s = some r ∨ assignTo s = some r) (d : Definition) (hd : definedBy isClass o s = some d) :
    d.object = o ∧ d.stmt = s ∧ ¬ d.isFunction ∧ (∀ v, enumeratorOf s ≠ some v) := by
  cases s <;> simp [readFrom, assignTo] at h <;> simp only [definedBy, Option.some.injEq] at hd <;> subst hd <;>
    refine ⟨rfl, rfl, ?_, by simp [enumeratorOf]⟩ <;> rintro ⟨m, hm⟩
  all_goals first
    | cases hm
    | (dsimp only at hm; split at hm <;> cases hm)

/-- What is reached through attributes, in terms of what has been executed. -/
theorem reach_iff (how : Stmt → Option Target) (hhow : how = readFrom ∨ how = assignTo)
    (mro : List Str → List (List Str)) (types modules : List (List Str)) (isClass : List Str → Bool)
    (E : List Execution) (hnc : NoClash mro (.start types modules) (definitions isClass [] E))
    (names : PyNames) (hrun : PyNames.run mro (.start types modules) (definitions isClass [] E) = .ok names)
    (c : List Str) (n : Str) (r : Target) :
    names.reach mro how c n = some r ↔ ∃ object, ownerOf mro names c n = some object ∧
      ∃ e ∈ E, e.object = object ∧ how e.stmt = some r ∧
        (definedBy isClass object e.stmt).map (·.name) = some n := by
  have hnames : names = expectedNames (.start types modules) (definitions isClass [] E) := by
    have := C73_names mro types modules _ hnc
    rw [hrun] at this
    exact Except.ok.inj this
  have hor : ∀ s, how s = some r → readFrom s = some r ∨ assignTo s = some r := by
    intro s h
    rcases hhow with rfl | rfl
    · exact .inl h
    · exact .inr h
  have hown : ∀ object, ownerOf mro names c n = some object → names.find mro c n = names object n := by
    intro object how
    unfold PyNames.find
    unfold ownerOf at how
    obtain ⟨hsome, as, bs, hsplit, hnone⟩ := List.find?_eq_some_iff_append.1 how
    rw [hsplit, List.findSome?_append]
    rw [List.findSome?_eq_none_iff.2 (fun o ho => by simpa using hnone o ho)]
    obtain ⟨a, ha⟩ := Option.isSome_iff_exists.1 hsome
    rw [List.findSome?_cons, ha]
    rfl
  constructor
  · intro h
    unfold PyNames.reach at h
    split at h
    · rename_i what s hf
      have hsome : ∃ object, ownerOf mro names c n = some object := by
        obtain ⟨o, ho, hos⟩ := List.exists_of_findSome?_eq_some hf
        have : (ownerOf mro names c n).isSome = true := by
          unfold ownerOf
          rw [List.find?_isSome]
          exact ⟨o, ho, by rw [hos]; rfl⟩
        exact Option.isSome_iff_exists.1 this
      obtain ⟨object, ho⟩ := hsome
      refine ⟨object, ho, ?_⟩
      rw [hown object ho, hnames] at hf
      rcases expected_defined types modules _ object n _ hf with ⟨_, h1 | h1⟩ | ⟨_, d, hd, h1, h2, h3⟩
      · cases h1
      · cases h1
      · rcases h3 with ⟨m, ds, _, h3⟩ | ⟨_, h3⟩
        · cases h3
        · cases h3
          have hne : ∀ v, enumeratorOf d.stmt ≠ some v := by
            intro v hv
            rcases hor _ h with h | h <;> cases hds : d.stmt <;> rw [hds] at hv h <;>
              simp [enumeratorOf, readFrom, assignTo] at hv h
          obtain ⟨e, he, hde⟩ := definitions_stmt isClass E [] d hd hne
          have hobj : e.object = d.object ∧ e.stmt = d.stmt := by
            unfold definedBy at hde
            split at hde <;> cases hde <;> exact ⟨rfl, by first | rfl | assumption⟩
          refine ⟨e, he, hobj.1.trans h1, by rw [hobj.2]; exact h, ?_⟩
          rw [← h1, ← hobj.1, hde]
          simp [h2]
    · cases h
  · rintro ⟨object, ho, e, he, heo, hr, hn⟩
    obtain ⟨d, hd, hdn⟩ := Option.map_eq_some_iff.1 hn
    obtain ⟨h1, h2, h3, _⟩ := read_defined isClass object e.stmt r (hor _ hr) d hd
    have hmem : d ∈ definitions isClass [] E :=
      (defined_sublist isClass E []).subset (List.mem_filterMap.2 ⟨e, he, by rw [heo]; exact hd⟩)
    have hfresh := hnc.fresh d hmem
    rw [h1, hdn] at hfresh
    have hval : names object n = some (.data d.what e.stmt) := by
      rw [hnames]
      unfold expectedNames
      rw [hfresh]
      dsimp only
      have hin := (mem_definitionsOf _ object n d).2 ⟨hmem, h1, hdn⟩
      cases hds : definitionsOf (definitions isClass [] E) object n with
      | nil => rw [hds] at hin; cases hin
      | cons f fs =>
        have hff := (mem_definitionsOf _ object n f).1 (by rw [hds]; exact List.mem_cons_self)
        have : d = f := by
          rcases hnc.names d hmem f hff.1 (h1.trans hff.2.1.symm) (hdn.trans hff.2.2.symm) with h | ⟨m, hm, _⟩
          · exact h
          · exact absurd ⟨m, hm⟩ h3
        subst this
        dsimp only
        rw [← h2]
        cases hw : d.what with
        | function m => exact absurd ⟨m, hw⟩ h3
        | _ => rfl
    unfold PyNames.reach
    rw [hown object ho, hval]
    exact hr

/-- What is assumed about a module whose attributes are used. -/
structure ModuleOK (i : ToolInput) (name : Str) (g : Graph) (b : Building) (order : List Nat)
    (place : Nat → List Str) : Prop where
  input : InputOK i
  lookup : LookupOK i.world
  reopening : Reopening i.world.toWorld
  bare : NoBareReopening i.world.toWorld i.tree
  placement : Placement i name g b order place
  contexts : ∀ x, Contributes i.world.toWorld b.storage name g x → (i.world.info x).kind = .record →
    ContextOK i.world b.storage g x

/-- C103: what is read through attributes.  The attribute found is that of the class or of the first of its bases
which has an attribute with this name. -/
theorem C103_read (i : ToolInput) (name : Str) (g : Graph) (b : Building) (order : List Nat)
    (place : Nat → List Str) (m : ModuleOK i name g b order place)
    (mro : List Str → List (List Str)) (types modules : List (List Str)) (isClass : List Str → Bool)
    (hnc : NoClash mro (.start types modules) (definitions isClass [] (executed i name g b order place)))
    (names : PyNames) (hrun : PyNames.run mro (.start types modules)
      (definitions isClass [] (executed i name g b order place)) = .ok names)
    (c : List Str) (n : Str) (r : Target) :
    names.reach mro readFrom c n = some r ↔ ∃ object x, ownerOf mro names c n = some object ∧
      Fills i.world.toWorld b.storage i.members name g place x object ∧ ReadsFrom i.world b.storage g x n r := by
  obtain ⟨ok, lk, re, hu, pl, hc⟩ := m
  have hfields := fun object d ro st python cpp =>
    C71_members i ok lk re hu name g b order place pl object d ro st python cpp
  have hprops := C74_properties i ok lk name g b order place pl hc
  have hattrs := C71_attributes i ok lk re hu name g b order place pl
  rw [reach_iff readFrom (.inl rfl) mro types modules isClass _ hnc names hrun]
  constructor
  · rintro ⟨object, ho, e, he, heo, hr, hn⟩
    cases hs : e.stmt with
    | property p getter setter =>
      rw [hs] at hr hn
      simp only [readFrom, Option.some.injEq] at hr
      simp only [definedBy, Option.map_some, Option.some.injEq] at hn
      subst hr hn
      obtain ⟨x, h1, h2, h3, _⟩ := (hprops object p getter setter).1 ⟨e, he, heo, by rw [hs]; rfl⟩
      exact ⟨object, x, ho, h1, h2, h3⟩
    | field d ro st p q =>
      rw [hs] at hr hn
      simp only [readFrom, Option.some.injEq] at hr
      simp only [definedBy, Option.map_some, Option.some.injEq] at hn
      subst hn
      obtain ⟨⟨x, h1, h2, h3⟩, v, h4, _, h6, h7, _⟩ :=
        (hfields object d ro st p q).1 ⟨e, he, heo, by rw [hs]; rfl⟩
      refine ⟨object, x, ho, h1, ?_⟩
      cases st with
      | true =>
        subst hr
        exact ⟨h2, h3, ⟨v, h4⟩, of_decide_eq_true h6.symm, h7⟩
      | false =>
        subst hr
        exact ⟨h2, h3, ⟨v, h4⟩, of_decide_eq_false h6.symm, h7⟩
    | typeAttr d p q =>
      rw [hs] at hr hn
      simp only [readFrom, Option.some.injEq] at hr
      simp only [definedBy, Option.map_some, Option.some.injEq] at hn
      subst hr hn
      obtain ⟨⟨x, h1, h2, h3, h4⟩, h5⟩ := (hattrs object d p q).1 ⟨e, he, heo, by rw [hs]; rfl⟩
      exact ⟨object, x, ho, h1, h2, h3, h4, h5⟩
    | valueAttr d p q =>
      rw [hs] at hr hn
      simp only [readFrom, Option.some.injEq] at hr
      simp only [definedBy, Option.map_some, Option.some.injEq] at hn
      subst hr hn
      obtain ⟨⟨x, h1, h2, h3, h4⟩, h5⟩ := (hattrs object d p q).1 ⟨e, he, heo, by rw [hs]; rfl⟩
      exact ⟨object, x, ho, h1, h2, h3, h4, h5⟩
    | _ => rw [hs] at hr; cases hr
  · rintro ⟨object, x, ho, hx, hr⟩
    refine ⟨object, ho, ?_⟩
    have hfield : ∀ d st, (i.world.info x).kind = .record → Offers i.world b.storage g x d →
        (∃ v, DataMember i.world b.storage d v) → st = decide ((i.world.info d).kind = .var) →
        n = pythonName i.world b.storage d →
        ∃ e ∈ executed i name g b order place, e.object = object ∧
          readFrom e.stmt = some (if st then .shared d else .member d) ∧
          (definedBy isClass object e.stmt).map (·.name) = some n := by
      rintro d st h1 h2 ⟨v, h3⟩ h4 h5
      obtain ⟨e, he, heo, hf⟩ := (hfields object d _ st n _).2 ⟨⟨x, hx, h1, h2⟩, v, h3, rfl, h4, h5, rfl⟩
      refine ⟨e, he, heo, ?_⟩
      unfold fieldOf at hf
      split at hf
      · rename_i hs
        cases hf
        rw [hs]
        exact ⟨rfl, rfl⟩
      · cases hf
    cases r with
    | member d =>
      obtain ⟨h1, h2, h3, h4, h5⟩ := hr
      exact hfield d false h1 h2 h3 (decide_eq_false h4).symm h5
    | shared d =>
      obtain ⟨h1, h2, h3, h4, h5⟩ := hr
      exact hfield d true h1 h2 h3 (decide_eq_true h4).symm h5
    | method p =>
      obtain ⟨h1, h2⟩ := hr
      have hset : ∃ setter, SetterOf i.world b.storage g x n setter := by
        by_cases h : ∃ d, SetterIn i.world b.storage g x n d
        · obtain ⟨d, hd⟩ := h
          exact ⟨some _, d, hd, rfl⟩
        · exact ⟨none, fun d hd => h ⟨d, hd⟩⟩
      obtain ⟨setter, hset⟩ := hset
      obtain ⟨e, he, heo, hf⟩ := (hprops object n p setter).2 ⟨x, hx, h1, h2, hset⟩
      refine ⟨e, he, heo, ?_⟩
      unfold propertyOf at hf
      split at hf
      · rename_i hs
        cases hf
        rw [hs]
        exact ⟨rfl, rfl⟩
      · cases hf
    | copied d cpp =>
      obtain ⟨h1, h2, h3, h4⟩ := hr
      obtain ⟨e, he, heo, hf⟩ := (hattrs object d n cpp).2 ⟨⟨x, hx, h1, h2, h3⟩, h4⟩
      refine ⟨e, he, heo, ?_⟩
      unfold attributeOf at hf
      split at hf
      · rename_i hs
        cases hf
        rw [hs]
        exact ⟨rfl, rfl⟩
      · rename_i hs
        cases hf
        rw [hs]
        exact ⟨rfl, rfl⟩
      · cases hf

/-- C103: what is assigned to through attributes. -/
theorem C103_assign (i : ToolInput) (name : Str) (g : Graph) (b : Building) (order : List Nat)
    (place : Nat → List Str) (m : ModuleOK i name g b order place)
    (mro : List Str → List (List Str)) (types modules : List (List Str)) (isClass : List Str → Bool)
    (hnc : NoClash mro (.start types modules) (definitions isClass [] (executed i name g b order place)))
    (names : PyNames) (hrun : PyNames.run mro (.start types modules)
      (definitions isClass [] (executed i name g b order place)) = .ok names)
    (c : List Str) (n : Str) (r : Target) :
    names.reach mro assignTo c n = some r ↔ ∃ object x, ownerOf mro names c n = some object ∧
      Fills i.world.toWorld b.storage i.members name g place x object ∧ AssignsTo i.world b.storage g x n r := by
  obtain ⟨ok, lk, re, hu, pl, hc⟩ := m
  have hfields := fun object d ro st python cpp =>
    C71_members i ok lk re hu name g b order place pl object d ro st python cpp
  have hprops := C74_properties i ok lk name g b order place pl hc
  rw [reach_iff assignTo (.inr rfl) mro types modules isClass _ hnc names hrun]
  constructor
  · rintro ⟨object, ho, e, he, heo, hr, hn⟩
    cases hs : e.stmt with
    | property p getter setter =>
      rw [hs] at hr hn
      cases setter with
      | none => cases hr
      | some setter =>
        simp only [assignTo, Option.some.injEq] at hr
        simp only [definedBy, Option.map_some, Option.some.injEq] at hn
        subst hr hn
        obtain ⟨x, h1, h2, ⟨d, h3, _⟩, h4⟩ := (hprops object p getter _).1 ⟨e, he, heo, by rw [hs]; rfl⟩
        exact ⟨object, x, ho, h1, h2, ⟨d, h3⟩, h4⟩
    | field d ro st p q =>
      rw [hs] at hr hn
      cases ro with
      | true => cases hr
      | false =>
        simp only [assignTo, Option.some.injEq] at hr
        simp only [definedBy, Option.map_some, Option.some.injEq] at hn
        subst hn
        obtain ⟨⟨x, h1, h2, h3⟩, v, h4, h5, h6, h7, _⟩ :=
          (hfields object d false st p q).1 ⟨e, he, heo, by rw [hs]; rfl⟩
        have h5 := Bool.or_eq_false_iff.1 h5.symm
        refine ⟨object, x, ho, h1, ?_⟩
        cases st with
        | true =>
          subst hr
          exact ⟨h2, h3, ⟨v, h4, h5.2⟩, h5.1, of_decide_eq_true h6.symm, h7⟩
        | false =>
          subst hr
          exact ⟨h2, h3, ⟨v, h4, h5.2⟩, h5.1, of_decide_eq_false h6.symm, h7⟩
    | _ => rw [hs] at hr; cases hr
  · rintro ⟨object, x, ho, hx, hr⟩
    refine ⟨object, ho, ?_⟩
    have hfield : ∀ d st, (i.world.info x).kind = .record → Offers i.world b.storage g x d →
        (∃ v, DataMember i.world b.storage d v ∧ v.readonly = false) → i.world.isConstType d = false →
        st = decide ((i.world.info d).kind = .var) → n = pythonName i.world b.storage d →
        ∃ e ∈ executed i name g b order place, e.object = object ∧
          assignTo e.stmt = some (if st then .shared d else .member d) ∧
          (definedBy isClass object e.stmt).map (·.name) = some n := by
      rintro d st h1 h2 ⟨v, h3, h3'⟩ h4 h5 h6
      obtain ⟨e, he, heo, hf⟩ := (hfields object d false st n _).2
        ⟨⟨x, hx, h1, h2⟩, v, h3, by rw [h4, h3']; rfl, h5, h6, rfl⟩
      refine ⟨e, he, heo, ?_⟩
      unfold fieldOf at hf
      split at hf
      · rename_i hs
        cases hf
        rw [hs]
        exact ⟨rfl, rfl⟩
      · cases hf
    cases r with
    | member d =>
      obtain ⟨h1, h2, h3, h4, h5, h6⟩ := hr
      exact hfield d false h1 h2 h3 h4 (decide_eq_false h5).symm h6
    | shared d =>
      obtain ⟨h1, h2, h3, h4, h5, h6⟩ := hr
      exact hfield d true h1 h2 h3 h4 (decide_eq_true h5).symm h6
    | method p =>
      obtain ⟨h1, ⟨d, h2⟩, h3⟩ := hr
      obtain ⟨e, he, heo, hf⟩ := (hprops object n _ (some p)).2 ⟨x, hx, h1, ⟨d, h2, rfl⟩, h3⟩
      refine ⟨e, he, heo, ?_⟩
      unfold propertyOf at hf
      split at hf
      · rename_i hs
        cases hf
        rw [hs]
        exact ⟨rfl, rfl⟩
      · cases hf
    | copied d cpp => exact hr.elim

/-- C103 for runs of the tool. -/
theorem C103_run (o : ToolOptions) (i : ToolInput) (ok : InputOK i) (lk : LookupOK i.world)
    (mo : MembersOK i.world) (re : Reopening i.world.toWorld) (hu : NoBareReopening i.world.toWorld i.tree)
    (files : Files) (r : ToolResult) (hr : runTool o i files = some r) (hx : o.expectFailure = false)
    (h0 : r.exitCode = 0) (hnd : o.outputFiles.Nodup) :
    ∃ name g b order place, moduleNameFor o.moduleName i.mainFile = some name ∧
      Placement i name g b order place ∧
      ∃ lines : List (List Line), lines.length = o.outputFiles.length ∧
        (∀ (k : Nat) path ls, o.outputFiles[k]? = some path → lines[k]? = some ls →
          (path ≠ ['-'] → r.files path = some (fileText i ls)) ∧
          (path = ['-'] → r.printed = [fileText i ls])) ∧
        ∀ st, importModule lines = .ok st → ∀ mro,
          NoClash mro (.start (st.types.map (·.2)) st.modules)
            (definitions (fun x => decide (x ∈ st.types.map (·.2))) [] st.executed) →
          ∃ names, PyNames.run mro (.start (st.types.map (·.2)) st.modules)
              (definitions (fun x => decide (x ∈ st.types.map (·.2))) [] st.executed) = .ok names ∧
            ∀ c n reached,
              (names.reach mro readFrom c n = some reached ↔ ∃ object x, ownerOf mro names c n = some object ∧
                Fills i.world.toWorld b.storage i.members name g place x object ∧
                ReadsFrom i.world b.storage g x n reached) ∧
              (names.reach mro assignTo c n = some reached ↔ ∃ object x, ownerOf mro names c n = some object ∧
                Fills i.world.toWorld b.storage i.members name g place x object ∧
                AssignsTo i.world b.storage g x n reached) := by
  obtain ⟨name, g, b, order, place, hn, hb, hv, hp, lines, h1, h2, _, h4⟩ :=
    C69_module o i ok files r hr hx h0 hnd
  have pl : Placement i name g b order place := ⟨hb, hv, hp⟩
  refine ⟨name, g, b, order, place, hn, pl, lines, h1, h2, ?_⟩
  intro st hst mro hnc
  rw [show st.executed = executed i name g b order place from (h4 st hst).1] at hnc ⊢
  have hrun := C73_names mro _ _ _ hnc
  have hc := run_contexts o i ok lk mo re hu files r hr hx h0 name hn g b hb
  have m : ModuleOK i name g b order place := ⟨ok, lk, re, hu, pl, fun x hx hk =>
    hc x hx fun h => by rw [hk] at h; cases h⟩
  refine ⟨_, hrun, fun c n reached => ⟨?_, ?_⟩⟩
  · exact C103_read i name g b order place m mro _ _ _ hnc _ hrun c n reached
  · exact C103_assign i name g b order place m mro _ _ _ hnc _ hrun c n reached

/-! ### Hashing -/

/-- Where an attribute that is found comes from. -/
theorem find_owner (mro : List Str → List (List Str)) (names : PyNames) (c : List Str) (n : Str) (a : Attribute)
    (h : names.find mro c n = some a) : ∃ o ∈ c :: mro c, names o n = some a :=
  List.exists_of_findSome?_eq_some h

/-- A class with `__eq__` in the method resolution order. -/
theorem not_identity (mro : List Str → List (List Str)) (names : PyNames) (c object : List Str)
    (overloads : List Stmt) (ho : object ∈ c :: mro c)
    (hn : names object t%"__eq__" = some (.functions true overloads)) : names.hashing mro c ≠ .identity := by
  unfold PyNames.hashing
  have hsome : ((c :: mro c).findSome? names.ownHash).isSome = true := by
    rw [List.findSome?_isSome_iff]
    refine ⟨object, ho, ?_⟩
    unfold PyNames.ownHash
    split
    · rfl
    · rw [hn]
      rfl
  obtain ⟨k, hk⟩ := Option.isSome_iff_exists.1 hsome
  rw [hk, Option.getD_some]
  obtain ⟨o, _, hok⟩ := List.exists_of_findSome?_eq_some hk
  unfold PyNames.ownHash at hok
  split at hok
  · cases hok; simp
  · split at hok
    · cases hok; simp
    · cases hok

/-- C104: objects that are compared by an operator of C++ are not both hashed by identity: at least one of them has a
method `__hash__` or cannot be hashed. -/
theorem C104_equal {V : Type} (apply : OperatorKind → List V → V) (O : PyOperands V)
    (mro : List Str → List (List Str)) (names : PyNames) (a b : V) (d : Nat) (v : V)
    (h : evaluateExpr apply O mro names .eq a b = some (.computed d v) ∨
      evaluateExpr apply O mro names .ne a b = some (.negated d v)) :
    ∃ c, (O.typeOf a = some c ∨ O.typeOf b = some c) ∧ names.hashing mro c ≠ .identity := by
  -- a class with `__eq__`
  have key : ∀ u u' d v, callOperator apply O mro names t%"__eq__" u u' = some (.computed d v) →
      ∃ c, O.typeOf u = some c ∧ names.hashing mro c ≠ .identity := by
    intro u u' d v h
    rcases call_origin apply O mro names _ u u' _ h with ⟨v, h, _⟩ | ⟨_, _, c, object, overloads, _, _, _, hc, ho, hn, _⟩
    · cases h
    · exact ⟨c, hc, not_identity mro names c object overloads ho hn⟩
  have key' : ∀ n u u' d v, callOperator apply O mro names n u u' ≠ some (.negated d v) := by
    intro n u u' d v h
    rcases call_origin apply O mro names _ u u' _ h with ⟨v, h, _⟩ | ⟨_, _, _, _, _, _, _, h, _⟩ <;> cases h
  have htries : ∀ op, ∀ t ∈ tries O mro names op a b, t = (op.method, a, b) ∨ t = (op.reflected, b, a) := by
    intro op t ht
    unfold tries at ht
    dsimp only at ht
    repeat' split at ht
    all_goals
      simp only [List.mem_cons, List.not_mem_nil, or_false] at ht
      first
        | exact ht
        | exact ht.symm
        | exact .inl ht
  rcases h with h | h
  · obtain ⟨t, ht, hc⟩ := List.exists_of_findSome?_eq_some h
    rcases htries _ t ht with rfl | rfl
    · unfold callMethod at hc
      rw [if_neg (by rintro ⟨h, _⟩; simp [PyOp.method] at h)] at hc
      obtain ⟨c, h1, h2⟩ := key a b d v hc
      exact ⟨c, .inl h1, h2⟩
    · unfold callMethod at hc
      rw [if_neg (by rintro ⟨h, _⟩; simp [PyOp.reflected] at h)] at hc
      obtain ⟨c, h1, h2⟩ := key b a d v hc
      exact ⟨c, .inr h1, h2⟩
  · obtain ⟨t, ht, hc⟩ := List.exists_of_findSome?_eq_some h
    have neg : ∀ u u', callMethod apply O mro names t%"__ne__" u u' = some (.negated d v) →
        ∃ c, O.typeOf u = some c ∧ names.hashing mro c ≠ .identity := by
      intro u u' hc
      unfold callMethod at hc
      split at hc
      · obtain ⟨e, he, hn⟩ := Option.map_eq_some_iff.1 hc
        cases e with
        | computed d v => exact key u u' d v he
        | negated d v => exact absurd he (key' _ _ _ _ _)
        | elsewhere v => cases hn
      · exact absurd hc (key' _ _ _ _ _)
    rcases htries _ t ht with rfl | rfl
    · obtain ⟨c, h1, h2⟩ := neg a b hc
      exact ⟨c, .inl h1, h2⟩
    · obtain ⟨c, h1, h2⟩ := neg b a hc
      exact ⟨c, .inr h1, h2⟩

/-- C104: if `operator==` is exposed for a class, instances of it and of derived classes are not hashed by identity;
they cannot be hashed unless one of the classes has an attribute `__hash__`. -/
theorem C104_unhashable (i : ToolInput) (ok : InputOK i) (vo : ValidOperators i)
    (name : Str) (g : Graph) (b : Building) (order : List Nat) (place : Nat → List Str)
    (pl : Placement i name g b order place) (mro : List Str → List (List Str)) (types modules : List (List Str))
    (isClass : List Str → Bool)
    (hnc : NoClash mro (.start types modules) (definitions isClass [] (executed i name g b order place)))
    (names : PyNames) (hrun : PyNames.run mro (.start types modules)
      (definitions isClass [] (executed i name g b order place)) = .ok names)
    (x d : Nat) (object c : List Str) (hx : Fills i.world.toWorld b.storage i.members name g place x object)
    (hcl : isClass object = true) (hd : OperatorIn i.world b.storage g x d)
    (hk : (i.world.info d).operator = some .equalEqual) (ho : object ∈ c :: mro c) :
    names.hashing mro c ≠ .identity ∧
      ((∀ o ∈ c :: mro c, names o t%"__hash__" = none) → names.hashing mro c = .unhashable) := by
  have hnames : names = expectedNames (.start types modules)
      (definitions isClass [] (executed i name g b order place)) := by
    have := C73_names mro types modules _ hnc
    rw [hrun] at this
    exact Except.ok.inj this
  obtain ⟨k, ⟨n, l⟩, hk', hlam, hemit⟩ := defines_some i.world x d hd.2.2.2
  rw [hk] at hk'
  cases hk'
  have har : (operandTypes i.world x d).length = 2 := vo.arity x d _ hk
  match ht : operandTypes i.world x d, har with
  | [t0, t1], _ =>
  have hn := (emitOperator_binary hemit (by rw [← operands_eq]; exact ht)).1
  have hn : n = t%"__eq__" := by
    rw [hn]
    cases decide (t0.record ≠ some x) <;> rfl
  subst hn
  obtain ⟨e, he, hop, hdef⟩ := executed_operator_defined isClass _ object d _ l
    ((executed_operators i ok vo.ok name g b order place pl object d _ l).2 ⟨x, hx, hd, hlam⟩)
  rw [hcl] at hdef
  obtain ⟨overloads, hf⟩ : ∃ overloads, names object t%"__eq__" = some (.functions true overloads) := by
    have hfresh := hnc.fresh _ hdef
    dsimp only at hfresh
    have hin := (mem_definitionsOf _ object t%"__eq__" _).2 ⟨hdef, rfl, rfl⟩
    rw [hnames]
    unfold expectedNames
    rw [hfresh]
    dsimp only
    cases hds : definitionsOf (definitions isClass [] (executed i name g b order place)) object t%"__eq__" with
    | nil => rw [hds] at hin; cases hin
    | cons f fs =>
      have hff := (mem_definitionsOf _ object t%"__eq__" f).1 (by rw [hds]; exact List.mem_cons_self)
      have hw : f.what = .function true := by
        rcases hnc.names _ hdef f hff.1 hff.2.1.symm hff.2.2.symm with h | ⟨m, h1, h2⟩
        · rw [← h]
        · cases h1
          exact h2
      dsimp only
      rw [hw]
      exact ⟨_, rfl⟩
  refine ⟨not_identity mro names c object overloads ho hf, fun hno => ?_⟩
  have hni := not_identity mro names c object overloads ho hf
  unfold PyNames.hashing at hni ⊢
  cases hk : (c :: mro c).findSome? names.ownHash with
  | none => rw [hk] at hni; exact absurd rfl hni
  | some q =>
    obtain ⟨o, hom, hok⟩ := List.exists_of_findSome?_eq_some hk
    unfold PyNames.ownHash at hok
    rw [hno o hom] at hok
    simp only [Option.isSome_none, Bool.false_eq_true, if_false] at hok
    split at hok
    · cases hok; rfl
    · cases hok

/-! ### Examples -/

local macro "eval_run" : tactic => `(tactic| (
  simp only [handleTranslationUnit, emitModule, findEnclosingScopes, analyze, pruneGraph, hideNamespaces,
    declContextsWithVisibleNamedDecls, deriveEffectiveVisibility, dfs_fuel]
  decide +kernel))

/-- `struct visible B { int x; const int y; static int z; int w; int get() getter_for(p);
void set(int) setter_for(p); bool operator==(const B &); }; struct visible D : B { readonly int w; };
int v visible;` -/
def exData : EmitWorld := { exUnit with
  info := fun
    | 0 => { kind := .translationUnit }
    | 1 => { kind := .record, name := t%"B", attrTexts := [lozenge ++ t%"visible"] }
    | 2 => { kind := .field, name := t%"x" }
    | 3 => { kind := .field, name := t%"y" }
    | 4 => { kind := .var, name := t%"z" }
    | 5 => { kind := .field, name := t%"w" }
    | 6 => { kind := .method, name := t%"get", attrTexts := [lozenge ++ t%"getter_for(p)"] }
    | 7 => { kind := .method, name := t%"set", attrTexts := [lozenge ++ t%"setter_for(p)"]
             params := [t%"x"], minRequired := 1, returnsVoid := true }
    | 8 => { kind := .method, name := t%"operator==", nameIsIdentifier := false, operator := some .equalEqual,
             params := [t%"x"], minRequired := 1 }
    | 9 => { kind := .record, name := t%"D", attrTexts := [lozenge ++ t%"visible"], allBases := [1], bases := [1] }
    | 10 => { kind := .field, name := t%"w", attrTexts := [lozenge ++ t%"readonly"] }
    | 11 => { kind := .var, name := t%"v", attrTexts := [lozenge ++ t%"visible"], inTranslationUnit := true }
    | _ => { kind := .other }
  ancestors := fun
    | 0 => []
    | 2 => [1, 0] | 3 => [1, 0] | 4 => [1, 0] | 5 => [1, 0] | 6 => [1, 0] | 7 => [1, 0] | 8 => [1, 0]
    | 10 => [9, 0]
    | _ => [0]
  access := fun
    | 2 => .public | 3 => .public | 4 => .public | 5 => .public | 6 => .public | 7 => .public | 8 => .public
    | 10 => .public
    | _ => .none
  fn := fun
    | 6 => exMathFn []
    | 7 => exMathFn [exMathInt]
    | 8 => exMathFn [exMathB]
    | _ => exMathFn []
  isConstType := fun d => d = 3
  qualifiedName := fun | 11 => t%"v" | _ => t%"m"
  typeName := fun | 1 => t%"::B" | _ => t%"::D"
  selfType := fun r _ => { text := if r = 1 then t%"::B" else t%"::D", record := some r }
  hierarchy := fun
    | 9 => .cons { id := 1, access := .public } .nil .nil
    | _ => .nil
  found := fun
    | 0 => [⟨11, none, false, .none, false, false, none, none⟩]
    | 1 => [2, 3, 4, 5, 6, 7, 8].map fun d => ⟨d, none, false, .public, false, false, some 1, none⟩
    | 9 => [⟨10, none, false, .public, false, false, some 9, none⟩]
    | _ => [] }

def exDataInput : ToolInput where
  mainFile := t%"/src/my-lib.h"
  world := exData
  tree := .node 0 [.node 1 [.node 2 [], .node 3 [], .node 4 [], .node 5 [], .node 6 [], .node 7 [], .node 8 []],
    .node 9 [.node 10 []], .node 11 []]
  pick := fun _ => lastSmallest exData.loc
  iterate := fun g => g.nodes

/-- What is reached for attributes of instances of `D`, and of the module; and how objects are hashed. -/
def exDataResult : Option (List (Option Target × Option Target) × (Option Target × Option Target) × List Hashing) :=
  let w := exData
  let i := exDataInput
  let b := buildGraph w.toWorld i.tree
  match b.1 with
  | none => none
  | some graph =>
    let r := analyze w.toWorld b.2.storage i.members t%"my_lib" graph
    let m := emitModule w b.2.storage r.pruned r.vis i.pick r.pruned.nodes 1 t%"my_lib"
    match importModule [m.stream 0] with
    | .error _ => none
    | .ok st =>
      match PyNames.run exMathMro (.start (st.types.map (·.2)) st.modules)
          (definitions (fun x => decide (x ∈ st.types.map (·.2))) [] st.executed) with
      | .error _ => none
      | .ok names =>
        let get := fun c n => (names.reach exMathMro readFrom c n, names.reach exMathMro assignTo c n)
        some ([t%"x", t%"y", t%"z", t%"w", t%"p", t%"q"].map (get [t%"D"]), get [] t%"v",
          [names.hashing exMathMro [t%"B"], names.hashing exMathMro [t%"D"], names.hashing exMathMro [t%"C"]])

set_option maxRecDepth 8000 in
/-- Members of the base are reached through instances of the derived class, `y` is constant, and `w` is the read-only
member of the derived class, not that of the base.  The variable outside of classes is copied. -/
theorem exData_reached : exDataResult.map (fun r => (r.1, r.2.1)) =
    some ([(some (.member 2), some (.member 2)), (some (.member 3), none), (some (.shared 4), some (.shared 4)),
      (some (.member 10), none),
      (some (.method { fn := 6, types := [], name := t%"f", isConst := false }),
        some (.method { fn := 7, types := [t%"int"], name := t%"f", isConst := false })), (none, none)],
      (some (.copied 11 t%"v"), none)) := by
  unfold exDataResult
  eval_run

set_option maxRecDepth 8000 in
/-- Instances of `B` and `D` cannot be hashed because of `operator==`. -/
theorem exData_hashing : exDataResult.map (fun r => r.2.2) = some [.unhashable, .unhashable, .identity] := by
  unfold exDataResult
  eval_run

theorem exData_ok : InputOK exDataInput where
  unit := by
    refine ⟨rfl, fun id => ?_, by simp only [exDataInput]; decide +kernel, fun id p ps => ?_,
      fun id h => ?_, rfl,
      fun a x => ?_, fun a x => ?_, fun a => ?_⟩
    all_goals simp only [exDataInput, exData]
    · split <;> simp_all [exUnit]
    · split <;> simp <;> rintro rfl rfl <;> rfl
    · split <;> simp_all [exData, exUnit, exDataInput]
    · split <;> simp
    · split <;> simp
    · split <;> simp
  emit := by
    refine ⟨by simp [exDataInput, exData, exUnit], by simp [exDataInput, exData, exUnit], ?_, fun _ _ => rfl⟩
    intro d
    simp only [exDataInput, exData]
    split <;> (try rfl) <;> (split <;> simp_all) <;> rfl
  bases := by
    intro x a
    simp only [exDataInput, exData, exUnit, EmitWorld.bases]
    split <;> simp [Hierarchy.direct]
  picks := lastSmallest_ok _
  iterate := fun _ => .refl _

theorem exData_members : MembersOK exDataInput.world where
  ofClass := by
    intro x f hf d hd hk
    have hf : f ∈ exData.found x := hf
    have hd : d = f.shadows.getD f.decl := by
      simpa [specializationsOf, exDataInput, exData, exUnit] using hd
    unfold exData at hf
    dsimp only at hf
    split at hf
    · simp only [List.mem_singleton] at hf
      subst hf
      subst hd
      rcases hk with hk | hk <;> cases hk
    · rfl
    · rfl
    · cases hf
  ofUnit := by
    intro x f hf d hd _ hu
    have hf : f ∈ exData.found x := hf
    have hd : d = f.shadows.getD f.decl := by
      simpa [specializationsOf, exDataInput, exData, exUnit] using hd
    have hu : (exData.info d).inTranslationUnit = true := hu
    have h11 : d = 11 := by
      unfold exData at hu
      dsimp only at hu
      split at hu <;> first | rfl | cases hu
    subst h11
    unfold exData at hf
    dsimp only at hf
    split at hf
    · decide
    · simp only [List.map_cons, List.map_nil, List.mem_cons, List.not_mem_nil, or_false] at hf
      rcases hf with rfl | rfl | rfl | rfl | rfl | rfl | rfl <;> cases hd
    · simp only [List.mem_singleton] at hf
      subst hf
      cases hd
    · cases hf
  once := by
    intro x _
    have key : ∀ l : List Found, (l.Pairwise fun f f' => f.shadows.getD f.decl ≠ f'.shadows.getD f'.decl) →
        l.Pairwise fun f f' => f.hiddenBy = none → f'.hiddenBy = none →
          ∀ d ∈ specializationsOf exData (f.shadows.getD f.decl),
            d ∉ specializationsOf exData (f'.shadows.getD f'.decl) := by
      intro l h
      refine h.imp fun {f f'} hne _ _ d hd hd' => hne ?_
      simp [specializationsOf, exData, exUnit] at hd hd'
      rw [← hd, ← hd']
    refine key _ ?_
    unfold exDataInput exData
    dsimp only
    split <;> decide
  distinct := by
    intro m
    simp [specializationsOf, exDataInput, exData, exUnit]

end Verif
