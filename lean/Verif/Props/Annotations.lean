import Verif.Lemmas.Insert
import Verif.Props.Parsing
/-!
# C12–C17: annotation processing
-/
namespace Verif
open Spec

/-! ### Reading the texts -/

/-- The annotations of a declaration whose texts are well-formed are exactly
those spelled by its texts, and nothing is reported. -/
theorem C12_texts_read (id : Nat) (texts : List Str) (as : List Annotation)
    (h : TextsRead marker texts as) : parseAllTexts id [] texts = (as, []) := by
  induction h with
  | nil => rfl
  | other t ts as hn _ ih =>
    simp only [parseAllTexts]
    rw [(consumeFront_none _ _).2 (by rw [lozenge_eq]; exact hn)]
    exact ih
  | ours t ls new ts as hl ha _ ih =>
    simp only [parseAllTexts]
    rw [(consumeFront_some lozenge (marker ++ t) t).2 (by rw [lozenge_eq])]
    simp only [parseAnnotationsInto_eq, lexAll_of_lexes hl]
    rw [(pAnns_none_iff ls new).2 ha]
    simp only [List.nil_append]
    rw [parseAllTexts_acc, ih]

/-- If the texts are not all well-formed, an error is reported. -/
theorem C12_malformed_reported (id : Nat) (texts : List Str)
    (h : ¬ ∃ as, TextsRead marker texts as) :
    ∃ g ∈ (parseAllTexts id [] texts).2, (∃ e, g.kind = .parseError e) ∧ g.decl = id := by
  induction texts with
  | nil => exact absurd ⟨[], .nil⟩ h
  | cons t ts ih =>
    simp only [parseAllTexts]
    cases hc : consumeFront lozenge t with
    | none =>
      refine ih ?_
      rintro ⟨as, has⟩
      refine h ⟨as, .other t ts as ?_ has⟩
      rw [← lozenge_eq]; exact (consumeFront_none _ _).1 hc
    | some rest =>
      rw [consumeFront_some, lozenge_eq] at hc
      simp only [parseAnnotationsInto_eq, List.nil_append]
      cases hp : (pAnns (lexAll rest)).1 with
      | some e => exact ⟨⟨id, .parseError e.kind, [e.token]⟩, by simp, ⟨_, rfl⟩, rfl⟩
      | none =>
        simp only
        rw [parseAllTexts_acc]
        refine ih ?_
        rintro ⟨as, has⟩
        refine h ⟨(pAnns (lexAll rest)).2 ++ as, ?_⟩
        rw [hc]
        refine .ours rest (lexAll rest) _ ts as (lexes_lexAll rest) ?_ has
        rw [← pAnns_none_iff, ← hp]

example : TextsRead marker [t%"unrelated", marker ++ t%"visible"] [⟨.visible, []⟩] := by
  refine .other _ _ _ (by decide +kernel) ?_
  have h := TextsRead.ours (marker := marker) t%"visible" [.ident t%"visible"] [⟨.visible, []⟩] [] []
    (by
      have := lexes_lexAll t%"visible"
      have e : lexAll t%"visible" = [.ident t%"visible"] := by
        exact lexAll_of_lexes (by
          have := Lexes.step [] t%"visible" [] (.ident t%"visible") [] (by simp)
            (.ident 'v' t%"isible" [] (by simp [IdStart]) (by simp [IdCont, IdStart]) (by intro c cs h; cases h))
            (.done [] (by simp))
          simpa using this)
      rw [e] at this; exact this)
    (.last _ _ (.mk .visible [] [] .omitted)) .nil
  simpa using h

/-! ### C13 -/

/-- C13 (accepted): an annotation is accepted by some handler exactly if it is
used as documented: on a declaration of the right kind, with its side conditions
met, and with an argument list of one of its documented forms. -/
theorem C13_accepted_iff (env : DeclEnv) (id : Nat) (a : Annotation) (x : DeclAttrs)
    (sh : Shape (env.info id) x) :
    (anyHandler (handlers env id) a x).handled = true ↔ Documented (env.info id) a := by
  have hf := follows env id a x sh
  constructor
  · intro h
    apply Classical.byContradiction
    intro hd
    rw [(hf.undoc hd).1] at h
    cases h
  · intro hd
    exact (hf.doc hd).1

/-- C13 (effect): an annotation used as documented changes the attributes as
documented and nothing else, and reports exactly what is wrong with the values of
its arguments. -/
theorem C13_effect (env : DeclEnv) (id : Nat) (a : Annotation) (x : DeclAttrs)
    (sh : Shape (env.info id) x) (hd : Documented (env.info id) a) :
    Effect env (env.info id) a x (applyAnnotation env id x a).1 ∧
    (applyAnnotation env id x a).2.map (·.kind) =
      acceptedDiagKinds env (env.info id) a (applyAnnotation env id x a).1 ∧
    ∀ g ∈ (applyAnnotation env id x a).2, g.decl = id :=
  apply_documented env id a x sh hd

/-- C13 (rejected): an annotation not used as documented leaves all attributes as
they were and is reported: exactly one error, which for a wrong argument list is
"wrong type" if there is a form with that number of arguments and "wrong number"
otherwise.  (The only exception to "exactly one" is that the error about an
unsupported alias target is repeated.) -/
theorem C13_rejected (env : DeclEnv) (id : Nat) (a : Annotation) (x : DeclAttrs)
    (sh : Shape (env.info id) x) (hd : ¬ Documented (env.info id) a) :
    (applyAnnotation env id x a).1 = x ∧
      RejectedWith (env.info id) id a (applyAnnotation env id x a).2 :=
  apply_undocumented env id a x sh hd

/-- C13: the shape assumed above is that of all attributes ever stored by
annotation processing. -/
theorem C13_shape (env : DeclEnv) (id : Nat) (v : NamedDeclAttrs) (as : List Annotation) :
    Shape (env.info id)
      (applyAnnotations env id { freshAttrs (env.info id) with named := v } as).1 :=
  shape_applyAll env id as _ (shape_of_eq (shape_fresh _) v)

/-! A method `int f(int x)` and an alias without target, for the examples. -/
section
def exEnv : DeclEnv where
  info := fun
    | 0 => { kind := .method, name := t%"f", params := [t%"x"], minRequired := 1 }
    | 1 => { kind := .typedefName, name := t%"alias", aliasTarget := none,
             attrTexts := [marker ++ t%"readonly"] }
    | 2 => { kind := .typedefName, name := t%"T", aliasTarget := some 3,
             attrTexts := [marker ++ t%"encourage, expose_here"] }
    | 3 => { kind := .record, name := t%"R", attrTexts := [marker] }
    | _ => { kind := .other }
  hasName := fun _ _ => false

example : Shape (exEnv.info 0) (freshAttrs (exEnv.info 0)) := shape_fresh _
example : Documented (exEnv.info 0) ⟨.noconvert, [.string t%"x"]⟩ :=
  ⟨.inr (.inl rfl), trivial, .some .string, by simp [forms],
    by simp [Form.Accepts, LiteralValue.kind]⟩
example : (applyAnnotation exEnv 0 (freshAttrs (exEnv.info 0)) ⟨.noconvert, [.string t%"x"]⟩).1.function
    = some { noconvert := [0] } := by decide +kernel
example : ¬ Documented (exEnv.info 0) ⟨.getterFor, [.string t%"y"]⟩ := by
  rintro ⟨_, h, _⟩; exact absurd h.1 (by decide)
/-- The alias-target error is reported in addition to the actual one. -/
example : (applyAnnotation exEnv 1 (freshAttrs (exEnv.info 1)) ⟨.readonly, []⟩).2.map (·.kind)
    = [.unsupportedAliasTarget, .invalidForDeclKind] := by decide +kernel
end

/-! ### `insert` -/

/-- C12: when a declaration is first processed, every annotation parsed from it
is used as documented (and then has its documented effect, `C13_effect`), or an
error naming the annotation is reported for this declaration. -/
theorem C12_no_silent_ignore (env : DeclEnv) (s : Storage) (id : Nat)
    (hs : shouldSkip (env.info id) = false) (hh : s.has id = false) (a : Annotation)
    (ha : a ∈ (parseAllTexts id [] (env.info id).attrTexts).1) :
    Documented (env.info id) a ∨
      ∃ g ∈ (s.insert env id).2, g.isError = true ∧ g.decl = id ∧ Mentions g a.kind := by
  by_cases hd : Documented (env.info id) a
  · exact .inl hd
  · right
    rw [insert_eq env s id hs hh]
    simp only [firstInsert]
    obtain ⟨y, hy, hsub⟩ := applyAll_mem env id _ _ (shape_start env id
      ((env.info id).kind ≠ .namespace ∧ hasAnnotations (env.info id) (allowEmpty := false) = true)
      (some true)) a ha
    obtain ⟨g, hg, h⟩ := rejected_error (apply_undocumented env id a y hy hd).2
    exact ⟨g, by simp [hsub g hg], h⟩

/-- C12: the same for text that is not even an annotation: it is a parse error. -/
theorem C12_no_text_ignored (env : DeclEnv) (s : Storage) (id : Nat)
    (hs : shouldSkip (env.info id) = false) (hh : s.has id = false)
    (hm : ¬ ∃ as, TextsRead marker (env.info id).attrTexts as) :
    ∃ g ∈ (s.insert env id).2, g.isError = true ∧ g.decl = id ∧ ∃ e, g.kind = .parseError e := by
  obtain ⟨g, hg, ⟨e, hk⟩, hd⟩ := C12_malformed_reported id _ hm
  rw [insert_eq env s id hs hh]
  exact ⟨g, by simp [firstInsert, hg], by simp [Diag.isError, hk, DiagKind.isError], hd, e, hk⟩

/-! ### C14, C15 -/

/-- C14 and C15, for any list of texts: the explicit visibility after processing
is the one asked for by the last annotation asking for one; without one it is
"visible" exactly if the declaration is not a namespace and has a non-empty
annotation, and unspecified otherwise.  The spelling is the last valid one. -/
theorem C14_visibility (env : DeclEnv) (s : Storage) (id : Nat)
    (hs : shouldSkip (env.info id) = false) (hh : s.has id = false) :
    ∃ y, (s.insert env id).1.entries id = some y ∧
      let as := (parseAllTexts id [] (env.info id).attrTexts).1
      (∀ v, (as.filterMap visibilityGiven).getLast? = some v → y.named.visible = v) ∧
      (as.filterMap visibilityGiven = [] →
        ((env.info id).kind ≠ .namespace ∧ HasContents (env.info id) →
          y.named.visible = some true) ∧
        (¬ ((env.info id).kind ≠ .namespace ∧ HasContents (env.info id)) →
          y.named.visible = none)) := by
  rw [insert_eq env s id hs hh]
  refine ⟨(firstInsert env id).1, by simp [Storage.set], ?_, ?_⟩
  · intro v hv
    simp only [firstInsert]
    rw [applyAll_named env id _ _ (shape_start env id _ _)]
    simp [hv]
  · intro hn
    simp only [firstInsert]
    rw [applyAll_named env id _ _ (shape_start env id _ _)]
    simp only [hn, List.getLast?_nil, Option.getD_none, ← hasAnnotations_contents]
    constructor
    · intro h; rw [if_pos h]
    · intro h; rw [if_neg h]; rfl

/-- C14 is at odds with README.md, which says that any use of `GENPYBIND(…)`,
"even without arguments", implies `visible`: a class annotated with
`GENPYBIND()` has no explicit visibility. -/
theorem C14_empty_annotation_not_visible :
    (Storage.empty.insert exEnv 3).1.entries 3 = some (freshAttrs (exEnv.info 3)) ∧
    (freshAttrs (exEnv.info 3)).named.visible = none := by
  constructor <;> decide +kernel

example : shouldSkip (exEnv.info 2) = false ∧ Storage.empty.has 2 = false := by decide

/-- C15: the spelling is the last valid one given (`[]`, the C++ name, if none),
so it is always empty or a valid identifier. -/
theorem C15_spelling (env : DeclEnv) (s : Storage) (id : Nat)
    (hs : shouldSkip (env.info id) = false) (hh : s.has id = false) :
    ∃ y, (s.insert env id).1.entries id = some y ∧
      y.named.spelling = ((parseAllTexts id [] (env.info id).attrTexts).1.filterMap
        (spellingGiven (env.info id))).getLast?.getD [] ∧
      (y.named.spelling = [] ∨ ValidIdent y.named.spelling) := by
  rw [insert_eq env s id hs hh]
  refine ⟨(firstInsert env id).1, by simp [Storage.set], ?_⟩
  have h1 : (firstInsert env id).1.named.spelling =
      ((parseAllTexts id [] (env.info id).attrTexts).1.filterMap
        (spellingGiven (env.info id))).getLast?.getD [] := by
    simp only [firstInsert]
    rw [applyAll_named env id _ _ (shape_start env id _ _)]
    simp only
    congr 1
    split <;> rfl
  refine ⟨h1, ?_⟩
  rw [h1]
  cases hl : ((parseAllTexts id [] (env.info id).attrTexts).1.filterMap
        (spellingGiven (env.info id))).getLast? with
  | none => exact .inl rfl
  | some v =>
    have hm := List.mem_of_getLast? hl
    rw [List.mem_filterMap] at hm
    obtain ⟨a, -, ha⟩ := hm
    simp only [Option.getD_some]
    unfold spellingGiven at ha
    split at ha
    · cases ha; exact .inl rfl
    · split at ha
      · rename_i hv; cases ha; exact .inr hv
      · cases ha
    · split at ha
      · rename_i hv; cases ha; exact .inr hv.1
      · cases ha
    · cases ha

/-- C15: a name that is not a valid identifier is reported as an error. -/
theorem C15_invalid_reported (env : DeclEnv) (s : Storage) (id : Nat)
    (hs : shouldSkip (env.info id) = false) (hh : s.has id = false) (n : Str)
    (hn : ¬ ValidIdent n)
    (ha : ⟨.exposeAs, [.string n]⟩ ∈ (parseAllTexts id [] (env.info id).attrTexts).1 ∨
      (env.info id).kind = .namespace ∧
      ⟨.module, [.string n]⟩ ∈ (parseAllTexts id [] (env.info id).attrTexts).1) :
    ∃ g ∈ (s.insert env id).2, g.kind = .invalidSpelling ∧ g.decl = id := by
  rcases ha with ha | ⟨hk, ha⟩
  · exact insert_reports env s id hs hh _ ha ⟨trivial, trivial, .one .string, by simp [forms],
      by simp [Form.Accepts, LiteralValue.kind]⟩ _ (by intro y; simp [acceptedDiagKinds, hn])
  · exact insert_reports env s id hs hh _ ha ⟨hk, trivial, .one .string, by simp [forms],
      by simp [Form.Accepts, LiteralValue.kind]⟩ _ (by intro y; simp [acceptedDiagKinds, hn])

/-! ### C16 -/

/-- C16 (idempotent): processing a declaration again changes nothing and reports
nothing. -/
theorem C16_idempotent (env : DeclEnv) (s : Storage) (id : Nat)
    (hs : shouldSkip (env.info id) = false) :
    (s.insert env id).1.insert env id = ((s.insert env id).1, []) := by
  have hh : (s.insert env id).1.has id = true := by
    cases h : s.has id with
    | false => rw [insert_eq env s id hs h]; simp [Storage.has, Storage.set]
    | true => simp only [Storage.insert, hs, h]; simpa using h
  generalize (s.insert env id).1 = s' at hh
  simp [Storage.insert, hs, hh]

/-- C16 (skipped declarations): declarations that are not processed at all (tags
without complete definition or in dependent contexts, `std` and `__` namespaces)
are never stored; asking for them is answered by a warning each time. -/
theorem C16_skipped (env : DeclEnv) (s : Storage) (id : Nat)
    (hs : shouldSkip (env.info id) = true) :
    (s.insert env id).1 = s ∧ ∀ g ∈ (s.insert env id).2, g.isError = false := by
  simp [Storage.insert, hs, Diag.isError, DiagKind.isError]

/-- C16 (local): processing a declaration does not alter the attributes of any
other. -/
theorem C16_local (env : DeclEnv) (s : Storage) (id other : Nat) (h : other ≠ id) :
    (s.insert env id).1.entries other = s.entries other := by
  unfold Storage.insert
  simp only
  split
  · rfl
  · split
    · rfl
    · simp [Storage.set, h]

/-- C16 (any history): after any sequence of insertions, in whatever order and
with whatever repetitions, a declaration has the attributes it would have if it
had been the only one inserted, and has some exactly if it was inserted. -/
theorem C16_history (env : DeclEnv) (ids : List Nat) (id : Nat) :
    (insertAll env .empty ids).entries id =
      if id ∈ ids then (Storage.empty.insert env id).1.entries id else none := by
  have key : ∀ (s : Storage), (∀ i, s.entries i = none ∨
      s.entries i = (Storage.empty.insert env i).1.entries i) →
      (insertAll env s ids).entries id =
      if id ∈ ids ∨ s.entries id ≠ none then (Storage.empty.insert env id).1.entries id else none := by
    induction ids with
    | nil =>
      intro s hs
      rcases hs id with h | h
      · simp [insertAll, h]
      · simp only [insertAll, List.not_mem_nil, false_or]
        split
        · exact h
        · rename_i hn; simpa using hn
    | cons i is ih =>
      intro s hs
      have hstep : ∀ j, (s.insert env i).1.entries j =
          if j = i then (Storage.empty.insert env i).1.entries i else s.entries j := by
        intro j
        by_cases hj : j = i
        · subst hj
          rw [if_pos rfl]
          cases hk : shouldSkip (env.info j) with
          | true =>
            rcases hs j with h | h
            · simp [Storage.insert, hk, h, Storage.empty]
            · simp [Storage.insert, hk, h]
          | false =>
            rw [insert_eq env .empty j hk rfl]
            cases hb : s.has j with
            | false => rw [insert_eq env s j hk hb]; simp [Storage.set]
            | true =>
              have : (s.insert env j).1 = s := by simp [Storage.insert, hk, hb]
              rw [this]
              rcases hs j with h | h
              · simp [Storage.has, h] at hb
              · rw [h, insert_eq env .empty j hk rfl]
        · rw [if_neg hj]; exact C16_local env s i j hj
      have hs' : ∀ j, (s.insert env i).1.entries j = none ∨
          (s.insert env i).1.entries j = (Storage.empty.insert env j).1.entries j := by
        intro j
        rw [hstep]
        split
        · rename_i h; subst h; exact .inr rfl
        · exact hs j
      simp only [insertAll]
      rw [ih _ hs', hstep]
      by_cases hid : id = i
      · subst hid
        simp only [if_pos, List.mem_cons, true_or]
        by_cases hn : (Storage.empty.insert env id).1.entries id = none
        · rw [hn]; simp
        · rw [if_pos (.inr hn)]
      · rw [if_neg hid]
        simp only [List.mem_cons, hid, false_or]
  have := key .empty (fun i => .inl rfl)
  simpa [Storage.empty] using this

example : (insertAll exEnv .empty [2, 3, 2]).has 2 = true ∧
    (insertAll exEnv .empty [2, 3, 2]).size = 2 ∧
    (insertAll exEnv .empty [2, 3, 2]).has 0 = false := by decide +kernel

/-! ### C17 -/

/-- C17: for a type alias, in whatever order and mixture with other annotations,
a conflict is reported exactly if both `encourage` and `expose_here` are given. -/
theorem C17_conflict (env : DeclEnv) (s : Storage) (id : Nat)
    (hk : (env.info id).kind = .typedefName) (hh : s.has id = false) :
    (∃ g ∈ (s.insert env id).2, g.kind = .conflictingAnnotations) ↔
      ⟨.encourage, []⟩ ∈ (parseAllTexts id [] (env.info id).attrTexts).1 ∧
      ⟨.exposeHere, []⟩ ∈ (parseAllTexts id [] (env.info id).attrTexts).1 := by
  have hs : shouldSkip (env.info id) = false := by simp [shouldSkip, hk, DeclKind.isTag]
  rw [insert_eq env s id hs hh]
  simp only [firstInsert]
  have h1 : ∀ g ∈ supportsTypedefDiags id (env.info id), g.kind ≠ .conflictingAnnotations := by
    intro g hg
    unfold supportsTypedefDiags at hg
    split at hg
    · simp at hg; subst hg; simp
    · simp at hg
  have h2 : ∀ texts acc, ∀ g ∈ (parseAllTexts id acc texts).2,
      g.kind ≠ .conflictingAnnotations := by
    intro texts
    induction texts with
    | nil => intro acc g hg; simp [parseAllTexts] at hg
    | cons t ts ih =>
      intro acc g hg
      simp only [parseAllTexts] at hg
      split at hg
      · exact ih _ g hg
      · split at hg
        · exact ih _ g hg
        · simp at hg
          rcases hg with rfl | hg
          · simp
          · exact ih _ g hg
  have ht : (if (env.info id).kind ≠ .namespace ∧
      hasAnnotations (env.info id) (allowEmpty := false) = true
      then { freshAttrs (env.info id) with
        named := { (freshAttrs (env.info id)).named with visible := some true } }
      else freshAttrs (env.info id)).typedefName = some {} := by
    split <;> simp [freshAttrs, supportsTypedef, hk]
  have key := applyAll_conflict env id (parseAllTexts id [] (env.info id).attrTexts).1 _
    (shape_start env id ((env.info id).kind ≠ .namespace ∧
      hasAnnotations (env.info id) (allowEmpty := false) = true) (some true)) {} ht (by simp)
  simp only [Bool.false_eq_true, false_or] at key
  rw [← key]
  constructor
  · rintro ⟨g, hg, hgk⟩
    simp only [List.mem_append] at hg
    rcases hg with (hg | hg) | hg
    · exact absurd hgk (h1 g hg)
    · exact absurd hgk (h2 _ _ g hg)
    · exact ⟨g, hg, hgk⟩
  · rintro ⟨g, hg, hgk⟩
    exact ⟨g, by simp [hg], hgk⟩

example : (exEnv.info 2).kind = .typedefName ∧
    ((Storage.empty.insert exEnv 2).2.any (·.kind = .conflictingAnnotations)) = true := by
  decide +kernel

end Verif
