import Verif.Lemmas.AnnotationSeq
import Verif.Lemmas.Grammar
/-!
# Reading annotation texts and inserting declarations into the storage
-/
namespace Verif
open Spec

theorem lozenge_eq : lozenge = marker := by decide +kernel

theorem consumeFront_some (pre s rest : Str) :
    consumeFront pre s = some rest ↔ s = pre ++ rest := by
  unfold consumeFront
  split
  · rename_i h
    rw [List.isPrefixOf_iff_prefix] at h
    obtain ⟨t, rfl⟩ := h
    simp
  · rename_i h
    rw [List.isPrefixOf_iff_prefix] at h
    simp only [reduceCtorEq, false_iff]
    rintro rfl
    exact h (List.prefix_append _ _)

theorem consumeFront_none (pre s : Str) : consumeFront pre s = none ↔ ¬ pre <+: s := by
  unfold consumeFront
  rw [← List.isPrefixOf_iff_prefix]
  split <;> simp_all

theorem parseAllTexts_acc (id : Nat) (texts : List Str) (acc : List Annotation) :
    parseAllTexts id acc texts =
      (acc ++ (parseAllTexts id [] texts).1, (parseAllTexts id [] texts).2) := by
  induction texts generalizing acc with
  | nil => simp [parseAllTexts]
  | cons t ts ih =>
    simp only [parseAllTexts]
    cases hc : consumeFront lozenge t with
    | none => simp only; exact ih acc
    | some rest =>
      simp only [parseAnnotationsInto_eq]
      cases (pAnns (lexAll rest)).1 with
      | none => simp only [List.nil_append]; rw [ih, ih ((pAnns (lexAll rest)).2)]; simp
      | some e => simp only [List.nil_append]; rw [ih, ih ((pAnns (lexAll rest)).2)]; simp

/-- The attributes and diagnostics resulting from the first insertion of a
declaration. -/
def firstInsert (env : DeclEnv) (id : Nat) : DeclAttrs × List Diag :=
  let d := env.info id
  let x := freshAttrs d
  let y := if d.kind ≠ .namespace ∧ hasAnnotations d (allowEmpty := false) = true
    then { x with named := { x.named with visible := some true } } else x
  let p := parseAllTexts id [] d.attrTexts
  let r := applyAnnotations env id y p.1
  (r.1, supportsTypedefDiags id d ++ p.2 ++ r.2)

theorem insert_eq (env : DeclEnv) (s : Storage) (id : Nat) (hs : shouldSkip (env.info id) = false)
    (hh : s.has id = false) :
    s.insert env id = (s.set id (firstInsert env id).1, (firstInsert env id).2) := by
  simp only [Storage.insert, firstInsert, hs, hh]
  simp

/-- Shape of the attributes annotations are applied to on first insertion. -/
theorem shape_start (env : DeclEnv) (id : Nat) (c : Prop) [Decidable c] (v : Option Bool) :
    Shape (env.info id) (if c then { freshAttrs (env.info id) with
      named := { (freshAttrs (env.info id)).named with visible := v } }
      else freshAttrs (env.info id)) := by
  split
  · exact shape_of_eq (shape_fresh _) _
  · exact shape_fresh _

theorem ltrim_nonempty (s : Str) :
    (ltrim s).isEmpty = false ↔ ∃ c ∈ s, ¬ (HSpace c ∨ c = '\n' ∨ c = '\r') := by
  have hc : ∀ c : Char, (c = ' ' || c = '\t' || c = '\n' || c = '\x0b' || c = '\x0c' || c = '\r')
      = true ↔ (HSpace c ∨ c = '\n' ∨ c = '\r') := by
    intro c
    have e1 : c = '\x0b' ↔ c.toNat = 11 := by
      constructor
      · rintro rfl; rfl
      · intro h; exact Char.ext (UInt32.toNat_inj.1 h)
    have e2 : c = '\x0c' ↔ c.toNat = 12 := by
      constructor
      · rintro rfl; rfl
      · intro h; exact Char.ext (UInt32.toNat_inj.1 h)
    simp only [Bool.or_eq_true, decide_eq_true_eq, HSpace, e1, e2]
    constructor
    · rintro (((((h | h) | h) | h) | h) | h) <;> simp [h]
    · rintro ((h | h | h | h) | h | h) <;> simp [h]
  induction s with
  | nil => simp [ltrim]
  | cons c cs ih =>
    unfold ltrim at *
    rw [List.dropWhile_cons]
    split
    · rename_i h
      refine ih.trans ?_
      have := (hc c).1 h
      constructor
      · rintro ⟨d, hd, hn⟩; exact ⟨d, by simp [hd], hn⟩
      · rintro ⟨d, hd, hn⟩
        rcases List.mem_cons.1 hd with rfl | hd
        · exact absurd this hn
        · exact ⟨d, hd, hn⟩
    · rename_i h
      rw [hc] at h
      simp only [List.isEmpty_cons, true_iff]
      exact ⟨c, by simp, h⟩

theorem hasAnnotations_contents (d : DeclInfo) :
    hasAnnotations d (allowEmpty := false) = true ↔ HasContents d := by
  unfold hasAnnotations HasContents
  simp only [List.any_eq_true, Bool.false_eq_true, if_false]
  constructor
  · rintro ⟨t, ht, h⟩
    cases hc : consumeFront lozenge t with
    | none => rw [hc] at h; cases h
    | some rest =>
      rw [hc] at h
      rw [consumeFront_some, lozenge_eq] at hc
      subst hc
      exact ⟨rest, ht, (ltrim_nonempty rest).1 (by simpa using h)⟩
  · rintro ⟨rest, ht, h⟩
    refine ⟨marker ++ rest, ht, ?_⟩
    rw [(consumeFront_some lozenge _ rest).2 (by rw [lozenge_eq])]
    simpa using (ltrim_nonempty rest).2 h

/-- Processing a list of declarations one after the other. -/
def insertAll (env : DeclEnv) : Storage → List Nat → Storage
  | s, [] => s
  | s, id :: ids => insertAll env (s.insert env id).1 ids

/-- Diagnostics of an annotation used as documented reach the result of the first
insertion. -/
theorem insert_reports (env : DeclEnv) (s : Storage) (id : Nat)
    (hs : shouldSkip (env.info id) = false) (hh : s.has id = false) (a : Annotation)
    (ha : a ∈ (parseAllTexts id [] (env.info id).attrTexts).1) (hd : Documented (env.info id) a)
    (k : DiagKind) (hk : ∀ y, k ∈ acceptedDiagKinds env (env.info id) a y) :
    ∃ g ∈ (s.insert env id).2, g.kind = k ∧ g.decl = id := by
  rw [insert_eq env s id hs hh]
  simp only [firstInsert]
  obtain ⟨y, hy, hsub⟩ := applyAll_mem env id _ _ (shape_start env id
    ((env.info id).kind ≠ .namespace ∧ hasAnnotations (env.info id) (allowEmpty := false) = true)
    (some true)) a ha
  obtain ⟨-, h2, h3⟩ := apply_documented env id a y hy hd
  have := hk (applyAnnotation env id y a).1
  rw [← h2, List.mem_map] at this
  obtain ⟨g, hg, hgk⟩ := this
  exact ⟨g, by simp [hsub g hg], hgk, h3 g hg⟩

end Verif
