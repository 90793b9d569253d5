import Verif.Spec.Pragmas
/-!
# Headers named by pragmas (C51)
-/
namespace Verif
open Spec

/-- A well-formed pragma adds its file and is not diagnosed. -/
theorem pragma_named (s : PragmaState) (l : PragmaLine) (file : Str) (h : IncludePragma l file)
    (ha : l.accepted = true) :
    handlePragma s l = { s with includes := s.includes ++ [file] } := by
  obtain ⟨h1, h2⟩ := h
  unfold handlePragma
  rw [ha, h1]
  cases file with
  | nil => exact absurd rfl h2
  | cons c f => simp

theorem pragma_rejected (s : PragmaState) (l : PragmaLine) (ha : l.accepted = false) :
    handlePragma s l = s := by
  unfold handlePragma
  rw [ha]
  rfl

/-- Anything else, without trailing tokens, is diagnosed and adds nothing. -/
theorem pragma_malformed (s : PragmaState) (l : PragmaLine) (h : ¬ ∃ file, IncludePragma l file)
    (ht : ¬ TrailingTokens l) (ha : l.accepted = true) : ∃ d, handlePragma s l = s.report d := by
  unfold handlePragma
  rw [ha]
  simp only [Bool.not_true, Bool.false_eq_true, if_false]
  cases hl : l.tokens with
  | nil => exact ⟨_, rfl⟩
  | cons directive rest =>
    dsimp only
    split
    · exact ⟨_, rfl⟩
    · cases directive with
      | filename _ => exact ⟨_, rfl⟩
      | other _ => exact ⟨_, rfl⟩
      | identifier name =>
        dsimp only
        split
        · rename_i hn
          subst hn
          cases rest with
          | nil => exact ⟨_, rfl⟩
          | cons t rest =>
            cases t with
            | identifier _ => exact ⟨_, rfl⟩
            | other _ => exact ⟨_, rfl⟩
            | filename file =>
              dsimp only
              split
              · exact ⟨_, rfl⟩
              · rename_i hf
                cases rest with
                | nil => exact absurd ⟨file, hl, by simpa using hf⟩ h
                | cons t more => exact absurd ⟨file, t :: more, by simp, hl⟩ ht
        · exact ⟨_, rfl⟩

theorem fold_named (lines : List PragmaLine) (files : List Str) (h : Named lines files)
    (ht : ∀ l ∈ lines, l.accepted = true → ¬ TrailingTokens l) (s : PragmaState) :
    (lines.foldl handlePragma s).includes = s.includes ++ files := by
  induction h generalizing s with
  | nil => simp
  | named h1 h2 _ ih =>
    rw [List.foldl_cons, ih (fun l hl => ht l (List.mem_cons_of_mem _ hl)), pragma_named s _ _ h1 h2]
    simp
  | @other l lines files h1 _ ih =>
    rw [List.foldl_cons, ih (fun l hl => ht l (List.mem_cons_of_mem _ hl))]
    cases ha : l.accepted with
    | false => rw [pragma_rejected s l ha]
    | true =>
      rcases h1 with h1 | h1
      · obtain ⟨d, hd⟩ := pragma_malformed s l h1 (ht l (List.mem_cons_self ..) ha) ha
        rw [hd]
        rfl
      · rw [ha] at h1
        cases h1

theorem diags_grow (lines : List PragmaLine) (s : PragmaState) :
    s.diags <+: (lines.foldl handlePragma s).diags := by
  induction lines generalizing s with
  | nil => exact List.prefix_refl _
  | cons l lines ih =>
    refine List.IsPrefix.trans ?_ (ih _)
    unfold handlePragma
    repeat' split
    all_goals first
      | exact List.prefix_refl _
      | exact List.prefix_append _ _

/-- **C51**: the headers to be included are those named by well-formed pragmas, in order and
once for each of them, if there are no tokens after the names of files.

Headers named in pragmas with trailing tokens are included, too: `C51_trailing`. -/
theorem C51_order_partial (lines : List PragmaLine) (files : List Str) (h : Named lines files)
    (ht : ∀ l ∈ lines, l.accepted = true → ¬ TrailingTokens l) :
    (handlePragmas lines).includes = files := by
  unfold handlePragmas
  rw [fold_named lines files h ht]
  rfl

/-- Which files are named is determined by the lines. -/
theorem C51_named_exists (lines : List PragmaLine) : ∃ files, Named lines files := by
  induction lines with
  | nil => exact ⟨[], .nil⟩
  | cons l lines ih =>
    obtain ⟨files, h⟩ := ih
    by_cases hf : ∃ file, IncludePragma l file
    · obtain ⟨file, hf⟩ := hf
      cases ha : l.accepted with
      | true => exact ⟨file :: files, .named hf ha h⟩
      | false => exact ⟨files, .other (.inr ha) h⟩
    · exact ⟨files, .other (.inl hf) h⟩

/-- **C51**: no pragma is diagnosed if all are well-formed. -/
theorem C51_no_errors (lines : List PragmaLine) (h : ∀ l ∈ lines, ∃ file, IncludePragma l file) :
    (handlePragmas lines).diags = [] := by
  suffices ∀ s, (lines.foldl handlePragma s).diags = s.diags from this {}
  induction lines with
  | nil => exact fun _ => rfl
  | cons l lines ih =>
    intro s
    rw [List.foldl_cons, ih (fun l hl => h l (List.mem_cons_of_mem _ hl))]
    obtain ⟨file, hf⟩ := h l (List.mem_cons_self ..)
    cases ha : l.accepted with
    | false => rw [pragma_rejected s l ha]
    | true => rw [pragma_named s l file hf ha]

/-- **C51**: a malformed pragma is diagnosed, by the preprocessor or by an error of its own,
unless the file ends with it.

The full statement is without the condition on the end of the file; it does not hold:
`C51_end_of_file`. -/
theorem C51_malformed_partial (lines : List PragmaLine) (l : PragmaLine) (hl : l ∈ lines)
    (h : ¬ ∃ file, IncludePragma l file) (he : l.endsFile = false) :
    l.accepted = false ∨ (handlePragmas lines).diags ≠ [] := by
  cases ha : l.accepted with
  | false => exact .inl rfl
  | true =>
    right
    obtain ⟨before, after, rfl⟩ := List.append_of_mem hl
    unfold handlePragmas
    rw [List.foldl_append, List.foldl_cons]
    generalize before.foldl handlePragma {} = s
    have hone : ∃ d, (handlePragma s l).diags = s.diags ++ [d] := by
      by_cases ht : TrailingTokens l
      · obtain ⟨file, more, hm, ht⟩ := ht
        unfold handlePragma
        rw [ha, ht, he]
        simp only [Bool.not_true, Bool.false_eq_true, if_false, Bool.false_and, if_true]
        split
        · exact ⟨_, rfl⟩
        · cases more with
          | nil => exact absurd rfl hm
          | cons t more => exact ⟨_, rfl⟩
      · obtain ⟨d, hd⟩ := pragma_malformed s l h ht ha
        exact ⟨d, by rw [hd]; rfl⟩
    obtain ⟨d, hd⟩ := hone
    obtain ⟨r, hr⟩ := diags_grow after (handlePragma s l)
    rw [← hr, hd]
    simp

/-- The header of a pragma with trailing tokens is included although the pragma is
diagnosed. -/
theorem C51_trailing :
    handlePragmas [{ tokens := [.identifier t%"include", .filename t%"<vector>", .identifier t%"x"] }] =
      { includes := [t%"<vector>"], diags := [.expectedEol] } := by decide +kernel

/-- A trailing token at the end of the file is not diagnosed. -/
theorem C51_end_of_file :
    handlePragmas [{ tokens := [.identifier t%"include", .filename t%"<vector>", .identifier t%"x"],
                     endsFile := true }] =
      { includes := [t%"<vector>"], diags := [] } := by decide +kernel

/-! ### Examples -/

/-- Two headers, of which the first is named twice, and an unknown directive. -/
def examplePragmas : List PragmaLine :=
  [{ tokens := [.identifier t%"include", .filename t%"<vector>"] },
   { tokens := [.identifier t%"define", .identifier t%"x"] },
   { tokens := [.identifier t%"include", .filename t%"\"a.h\""], accepted := false },
   { tokens := [.identifier t%"include", .filename t%"\"b.h\""] },
   { tokens := [.identifier t%"include", .filename t%"<vector>"], endsFile := true }]

theorem examplePragmas_named : Named examplePragmas [t%"<vector>", t%"\"b.h\"", t%"<vector>"] :=
  .named ⟨rfl, by decide⟩ rfl (.other (.inl (by rintro ⟨f, h, _⟩; simp at h)) (.other (.inr rfl)
    (.named ⟨rfl, by decide⟩ rfl (.named ⟨rfl, by decide⟩ rfl .nil))))

example : (handlePragmas examplePragmas).includes = [t%"<vector>", t%"\"b.h\"", t%"<vector>"] := by
  refine C51_order_partial _ _ examplePragmas_named ?_
  rintro l hl ha ⟨file, more, hm, ht⟩
  simp only [examplePragmas, List.mem_cons, List.not_mem_nil, or_false] at hl
  rcases hl with rfl | rfl | rfl | rfl | rfl <;> simp at ht ha
  all_goals exact hm ht.2

example : (handlePragmas examplePragmas).diags ≠ [] :=
  (C51_malformed_partial examplePragmas { tokens := [.identifier t%"define", .identifier t%"x"] }
    (by simp [examplePragmas]) (by rintro ⟨f, h, _⟩; simp at h) rfl).resolve_left (by decide)

end Verif
