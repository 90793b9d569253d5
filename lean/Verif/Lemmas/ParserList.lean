import Verif.Lemmas.Lexing
import Verif.Model.Parser
/-!
The parser model, which pulls tokens from a tokenizer, computes the same result
as a parser over the list of lexemes of the text.  The list parser is only a
proof device.
-/
namespace Verif
open Spec

/-- Value denoted by a lexeme in argument position. -/
def valueOf : Lexeme → Option LiteralValue
  | .str raw => some (.string raw)
  | .num ds => some (.unsigned (decimal ds))
  | .ident s => some <|
      if s = t%"true" then .boolean true
      else if s = t%"false" then .boolean false
      else if s = t%"default" then .default
      else .string s
  | _ => none

/-- Argument loop on lexemes. -/
def pArgs : List Lexeme → List LiteralValue × List Lexeme
  | [] => ([], [])
  | l :: ls =>
    match valueOf l with
    | none => ([], l :: ls)
    | some v =>
      match ls with
      | .comma :: ls' => (v :: (pArgs ls').1, (pArgs ls').2)
      | ls => ([v], ls)

/-- Optional argument list on lexemes. -/
def pArguments : List Lexeme → Except ParseError (List LiteralValue) × List Lexeme
  | .lpar :: ls =>
    match (pArgs ls).2 with
    | .rpar :: rest => (.ok (pArgs ls).1, rest)
    | [] => (.error ⟨.missingClosingParen, []⟩, [])
    | .bad s :: rest => (.error ⟨.invalidToken, s⟩, rest)
    | l :: rest => (.error ⟨.missingClosingParen, l.text⟩, rest)
  | ls => (.ok [], ls)

theorem pArgs_le (ls : List Lexeme) : (pArgs ls).2.length ≤ ls.length := by
  fun_induction pArgs ls <;> simp_all <;> omega

theorem pArguments_le (ls : List Lexeme) : (pArguments ls).2.length ≤ ls.length := by
  unfold pArguments
  split
  · rename_i ls
    have := pArgs_le ls
    split <;> simp_all <;> omega
  · simp

/-- Annotation list on lexemes. -/
def pAnns : List Lexeme → Option ParseError × List Annotation
  | [] => (none, [])
  | .ident s :: ls =>
    match AnnotationKind.ofString? s with
    | none => (some ⟨.invalidAnnotation, s⟩, [])
    | some k =>
      match h : pArguments ls with
      | (.error e, _) => (some e, [])
      | (.ok vs, .comma :: ls') =>
        have : ls'.length < ls.length + 1 := by
          have := pArguments_le ls; rw [h] at this; simp at this; omega
        ((pAnns ls').1, ⟨k, vs⟩ :: (pAnns ls').2)
      | (.ok vs, []) => (none, [⟨k, vs⟩])
      | (.ok vs, l :: _) => (some ⟨.invalidToken, l.text⟩, [⟨k, vs⟩])
  | l :: _ => (some ⟨.invalidToken, l.text⟩, [])
termination_by ls => ls.length

theorem pAnns_unknown {s ls} (hs : AnnotationKind.ofString? s = none) :
    pAnns (.ident s :: ls) = (some ⟨.invalidAnnotation, s⟩, []) := by
  rw [pAnns]; simp only [hs]

theorem pAnns_error {s k ls e r} (hs : AnnotationKind.ofString? s = some k)
    (h : pArguments ls = (.error e, r)) : pAnns (.ident s :: ls) = (some e, []) := by
  rw [pAnns]; simp only [hs]
  split <;> (rename_i he; rw [h] at he; cases he)
  rfl

theorem pAnns_comma {s k ls vs ls'} (hs : AnnotationKind.ofString? s = some k)
    (h : pArguments ls = (.ok vs, .comma :: ls')) :
    pAnns (.ident s :: ls) = ((pAnns ls').1, ⟨k, vs⟩ :: (pAnns ls').2) := by
  rw [pAnns]; simp only [hs]
  split <;> (rename_i he; rw [h] at he; cases he)
  · rfl
  · exfalso; simp_all

theorem pAnns_end {s k ls vs} (hs : AnnotationKind.ofString? s = some k)
    (h : pArguments ls = (.ok vs, [])) :
    pAnns (.ident s :: ls) = (none, [⟨k, vs⟩]) := by
  rw [pAnns]; simp only [hs]
  split <;> (rename_i he; rw [h] at he; cases he)
  rfl

theorem pAnns_junk {s k ls vs l r} (hs : AnnotationKind.ofString? s = some k)
    (h : pArguments ls = (.ok vs, l :: r)) (hl : l ≠ .comma) :
    pAnns (.ident s :: ls) = (some ⟨.invalidToken, l.text⟩, [⟨k, vs⟩]) := by
  rw [pAnns]; simp only [hs]
  split <;> (rename_i he; rw [h] at he; cases he)
  · exact absurd rfl hl
  · rfl

theorem pAnns_other {l ls} (h : ∀ s, l ≠ .ident s) :
    pAnns (l :: ls) = (some ⟨.invalidToken, l.text⟩, []) := by
  cases l <;> first | exact absurd rfl (h _) | rw [pAnns]; simp

/-- Lexemes still to come. -/
def Tokenizer.view (t : Tokenizer) : List Lexeme := lexAll t.text

theorem Tokenizer.view_cases (t : Tokenizer) :
    (t.tokenKind = .eof ∧ t.view = [] ∧ t.consume.1.text = []) ∨
    ∃ l, t.view = l :: t.consume.2.view ∧ t.consume.1 = tokenOf l ∧
      t.tokenKind = (tokenOf l).kind := by
  by_cases h : (tokenize t.text).1.kind = .eof
  · left
    refine ⟨h, ?_, ?_⟩
    · unfold view lexAll; simp [h]
    · rw [tokenize_eof_iff] at h
      unfold consume tokenize
      rw [h]
  · right
    obtain ⟨l, h1, -⟩ := lexemeAt_of_tokenize h
    refine ⟨l, ?_, h1, by simp [tokenKind, h1]⟩
    unfold view
    rw [lexAll]
    simp [h1, tokenOf_kind_ne_eof, lexemeOf_tokenOf, consume]

theorem Tokenizer.view_eq_nil_iff (t : Tokenizer) : t.view = [] ↔ t.tokenKind = .eof := by
  rcases t.view_cases with ⟨h1, h2, -⟩ | ⟨l, h1, -, h3⟩
  · simp [h1, h2]
  · simp [h1, h3, tokenOf_kind_ne_eof]

theorem Tokenizer.of_view_cons {t : Tokenizer} {l ls} (h : t.view = l :: ls) :
    t.consume.2.view = ls ∧ t.consume.1 = tokenOf l ∧ t.tokenKind = (tokenOf l).kind := by
  rcases t.view_cases with ⟨-, h2, -⟩ | ⟨l', h1, h2, h3⟩
  · simp [h2] at h
  · rw [h] at h1
    simp at h1
    obtain ⟨rfl, h1⟩ := h1
    exact ⟨h1.symm, h2, h3⟩

theorem Tokenizer.of_view_nil {t : Tokenizer} (h : t.view = []) :
    t.tokenKind = .eof ∧ t.consume.1.text = [] ∧ t.consume.1.kind = .eof := by
  rcases t.view_cases with ⟨h1, -, h2⟩ | ⟨l', h1, -, -⟩
  · exact ⟨h1, h2, h1⟩
  · simp [h] at h1

theorem parseAnnotationValue_view (t : Tokenizer) :
    match t.view with
    | [] => parseAnnotationValue t = (.nothing, t)
    | l :: _ =>
      match valueOf l with
      | some v => parseAnnotationValue t = (v, t.consume.2) ∧ v.hasValue = true
      | none => parseAnnotationValue t = (.nothing, t) := by
  split
  · rename_i h
    simp [parseAnnotationValue, (Tokenizer.of_view_nil h).1]
  · rename_i l ls h
    obtain ⟨h1, h2, h3⟩ := Tokenizer.of_view_cons h
    cases l <;> simp [valueOf, parseAnnotationValue, h2, h3, tokenOf, LiteralValue.hasValue, LiteralValue.kind]
    rename_i s
    by_cases e1 : s = t%"true"
    · simp [e1]
    by_cases e2 : s = t%"false"
    · simp [e2]
    by_cases e3 : s = t%"default"
    · simp [e3]
    simp [e1, e2, e3]

theorem skipComma_view (t : Tokenizer) :
    ((skipComma t).1 = true ∧ t.view = .comma :: (skipComma t).2.view) ∨
    ((skipComma t).1 = false ∧ skipComma t = (false, t) ∧ ∀ ls, t.view ≠ .comma :: ls) := by
  unfold skipComma
  rcases t.view_cases with ⟨h1, h2, -⟩ | ⟨l, h1, h2, h3⟩
  · simp [h1, h2]
  · cases l <;> simp [h1, h3, tokenOf]

theorem pArgs_cons_some {l v ls} (h : valueOf l = some v) (hc : ∀ ls', ls ≠ .comma :: ls') :
    pArgs (l :: ls) = ([v], ls) := by
  unfold pArgs
  simp only [h]

theorem parseArgumentsLoop_view (t : Tokenizer) (acc : List LiteralValue) :
    (parseArgumentsLoop t acc).1 = acc ++ (pArgs t.view).1 ∧
    (parseArgumentsLoop t acc).2.view = (pArgs t.view).2 := by
  fun_induction parseArgumentsLoop t acc with
  | case1 t acc r hv acc' h ih =>
    have hview := parseAnnotationValue_view t
    split at hview
    · simp [r, hview, LiteralValue.hasValue, LiteralValue.kind] at hv
    · rename_i l ls hls
      split at hview
      · rename_i v hvo
        obtain ⟨hview, -⟩ := hview
        have hr : r = (v, t.consume.2) := hview
        have hcons := (Tokenizer.of_view_cons hls).1
        rcases skipComma_view r.2 with ⟨-, h2⟩ | ⟨h1, -⟩
        · rw [hr] at h2
          simp only [hcons] at h2
          rw [ih.1, ih.2, hls, h2]
          simp only [pArgs, hvo, hr, acc']
          simp
        · rw [h] at h1; cases h1
      · simp [r, hview, LiteralValue.hasValue, LiteralValue.kind] at hv
  | case2 t acc r hv acc' h =>
    have hview := parseAnnotationValue_view t
    split at hview
    · simp [r, hview, LiteralValue.hasValue, LiteralValue.kind] at hv
    · rename_i l ls hls
      split at hview
      · rename_i v hvo
        obtain ⟨hview, -⟩ := hview
        have hr : r = (v, t.consume.2) := hview
        have hcons := (Tokenizer.of_view_cons hls).1
        rcases skipComma_view r.2 with ⟨h1, -⟩ | ⟨-, -, h2⟩
        · exact absurd h1 h
        · rw [hr] at h2
          simp only [hcons] at h2
          rw [hls, pArgs_cons_some hvo h2]
          simp [hr, acc', hcons]
      · simp [r, hview, LiteralValue.hasValue, LiteralValue.kind] at hv
  | case3 t acc r hv =>
    have hview := parseAnnotationValue_view t
    split at hview
    · rename_i h
      have hr : r = (.nothing, t) := hview
      rw [h]; simp [pArgs, hr, h]
    · rename_i l ls hls
      split at hview
      · have hr : r = _ := hview.1
        rw [hr] at hv
        exact absurd hview.2 hv
      · rename_i hvo
        have hr : r = (.nothing, t) := hview
        rw [hls]
        simp only [pArgs, hvo, hr, hls]
        simp

theorem parseAnnotationArguments_view (t : Tokenizer) :
    (parseAnnotationArguments t).1 = (pArguments t.view).1 ∧
    (parseAnnotationArguments t).2.view = (pArguments t.view).2 := by
  unfold parseAnnotationArguments
  have nolpar : t.tokenKind ≠ .openingParen → pArguments t.view = (.ok [], t.view) := by
    intro h
    rcases t.view_cases with ⟨h1, h2, -⟩ | ⟨l, h1, h2, h3⟩
    · rw [h2]; rfl
    · rw [h1]
      cases l <;> first | rfl | (exfalso; apply h; rw [h3]; rfl)
  split
  · rename_i h
    rw [nolpar h]; simp
  · rename_i h
    simp only [ne_eq, Decidable.not_not] at h
    have hv : t.view = .lpar :: t.consume.2.view := by
      rcases t.view_cases with ⟨h1, h2, -⟩ | ⟨l, h1, h2, h3⟩
      · rw [h1] at h; simp at h
      · rw [h1]; rw [h3] at h
        cases l <;> simp [tokenOf] at h
        rfl
    have hl := parseArgumentsLoop_view t.consume.2 []
    rw [hv]
    unfold pArguments
    generalize hr : parseArgumentsLoop t.consume.2 [] = r at hl
    obtain ⟨vs, t'⟩ := r
    simp only [List.nil_append] at hl
    simp only
    obtain ⟨hl1, hl2⟩ := hl
    rw [← hl1, ← hl2]
    rcases t'.view_cases with ⟨h1, h2, h3⟩ | ⟨l, h1, h2, h3⟩
    · have h4 : t'.consume.1.kind = .eof := h1
      have h5 : t'.consume.2.view = [] := by
        have := tokenize_eof_rest h1
        unfold Tokenizer.view Tokenizer.consume
        rw [this.2]
        unfold lexAll
        simp [tokenize]
      simp [h2, h3, h4, h5]
    · rw [h1, h2]
      cases l <;> simp [tokenOf, Lexeme.text]

theorem parseAnnotationKind_view {t : Tokenizer} {s ls} (h : t.view = .ident s :: ls) :
    (parseAnnotationKind t).2.view = ls ∧
    (parseAnnotationKind t).1 =
      match AnnotationKind.ofString? s with
      | some k => .ok k
      | none => .error ⟨.invalidAnnotation, s⟩ := by
  obtain ⟨h1, h2, -⟩ := Tokenizer.of_view_cons h
  unfold parseAnnotationKind
  rw [h2]
  simp only [tokenOf]
  split <;> simp [h1, *]

theorem Tokenizer.view_of_identifier {t : Tokenizer} (h : t.tokenKind = .identifier) :
    ∃ s ls, t.view = .ident s :: ls := by
  rcases t.view_cases with ⟨h1, -⟩ | ⟨l, h1, h2, h3⟩
  · rw [h] at h1; cases h1
  · rw [h] at h3; cases l <;> simp [tokenOf] at h3; exact ⟨_, _, h1⟩

theorem parseAnnotationsLoop_view (t : Tokenizer) (acc : List Annotation) :
    parseAnnotationsLoop t acc = ((pAnns t.view).1, acc ++ (pAnns t.view).2) := by
  fun_induction parseAnnotationsLoop t acc with
  | case1 t acc h e t1 hk =>
    obtain ⟨s, ls, hv⟩ := Tokenizer.view_of_identifier h
    have hp := parseAnnotationKind_view hv
    rw [hk] at hp
    obtain ⟨-, hp⟩ := hp
    simp only at hp
    split at hp
    · cases hp
    · rename_i hs
      cases hp
      rw [hv, pAnns_unknown hs]; simp
  | case2 t acc h kind t1 hk e t2 ha =>
    obtain ⟨s, ls, hv⟩ := Tokenizer.view_of_identifier h
    have hp := parseAnnotationKind_view hv
    have hA := parseAnnotationArguments_view t1
    rw [hk] at hp
    rw [ha] at hA
    obtain ⟨hp1, hp2⟩ := hp
    simp only at hp1 hA hp2
    rw [hp1] at hA
    have hs : AnnotationKind.ofString? s = some kind := by
      split at hp2
      · cases hp2; assumption
      · cases hp2
    rw [hv, pAnns_error hs (Prod.ext hA.1.symm rfl)]; simp
  | case3 t acc h kind t1 hk vs t2 ha acc' hc ih =>
    obtain ⟨s, ls, hv⟩ := Tokenizer.view_of_identifier h
    have hp := parseAnnotationKind_view hv
    have hA := parseAnnotationArguments_view t1
    rw [hk] at hp
    rw [ha] at hA
    obtain ⟨hp1, hp2⟩ := hp
    simp only at hp1 hA hp2
    rw [hp1] at hA
    have hs : AnnotationKind.ofString? s = some kind := by
      split at hp2
      · cases hp2; assumption
      · cases hp2
    rcases skipComma_view t2 with ⟨-, h2⟩ | ⟨h1, -⟩
    · rw [h2] at hA
      rw [ih, hv, pAnns_comma hs (Prod.ext hA.1.symm hA.2.symm)]
      simp [acc']
    · rw [hc] at h1; cases h1
  | case4 t acc h kind t1 hk vs t2 ha acc' hc hne =>
    obtain ⟨s, ls, hv⟩ := Tokenizer.view_of_identifier h
    have hp := parseAnnotationKind_view hv
    have hA := parseAnnotationArguments_view t1
    rw [hk] at hp
    rw [ha] at hA
    obtain ⟨hp1, hp2⟩ := hp
    simp only at hp1 hA hp2
    rw [hp1] at hA
    have hs : AnnotationKind.ofString? s = some kind := by
      split at hp2
      · cases hp2; assumption
      · cases hp2
    rcases skipComma_view t2 with ⟨h1, -⟩ | ⟨-, -, h2⟩
    · exact absurd h1 hc
    · rcases t2.view_cases with ⟨g1, -⟩ | ⟨l, g1, g2, -⟩
      · exact absurd g1 hne
      · rw [g1] at hA
        rw [hv, pAnns_junk hs (Prod.ext hA.1.symm hA.2.symm) (by rintro rfl; exact h2 _ g1)]
        simp [acc', g2, tokenOf_text]
  | case5 t acc h kind t1 hk vs t2 ha acc' hc hne =>
    obtain ⟨s, ls, hv⟩ := Tokenizer.view_of_identifier h
    have hp := parseAnnotationKind_view hv
    have hA := parseAnnotationArguments_view t1
    rw [hk] at hp
    rw [ha] at hA
    obtain ⟨hp1, hp2⟩ := hp
    simp only at hp1 hA hp2
    rw [hp1] at hA
    have hs : AnnotationKind.ofString? s = some kind := by
      split at hp2
      · cases hp2; assumption
      · cases hp2
    simp only [ne_eq, Decidable.not_not] at hne
    rw [← t2.view_eq_nil_iff] at hne
    rw [hne] at hA
    rw [hv, pAnns_end hs (Prod.ext hA.1.symm hA.2.symm)]
  | case6 t acc h hne =>
    rcases t.view_cases with ⟨h1, h2, -⟩ | ⟨l, h1, h2, h3⟩
    · exact absurd h1 hne
    · rw [h1, h2, pAnns_other (by rintro s rfl; exact h h3)]
      simp [tokenOf_text]
  | case7 t acc h hne =>
    simp only [ne_eq, Decidable.not_not] at hne
    rw [← t.view_eq_nil_iff] at hne
    simp [hne, pAnns]

/-- `parseAnnotations` through the list parser. -/
theorem parseAnnotationsInto_eq (text : Str) (acc : List Annotation) :
    parseAnnotationsInto text acc =
      ((pAnns (lexAll text)).1, acc ++ (pAnns (lexAll text)).2) :=
  parseAnnotationsLoop_view ⟨text⟩ acc

end Verif
