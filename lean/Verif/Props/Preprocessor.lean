import Verif.Lemmas.Preprocessor
import Verif.Spec.Macro
/-!
# C94: the macros of genpybind.h
-/
namespace Verif
open Spec

/-! ### The macros used by the tool -/

theorem map_setSpaced (s : Bool) (l : List MacroToken) :
    (setSpaced s l).map (·.tok) = startsWith s (l.map (·.tok)) := by
  cases l <;> rfl

theorem map_addHidden (h : List Str) (l : List MacroToken) : (addHidden h l).map (·.tok) = l.map (·.tok) := by
  simp [addHidden]

/-- An operand of `##` without tokens does not matter. -/
theorem paste_empty : ∀ a : List MacroToken, paste a [] = a ∧ paste [] a = a
  | [] => ⟨rfl, rfl⟩
  | [_] => ⟨rfl, rfl⟩
  | t :: t' :: a => ⟨by rw [paste, (paste_empty (t' :: a)).1], rfl⟩

theorem closed_startsWith {l : List PPToken} (s : Bool) (h : Closed l) : Closed (startsWith s l) := by
  cases h with
  | nil => exact .nil
  | token h1 h2 h => exact Closed.token h1 h2 h
  | group h1 h2 h h' =>
    rename_i p _ _ _
    exact Closed.group (p := { p with spaced := s }) h1 h2 h h'

theorem stringize_startsWith (s : Bool) (l : List PPToken) : annotateLiteral (startsWith s l) = annotateLiteral l := by
  cases l <;> rfl

/-- Token `s` of a replacement list. -/
abbrev at_ (hide : List Str) (s : Str) (spaced : Bool := false) : MacroToken := ⟨tok s spaced, hide⟩

/-- `GENPYBIND(...)`, also within other macros. -/
theorem attribute_step {macros : Macros} (H : Includes toolMacros macros) {g p close : MacroToken}
    (hg : g.tok.spelling = t%"GENPYBIND") (hh : t%"GENPYBIND" ∉ g.hide)
    (hh' : t%"GENPYBIND__PRIVATE_STRINGIZE__" ∉ g.hide)
    (hp : p.tok.spelling = ['(']) (hc : close.tok.spelling = [')']) {m li ts out : List MacroToken} {c c1 c' : Nat}
    (hm : Closed (m.map (·.tok))) (he : Expands macros c m li c1) (hli : Closed (li.map (·.tok)))
    (h : Expands macros c1 ts out c') :
    ∃ la, la.map (·.tok) = attributeTokens g.tok.spaced (li.map (·.tok)) ∧
      Expands macros c (g :: p :: (m ++ close :: ts)) (la ++ out) c' := by
  let hide := t%"GENPYBIND" :: g.hide.filter (close.hide.contains ·)
  let pre : List MacroToken := [at_ hide t%"__attribute__" g.tok.spaced, at_ hide ['('], at_ hide ['('],
    at_ hide t%"annotate", at_ hide ['('], ⟨{ spelling := t%"\"\xe2\x97\x8a\"", literal := true }, hide⟩]
  let st := at_ hide t%"GENPYBIND__PRIVATE_STRINGIZE__" true
  let mi := addHidden hide (setSpaced false li)
  let post : List MacroToken := [at_ hide [')'], at_ hide [')'], at_ hide [')']]
  have hst : t%"GENPYBIND__PRIVATE_STRINGIZE__" ∉ hide := by
    simp only [hide, List.mem_cons, List.mem_filter, not_or, not_and]
    exact ⟨by decide, fun h => absurd h hh'⟩
  let lit : MacroToken := ⟨{ spelling := annotateLiteral (mi.map (·.tok)), literal := true, spaced := true },
    t%"GENPYBIND__PRIVATE_STRINGIZE__" :: hide.filter (hide.contains ·) ++ []⟩
  refine ⟨pre ++ lit :: post, ?_, ?_⟩
  · simp only [pre, lit, post, mi, map_addHidden, map_setSpaced, stringize_startsWith]
    rfl
  · have hdef := H.defined _ (show (t%"GENPYBIND", _) ∈ toolMacros by simp [toolMacros]; rfl)
    have he' : Expands macros c (List.getD [m] 0 []) li c1 := he
    refine Expands.function (args := [m]) (by rw [hg]; exact hdef) (by rw [hg]; exact hh) hp
      (read_argument hm close hc ts) (.token (.token (.token (.token (.token (.token (.token (.token (.param he' (.token (.token (.token
        (.token .nil))))))))))))) ?_
    rw [hg]
    show Expands macros c1 (addHidden hide _ ++ ts) _ c'
    have hlist : ∀ x, addHidden hide (setSpaced g.tok.spaced ([⟨tok t%"__attribute__", []⟩, ⟨tok ['('], []⟩,
        ⟨tok ['('], []⟩, ⟨tok t%"annotate", []⟩, ⟨tok ['('], []⟩,
        ⟨{ spelling := t%"\"\xe2\x97\x8a\"", literal := true }, []⟩,
        ⟨tok t%"GENPYBIND__PRIVATE_STRINGIZE__" true, []⟩, ⟨tok ['('], []⟩] ++
        (setSpaced false li ++ [⟨tok [')'], []⟩, ⟨tok [')'], []⟩, ⟨tok [')'], []⟩, ⟨tok [')'], []⟩]))) ++ x =
        pre ++ st :: at_ hide ['('] :: (mi ++ at_ hide [')'] :: (post ++ x)) := by
      intro x
      simp [addHidden, setSpaced, pre, st, mi, post, tok]
    have key : Expands macros c1 (pre ++ st :: at_ hide ['('] :: (mi ++ at_ hide [')'] :: (post ++ ts)))
        (pre ++ lit :: (post ++ out)) c' := by
      refine Expands.copies ?_ ?_
      · intro t ht
        simp only [pre, List.mem_cons, List.not_mem_nil, or_false] at ht
        rcases ht with rfl | rfl | rfl | rfl | rfl | rfl
        · exact H.words _ (by simp [tok])
        · exact H.words _ (by simp [tok])
        · exact H.words _ (by simp [tok])
        · exact H.words _ (by simp [tok])
        · exact H.words _ (by simp [tok])
        · exact H.literals _
      · have hdef' := H.defined _ (show (t%"GENPYBIND__PRIVATE_STRINGIZE__", _) ∈ toolMacros by simp [toolMacros]; rfl)
        refine Expands.function (t := st) hdef' hst rfl (read_argument (m := mi) ?_ _ rfl _) (.stringized .nil) ?_
        · simp only [mi, map_addHidden, map_setSpaced]
          exact closed_startsWith _ hli
        · show Expands macros c1 (lit :: (post ++ ts)) _ _
          refine Expands.copy (t := lit) (H.literals _) (Expands.copies ?_ h)
          intro t ht
          simp only [post, List.mem_cons, List.not_mem_nil, or_false] at ht
          rcases ht with rfl | rfl | rfl <;> exact H.words _ (by simp [tok])
    rw [← hlist] at key
    simp only [List.append_assoc, List.cons_append]
    exact key

theorem digits_spelling (n : Nat) : Nat.toDigits 10 n ≠ ['('] ∧ Nat.toDigits 10 n ≠ [')'] ∧ Nat.toDigits 10 n ≠ [','] := by
  refine ⟨fun h => ?_, fun h => ?_, fun h => ?_⟩
  · exact toDigits_plain n '(' rfl (h ▸ by simp)
  · exact toDigits_plain n ')' rfl (h ▸ by simp)
  · exact toDigits_plain n ',' rfl (h ▸ by simp)

/-- `GENPYBIND__PRIVATE_UNIQUE__(genpybind_)` within GENPYBIND_MANUAL. -/
theorem unique_step {macros : Macros} (H : Includes toolMacros macros)
    {ts out : List MacroToken} {c c' : Nat}
    (h : Expands macros (c + 1) ts out c') :
    ∃ v : MacroToken, v.tok = tok (variableName c) true ∧
      Expands macros c (at_ [t%"GENPYBIND_MANUAL"] t%"GENPYBIND__PRIVATE_UNIQUE__" true ::
        at_ [t%"GENPYBIND_MANUAL"] ['('] :: at_ [t%"GENPYBIND_MANUAL"] t%"genpybind_" ::
        at_ [t%"GENPYBIND_MANUAL"] [')'] :: ts) (v :: out) c' := by
  have hg : macros t%"genpybind_" = none := H.words _ (by simp)
  have d1 := H.defined _ (show (t%"GENPYBIND__PRIVATE_UNIQUE__", _) ∈ toolMacros by simp [toolMacros]; rfl)
  have d2 := H.defined _ (show (t%"GENPYBIND__PRIVATE_CONCAT__", _) ∈ toolMacros by simp [toolMacros]; rfl)
  have d3 := H.defined _ (show (t%"GENPYBIND__PRIVATE_CONCAT_EXPANDED__", _) ∈ toolMacros by simp [toolMacros]; rfl)
  let h1 := [t%"GENPYBIND_MANUAL"]
  let h2 := t%"GENPYBIND__PRIVATE_UNIQUE__" :: h1
  let h3 := t%"GENPYBIND__PRIVATE_CONCAT__" :: h2
  let g1 := at_ h1 t%"genpybind_"
  let g2 := at_ (h2 ++ h1) t%"genpybind_"
  let g3 := at_ (h3 ++ (h2 ++ h1)) t%"genpybind_"
  let counter := at_ h2 t%"__COUNTER__" true
  let number : MacroToken := ⟨tok (Nat.toDigits 10 c) true, h3⟩
  have e1 : Expands macros c (List.getD [[g1]] 0 []) [g1] c := .copy hg .nil
  have e2 : Expands macros c (List.getD [[g2], [counter]] 0 []) [g2] c := .copy hg .nil
  have e3 : Expands macros c (List.getD [[g2], [counter]] 1 []) [⟨tok (Nat.toDigits 10 c) true, []⟩] (c + 1) :=
    .counter H.counter (by decide) .nil
  refine ⟨⟨tok (variableName c) true, t%"GENPYBIND__PRIVATE_CONCAT_EXPANDED__" :: h3⟩, rfl, ?_⟩
  refine Expands.function (args := [[g1]]) d1 (by decide) rfl rfl (.token (.token (.param e1 (.token (.token
    (.token .nil)))))) ?_
  show Expands macros c (at_ h2 t%"GENPYBIND__PRIVATE_CONCAT__" true :: at_ h2 ['('] :: g2 :: at_ h2 [','] ::
    counter :: at_ h2 [')'] :: ts) _ _
  refine Expands.function (args := [[g2], [counter]]) d2 (by decide) rfl rfl (.token (.token (.param e2 (.token
    (.param e3 (.token .nil)))))) ?_
  show Expands macros (c + 1) (at_ h3 t%"GENPYBIND__PRIVATE_CONCAT_EXPANDED__" true :: at_ h3 ['('] :: g3 ::
    at_ h3 [','] :: number :: at_ h3 [')'] :: ts) _ _
  obtain ⟨n1, n2, n3⟩ := digits_spelling c
  have hr : readArguments (2 - 1) false 0 [] (g3 :: at_ h3 [','] :: number :: at_ h3 [')'] :: ts) =
      some ([[g3], [number]], at_ h3 [')'], ts) := by
    have : readArguments 0 false 0 [] (number :: at_ h3 [')'] :: ts) = some ([[number]], at_ h3 [')'], ts) := by
      rw [read_cons, if_neg (show number.tok.spelling ≠ _ from n1), if_neg (show number.tok.spelling ≠ _ from n2),
        if_neg (fun h => n3 h.1)]
      rfl
    show (readArguments 0 false 0 [] (number :: at_ h3 [')'] :: ts)).map _ = _
    rw [this]
    rfl
  refine Expands.function (args := [[g3], [number]]) d3 (by decide) rfl hr (.pasted .nil) ?_
  exact Expands.copy (t := ⟨tok (variableName c) true, _⟩) (H.variables c) h


/-! ### What the compiler sees -/

theorem closed_words {l : List PPToken} (h : ∀ t ∈ l, t.spelling ≠ ['('] ∧ t.spelling ≠ [')']) : Closed l := by
  induction l with
  | nil => exact .nil
  | cons t l ih => exact .token (h t (by simp)).1 (h t (by simp)).2 (ih fun u hu => h u (by simp [hu]))

theorem closed_attribute (s : Bool) (inner : List PPToken) : Closed (attributeTokens s inner) := by
  refine .token (by simp [tok]) (by simp [tok]) ?_
  refine Closed.group (l := [tok ['('], tok t%"annotate", tok ['('], _, _, tok [')'], tok [')']]) (l' := []) rfl rfl
    ?_ .nil
  refine Closed.group (l := [tok t%"annotate", tok ['('], _, _, tok [')']]) (l' := []) rfl rfl ?_ .nil
  refine .token (by simp [tok]) (by simp [tok]) ?_
  refine Closed.group (l := [_, _]) (l' := []) rfl rfl ?_ .nil
  exact .token (by simp) (by simp) (.token (by simp [annotateLiteral]) (by simp [annotateLiteral]) .nil)

theorem closed_variable (s : Bool) (k : Nat) {inner : List PPToken} (h : Closed inner) :
    Closed (variableTokens s k inner) := by
  refine .append (.append (.append (.append ?_ (closed_attribute _ _)) ?_) (closed_startsWith _ h)) ?_
  · refine .token (by simp [tok]) (by simp [tok]) (.token (by simp [tok]) (by simp [tok])
      (.token (by simp [tok]) (by simp [tok]) (.token (by simp [tok]) (by simp [tok]) ?_)))
    refine Closed.group (l := [tok ['('], tok t%"unused", tok [')']]) (l' := []) rfl rfl ?_ .nil
    refine Closed.group (l := [tok t%"unused"]) (l' := []) rfl rfl ?_ .nil
    exact .token (by simp [tok]) (by simp [tok]) .nil
  · refine .token (by simp [tok, variableName]) (by simp [tok, variableName]) (.token (by simp [tok]) (by simp [tok])
      (.token (by simp [tok]) (by simp [tok]) (.token (by simp [tok]) (by simp [tok]) ?_)))
    refine Closed.group (l := [tok t%"auto", tok ['&'] true, tok t%"parent"]) (l' := []) rfl rfl ?_ .nil
    exact closed_words (by simp [tok])
  · exact closed_words (by simp [tok])

theorem closed_parentType (s : Bool) : Closed (parentTypeTokens s) := by
  refine .append (a := [tok t%"typename" s, tok t%"std" true, tok t%"::", tok t%"remove_reference_t", tok ['<'],
    tok t%"decltype"]) (closed_words (by simp [tok])) ?_
  exact Closed.group (l := [tok t%"parent"]) (l' := [tok ['>'], tok t%"::", tok t%"type"]) rfl rfl
    (closed_words (by simp [tok])) (closed_words (by simp [tok]))

theorem seen_closed (macros : Macros) : ∀ (d : Source), d.Plain macros → ∀ k, Closed (d.seen k).1
  | .nil, _, _ => .nil
  | .token _ rest, h, k => .token h.1.1 h.1.2.1 (seen_closed macros rest h.2 k)
  | .group _ _ inner rest, h, k => .group rfl rfl (seen_closed macros inner h.1 k) (seen_closed macros rest h.2 _)
  | .annotate _ _ _ _ rest, h, _ => .append (closed_attribute _ _) (seen_closed macros rest h.2 _)
  | .manual _ _ _ inner rest, h, k =>
    .append (closed_variable _ _ (seen_closed macros inner h.1 k)) (seen_closed macros rest h.2 _)
  | .parentType _ rest, h, _ => .append (closed_parentType _) (seen_closed macros rest h _)

theorem none_append {macros : Macros} {a b : List PPToken} (ha : ∀ t ∈ a, macros t.spelling = none)
    (hb : ∀ t ∈ b, macros t.spelling = none) : ∀ t ∈ a ++ b, macros t.spelling = none := by
  intro t ht
  rcases List.mem_append.1 ht with h | h
  · exact ha t h
  · exact hb t h

theorem none_startsWith {macros : Macros} {a : List PPToken} (s : Bool) (ha : ∀ t ∈ a, macros t.spelling = none) :
    ∀ t ∈ startsWith s a, macros t.spelling = none := by
  cases a with
  | nil => exact ha
  | cons t a =>
    intro u hu
    rcases List.mem_cons.1 hu with rfl | hu
    · exact ha t (by simp)
    · exact ha u (by simp [hu])

theorem none_words {macros : Macros} (H : Includes toolMacros macros) {a : List PPToken}
    (ha : ∀ t ∈ a, t.spelling ∈ [t%"(", t%")", t%",", t%"__attribute__", t%"annotate", t%"static", t%"constexpr",
      t%"auto", t%"unused", t%"manual", t%"genpybind_", t%"=", t%"[", t%"]", t%"&", t%"parent", t%";", t%"typename",
      t%"std", t%"::", t%"remove_reference_t", t%"<", t%"decltype", t%">", t%"type"]) :
    ∀ t ∈ a, macros t.spelling = none := fun t ht => H.words _ (ha t ht)

theorem none_attribute {macros : Macros} (H : Includes toolMacros macros) (s : Bool) (inner : List PPToken) :
    ∀ t ∈ attributeTokens s inner, macros t.spelling = none := by
  refine none_append (a := [tok t%"__attribute__" s, tok ['('], tok ['('], tok t%"annotate", tok ['(']])
    (none_words H (by simp [tok])) (none_append (a := [_, _]) ?_ (none_words H (by simp [tok])))
  intro t ht
  simp only [List.mem_cons, List.not_mem_nil, or_false] at ht
  rcases ht with rfl | rfl <;> exact H.literals _

theorem none_variable {macros : Macros} (H : Includes toolMacros macros) (s : Bool) (k : Nat) {inner : List PPToken}
    (h : ∀ t ∈ inner, macros t.spelling = none) : ∀ t ∈ variableTokens s k inner, macros t.spelling = none := by
  refine none_append (none_append (none_append (none_append ?_ (none_attribute H _ _)) ?_) (none_startsWith _ h)) ?_
  · exact none_words H (by simp [tok])
  · refine none_append (a := [_]) ?_ (none_words H (by simp [tok]))
    intro t ht
    rw [List.mem_singleton] at ht
    rw [ht]
    exact H.variables k
  · exact none_words H (by simp [tok])

theorem seen_none {macros : Macros} (H : Includes toolMacros macros) :
    ∀ (d : Source), d.Plain macros → ∀ k, ∀ t ∈ (d.seen k).1, macros t.spelling = none
  | .nil, _, _ => by simp [Source.seen]
  | .token t rest, h, k =>
    none_append (a := [t]) (by simpa using h.1.2.2) (seen_none H rest h.2 k)
  | .group a b inner rest, h, k =>
    none_append (a := tok ['('] a :: (inner.seen k).1)
      (none_append (a := [tok ['('] a]) (none_words H (by simp [tok])) (seen_none H inner h.1 k))
      (none_append (a := [tok [')'] b]) (none_words H (by simp [tok])) (seen_none H rest h.2 _))
  | .annotate _ _ _ _ rest, h, _ => none_append (none_attribute H _ _) (seen_none H rest h.2 _)
  | .manual _ _ _ inner rest, h, k =>
    none_append (none_variable H _ _ (seen_none H inner h.1 k)) (seen_none H rest h.2 _)
  | .parentType _ rest, h, _ => none_append (none_words H (by simp [tok, parentTypeTokens])) (seen_none H rest h _)

theorem map_fromFile (l : List PPToken) : (fromFile l).map (·.tok) = l := by
  simp [fromFile, Function.comp_def]

/-- `GENPYBIND_MANUAL(...)` -/
theorem manual_step {macros : Macros} (H : Includes toolMacros macros) (s a b : Bool)
    {m li ts out : List MacroToken} {c c1 c' : Nat}
    (hm : Closed (m.map (·.tok))) (he : Expands macros c m li c1)
    (hli : ∀ t ∈ li.map (·.tok), macros t.spelling = none) (h : Expands macros (c1 + 1) ts out c') :
    ∃ la, la.map (·.tok) = variableTokens s c1 (li.map (·.tok)) ∧
      Expands macros c (⟨tok t%"GENPYBIND_MANUAL" s, []⟩ :: ⟨tok ['('] a, []⟩ :: (m ++ ⟨tok [')'] b, []⟩ :: ts))
        (la ++ out) c' := by
  let h1 := [t%"GENPYBIND_MANUAL"]
  let pre : List MacroToken := [at_ h1 t%"static" s, at_ h1 t%"constexpr" true, at_ h1 t%"auto" true,
    at_ h1 t%"__attribute__" true, at_ h1 ['('], at_ h1 ['('], at_ h1 t%"unused", at_ h1 [')'], at_ h1 [')']]
  let mid : List MacroToken := [at_ h1 ['='] true, at_ h1 ['['] true, at_ h1 [']'], at_ h1 ['('], at_ h1 t%"auto",
    at_ h1 ['&'] true, at_ h1 t%"parent", at_ h1 [')']]
  let mi := addHidden h1 (setSpaced true li)
  let last : List MacroToken := [at_ h1 [';']]
  have hw : ∀ l : List MacroToken, (∀ t ∈ l.map (·.tok), macros t.spelling = none) →
      ∀ t ∈ l, macros t.tok.spelling = none := fun l h t ht => h _ (List.mem_map_of_mem ht)
  have e1 : Expands macros (c1 + 1) (mid ++ (mi ++ (last ++ ts))) (mid ++ (mi ++ (last ++ out))) c' := by
    refine Expands.copies (hw _ (none_words H (by simp [tok, mid])))
      (Expands.copies (hw _ ?_) (Expands.copies (hw _ (none_words H (by simp [tok, last]))) h))
    simp only [mi, map_addHidden, map_setSpaced]
    exact none_startsWith _ hli
  obtain ⟨v, hv, e2⟩ := unique_step H e1
  have em : Expands macros c1 [at_ h1 t%"manual"] [at_ h1 t%"manual"] c1 := .copy (H.words _ (by simp [tok])) .nil
  have cm : Closed ([at_ h1 t%"manual"].map (·.tok)) := closed_words (by simp [tok])
  obtain ⟨la, hla, e3⟩ := attribute_step H (g := at_ h1 t%"GENPYBIND" true) (p := at_ h1 ['('])
    (close := at_ h1 [')']) rfl (by decide) (by decide) rfl rfl cm em cm e2
  have e4 := Expands.copies (l := pre) (hw _ (none_words H (by simp [tok, pre]))) e3
  refine ⟨pre ++ (la ++ v :: (mid ++ (mi ++ last))), ?_, ?_⟩
  · simp only [List.map_append, hla, List.map_cons, hv, mi, map_addHidden, map_setSpaced]
    simp [pre, mid, last, variableTokens, tok]
  · have hdef := H.defined _ (show (t%"GENPYBIND_MANUAL", _) ∈ toolMacros by simp [toolMacros]; rfl)
    have he' : Expands macros c (List.getD [m] 0 []) li c1 := he
    refine Expands.function (args := [m]) (t := ⟨tok t%"GENPYBIND_MANUAL" s, []⟩) hdef (by simp) rfl
      (read_argument hm _ rfl ts) (.token (.token (.token (.token (.token (.token (.token (.token (.token
        (.token (.token (.token (.token (.token (.token (.token (.token
        (.token (.token (.token (.token (.token (.token (.token (.token
          (.param he' (.token .nil))))))))))))))))))))))))))) ?_
    have hlist : addHidden h1 (setSpaced s ([⟨tok t%"static", []⟩, ⟨tok t%"constexpr" true, []⟩,
        ⟨tok t%"auto" true, []⟩, ⟨tok t%"__attribute__" true, []⟩, ⟨tok ['('], []⟩, ⟨tok ['('], []⟩,
        ⟨tok t%"unused", []⟩, ⟨tok [')'], []⟩, ⟨tok [')'], []⟩,
        ⟨tok t%"GENPYBIND" true, []⟩, ⟨tok ['('], []⟩, ⟨tok t%"manual", []⟩, ⟨tok [')'], []⟩,
        ⟨tok t%"GENPYBIND__PRIVATE_UNIQUE__" true, []⟩, ⟨tok ['('], []⟩, ⟨tok t%"genpybind_", []⟩, ⟨tok [')'], []⟩,
        ⟨tok ['='] true, []⟩, ⟨tok ['['] true, []⟩, ⟨tok [']'], []⟩, ⟨tok ['('], []⟩, ⟨tok t%"auto", []⟩,
        ⟨tok ['&'] true, []⟩, ⟨tok t%"parent", []⟩, ⟨tok [')'], []⟩] ++ (setSpaced true li ++ [⟨tok [';'], []⟩]))) ++ ts =
        pre ++ at_ h1 t%"GENPYBIND" true :: at_ h1 ['('] :: ([at_ h1 t%"manual"] ++ at_ h1 [')'] ::
          at_ h1 t%"GENPYBIND__PRIVATE_UNIQUE__" true :: at_ h1 ['('] :: at_ h1 t%"genpybind_" ::
          at_ h1 [')'] :: (mid ++ (mi ++ (last ++ ts)))) := by
      simp [addHidden, setSpaced, pre, mid, mi, last, tok, h1]
    rw [← hlist] at e4
    simp only [List.append_assoc, List.cons_append] at e4 ⊢
    exact e4

/-- All of it. -/
theorem source_step {macros : Macros} (H : Includes toolMacros macros) :
    ∀ (d : Source), d.Plain macros → ∀ (c c' : Nat) (ts out : List MacroToken),
      Expands macros (d.seen c).2 ts out c' →
      ∃ l, l.map (·.tok) = (d.seen c).1 ∧ Expands macros c (fromFile d.tokens ++ ts) (l ++ out) c'
  | .nil, _, _, _, _, _, h => ⟨[], rfl, h⟩
  | .token t rest, hp, c, c', ts, out, h => by
    obtain ⟨l, hl, he⟩ := source_step H rest hp.2 c c' ts out h
    exact ⟨⟨t, []⟩ :: l, by simp [hl, Source.seen], .copy (t := ⟨t, []⟩) hp.1.2.2 he⟩
  | .group a b inner rest, hp, c, c', ts, out, h => by
    obtain ⟨l2, hl2, he2⟩ := source_step H rest hp.2 (inner.seen c).2 c' ts out h
    have h2 : Expands macros (inner.seen c).2 (⟨tok [')'] b, []⟩ :: (fromFile rest.tokens ++ ts))
        (⟨tok [')'] b, []⟩ :: (l2 ++ out)) c' := .copy (H.words _ (by simp [tok])) he2
    obtain ⟨l1, hl1, he1⟩ := source_step H inner hp.1 c c' _ _ h2
    refine ⟨⟨tok ['('] a, []⟩ :: (l1 ++ ⟨tok [')'] b, []⟩ :: l2), by simp [hl1, hl2, Source.seen], ?_⟩
    have := Expands.copy (t := ⟨tok ['('] a, []⟩) (H.words _ (by simp [tok])) he1
    simpa [fromFile, Source.tokens] using this
  | .annotate s a b inner rest, hp, c, c', ts, out, h => by
    obtain ⟨l2, hl2, he2⟩ := source_step H rest hp.2 (inner.seen c).2 c' ts out h
    obtain ⟨l1, hl1, he1⟩ := source_step H inner hp.1 c _ [] [] .nil
    rw [List.append_nil, List.append_nil] at he1
    obtain ⟨la, hla, hea⟩ := attribute_step H (g := ⟨tok t%"GENPYBIND" s, []⟩) (p := ⟨tok ['('] a, []⟩)
      (close := ⟨tok [')'] b, []⟩) rfl (by simp) (by simp) rfl rfl
      (by rw [map_fromFile]; exact source_closed macros inner hp.1) he1 (by rw [hl1]; exact seen_closed macros _ hp.1 _) he2
    refine ⟨la ++ l2, by simp [hla, hl1, hl2, Source.seen, tok], ?_⟩
    simpa [fromFile, Source.tokens] using hea
  | .manual s a b inner rest, hp, c, c', ts, out, h => by
    obtain ⟨l2, hl2, he2⟩ := source_step H rest hp.2 ((inner.seen c).2 + 1) c' ts out h
    obtain ⟨l1, hl1, he1⟩ := source_step H inner hp.1 c _ [] [] .nil
    rw [List.append_nil, List.append_nil] at he1
    obtain ⟨la, hla, hea⟩ := manual_step H s a b
      (by rw [map_fromFile]; exact source_closed macros inner hp.1) he1 (by rw [hl1]; exact seen_none H _ hp.1 _) he2
    refine ⟨la ++ l2, by simp [hla, hl1, hl2, Source.seen], ?_⟩
    simpa [fromFile, Source.tokens] using hea
  | .parentType s rest, hp, c, c', ts, out, h => by
    obtain ⟨l, hl, he⟩ := source_step H rest hp c c' ts out h
    let hide := [t%"GENPYBIND_PARENT_TYPE"]
    let lp : List MacroToken := (parentTypeTokens s).map fun t => ⟨t, hide⟩
    refine ⟨lp ++ l, by simp [hl, Source.seen, lp, Function.comp_def], ?_⟩
    have hdef := H.defined _ (show (t%"GENPYBIND_PARENT_TYPE", _) ∈ toolMacros by simp [toolMacros]; rfl)
    refine Expands.object (t := ⟨tok t%"GENPYBIND_PARENT_TYPE" s, []⟩) hdef (by simp) (.token (.token (.token (.token
      (.token (.token (.token (.token (.token (.token (.token (.token .nil)))))))))))) ?_
    show Expands macros c (lp ++ (fromFile rest.tokens ++ ts)) _ _
    rw [List.append_assoc]
    refine Expands.copies ?_ he
    intro t ht
    simp only [lp, List.mem_map] at ht
    obtain ⟨u, hu, rfl⟩ := ht
    exact none_words H (by simp [tok, parentTypeTokens]) u hu

/-- C94: when the tool reads a file, every annotation is an attribute with the text that has been
written, every manual binding is a variable; everything else remains. -/
theorem C94_tool (macros : Macros) (H : Includes toolMacros macros) (d : Source) (hp : d.Plain macros) (k : Nat) :
    ExpandsTo macros k (fromFile d.tokens) (d.seen k).1 (d.seen k).2 := by
  obtain ⟨l, hl, n, hn⟩ := source_step H d hp k _ [] [] .nil
  rw [List.append_nil, List.append_nil] at hn
  refine ⟨⟨n, _, hn⟩, ?_⟩
  intro m r hr
  obtain ⟨h1, h2⟩ := Expands.unique ⟨n, hn⟩ ⟨m, hr⟩
  exact ⟨by rw [← h1, hl], h2.symm⟩

theorem plain_step {macros : Macros} (H : ∀ p ∈ plainMacros, macros p.1 = some p.2)
    (hw : ∀ w ∈ [t%"(", t%")", t%"GENPYBIND_PARENT_TYPE"], macros w = none) :
    ∀ (d : Source), d.Plain macros → ∀ (c c' : Nat) (ts out : List MacroToken), Expands macros c ts out c' →
      Expands macros c (fromFile d.tokens ++ ts) (fromFile d.stripped.tokens ++ out) c'
  | .nil, _, _, _, _, _, h => h
  | .token t rest, hp, _, _, _, _, h => .copy (t := ⟨t, []⟩) hp.1.2.2 (plain_step H hw rest hp.2 _ _ _ _ h)
  | .group a b inner rest, hp, c, c', ts, out, h => by
    have h1 := Expands.copy (t := ⟨tok [')'] b, []⟩) (hw _ (by simp [tok])) (plain_step H hw rest hp.2 _ _ _ _ h)
    have h2 := Expands.copy (t := ⟨tok ['('] a, []⟩) (hw _ (by simp [tok])) (plain_step H hw inner hp.1 _ _ _ _ h1)
    simpa [fromFile, Source.tokens, Source.stripped] using h2
  | .annotate s a b inner rest, hp, c, c', ts, out, h => by
    have hd := H _ (show (t%"GENPYBIND", _) ∈ plainMacros by simp [plainMacros]; rfl)
    have h1 := Expands.function (t := ⟨tok t%"GENPYBIND" s, []⟩) (p := ⟨tok ['('] a, []⟩)
      (close := ⟨tok [')'] b, []⟩) hd (by simp) rfl
      (read_argument (m := fromFile inner.tokens) (by rw [map_fromFile]; exact source_closed macros inner hp.1) _ rfl _)
      .nil (plain_step H hw rest hp.2 _ _ _ _ h)
    simpa [fromFile, Source.tokens, Source.stripped] using h1
  | .manual s a b inner rest, hp, c, c', ts, out, h => by
    have hd := H _ (show (t%"GENPYBIND_MANUAL", _) ∈ plainMacros by simp [plainMacros]; rfl)
    have h1 := Expands.function (t := ⟨tok t%"GENPYBIND_MANUAL" s, []⟩) (p := ⟨tok ['('] a, []⟩)
      (close := ⟨tok [')'] b, []⟩) hd (by simp) rfl
      (read_argument (m := fromFile inner.tokens) (by rw [map_fromFile]; exact source_closed macros inner hp.1) _ rfl _)
      .nil (plain_step H hw rest hp.2 _ _ _ _ h)
    simpa [fromFile, Source.tokens, Source.stripped] using h1
  | .parentType s rest, hp, _, _, _, _, h =>
    .copy (t := ⟨tok t%"GENPYBIND_PARENT_TYPE" s, []⟩) (hw _ (by simp [tok])) (plain_step H hw rest hp _ _ _ _ h)

/-- C94: any other compiler sees the file as if it had not been annotated, and `__COUNTER__` has the
same values. -/
theorem C94_plain (macros : Macros) (H : ∀ p ∈ plainMacros, macros p.1 = some p.2)
    (hw : ∀ w ∈ [t%"(", t%")", t%"GENPYBIND_PARENT_TYPE"], macros w = none) (d : Source) (hp : d.Plain macros)
    (k : Nat) : ExpandsTo macros k (fromFile d.tokens) d.stripped.tokens k := by
  obtain ⟨n, hn⟩ := plain_step H hw d hp k _ [] [] .nil
  rw [List.append_nil, List.append_nil] at hn
  refine ⟨⟨n, _, hn⟩, ?_⟩
  intro m r hr
  obtain ⟨h1, h2⟩ := Expands.unique ⟨n, hn⟩ ⟨m, hr⟩
  exact ⟨by rw [← h1, map_fromFile], h2.symm⟩

/-- C94: code without annotations is left alone by the tool, too; the text of an annotation is what
has been written. -/
theorem C94_written (k : Nat) : ∀ (d : Source), d.Unannotated → d.seen k = (d.tokens, k)
  | .nil, _ => rfl
  | .token t rest, h => by simp [Source.seen, Source.tokens, C94_written k rest h]
  | .group a b inner rest, h => by
    simp [Source.seen, Source.tokens, C94_written k inner h.1, C94_written k rest h.2]

/-- C94: every manual binding takes one number. -/
theorem C94_numbers : ∀ (d : Source) (k : Nat), (d.seen k).2 = k + d.manuals
  | .nil, _ => rfl
  | .token _ rest, k => C94_numbers rest k
  | .group _ _ inner rest, k => by
    simp only [Source.seen, Source.manuals, C94_numbers inner k, C94_numbers rest]; omega
  | .annotate _ _ _ inner rest, k => by
    simp only [Source.seen, Source.manuals, C94_numbers inner k, C94_numbers rest]; omega
  | .manual _ _ _ inner rest, k => by
    simp only [Source.seen, Source.manuals, C94_numbers inner k, C94_numbers rest]; omega
  | .parentType _ rest, k => C94_numbers rest k

/-- How often is this name used? -/
theorem count_startsWith (s : Bool) (x : Str) (l : List PPToken) :
    ((startsWith s l).map (·.spelling)).count x = (l.map (·.spelling)).count x := by
  cases l <;> rfl

theorem variableName_injective {i j : Nat} (h : variableName i = variableName j) : i = j :=
  toDigits_injective _ _ (List.append_cancel_left h)

theorem count_variable (s : Bool) (k j : Nat) (inner : List PPToken) :
    ((variableTokens s k inner).map (·.spelling)).count (variableName j) =
      (if k = j then 1 else 0) + (inner.map (·.spelling)).count (variableName j) := by
  simp only [variableTokens, attributeTokens, List.map_append, List.count_append, count_startsWith]
  have h : (variableName k == variableName j) = (k == j) := by
    rw [Bool.eq_iff_iff, beq_iff_eq, beq_iff_eq]
    exact ⟨variableName_injective, fun h => by rw [h]⟩
  simp only [List.map_cons, List.map_nil, tok, List.count_cons, List.count_nil, annotateLiteral, h]
  simp [variableName]

theorem count_attribute (s : Bool) (j : Nat) (inner : List PPToken) :
    ((attributeTokens s inner).map (·.spelling)).count (variableName j) = 0 := by
  simp only [attributeTokens, List.map_cons, List.map_nil, tok, List.count_cons, List.count_nil, annotateLiteral]
  simp [variableName]

theorem count_seen (j : Nat) : ∀ (d : Source), (∀ t ∈ d.own, t.spelling ≠ variableName j) → ∀ k,
    (((d.seen k).1).map (·.spelling)).count (variableName j) ≤ 1 ∧
    (j < k ∨ k + d.manuals ≤ j → (((d.seen k).1).map (·.spelling)).count (variableName j) = 0)
  | .nil, _, _ => by simp [Source.seen]
  | .token t rest, h, k => by
    have ih := count_seen j rest (fun u hu => h u (by simp [Source.own, hu])) k
    have ht : (t.spelling == variableName j) = false := by simpa using h t (by simp [Source.own])
    simpa [Source.seen, List.count_cons, ht, Source.manuals] using ih
  | .group a b inner rest, h, k => by
    have i1 := count_seen j inner (fun u hu => h u (by simp [Source.own, hu])) k
    have i2 := count_seen j rest (fun u hu => h u (by simp [Source.own, hu])) (inner.seen k).2
    have e : (((Source.group a b inner rest).seen k).1.map (·.spelling)).count (variableName j) =
        ((inner.seen k).1.map (·.spelling)).count (variableName j) +
        ((rest.seen (inner.seen k).2).1.map (·.spelling)).count (variableName j) := by
      simp [Source.seen, List.count_append, tok, variableName]
    rw [C94_numbers] at i2 e
    rw [e]
    simp only [Source.manuals]
    omega
  | .annotate s a b inner rest, h, k => by
    have i2 := count_seen j rest (fun u hu => h u (by simp [Source.own, hu])) (inner.seen k).2
    have e : (((Source.annotate s a b inner rest).seen k).1.map (·.spelling)).count (variableName j) =
        ((rest.seen (inner.seen k).2).1.map (·.spelling)).count (variableName j) := by
      simp [Source.seen, List.count_append, count_attribute]
    rw [C94_numbers] at i2 e
    rw [e]
    simp only [Source.manuals]
    omega
  | .manual s a b inner rest, h, k => by
    have i1 := count_seen j inner (fun u hu => h u (by simp [Source.own, hu])) k
    have i2 := count_seen j rest (fun u hu => h u (by simp [Source.own, hu])) ((inner.seen k).2 + 1)
    have e : (((Source.manual s a b inner rest).seen k).1.map (·.spelling)).count (variableName j) =
        (if (inner.seen k).2 = j then 1 else 0) + ((inner.seen k).1.map (·.spelling)).count (variableName j) +
        ((rest.seen ((inner.seen k).2 + 1)).1.map (·.spelling)).count (variableName j) := by
      simp only [Source.seen, List.map_append, List.count_append, count_variable]
    rw [C94_numbers] at i2 e
    rw [e]
    simp only [Source.manuals]
    split <;> omega
  | .parentType s rest, h, k => by
    have ih := count_seen j rest h k
    have e : (((Source.parentType s rest).seen k).1.map (·.spelling)).count (variableName j) =
        ((rest.seen k).1.map (·.spelling)).count (variableName j) := by
      simp [Source.seen, tok, variableName, parentTypeTokens]
    rw [e]
    exact ih

/-- C94: the names of the variables for manual bindings are used for nothing else, unless they have been
written in the file: each of them is there at most once. -/
theorem C94_unique (d : Source) (k j : Nat) (h : ∀ t ∈ d.own, t.spelling ≠ variableName j) :
    (((d.seen k).1).map (·.spelling)).count (variableName j) ≤ 1 := (count_seen j d h k).1

/-! ### Example -/

/-- Only the macros of the header. -/
def exMacroTable (header : List (Str × Macro)) : Macros := fun s =>
  if s = t%"__COUNTER__" then some .counter else (header.find? (fun p => p.1 == s)).map (·.2)

theorem exMacroTable_tool : Includes toolMacros (exMacroTable toolMacros) where
  defined := by decide +kernel
  counter := by decide +kernel
  words := by decide +kernel
  literals := by intro s; simp [exMacroTable, toolMacros]
  variables := by intro k; simp [exMacroTable, toolMacros, variableName]

/-- `struct GENPYBIND(visible, expose_as("X")) S { GENPYBIND_MANUAL({ f(parent, GENPYBIND_PARENT_TYPE); })
GENPYBIND_MANUAL({ }) };` -/
def exAnnotatedSource : Source :=
  .token (tok t%"struct") <| .annotate true false false
    (.token (tok t%"visible") <| .token (tok t%",") <| .token (tok t%"expose_as" true) <|
      .group false false (.token { spelling := t%"\"X\"", literal := true } .nil) .nil) <|
  .token (tok t%"S" true) <| .token (tok t%"{" true) <|
  .manual true false false (.token (tok t%"{") <| .token (tok t%"f" true) <|
    .group false false (.token (tok t%"parent") <| .token (tok t%",") <| .parentType true .nil) <|
    .token (tok t%";") <| .token (tok t%"}" true) .nil) <|
  .manual true false false (.token (tok t%"{") <| .token (tok t%"}" true) .nil) <|
  .token (tok t%"}" true) <| .token (tok t%";") .nil

theorem exAnnotatedSource_plain : exAnnotatedSource.Plain (exMacroTable toolMacros) ∧
    exAnnotatedSource.Plain (exMacroTable plainMacros) := by
  simp [exAnnotatedSource, Source.Plain, exMacroTable, toolMacros, plainMacros, tok]

set_option maxRecDepth 8000 in
example : ExpandsTo (exMacroTable toolMacros) 3 (fromFile exAnnotatedSource.tokens) (exAnnotatedSource.seen 3).1 5 ∧
    ((exAnnotatedSource.seen 3).1.map (·.spelling)).count t%"genpybind_3" = 1 ∧
    ((exAnnotatedSource.seen 3).1.map (·.spelling)).count t%"genpybind_4" = 1 ∧
    { spelling := t%"\"visible, expose_as(\\\"X\\\")\"", literal := true, spaced := true } ∈
      (exAnnotatedSource.seen 3).1 :=
  ⟨C94_tool _ exMacroTable_tool _ exAnnotatedSource_plain.1 3, by decide +kernel, by decide +kernel, by decide +kernel⟩

/-- `#define visible hidden` is also in effect within annotations: `GENPYBIND(visible)` asks for the
opposite. -/
theorem C94_expanded : ∃ macros : Macros, Includes toolMacros macros ∧
    ExpandsTo macros 0 (fromFile (Source.annotate false false false (.token (tok t%"visible") .nil) .nil).tokens)
      (attributeTokens false [tok t%"hidden"]) 0 := by
  let macros : Macros := fun s => if s = t%"visible" then some (.object [word t%"hidden"]) else exMacroTable toolMacros s
  have hh : ∀ s, s ≠ t%"visible" → macros s = exMacroTable toolMacros s := fun s hs => if_neg hs
  have H : Includes toolMacros macros := {
    defined := fun p hp => by
      rw [hh p.1 (by revert p; decide +kernel)]
      exact exMacroTable_tool.defined p hp
    counter := by rw [hh _ (by decide)]; exact exMacroTable_tool.counter
    words := fun w hw => by
      rw [hh w (by revert w; decide +kernel)]
      exact exMacroTable_tool.words w hw
    literals := fun s => by rw [hh _ (by simp)]; exact exMacroTable_tool.literals s
    variables := fun k => by rw [hh _ (by simp [variableName])]; exact exMacroTable_tool.variables k }
  refine ⟨macros, H, ?_⟩
  have e : Expands macros 0 [⟨tok t%"visible", []⟩] [⟨tok t%"hidden", [t%"visible"]⟩] 0 :=
    .object (t := ⟨tok t%"visible", []⟩) rfl (by simp) (.token .nil)
      (.copy (t := ⟨tok t%"hidden", [t%"visible"]⟩) (by decide +kernel) .nil)
  obtain ⟨la, hla, n, hn⟩ := attribute_step H (g := ⟨tok t%"GENPYBIND", []⟩) (p := ⟨tok ['('], []⟩)
    (close := ⟨tok [')'], []⟩) rfl (by simp) (by simp) rfl rfl (closed_words (by simp [tok])) e
    (closed_words (by simp [tok])) .nil
  rw [List.append_nil] at hn
  refine ⟨⟨n, _, hn⟩, ?_⟩
  intro m r hr
  obtain ⟨h1, h2⟩ := Expands.unique ⟨n, hn⟩ ⟨m, hr⟩
  exact ⟨by rw [← h1, hla]; rfl, h2.symm⟩

/-- `struct S { };` -/
example : ExpandsTo (exMacroTable plainMacros) 3 (fromFile exAnnotatedSource.tokens)
    [tok t%"struct", tok t%"S" true, tok t%"{" true, tok t%"}" true, tok t%";"] 3 :=
  C94_plain _ (by decide +kernel) (by decide +kernel) _ exAnnotatedSource_plain.2 3

end Verif
