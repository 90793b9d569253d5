import Verif.Lemmas.CommandLine
/-!
# The effective compilation command (C47, C48, C49)
-/
namespace Verif
open Spec

theorem plain_tail {i : Item} {is : List Item} (h : PlainSpelling (i :: is)) : PlainSpelling is :=
  fun a ha => h a (List.mem_cons_of_mem _ ha)

/-- The state after the items is given by the last standard. -/
theorem after_standard (is : List Item) (h : PlainSpelling is) (s : Standard) :
    standardAfter s is = ((standard is).map standardFrom).getD s := by
  unfold standard
  induction is generalizing s with
  | nil => rfl
  | cons i is ih =>
    cases i with
    | lang _ => exact ih (plain_tail h) s
    | other a =>
      rw [List.filterMap_cons, (h a (List.mem_cons_self ..)).2]
      exact ih (plain_tail h) s
    | std v =>
      change standardAfter (standardFrom v) is = _
      rw [ih (plain_tail h)]
      change _ = ((v :: List.filterMap standardOf is).getLast?.map standardFrom).getD s
      generalize List.filterMap standardOf is = l
      cases l with
      | nil => rfl
      | cons a l =>
        rw [List.getLast?_cons_cons]
        cases hg : (a :: l).getLast? with
        | none => simp at hg
        | some x => rfl

theorem later_from (dialect version v : Str) (h : CppStandard dialect version v) :
    ((standardFrom v).usesLater = true ↔ Later version) ∧ (standardFrom v).pre = dialect := by
  unfold standardFrom Later
  rw [split_cpp dialect version v h]
  exact ⟨stripFront_isSome _ _, rfl⟩

/-- If the last standard is kept it is the last one that is kept. -/
theorem standard_kept (is : List Item) (h : PlainSpelling is) (v : Str) (hv : standard is = some v)
    (hl : (standardFrom v).usesLater = true) : standard (is.filter kept) = some v := by
  unfold standard at hv ⊢
  induction is with
  | nil => cases hv
  | cons i is ih =>
    have key : ∀ u, u :: List.filterMap standardOf is = List.filterMap standardOf (i :: is) →
        i = .std u → (List.filterMap standardOf ((i :: is).filter kept)).getLast? = some v := by
      intro u hu hi
      subst hi
      rw [← hu] at hv
      cases hr : List.filterMap standardOf is with
      | nil =>
        rw [hr] at hv
        obtain rfl : u = v := by simpa using hv
        rw [List.filter_cons, if_pos (show kept (.std u) = true from hl)]
        have hn : List.filterMap standardOf (is.filter kept) = [] := by
          rw [List.filterMap_eq_nil_iff] at hr ⊢
          exact fun a ha => hr a ((List.mem_filter.1 ha).1)
        change (u :: List.filterMap standardOf (is.filter kept)).getLast? = some u
        rw [hn]
        rfl
      | cons a l =>
        rw [hr, List.getLast?_cons_cons, ← hr] at hv
        have := ih (plain_tail h) hv
        rw [List.filter_cons]
        split
        · change (u :: List.filterMap standardOf (is.filter kept)).getLast? = some v
          cases hr' : List.filterMap standardOf (is.filter kept) with
          | nil => rw [hr'] at this; cases this
          | cons a l => rw [List.getLast?_cons_cons, ← hr']; exact this
        · exact this
    cases i with
    | std u => exact key u rfl rfl
    | lang _ => exact ih (plain_tail h) hv
    | other a =>
      have ha := (h a (List.mem_cons_self ..)).2
      rw [List.filterMap_cons, ha] at hv
      rw [List.filter_cons, if_pos (by rfl), List.filterMap_cons, ha]
      exact ih (plain_tail h) hv

theorem language_append (is js : List Item) (h1 : is.filterMap languageOf = [])
    (h2 : js.filterMap languageOf = []) (l : Str) : language (.lang l :: is ++ js) = some l := by
  unfold language
  rw [List.cons_append, List.filterMap_cons]
  change (l :: List.filterMap languageOf (is ++ js)).getLast? = some l
  rw [List.filterMap_append, h1, h2]
  rfl

/-- **C47** for the spellings `-x` and `-std=` with standards of C++: the language read
from the adjusted command is C++.  The last standard is kept if it is later than C++17
and is C++17 of the same dialect otherwise.

The full statement is for every list of arguments; it does not hold for the remaining
ones (`C47_c_standard`, `C47_long_std`, `C47_ansi`, `C47_long_language` below). -/
theorem C47_standard_partial (program : Str) (args : List Str) (is : List Item) (rest : List Str)
    (h : ReadsArgs args is rest) (hplain : PlainSpelling is)
    (hcpp : ∀ v, standard is = some v → ∃ dialect version, CppStandard dialect version v) :
    ∃ out is', adjustStandard (program :: args) = some (program :: out) ∧ ReadsArgs out is' rest ∧
      language is' = some t%"c++" ∧
      (∀ dialect version v, standard is = some v → CppStandard dialect version v →
        (Later version → standard is' = some v) ∧
        (¬ Later version → standard is' = some (dialect ++ t%"++17"))) ∧
      (standard is = none → standard is' = some t%"c++17") ∧
      ∃ dialect version v, standard is' = some v ∧ CppStandard dialect version v ∧
        (Later version ∨ version = t%"17") := by
  suffices hmain : ∃ out is', adjustStandard (program :: args) = some (program :: out) ∧
      ReadsArgs out is' rest ∧ language is' = some t%"c++" ∧
      (∀ dialect version v, standard is = some v → CppStandard dialect version v →
        (Later version → standard is' = some v) ∧
        (¬ Later version → standard is' = some (dialect ++ t%"++17"))) ∧
      (standard is = none → standard is' = some t%"c++17") by
    obtain ⟨out, is', h1, h2, h3, h4, h5⟩ := hmain
    refine ⟨out, is', h1, h2, h3, h4, h5, ?_⟩
    cases hs : standard is with
    | none => exact ⟨t%"c", t%"17", _, h5 hs, ⟨.inl rfl, rfl⟩, .inr rfl⟩
    | some v =>
      obtain ⟨d, ver, hd⟩ := hcpp v hs
      obtain ⟨h6, h7⟩ := h4 d ver v hs hd
      by_cases hl : Later ver
      · exact ⟨d, ver, v, h6 hl, hd, .inl hl⟩
      · exact ⟨d, t%"17", _, h7 hl, ⟨hd.1, by simp⟩, .inr rfl⟩
  obtain ⟨out, ho, hr⟩ := adjust_reads program args is rest h
  refine ⟨out, _, ho, hr, ?_, ?_, ?_⟩
  · refine language_append _ _ ?_ ?_ _
    · rw [List.filterMap_eq_nil_iff]
      intro i hi
      cases i with
      | lang _ => exact absurd (List.mem_filter.1 hi).2 (by simp [kept])
      | std _ => rfl
      | other a => exact (hplain a ((List.mem_filter.1 hi).1)).1
    · unfold appended
      split
      · rfl
      · rfl
  · intro dialect version v hv hd
    have hs : standardAfter {} is = standardFrom v := by
      rw [after_standard is hplain, hv]
      rfl
    obtain ⟨h1, h2⟩ := later_from dialect version v hd
    rw [hs]
    constructor
    · intro hl
      have hu := h1.2 hl
      unfold appended
      rw [if_pos hu, List.append_nil]
      exact standard_kept is hplain v hv hu
    · intro hl
      unfold appended standard
      rw [if_neg (fun hu => hl (h1.1 hu)), h2, List.filterMap_append, List.getLast?_append]
      rfl
  · intro hn
    have hs : standardAfter {} is = {} := by
      rw [after_standard is hplain, hn]
      rfl
    rw [hs]
    unfold appended standard
    rw [if_neg (by simp), List.filterMap_append, List.getLast?_append]
    rfl

/-- **C47**, for every command: only the language C++ is selected by `-x`, and standards of
C++ before 17 are not among the arguments of `-std=`. -/
theorem C47_no_other (program : Str) (args : List Str) :
    ∃ out is rest, adjustStandard (program :: args) = some (program :: out) ∧ ReadsArgs out is rest ∧
      (∀ l, Item.lang l ∈ is → l = t%"c++") ∧
      ∀ dialect version v, Item.std v ∈ is → CppStandard dialect version v →
        Later version ∨ t%"++17" <:+ v := by
  obtain ⟨is, rest, h⟩ := reads_total args
  obtain ⟨out, ho, hr⟩ := adjust_reads program args is rest h
  refine ⟨out, _, rest, ho, hr, ?_, ?_⟩
  · intro l hl
    rcases List.mem_append.1 hl with hl | hl
    · rcases List.mem_cons.1 hl with hl | hl
      · cases hl; rfl
      · exact absurd (List.mem_filter.1 hl).2 (by simp [kept])
    · unfold appended at hl
      split at hl <;> simp at hl
  · intro dialect version v hv hd
    obtain ⟨h1, h2⟩ := later_from dialect version v hd
    rcases List.mem_append.1 hv with hv | hv
    · rcases List.mem_cons.1 hv with hv | hv
      · cases hv
      · exact .inl (h1.1 (List.mem_filter.1 hv).2)
    · right
      unfold appended at hv
      split at hv
      · cases hv
      · simp only [List.mem_singleton, Item.std.injEq] at hv
        exact ⟨_, hv.symm⟩

/-! ### Cases outside of these hypotheses -/

/-- A standard of C is turned into the standard `c11++17`, which does not exist. -/
theorem C47_c_standard :
    adjustStandard [t%"clang", t%"-std=c11", t%"a.h"] =
      some [t%"clang", t%"-xc++", t%"a.h", t%"-std=c11++17"] := by decide +kernel

/-- The long spelling of the option is not seen: the later standard requested with it
is overridden. -/
theorem C47_long_std :
    ∃ is is' rest, ReadsArgs [t%"--std=c++20", t%"a.h"] is rest ∧ standard is = some t%"c++20" ∧
      adjustStandard [t%"clang", t%"--std=c++20", t%"a.h"] =
        some [t%"clang", t%"-xc++", t%"--std=c++20", t%"a.h", t%"-std=c++17"] ∧
      ReadsArgs [t%"-xc++", t%"--std=c++20", t%"a.h", t%"-std=c++17"] is' rest ∧
      standard is' = some t%"c++17" := by
  have hs : ReadsArgs [t%"-std=c++17"] [.std t%"c++17"] [] := .std (v := t%"c++17") .nil
  have ha : ∀ l is, ReadsArgs l is [] → ReadsArgs (t%"--std=c++20" :: t%"a.h" :: l)
      (.other t%"--std=c++20" :: .other t%"a.h" :: is) [] := fun l is h =>
    .other (by decide) (by decide) (by decide) (.other (by decide) (by decide) (by decide) h)
  exact ⟨_, _, [], ha [] [] .nil, by decide +kernel, by decide +kernel,
    .langJoined (v := t%"c++") (by decide) (ha _ _ hs), by decide +kernel⟩

/-- After `-std=c++20`, `-ansi` still selects the standard of 1998. -/
theorem C47_ansi :
    ∃ is', adjustStandard [t%"clang", t%"-std=c++20", t%"-ansi"] =
        some [t%"clang", t%"-xc++", t%"-std=c++20", t%"-ansi"] ∧
      ReadsArgs [t%"-xc++", t%"-std=c++20", t%"-ansi"] is' [] ∧ standard is' = some t%"c++98" :=
  ⟨_, by decide +kernel, .langJoined (v := t%"c++") (by decide) (.std (v := t%"c++20")
    (.other (by decide) (by decide) (by decide) .nil)), by decide +kernel⟩

/-- The language selected by the long spelling of the option stays. -/
theorem C47_long_language :
    ∃ is', adjustStandard [t%"clang", t%"--language=c"] =
        some [t%"clang", t%"-xc++", t%"--language=c", t%"-std=c++17"] ∧
      ReadsArgs [t%"-xc++", t%"--language=c", t%"-std=c++17"] is' [] ∧ language is' = some t%"c" :=
  ⟨_, by decide +kernel, .langJoined (v := t%"c++") (by decide)
    (.other (by decide) (by decide) (by decide) (.std (v := t%"c++17") .nil)), by decide +kernel⟩

/-- A standard passed by `-Xclang` is removed without `-Xclang`, which then takes the next
argument. -/
theorem C48_dangling :
    adjustStandard [t%"clang", t%"-Xclang", t%"-std=c++14", t%"a.h"] =
      some [t%"clang", t%"-xc++", t%"-Xclang", t%"a.h", t%"-std=c++17"] := by decide +kernel

/-! ### What is preserved (C48) -/

theorem others_append (is js : List Item) : others (is ++ js) = others is ++ others js :=
  List.filterMap_append

theorem others_kept (is : List Item) : others (is.filter kept) = others is := by
  induction is with
  | nil => rfl
  | cons i is ih =>
    cases i with
    | lang _ => exact ih
    | std v =>
      rw [List.filter_cons]
      split
      · exact ih
      · exact ih
    | other a =>
      change a :: others (is.filter kept) = a :: others is
      rw [ih]

/-- **C48**: adjusting a command keeps the name of the program, everything but languages
and standards in order, and everything from `--` on. -/
theorem C48_preserved (program : Str) (args : List Str) (is : List Item) (rest : List Str)
    (h : ReadsArgs args is rest) :
    ∃ out is', adjustStandard (program :: args) = some (program :: out) ∧ ReadsArgs out is' rest ∧
      others is' = others is ∧ rest <:+ out := by
  obtain ⟨out, ho, hr⟩ := adjust_reads program args is rest h
  refine ⟨out, _, ho, hr, ?_, ?_⟩
  · change others (is.filter kept ++ appended (standardAfter {} is)) = _
    rw [others_append, others_kept]
    unfold appended
    split
    · exact List.append_nil _
    · exact List.append_nil _
  · rw [adjust_eq] at ho
    cases ho
    rw [(loop_reads args is rest h {}).1, ← List.append_assoc]
    exact ⟨t%"-xc++" :: _, rfl⟩

/-- The first part of a text without `++` is the text. -/
theorem split_none (v : Str) (h : ¬ t%"++" <:+: v) : (splitPlusPlus v).1 = v := by
  induction v with
  | nil => rfl
  | cons c s ih =>
    have hs : ¬ t%"++" <:+: s := fun ⟨a, b, he⟩ => h ⟨c :: a, b, by simp [← he]⟩
    rw [splitPlusPlus, ih hs]
    rintro t rfl rfl
    exact h ⟨[], t, rfl⟩

/-- The first part does not end in `+` if it comes before `++`. -/
theorem split_infix (v : Str) (h : t%"++" <:+: v) : (splitPlusPlus v).1.getLast? ≠ some '+' := by
  induction v with
  | nil =>
    obtain ⟨a, b, he⟩ := h
    simp at he
  | cons c s ih =>
    rcases split_head (c :: s) with h0 | ⟨c', a, s', he, h1, h2, h3⟩
    · rw [h0]
      simp
    · cases he
      rw [h1]
      have hs : t%"++" <:+: s := by
        obtain ⟨x, y, he⟩ := h
        cases x with
        | nil =>
          simp only [List.nil_append, List.cons_append, List.cons.injEq] at he
          exact absurd ⟨he.1.symm, y, he.2.symm⟩ h3
        | cons d x =>
          simp only [List.cons_append, List.cons.injEq] at he
          exact ⟨x, y, he.2⟩
      have := ih hs
      rw [h2] at this
      cases a with
      | nil =>
        -- the rest starts with `++`, so that this character is not `+`
        have hp : ∃ t, s = '+' :: t := by
          rcases split_head s with _ | ⟨c2, a2, s2, _, h12, _, _⟩
          · cases s with
            | nil =>
              obtain ⟨x, y, he⟩ := hs
              simp at he
            | cons d s =>
              by_cases hd : d = '+' ∧ ∃ t, s = '+' :: t
              · exact ⟨s, by rw [hd.1]⟩
              · rw [splitPlusPlus] at h2
                · cases h2
                · intro t e1 e2
                  exact hd ⟨e1, t, e2⟩
          · rw [h2] at h12
            cases h12
        simp only [List.getLast?_singleton, ne_eq, Option.some.injEq]
        exact fun hc => h3 ⟨hc, hp⟩
      | cons x l =>
        rw [List.getLast?_cons_cons]
        exact this

/-- **C48**: adjusting twice is the same as adjusting once, if no argument of `-std=` ends
in a single `+`.  Not so for the remaining ones: `C48_not_idempotent`. -/
theorem C48_idempotent_partial (program : Str) (args : List Str) (is : List Item) (rest : List Str)
    (h : ReadsArgs args is rest)
    (hp : ∀ v, Item.std v ∈ is → v.getLast? = some '+' → t%"++" <:+: v) :
    (adjustStandard (program :: args)).bind adjustStandard = adjustStandard (program :: args) := by
  refine adjust_again program args is rest h fun v hv => ?_
  by_cases hi : t%"++" <:+: v
  · exact split_infix v hi
  · rw [split_none v hi]
    exact fun hl => hi (hp v hv hl)

theorem C48_not_idempotent :
    adjustStandard [t%"clang", t%"-std=c+"] = some [t%"clang", t%"-xc++", t%"-std=c+++17"] ∧
    adjustStandard [t%"clang", t%"-xc++", t%"-std=c+++17"] =
      some [t%"clang", t%"-xc++", t%"-std=c++17"] := by decide +kernel

/-! ### The resource directory (C49) -/

theorem resourceFlag_iff (a : Str) : isResourceDirFlag a = true ↔ ResourceFlag a := by
  unfold isResourceDirFlag ResourceFlag
  cases hc : stripFront t%"-resource-dir" a with
  | none =>
    have := (stripFront_none _ _).1 hc
    refine ⟨fun h => by simp at h, ?_⟩
    rintro (rfl | ⟨r, rfl⟩)
    · exact absurd ⟨[], rfl⟩ this
    · exact absurd ⟨'=' :: r, rfl⟩ this
  | some r =>
    have := (stripFront_iff _ _ _).1 hc
    subst this
    cases r with
    | nil => simp
    | cons c r =>
      simp only [decide_eq_true_eq]
      constructor
      · rintro rfl
        exact .inr ⟨r, rfl⟩
      · rintro (h | ⟨r', h⟩)
        · simp at h
        · simp at h
          exact h.1.symm

theorem splitPositional_spec (args : List Str) :
    ∃ options rest, splitPositional args = (options, rest) ∧ args = options ++ rest ∧
      t%"--" ∉ options ∧ (rest = [] ∨ rest.head? = some t%"--") := by
  induction args with
  | nil => exact ⟨[], [], rfl, rfl, by simp, .inl rfl⟩
  | cons a l ih =>
    obtain ⟨o, r, h1, h2, h3, h4⟩ := ih
    rw [splitPositional]
    split
    · rename_i ha
      exact ⟨[], a :: l, rfl, rfl, by simp, .inr (by rw [ha]; rfl)⟩
    · rename_i ha
      refine ⟨a :: o, r, by rw [h1], by rw [h2]; rfl, ?_, h4⟩
      rintro h
      rcases List.mem_cons.1 h with h | h
      · exact ha h.symm
      · exact h3 h

/-- **C49**: the full statement asks for a flag before `--`; what follows `--` also counts
(`C49_positional`).  If none of the arguments is a flag for the resource directory, and the default
one has been found, exactly one flag is added in front of `--`; nothing else changes. -/
theorem C49_added_partial (dir : Str) (hd : dir ≠ []) (options rest : List Str)
    (hno : ∀ a ∈ options ++ rest, ¬ ResourceFlag a) (ho : t%"--" ∉ options)
    (hr : rest = [] ∨ rest.head? = some t%"--") :
    adjustResourceDir dir (options ++ rest) = options ++ [t%"-resource-dir=" ++ dir] ++ rest ∧
    ResourceFlag (t%"-resource-dir=" ++ dir) := by
  refine ⟨?_, .inr ⟨dir, rfl⟩⟩
  have hany : (options ++ rest).any isResourceDirFlag = false := by
    rw [List.any_eq_false]
    intro a ha h
    exact hno a ha ((resourceFlag_iff a).1 h)
  have hsp : splitPositional (options ++ rest) = (options, rest) := by
    clear hany hno
    induction options with
    | nil =>
      cases rest with
      | nil => rfl
      | cons b r =>
        obtain rfl : b = t%"--" := by simpa using hr
        rfl
    | cons a o ih =>
      rw [List.cons_append, splitPositional, if_neg (fun h => ho (by rw [h]; exact List.mem_cons_self ..)),
        ih (fun h => ho (List.mem_cons_of_mem _ h))]
  unfold adjustResourceDir
  rw [hany, hsp]
  cases dir with
  | nil => exact absurd rfl hd
  | cons c d => simp

/-- **C49**: a command with such a flag is not changed. -/
theorem C49_kept (dir : Str) (args : List Str) (a : Str) (ha : a ∈ args) (h : ResourceFlag a) :
    adjustResourceDir dir args = args := by
  unfold adjustResourceDir
  rw [if_pos (List.any_eq_true.2 ⟨a, ha, (resourceFlag_iff a).2 h⟩)]

/-- Nothing changes if the default directory has not been found. -/
theorem C49_not_found (args : List Str) : adjustResourceDir [] args = args := by
  unfold adjustResourceDir
  split
  · rfl
  · obtain ⟨o, r, h1, h2, _⟩ := splitPositional_spec args
    rw [h1, h2]
    simp

/-- Adding the flag twice is the same as adding it once. -/
theorem C49_idempotent (dir : Str) (args : List Str) :
    adjustResourceDir dir (adjustResourceDir dir args) = adjustResourceDir dir args := by
  cases dir with
  | nil => rw [C49_not_found]
  | cons c d =>
    by_cases h : ∃ a ∈ args, ResourceFlag a
    · obtain ⟨a, ha, h⟩ := h
      rw [C49_kept _ args a ha h, C49_kept _ args a ha h]
    · obtain ⟨o, r, _, h2, h3, h4⟩ := splitPositional_spec args
      have hno : ∀ a ∈ o ++ r, ¬ ResourceFlag a := fun a ha hf => h ⟨a, h2 ▸ ha, hf⟩
      obtain ⟨e, hf⟩ := C49_added_partial (c :: d) (by simp) o r hno h3 h4
      rw [h2, e]
      exact C49_kept _ _ _ (by simp) hf

/-- What is found after `--`, where it names an input, also counts as a flag, so that no
flag is added in front of `--` although there is none. -/
theorem C49_positional (dir : Str) :
    adjustResourceDir dir [t%"clang", t%"--", t%"-resource-dir"] =
      [t%"clang", t%"--", t%"-resource-dir"] :=
  C49_kept dir _ t%"-resource-dir" (by decide) (.inl rfl)

/-! ### Examples -/

/-- A command with a language, two standards and a positional argument. -/
theorem exampleReads : ReadsArgs [t%"-x", t%"c", t%"-std=c++20", t%"-I.", t%"-std=gnu++14", t%"--", t%"-xyz"]
    [.lang t%"c", .std t%"c++20", .other t%"-I.", .std t%"gnu++14"] [t%"--", t%"-xyz"] :=
  .langSeparate (.std (v := t%"c++20") (.other (by decide) (by decide) (by decide)
    (.std (v := t%"gnu++14") .separator)))

theorem examplePlain : PlainSpelling [.lang t%"c", .std t%"c++20", .other t%"-I.", .std t%"gnu++14"] := by
  intro a ha
  simp only [List.mem_cons, reduceCtorEq, Item.other.injEq, List.not_mem_nil, or_false,
    false_or] at ha
  subst ha
  decide

example : ∃ out is', adjustStandard (t%"clang" :: [t%"-x", t%"c", t%"-std=c++20", t%"-I.",
      t%"-std=gnu++14", t%"--", t%"-xyz"]) = some (t%"clang" :: out) ∧
    ReadsArgs out is' [t%"--", t%"-xyz"] ∧ language is' = some t%"c++" ∧
    standard is' = some t%"gnu++17" := by
  have hd : CppStandard t%"gnu" t%"14" t%"gnu++14" := ⟨.inr rfl, rfl⟩
  obtain ⟨out, is', h1, h2, h3, h4, _⟩ := C47_standard_partial t%"clang" _ _ _ exampleReads examplePlain
    (fun v hv => by
      obtain rfl : t%"gnu++14" = v := Option.some.inj hv
      exact ⟨_, _, hd⟩)
  exact ⟨out, is', h1, h2, h3, (h4 _ _ _ rfl hd).2 (by unfold Later; decide)⟩

example : adjustStandard (t%"clang" :: [t%"-x", t%"c", t%"-std=c++20", t%"-I.", t%"-std=gnu++14",
      t%"--", t%"-xyz"]) = some [t%"clang", t%"-xc++", t%"-std=c++20", t%"-I.", t%"-std=gnu++17",
      t%"--", t%"-xyz"] := by decide +kernel

example : (adjustStandard (t%"clang" :: [t%"-x", t%"c", t%"-std=c++20", t%"-I.", t%"-std=gnu++14",
      t%"--", t%"-xyz"])).bind adjustStandard = adjustStandard (t%"clang" :: [t%"-x", t%"c",
      t%"-std=c++20", t%"-I.", t%"-std=gnu++14", t%"--", t%"-xyz"]) :=
  C48_idempotent_partial _ _ _ _ exampleReads (by
    intro v hv hl
    simp only [List.mem_cons, reduceCtorEq, Item.std.injEq, List.not_mem_nil, or_false,
      false_or] at hv
    rcases hv with rfl | rfl <;> simp at hl)

example : adjustResourceDir t%"/lib/clang" ([t%"clang", t%"a.h"] ++ [t%"--", t%"b.h"]) =
    [t%"clang", t%"a.h", t%"-resource-dir=/lib/clang", t%"--", t%"b.h"] :=
  (C49_added_partial _ (by decide) _ _ (by unfold ResourceFlag; decide) (by decide) (.inr rfl)).1

example : adjustResourceDir t%"/lib/clang" [t%"clang", t%"-resource-dir=/x", t%"a.h"] =
    [t%"clang", t%"-resource-dir=/x", t%"a.h"] :=
  C49_kept _ _ t%"-resource-dir=/x" (by decide) (.inr ⟨t%"/x", rfl⟩)

end Verif
