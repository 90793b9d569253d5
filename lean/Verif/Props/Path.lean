import Verif.Model.Path
import Verif.Spec.Path
import Verif.Props.Identifiers
/-!
# C52: the name of the module
-/
namespace Verif
open Spec

theorem findLastOf_none {c : Char} : ∀ {s : Str}, c ∉ s → findLastOf c s = none
  | [], _ => rfl
  | x :: xs, h => by
    simp only [List.mem_cons, not_or] at h
    have hx : ¬ x = c := fun e => h.1 e.symm
    simp [findLastOf, findLastOf_none h.2, hx]

theorem findLastOf_last {c : Char} {b : Str} (hb : c ∉ b) :
    ∀ a : Str, findLastOf c (a ++ c :: b) = some a.length
  | [] => by simp [findLastOf, findLastOf_none hb]
  | x :: xs => by simp [findLastOf, findLastOf_last hb xs]

theorem skipSeparators_all (path : Str) (r : Option Nat) (h : path.getLast? ≠ some '/') :
    skipSeparators path r path.length = path.length := by
  cases hn : path.length with
  | zero => rfl
  | succ n =>
    have : path[n]? ≠ some '/' := by
      rw [List.getLast?_eq_getElem?, hn] at h
      simpa using h
    simp [skipSeparators, this]

theorem pathFilename_eq (path : Str) (h : path.getLast? ≠ some '/') :
    pathFilename path = path.drop (filenamePos path) := by
  simp only [pathFilename, skipSeparators_all path _ h, List.take_length]
  rw [if_neg (fun hh => h hh.1)]

theorem last_not_slash (dir name : Str) (hn : name ≠ []) (hs : '/' ∉ name) :
    (dir ++ name).getLast? ≠ some '/' := by
  rw [List.getLast?_append]
  cases hl : name.getLast? with
  | none => exact absurd (List.getLast?_eq_none_iff.1 hl) hn
  | some c =>
    rintro h
    simp only [Option.some_or, Option.some.injEq] at h
    exact hs (h ▸ List.mem_of_getLast? hl)

theorem filename_plain (name : Str) (hn : name ≠ []) (hs : '/' ∉ name) : pathFilename name = name := by
  have h := last_not_slash [] name hn hs
  rw [List.nil_append] at h
  rw [pathFilename_eq name h, filenamePos, if_neg h, findLastOf_none hs]
  rfl

theorem filename_inside (dir name : Str) (hd : dir ≠ ['/']) (hn : name ≠ []) (hs : '/' ∉ name) :
    pathFilename (dir ++ '/' :: name) = name := by
  have h : (dir ++ '/' :: name).getLast? ≠ some '/' := by
    have := last_not_slash (dir ++ ['/']) name hn hs
    simpa using this
  rw [pathFilename_eq _ h, filenamePos, if_neg h, findLastOf_last hs]
  dsimp only
  have hc : ¬ (dir.length = 1 ∧ (dir ++ '/' :: name).head? = some '/') := by
    rintro ⟨h1, h2⟩
    match dir, h1 with
    | [c], _ =>
      simp at h2
      exact hd (by rw [h2])
  rw [if_neg hc]
  rw [show dir ++ '/' :: name = (dir ++ ['/']) ++ name by simp,
    show dir.length + 1 = (dir ++ ['/']).length by simp, List.drop_left]

theorem filename_double (name : Str) (hn : name ≠ []) (hs : '/' ∉ name) :
    pathFilename (['/'] ++ '/' :: name) = ['/'] ++ '/' :: name := by
  have h : (['/'] ++ '/' :: name).getLast? ≠ some '/' := by
    have := last_not_slash ['/', '/'] name hn hs
    simpa using this
  rw [pathFilename_eq _ h, filenamePos, if_neg h, findLastOf_last hs]
  rfl

theorem stem_unique {name s : Str} (h : StemOf name s) :
    (match findLastOf '.' name with
      | none => name
      | some pos => if name = ['.'] ∨ name = ['.', '.'] then name else name.take pos) = s := by
  cases h with
  | noExtension _ h => rw [findLastOf_none h]
  | current => rfl
  | parent => rfl
  | extension stem ext h h1 h2 =>
    rw [findLastOf_last h]
    dsimp only
    rw [if_neg (by simp only [h1, h2, or_self, not_false_eq_true]), List.take_left]

/-- C52: the stem of the path is that of its last component, except for files in a
directory written as `/` plus another slash. -/
theorem C52_stem (path name stem : Str) (hp : NamesFile path name) (hs : StemOf name stem)
    (hne : path ≠ '/' :: '/' :: name) : pathStem path = stem := by
  have hf : pathFilename path = name := by
    cases hp with
    | plain _ hn h => exact filename_plain _ hn h
    | inside dir _ hn h =>
      refine filename_inside dir name ?_ hn h
      rintro rfl
      exact hne rfl
  unfold pathStem
  rw [hf]
  exact stem_unique hs

/-- C52: without `--module-name` the name is the sanitized stem of the file name, which
is a valid identifier if the stem is not empty. -/
theorem C52_default (path name stem : Str) (hp : NamesFile path name) (hs : StemOf name stem)
    (hne : path ≠ '/' :: '/' :: name) :
    ∃ r, moduleNameFor [] path = some r ∧ Sanitized stem r ∧ (stem ≠ [] → ValidIdent r) := by
  obtain ⟨r, hr, _, hv, _⟩ := C07_valid stem
  refine ⟨r, ?_, (C07_makeValidIdentifier_spec ..).1 hr, hv⟩
  rw [moduleNameFor, C52_stem path name stem hp hs hne]
  exact hr

/-- C52: every path gives a name, which is a valid identifier or empty; the latter
happens only if the stem is. -/
theorem C52_total (path : Str) :
    ∃ r, moduleNameFor [] path = some r ∧ (r = [] ∨ ValidIdent r) ∧ (r = [] → pathStem path = []) := by
  obtain ⟨r, hr, _, hv, h0⟩ := C07_valid (pathStem path)
  refine ⟨r, hr, ?_, fun h => ?_⟩
  · by_cases h : pathStem path = []
    · exact .inl (h0 h)
    · exact .inr (hv h)
  · false_or_by_contra
    rename_i hne
    obtain ⟨c, cs, hc, _⟩ := hv hne
    rw [h] at hc
    cases hc

/-- C52: also for files whose path starts with two slashes, directly followed by the name. -/
theorem C52_double_slash (name stem : Str) (hn : name ≠ []) (h : '/' ∉ name) (hs : StemOf name stem) :
    ∃ r, moduleNameFor [] ('/' :: '/' :: name) = some r ∧ ValidIdent r := by
  have hf := filename_double name hn h
  have hne : pathStem ('/' :: '/' :: name) ≠ [] := by
    unfold pathStem
    rw [show '/' :: '/' :: name = ['/'] ++ '/' :: name from rfl, hf]
    dsimp only
    cases hs with
    | noExtension _ h' =>
      rw [findLastOf_none]
      · simp
      · simpa using h'
    | current => decide
    | parent => decide
    | extension stem ext h' _ _ =>
      rw [show ['/'] ++ '/' :: (stem ++ '.' :: ext) = ('/' :: '/' :: stem) ++ '.' :: ext from rfl,
        findLastOf_last h']
      simp
  obtain ⟨r, hr, _, hv, _⟩ := C07_valid (pathStem ('/' :: '/' :: name))
  exact ⟨r, hr, hv hne⟩

/-- C52: a name given explicitly is used as it is.  It is not checked. -/
theorem C52_explicit (option path : Str) (h : option ≠ []) : moduleNameFor option path = some option := by
  cases option with
  | nil => exact absurd rfl h
  | cons c cs => rfl

/-- C52: the stem of a file name that consists of an extension only is empty, and
so is the name of the module. -/
theorem C52_hidden_file :
    NamesFile t%"/src/.hpp" t%".hpp" ∧ StemOf t%".hpp" [] ∧ moduleNameFor [] t%"/src/.hpp" = some [] := by
  refine ⟨.inside t%"/src" _ (by decide) (by decide), .extension [] t%"hpp" (by decide) (by decide)
    (by decide), ?_⟩
  obtain ⟨r, hr, hs, _⟩ := C52_default t%"/src/.hpp" t%".hpp" []
    (.inside t%"/src" _ (by decide) (by decide))
    (.extension [] t%"hpp" (by decide) (by decide) (by decide)) (by decide)
  rw [hr]
  have := (C07_makeValidIdentifier_spec [] r).2 hs
  rw [(C07_makeValidIdentifier_spec [] []).2 .nil] at this
  rw [← this]

example : NamesFile t%"/src/my-lib.v2.h" t%"my-lib.v2.h" :=
  .inside t%"/src" _ (by decide) (by decide)
example : StemOf t%"my-lib.v2.h" t%"my-lib.v2" := .extension t%"my-lib.v2" t%"h" (by decide) (by decide) (by decide)
example : pathStem t%"/src/my-lib.v2.h" = t%"my-lib.v2" := by decide
example : ∃ r, moduleNameFor [] t%"/src/my-lib.v2.h" = some r ∧ r = t%"my_lib_v2" := by
  refine ⟨_, ?_, rfl⟩
  have : pathStem t%"/src/my-lib.v2.h" = t%"my-lib.v2" := by decide
  rw [moduleNameFor, this]
  exact (makeValidIdentifier_eq _).trans (by decide +kernel)

theorem skipSeparators_root (k : Nat) : ∀ n, n ≤ k →
    skipSeparators (List.replicate (k + 1) '/') (some 0) (n + 1) = 1
  | 0, _ => by simp [skipSeparators]
  | n + 1, h => by
    rw [skipSeparators, if_pos ⟨by simp, by rw [List.getElem?_replicate, if_pos (by omega)]⟩]
    exact skipSeparators_root k n (by omega)

theorem rootDirStart_slashes (k : Nat) : rootDirStart (List.replicate (k + 1) '/') = some 0 := by
  match k with
  | 0 => rfl
  | 1 => rfl
  | 2 => rfl
  | k + 3 => simp [List.replicate_succ, rootDirStart]

/-- C52: however many slashes are written for it, the root directory is its own name. -/
theorem C52_root (k : Nat) : pathStem (List.replicate (k + 1) '/') = ['/'] := by
  have hf : pathFilename (List.replicate (k + 1) '/') = ['/'] := by
    simp only [pathFilename, rootDirStart_slashes, List.length_replicate, skipSeparators_root k k (Nat.le_refl k)]
    rw [if_neg (by simp)]
    simp [List.replicate_succ, filenamePos]
  simp [pathStem, hf, findLastOf]

/-- C52: what is named by a relative path with a slash at its end is a directory, which has the name `.`. -/
theorem C52_directory (path : Str) (hh : path.head? ≠ some '/') (hl : path.getLast? = some '/') :
    pathStem path = ['.'] := by
  have hr : rootDirStart path = none := by
    unfold rootDirStart
    split
    · simp at hh
    · simp at hh
    · rfl
  have hf : pathFilename path = ['.'] := by
    simp only [pathFilename, hr, hl, Option.all_none, and_self, if_true]
  simp [pathStem, hf, findLastOf]

/-- C52: the same for absolute paths. -/
theorem C52_absolute (path : Str) (c : Char) (cs : Str) (hp : path = '/' :: c :: cs) (hc : c ≠ '/')
    (hl : path.getLast? = some '/') : pathStem path = ['.'] := by
  have hr : rootDirStart path = some 0 := by
    subst hp
    unfold rootDirStart
    split
    · rename_i h; injection h with _ h; injection h with h _; exact absurd h hc
    · rfl
    · rename_i h; exact absurd rfl (h _)
  have hs : ∀ n, 1 < skipSeparators path (some 0) (n + 2) := by
    intro n
    induction n with
    | zero => simp [skipSeparators, hp, hc]
    | succ n ih =>
      rw [skipSeparators]
      split
      · exact ih
      · omega
  have hf : pathFilename path = ['.'] := by
    have h2 : path.length = cs.length + 2 := by rw [hp]; rfl
    have := hs cs.length
    rw [pathFilename]
    simp only [hr, h2, hl, Option.all_some, true_and, decide_eq_true_eq]
    rw [if_pos (by omega)]
  simp [pathStem, hf, findLastOf]

example : pathStem t%"///" = ['/'] := C52_root 2
example : pathStem t%"src/lib.d//" = ['.'] := C52_directory _ (by decide) (by decide)
example : pathStem t%"/src/lib.d//" = ['.'] := C52_absolute _ 's' t%"rc/lib.d//" rfl (by decide) (by decide)

/-- The file name of the root directory is the root directory. -/
example : pathFilename ['/'] = ['/'] := by decide +kernel

end Verif
