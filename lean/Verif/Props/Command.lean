import Verif.Lemmas.Command
/-!
# The command that is executed (C84)
-/
namespace Verif
open Spec

theorem filter_all (ps : List Part) (q r : Part → Bool) (h : ∀ p, r p = true → q p = true) :
    (ps.filter q).filter r = ps.filter r := by
  rw [List.filter_filter]
  apply List.filter_congr
  intro p _
  cases hr : r p with
  | false => rfl
  | true => rw [h p hr]; rfl

theorem filterMap_all (ps : List Part) (q : Part → Bool) (h : ∀ p, q p = false → p.standard? = none) :
    (ps.filter q).filterMap Part.standard? = ps.filterMap Part.standard? := by
  rw [List.filterMap_filter]
  congr 1
  funext p
  cases hq : q p with
  | false => simp [h p hq]
  | true => rfl

theorem any_all (ps : List Part) (q r : Part → Bool) (h : ∀ p, r p = true → q p = true) :
    (ps.filter q).any r = ps.any r := by
  rw [List.any_filter]
  congr 1
  funext p
  cases hr : r p with
  | false => simp
  | true => rw [h p hr]; rfl

theorem filter_id (ps : List Part) (q : Part → Bool) (h : ∀ p ∈ ps, q p = true) : ps.filter q = ps :=
  List.filter_eq_self.2 h

/-- **C84.** The command that is executed for a command from the compilation database: the
same compiler, the language C++, everything that is not about output, language or standard
in the same order, and what has to be added, in front of the files after `--`. -/
theorem C84_command (dir program : Str) (ps : List Part) (rest : List Str)
    (hp : OrdinaryWord program) (hps : ∀ p ∈ ps, p.OK) (hr : Files rest) :
    adjustCommand dir (program :: (words ps ++ rest)) =
      some (program :: (Spec.adjusted dir ps ++ rest)) := by
  let ps1 := ps.filter notOutput
  have h1 : ∀ p ∈ ps1, p.OK ∧ notOutput p = true :=
    fun p h => ⟨hps p (List.mem_filter.1 h).1, (List.mem_filter.1 h).2⟩
  let ps2 := withSyntax (ps1.filter notTransient)
  have h2 : ∀ p ∈ ps2, (p.OK ∧ notOutput p = true) ∧ notTransient p = true := by
    intro p h
    rcases List.mem_append.1 h with h | h
    · exact ⟨h1 p (List.mem_filter.1 h).1, (List.mem_filter.1 h).2⟩
    · split at h
      · cases h
      · obtain rfl := List.mem_singleton.1 h
        exact ⟨⟨trivial, rfl⟩, rfl⟩
  let ps3 := ps2.filter notDependency
  have h3 : ∀ p ∈ ps3, p.OK ∧ notOutput p = true ∧ notDependency p = true ∧ notTransient p = true := by
    intro p h
    obtain ⟨⟨a, b⟩, c⟩ := h2 p (List.mem_filter.1 h).1
    exact ⟨a, b, (List.mem_filter.1 h).2, c⟩
  have hin : ps3.contains .syntaxOnly = true := by
    rw [List.contains_iff_mem]
    refine List.mem_filter.2 ⟨?_, rfl⟩
    change _ ∈ _ ++ _
    rw [List.mem_append]
    cases hc : (ps1.filter notTransient).contains .syntaxOnly with
    | true => exact .inl (List.contains_iff_mem.1 hc)
    | false => exact .inr (by simp)
  have e1 : syntaxOnly (stripDependencyFile (stripOutput (defaultAdjusters
      (program :: (words ps ++ rest))))) = program :: (words ps3 ++ rest) := by
    unfold defaultAdjusters
    rw [stripOutput_command program hp ps hps rest hr,
      syntax_command program hp ps1 h1 rest hr,
      stripDependency_command program hp ps2 (fun p h => (h2 p h).1) rest hr,
      stripOutput_command program hp ps3 (fun p h => (h3 p h).1) rest hr,
      filter_id ps3 notOutput (fun p h => (h3 p h).2.1),
      stripDependency_command program hp ps3 (fun p h => ⟨(h3 p h).1, (h3 p h).2.1⟩) rest hr,
      filter_id ps3 notDependency (fun p h => (h3 p h).2.2.1),
      syntax_command program hp ps3 (fun p h => ⟨(h3 p h).1, (h3 p h).2.1⟩) rest hr,
      filter_id ps3 notTransient (fun p h => (h3 p h).2.2.2)]
    unfold withSyntax
    rw [hin, if_pos rfl, List.append_nil]
  let added : List Part := if ps3.any Part.isResource || dir.isEmpty then [] else [.resource dir]
  have ha : addedResource dir ps3 = words added := by
    unfold addedResource
    change _ = words (if _ then _ else _)
    split <;> rfl
  have hadded : ∀ p ∈ added, p = .resource dir := by
    intro p h
    change p ∈ (if _ then _ else _) at h
    split at h
    · cases h
    · exact List.mem_singleton.1 h
  have h4 : ∀ p ∈ ps3 ++ added,
      p.OK ∧ notOutput p = true ∧ notDependency p = true ∧ notTransient p = true := by
    intro p h
    rcases List.mem_append.1 h with h | h
    · exact h3 p h
    · rw [hadded p h]
      exact ⟨trivial, rfl, rfl, rfl⟩
  have hstays : (ps3 ++ added).filter Part.stays =
      ps.filter Part.stays ++ ((if ps.contains .syntaxOnly then [] else [.syntaxOnly]) ++ added) := by
    have hc : (ps1.filter notTransient).contains .syntaxOnly = ps.contains .syntaxOnly := by
      rw [Bool.eq_iff_iff, List.contains_iff_mem, List.contains_iff_mem, List.mem_filter,
        List.mem_filter]
      exact ⟨fun h => h.1.1, fun h => ⟨⟨h, rfl⟩, rfl⟩⟩
    rw [List.filter_append, filter_id added _ (fun p h => by rw [hadded p h]; rfl),
      ← List.append_assoc]
    congr 1
    change (List.filter notDependency (_ ++ _)).filter _ = _
    rw [filter_all _ _ _ (by intro p h; cases p <;> first | rfl | cases h), List.filter_append,
      filter_all _ _ _ (by intro p h; cases p <;> first | rfl | cases h),
      filter_all _ _ _ (by intro p h; cases p <;> first | rfl | cases h), hc]
    split <;> rfl
  have hstd : addedStandard (ps3 ++ added) = addedStandard ps := by
    unfold addedStandard
    have : (ps3 ++ added).filterMap Part.standard? = ps.filterMap Part.standard? := by
      rw [List.filterMap_append]
      have hn : added.filterMap Part.standard? = [] := by
        rw [List.filterMap_eq_nil_iff]
        intro p h
        rw [hadded p h]
        rfl
      rw [hn, List.append_nil]
      change (List.filter notDependency (_ ++ _)).filterMap _ = _
      rw [filterMap_all _ _ (by intro p h; cases p <;> first | rfl | cases h),
        List.filterMap_append,
        filterMap_all _ _ (by intro p h; cases p <;> first | rfl | cases h),
        filterMap_all _ _ (by intro p h; cases p <;> first | rfl | cases h)]
      split <;> simp [Part.standard?]
    rw [this]
  have hres : addedResource dir ps3 = addedResource dir ps := by
    unfold addedResource
    have : ps3.any Part.isResource = ps.any Part.isResource := by
      change (List.filter notDependency (_ ++ _)).any _ = _
      rw [any_all _ _ _ (by intro p h; cases p <;> first | rfl | cases h), List.any_append,
        any_all _ _ _ (by intro p h; cases p <;> first | rfl | cases h),
        any_all _ _ _ (by intro p h; cases p <;> first | rfl | cases h)]
      split <;> simp [Part.isResource]
    rw [this]
  unfold adjustCommand
  dsimp only
  rw [e1, resource_command dir program hp ps3 h3 rest hr, ha, ← List.append_assoc, ← words_append]
  unfold adjustStandard
  dsimp only
  rw [loop_parts _ h4 rest (files_rest hr)]
  dsimp only
  rw [appended_standard, hstd, hstays, words_append, words_append, Option.map_some, ← ha, hres]
  have hw : words (if ps.contains .syntaxOnly then [] else [Part.syntaxOnly]) =
      if ps.contains .syntaxOnly then [] else [t%"-fsyntax-only"] := by
    split <;> rfl
  rw [hw]
  have hno : t%"--" ∉ program :: t%"-xc++" :: (words (ps.filter Part.stays) ++
      ((if ps.contains .syntaxOnly then [] else [t%"-fsyntax-only"]) ++ addedResource dir ps)) ++
      addedStandard ps := by
    intro h
    rcases List.mem_append.1 h with h | h
    · rcases List.mem_cons.1 h with h | h
      · exact hp.others.1 h.symm
      · rcases List.mem_cons.1 h with h | h
        · cases h
        · rcases List.mem_append.1 h with h | h
          · refine no_separator program hp (ps.filter Part.stays) ?_ (List.mem_cons_of_mem _ h)
            intro p hm
            obtain ⟨ha, hb⟩ := List.mem_filter.1 hm
            exact ⟨hps p ha, by cases p <;> first | rfl | cases hb⟩
          · rcases List.mem_append.1 h with h | h
            · split at h <;> simp at h
            · unfold addedResource at h
              split at h <;> simp at h
    · unfold addedStandard at h
      split at h
      · simp at h
      · split at h <;> simp at h
  rw [insert_argument _ _ _ hno (files_rest hr),
    show ∀ (a : List Str) b c, a ++ b :: c = (a ++ [b]) ++ c by simp,
    insert_argument _ _ _ (by
      intro h
      rcases List.mem_append.1 h with h | h
      · exact hno h
      · simp at h) (files_rest hr)]
  unfold Spec.adjusted
  simp

/-! ### For every command -/

theorem split_eq (args : List Str) : ∃ pre rest, args = pre ++ rest ∧ t%"--" ∉ pre ∧
    (rest = [] ∨ ∃ l, rest = t%"--" :: l) := by
  induction args with
  | nil => exact ⟨[], [], rfl, List.not_mem_nil, .inl rfl⟩
  | cons a l ih =>
    by_cases ha : a = t%"--"
    · subst ha
      exact ⟨[], _, rfl, List.not_mem_nil, .inr ⟨l, rfl⟩⟩
    · obtain ⟨pre, rest, h1, h2, h3⟩ := ih
      exact ⟨a :: pre, rest, by rw [h1]; rfl, by simpa [eq_comm] using ⟨ha, h2⟩, h3⟩

/-- The last two options of the executed command. -/
theorem command_end (dir : Str) (args out : List Str) (h : adjustCommand dir args = some out) :
    ∃ pre rest, out = pre ++ t%"-Wno-everything" :: t%"-D__GENPYBIND__" :: rest ∧
      t%"--" ∉ pre ∧ (rest = [] ∨ ∃ l, rest = t%"--" :: l) := by
  unfold adjustCommand at h
  dsimp only at h
  rw [Option.map_eq_some_iff] at h
  obtain ⟨mid, _, h⟩ := h
  obtain ⟨pre, rest, h1, h2, h3⟩ := split_eq mid
  refine ⟨pre, rest, ?_, h2, h3⟩
  rw [← h, h1, insert_argument _ _ _ h2 h3,
    show ∀ (a : List Str) b c, a ++ b :: c = (a ++ [b]) ++ c by simp,
    insert_argument _ _ _ (by simpa using h2) h3]
  simp

theorem macro_end (takes : Str → Bool) (name w : Str) (rest : List Str)
    (hw : takes w = false) (hw' : w ≠ t%"--") (hn : takes (t%"-D" ++ name) = false)
    (hr : rest = [] ∨ ∃ l, rest = t%"--" :: l) (n : Nat) (pre : List Str) (hlen : pre.length ≤ n)
    (hpre : t%"--" ∉ pre) (d : Bool) :
    macroDefined takes name d (pre ++ w :: (t%"-D" ++ name) :: rest) = true := by
  have last : ∀ d, macroDefined takes name d ((t%"-D" ++ name) :: rest) = true := by
    intro d
    rcases hr with rfl | ⟨l, rfl⟩
    · simp [macroDefined, macroStep]
    · rw [macroDefined.eq_def]
      dsimp only
      rw [if_neg (by simp), if_neg (by rw [hn]; simp)]
      simp [macroDefined.eq_def, macroStep]
  induction n generalizing pre d with
  | zero =>
    obtain rfl := List.length_eq_zero_iff.1 (Nat.le_zero.1 hlen)
    rw [List.nil_append, macroDefined.eq_def]
    dsimp only
    rw [if_neg hw', if_neg (by rw [hw]; simp)]
    exact last _
  | succ n ih =>
    cases pre with
    | nil => exact ih [] (Nat.zero_le _) List.not_mem_nil d
    | cons a pre =>
      have ha : a ≠ t%"--" := by
        rintro rfl
        exact hpre List.mem_cons_self
      have hpre' : t%"--" ∉ pre := fun h => hpre (List.mem_cons_of_mem _ h)
      have hl : pre.length ≤ n := Nat.le_of_succ_le_succ hlen
      rw [List.cons_append, macroDefined.eq_def]
      dsimp only
      rw [if_neg ha]
      cases pre with
      | nil =>
        dsimp only [List.nil_append]
        split
        · exact last _
        · exact ih [] (Nat.zero_le _) List.not_mem_nil _
      | cons b pre =>
        dsimp only [List.cons_append]
        split
        · exact ih pre (Nat.le_of_succ_le hl) (fun h => hpre' (List.mem_cons_of_mem _ h)) _
        · exact ih (b :: pre) hl hpre' _

/-- **C84**, for every command: the annotations of the header are in effect, as the macro is
defined no matter which definitions, and which options with separate values, are part of the
command.  Warnings of the compiler are off, as this option comes after all the other ones. -/
theorem C84_macro (takes : Str → Bool) (dir : Str) (args out : List Str) (defined : Bool)
    (h : adjustCommand dir args = some out)
    (hw : takes t%"-Wno-everything" = false) (hd : takes t%"-D__GENPYBIND__" = false) :
    macroDefined takes t%"__GENPYBIND__" defined out = true ∧
    ∃ pre rest, out = pre ++ t%"-Wno-everything" :: t%"-D__GENPYBIND__" :: rest ∧
      t%"--" ∉ pre ∧ (rest = [] ∨ ∃ l, rest = t%"--" :: l) := by
  obtain ⟨pre, rest, h1, h2, h3⟩ := command_end dir args out h
  refine ⟨?_, pre, rest, h1, h2, h3⟩
  rw [h1]
  exact macro_end takes t%"__GENPYBIND__" t%"-Wno-everything" rest hw (by simp) hd h3 _ pre
    (Nat.le_refl _) h2 defined

theorem mem_insert (extra a : Str) (args : List Str) :
    a ∈ insertArgument extra args ↔ a = extra ∨ a ∈ args := by
  obtain ⟨pre, rest, h1, h2, h3⟩ := split_eq args
  rw [h1, insert_argument _ _ _ h2 h3]
  simp only [List.mem_append, List.mem_cons]
  constructor
  · rintro (h | h | h)
    · exact .inr (.inl h)
    · exact .inl h
    · exact .inr (.inr h)
  · rintro (h | h | h)
    · exact .inr (.inl h)
    · exact .inl h
    · exact .inr (.inr h)

theorem mem_syntaxLoop (l : List Str) : ∀ acc a, a ∈ syntaxLoop acc l →
    a ∈ acc ∨ (a ∈ l ∧ isTemporariesFlag a = false) := by
  induction l with
  | nil =>
    intro acc a h
    exact .inl (List.mem_reverse.1 h)
  | cons b l ih =>
    have up : ∀ a, a ∈ l ∧ isTemporariesFlag a = false → a ∈ b :: l ∧ isTemporariesFlag a = false :=
      fun a h => ⟨List.mem_cons_of_mem _ h.1, h.2⟩
    intro acc a h
    rw [syntaxLoop.eq_def] at h
    dsimp only at h
    split at h
    · exact (ih _ _ h).imp id (up a)
    · rename_i hb
      split at h
      · cases acc with
        | nil => exact (ih _ _ h).imp id (up a)
        | cons c acc =>
          dsimp only at h
          split at h
          · exact (ih _ _ h).imp (List.mem_cons_of_mem _) (up a)
          · exact (ih _ _ h).imp id (up a)
      · rcases ih _ _ h with h | h
        · rcases List.mem_cons.1 h with rfl | h
          · exact .inr ⟨List.mem_cons_self, by simpa using hb⟩
          · exact .inl h
        · exact .inr (up a h)

theorem mem_stripOutput (l : List Str) (n : Nat) (hn : l.length ≤ n) :
    ∀ a, a ∈ stripOutput l → a ∈ l ∧ ¬ t%"-o" <+: a := by
  induction n generalizing l with
  | zero =>
    obtain rfl := List.length_eq_zero_iff.1 (Nat.le_zero.1 hn)
    intro a h
    cases h
  | succ n ih =>
    intro a h
    cases l with
    | nil => cases h
    | cons b l =>
      have hl := Nat.le_of_succ_le_succ hn
      rw [stripOutput.eq_def] at h
      dsimp only at h
      split at h
      · cases l with
        | nil => cases h
        | cons c l =>
          obtain ⟨h1, h2⟩ := ih l (Nat.le_of_succ_le hl) a h
          exact ⟨List.mem_cons_of_mem _ (List.mem_cons_of_mem _ h1), h2⟩
      · split at h
        · obtain ⟨h1, h2⟩ := ih l hl a h
          exact ⟨List.mem_cons_of_mem _ h1, h2⟩
        · rename_i hb
          rcases List.mem_cons.1 h with rfl | h
          · exact ⟨List.mem_cons_self, by rwa [startsWith_iff] at hb⟩
          · obtain ⟨h1, h2⟩ := ih l hl a h
            exact ⟨List.mem_cons_of_mem _ h1, h2⟩

theorem mem_stripDependency (l : List Str) (n : Nat) (hn : l.length ≤ n) :
    ∀ a, a ∈ stripDependencyFile l → a ∈ l ∧ ¬ t%"-M" <+: a := by
  induction n generalizing l with
  | zero =>
    obtain rfl := List.length_eq_zero_iff.1 (Nat.le_zero.1 hn)
    intro a h
    cases h
  | succ n ih =>
    intro a h
    cases l with
    | nil => cases h
    | cons b l =>
      have hl := Nat.le_of_succ_le_succ hn
      rw [stripDependencyFile.eq_def] at h
      dsimp only at h
      split at h
      · cases l with
        | nil => cases h
        | cons c l =>
          obtain ⟨h1, h2⟩ := ih l (Nat.le_of_succ_le hl) a h
          exact ⟨List.mem_cons_of_mem _ (List.mem_cons_of_mem _ h1), h2⟩
      · split at h
        · obtain ⟨h1, h2⟩ := ih l hl a h
          exact ⟨List.mem_cons_of_mem _ h1, h2⟩
        · rename_i hb
          rcases List.mem_cons.1 h with rfl | h
          · refine ⟨List.mem_cons_self, fun hc => hb ?_⟩
            rw [(startsWith_iff _ _).2 hc]
            rfl
          · obtain ⟨h1, h2⟩ := ih l hl a h
            exact ⟨List.mem_cons_of_mem _ h1, h2⟩

theorem mem_loop (l : List Str) (s : Standard) :
    ∀ a, (a ∈ (adjustLoop l s).1 → a ∈ l) ∧ (a ∈ (adjustLoop l s).2.1 → a ∈ l) := by
  obtain ⟨is, rest, h⟩ := reads_total l
  induction h generalizing s with
  | nil => exact fun a => ⟨fun h => (by cases h), fun h => (by cases h)⟩
  | separator =>
    rw [loop_separator]
    exact fun a => ⟨fun h => (by cases h), id⟩
  | missing => exact fun a => ⟨fun h => (by cases h), fun h => (by cases h)⟩
  | langSeparate _ ih =>
    rw [loop_separate]
    exact fun a => ⟨fun h => List.mem_cons_of_mem _ (List.mem_cons_of_mem _ ((ih s a).1 h)),
      fun h => List.mem_cons_of_mem _ (List.mem_cons_of_mem _ ((ih s a).2 h))⟩
  | langJoined hv _ ih =>
    rw [loop_joined _ hv]
    exact fun a => ⟨fun h => List.mem_cons_of_mem _ ((ih s a).1 h),
      fun h => List.mem_cons_of_mem _ ((ih s a).2 h)⟩
  | @std v l is rest _ ih =>
    rw [loop_std]
    intro a
    obtain ⟨i1, i2⟩ := ih (standardFrom v) a
    split
    · refine ⟨fun h => ?_, fun h => List.mem_cons_of_mem _ (i2 h)⟩
      rcases List.mem_cons.1 h with rfl | h
      · exact List.mem_cons_self
      · exact List.mem_cons_of_mem _ (i1 h)
    · exact ⟨fun h => List.mem_cons_of_mem _ (i1 h), fun h => List.mem_cons_of_mem _ (i2 h)⟩
  | other a1 a2 a3 _ ih =>
    rw [loop_other _ a1 a2 a3]
    intro a
    obtain ⟨i1, i2⟩ := ih s a
    refine ⟨fun h => ?_, fun h => List.mem_cons_of_mem _ (i2 h)⟩
    rcases List.mem_cons.1 h with rfl | h
    · exact List.mem_cons_self
    · exact List.mem_cons_of_mem _ (i1 h)

theorem mem_resource (dir a : Str) (args : List Str) (h : a ∈ adjustResourceDir dir args) :
    a ∈ args ∨ t%"-resource-dir=" <+: a := by
  unfold adjustResourceDir at h
  split at h
  · exact .inl h
  · obtain ⟨pre, rest, h1, h2, h3⟩ := split_eq args
    rw [h1, split_positional _ _ h2 h3] at h
    dsimp only at h
    rw [h1]
    rcases List.mem_append.1 h with h | h
    · rcases List.mem_append.1 h with h | h
      · exact .inl (List.mem_append_left _ h)
      · split at h
        · cases h
        · rw [List.mem_singleton.1 h]
          exact .inr (List.prefix_append _ _)
    · exact .inl (List.mem_append_right _ h)

/-- **C84**, for every command: the compiler is not asked to write an output file, a
dependency file or temporary files. -/
theorem C84_no_output (dir : Str) (args out : List Str) (h : adjustCommand dir args = some out) :
    ∀ a ∈ out, ¬ t%"-o" <+: a ∧ ¬ t%"-M" <+: a ∧ ¬ TemporariesFlag a := by
  unfold adjustCommand at h
  dsimp only at h
  rw [Option.map_eq_some_iff] at h
  obtain ⟨mid, hm, rfl⟩ := h
  intro a ha
  rw [mem_insert, mem_insert] at ha
  rcases ha with rfl | rfl | ha
  · simp [TemporariesFlag, List.cons_prefix_cons]
  · simp [TemporariesFlag, List.cons_prefix_cons]
  generalize hq : adjustResourceDir dir _ = q at hm
  have hmq : a ∈ q ∨ a = t%"-xc++" ∨ t%"-std=" <+: a := by
    cases q with
    | nil => cases hm
    | cons p q =>
      unfold adjustStandard at hm
      obtain rfl := Option.some.inj hm
      have hl := mem_loop q {} a
      rcases List.mem_append.1 ha with ha | ha
      · rcases List.mem_append.1 ha with ha | ha
        · rcases List.mem_cons.1 ha with rfl | ha
          · exact .inl List.mem_cons_self
          · rcases List.mem_cons.1 ha with rfl | ha
            · exact .inr (.inl rfl)
            · exact .inl (List.mem_cons_of_mem _ (hl.1 ha))
        · split at ha
          · cases ha
          · rw [List.mem_singleton.1 ha]
            exact .inr (.inr ⟨_, (List.append_assoc ..).symm⟩)
      · exact .inl (List.mem_cons_of_mem _ (hl.2 ha))
  rcases hmq with hmq | rfl | ⟨s, rfl⟩
  · subst hq
    rcases mem_resource dir a _ hmq with hmq | ⟨s, rfl⟩
    · unfold syntaxOnly at hmq
      dsimp only at hmq
      have key : a = t%"-fsyntax-only" ∨ a ∈ syntaxLoop [] (stripDependencyFile (stripOutput (defaultAdjusters args))) := by
        split at hmq
        · exact .inr hmq
        · exact (mem_insert _ _ _).1 hmq
      rcases key with rfl | key
      · simp [TemporariesFlag, List.cons_prefix_cons]
      · rcases mem_syntaxLoop _ _ _ key with h | ⟨h1, h2⟩
        · cases h
        · obtain ⟨h3, h4⟩ := mem_stripDependency _ _ (Nat.le_refl _) a h1
          obtain ⟨_, h6⟩ := mem_stripOutput _ _ (Nat.le_refl _) a h3
          refine ⟨h6, h4, fun hc => ?_⟩
          rw [(isTemporaries_iff a).2 hc] at h2
          cases h2
    · simp [TemporariesFlag, List.cons_prefix_cons]
  · simp [TemporariesFlag, List.cons_prefix_cons]
  · simp [TemporariesFlag, List.cons_prefix_cons]

/-- The parts of an ordinary command from a compilation database. -/
def exDatabase : List Part :=
  [.plain t%"-I/include", .standard t%"gnu" t%"14", .dependencies t%"D", .dependenciesTo t%"F" t%"a.d",
   .outputTo t%"a.o", .plain t%"-U__GENPYBIND__", .colourPassed t%"-fcolor-diagnostics",
   .plain t%"-c"]

instance (a : Str) : Decidable (OrdinaryWord a) :=
  decidable_of_iff (((¬ t%"-o" <+: a ∧ ¬ t%"-M" <+: a) ∧ ¬ (t%"-save-temps" <+: a ∨ t%"--save-temps" <+: a) ∧
    ¬ (t%"-fcolor-diagnostics" <+: a ∨ t%"-fdiagnostics-color" <+: a)) ∧
    (¬ t%"/showIncludes" <+: a ∧ ¬ t%"-showIncludes" <+: a) ∧
    ¬ (a = t%"-resource-dir" ∨ t%"-resource-dir=" <+: a) ∧
    a ≠ t%"--" ∧ a ≠ t%"-fsyntax-only" ∧ a ≠ t%"-Xclang")
    ⟨fun h => ⟨h.1.1.1, h.1.1.2, h.1.2.1, h.1.2.2, h.2.1, h.2.2.1, h.2.2.2⟩,
     fun h => ⟨⟨⟨h.output, h.dependencies⟩, h.temporaries, h.colour⟩, h.includes, h.resource, h.others⟩⟩

/-- A command with its result; the macro is defined in spite of the option `-U`. -/
example : OrdinaryWord t%"/usr/bin/c++" ∧ (∀ p ∈ exDatabase, p.OK) ∧ Files [t%"--", t%"a.h"] ∧
    adjustCommand t%"/lib/clang" (t%"/usr/bin/c++" :: (words exDatabase ++ [t%"--", t%"a.h"])) =
      some [t%"/usr/bin/c++", t%"-xc++", t%"-I/include", t%"-U__GENPYBIND__", t%"-c", t%"-fsyntax-only",
        t%"-resource-dir=/lib/clang", t%"-std=gnu++17", t%"-Wno-everything", t%"-D__GENPYBIND__",
        t%"--", t%"a.h"] := by
  have hO : OrdinaryWord t%"/usr/bin/c++" := by decide +kernel
  have hps : ∀ p ∈ exDatabase, p.OK := by
    intro p h
    simp only [exDatabase, List.mem_cons, List.not_mem_nil, or_false] at h
    rcases h with rfl | rfl | rfl | rfl | rfl | rfl | rfl | rfl
    · exact ⟨by decide +kernel, by decide +kernel, by decide +kernel⟩
    · exact .inr rfl
    · exact ⟨by decide, by decide, by decide⟩
    · exact ⟨.inl rfl, by decide +kernel⟩
    · trivial
    · exact ⟨by decide +kernel, by decide +kernel, by decide +kernel⟩
    · exact .inl (by decide +kernel)
    · exact ⟨by decide +kernel, by decide +kernel, by decide +kernel⟩
  have hf : Files [t%"--", t%"a.h"] := by
    refine .inr ⟨_, rfl, ?_⟩
    intro f hf
    obtain rfl := List.mem_singleton.1 hf
    decide +kernel
  exact ⟨hO, hps, hf, by rw [C84_command _ _ _ _ hO hps hf]; decide +kernel⟩

/-- The statement of `C84_command` needs `Files`: a header after `--` is lost if its name
looks like an option for output. -/
theorem C84_lost_file :
    adjustCommand [] [t%"c++", t%"--", t%"-options.h"] =
      some [t%"c++", t%"-xc++", t%"-fsyntax-only", t%"-std=c++17", t%"-Wno-everything",
        t%"-D__GENPYBIND__", t%"--"] := by
  decide +kernel

/-- Nor is the option `-fsyntax-only` part of every executed command: it is taken for the
value of an option `-x` at the end, which is removed together with its value. -/
theorem C84_dangling :
    adjustCommand [] [t%"c++", t%"a.h", t%"-x"] =
      some [t%"c++", t%"-xc++", t%"a.h", t%"-std=c++17", t%"-Wno-everything", t%"-D__GENPYBIND__"] := by
  decide +kernel

end Verif
