import Verif.Model.Command
import Verif.Spec.Command
import Verif.Lemmas.CommandLine
/-!
# The adjusters in terms of the parts of a command
-/
namespace Verif
open Spec

theorem startsWith_iff (p s : Str) : startsWith p s = true ↔ p <+: s := stripFront_isSome p s

theorem startsWith_false (p s : Str) : startsWith p s = false ↔ ¬ p <+: s := by
  rw [← startsWith_iff]
  simp

theorem startsWith_append (p s : Str) : startsWith p (p ++ s) = true := by
  rw [startsWith_iff]
  exact List.prefix_append p s

theorem isTemporaries_iff (a : Str) : isTemporariesFlag a = true ↔ TemporariesFlag a := by
  unfold isTemporariesFlag TemporariesFlag
  rw [Bool.or_eq_true, startsWith_iff, startsWith_iff]

theorem isColour_iff (a : Str) : isColourFlag a = true ↔ ColourFlag a := by
  unfold isColourFlag ColourFlag
  rw [Bool.or_eq_true, startsWith_iff, startsWith_iff]

theorem isResource_iff (a : Str) : isResourceDirFlag a = true ↔ ResourceFlag a := by
  unfold isResourceDirFlag ResourceFlag
  cases h : stripFront t%"-resource-dir" a with
  | none =>
    rw [stripFront_none] at h
    constructor
    · intro h
      cases h
    · rintro (rfl | h2)
      · exact absurd (List.prefix_refl _) h
      · obtain ⟨s, rfl⟩ := h2
        exact absurd ⟨'=' :: s, rfl⟩ h
  | some r =>
    rw [stripFront_iff] at h
    subst h
    cases r with
    | nil => simp
    | cons c r => simp [List.cons_prefix_cons, eq_comm]

/-! ### Removing output -/

theorem stripOutput_cons (a : Str) (l : List Str) (h : ¬ t%"-o" <+: a) :
    stripOutput (a :: l) = a :: stripOutput l := by
  rw [stripOutput.eq_def]
  dsimp only
  rw [if_neg, if_neg]
  · rw [startsWith_iff]
    exact h
  · rintro rfl
    exact h (List.prefix_refl _)

theorem stripOutput_joined (f : Str) (hf : f ≠ []) (l : List Str) :
    stripOutput ((t%"-o" ++ f) :: l) = stripOutput l := by
  rw [stripOutput.eq_def]
  dsimp only
  rw [if_neg, if_pos (startsWith_append _ _)]
  cases f with
  | nil => exact absurd rfl hf
  | cons c f => simp

theorem stripOutput_separate (f : Str) (l : List Str) :
    stripOutput (t%"-o" :: f :: l) = stripOutput l := rfl

def notOutput : Part → Bool
  | .output _ | .outputTo _ => false
  | _ => true

theorem stripOutput_part (p : Part) (hp : p.OK) (l : List Str) :
    stripOutput (p.words ++ l) = (if notOutput p then p.words else []) ++ stripOutput l := by
  have keep : ∀ (ws : List Str), (∀ w ∈ ws, ¬ t%"-o" <+: w) →
      stripOutput (ws ++ l) = ws ++ stripOutput l := by
    intro ws hws
    induction ws with
    | nil => rfl
    | cons w ws ih =>
      rw [List.cons_append, stripOutput_cons _ _ (hws w List.mem_cons_self),
        ih fun w hw => hws w (List.mem_cons_of_mem _ hw)]
      rfl
  have hT : ∀ f, TemporariesFlag f → ¬ t%"-o" <+: f := by
    rintro f (⟨s, rfl⟩ | ⟨s, rfl⟩) <;> simp [List.cons_prefix_cons]
  have hC : ∀ f, ColourFlag f → ¬ t%"-o" <+: f := by
    rintro f (⟨s, rfl⟩ | ⟨s, rfl⟩) <;> simp [List.cons_prefix_cons]
  cases p with
  | output f => exact stripOutput_joined f hp l
  | outputTo f => rfl
  | dependencies k => exact keep _ (by simp [Part.words, List.cons_prefix_cons])
  | dependenciesTo k f => exact keep _ (by simpa [Part.words, List.cons_prefix_cons] using hp.2.output)
  | temporaries f => exact keep _ (by simpa [Part.words] using hT f hp)
  | colour f => exact keep _ (by simpa [Part.words] using hC f hp)
  | colourPassed f => exact keep _ (by simpa [Part.words] using hC f hp)
  | language n => exact keep _ (by simp [Part.words, List.cons_prefix_cons])
  | languageNext n => exact keep _ (by simpa [Part.words] using hp.output)
  | standard d v => exact keep _ (by simp [Part.words, List.cons_prefix_cons])
  | syntaxOnly => exact keep _ (by simp [Part.words, List.cons_prefix_cons])
  | resource d => exact keep _ (by simp [Part.words, List.cons_prefix_cons])
  | resourceNext d => exact keep _ (by simpa [Part.words] using hp.1.output)
  | passed a => exact keep _ (by simpa [Part.words] using hp.1.output)
  | plain a => exact keep _ (by simpa [Part.words] using hp.1.output)

/-- From parts to all of them. -/
theorem words_parts (Q : Part → Prop) (f : List Str → List Str) (keep : Part → Bool)
    (h : ∀ p : Part, Q p → ∀ l, f (p.words ++ l) = (if keep p then p.words else []) ++ f l)
    (ps : List Part) (hps : ∀ p ∈ ps, Q p) (l : List Str) :
    f (words ps ++ l) = words (ps.filter keep) ++ f l := by
  induction ps with
  | nil => rfl
  | cons p ps ih =>
    have h1 := h p (hps p List.mem_cons_self) (words ps ++ l)
    rw [ih fun q hq => hps q (List.mem_cons_of_mem _ hq)] at h1
    rw [show words (p :: ps) ++ l = p.words ++ (words ps ++ l) by simp [words], h1,
      List.filter_cons]
    cases keep p <;> simp [words]

theorem stripOutput_plain (l : List Str) (h : ∀ a ∈ l, ¬ t%"-o" <+: a) : stripOutput l = l := by
  induction l with
  | nil => rfl
  | cons a l ih =>
    rw [stripOutput_cons _ _ (h a List.mem_cons_self), ih fun b hb => h b (List.mem_cons_of_mem _ hb)]

theorem files_all {rest : List Str} (h : Files rest) (P : Str → Prop) (h1 : P t%"--")
    (h2 : ∀ a, OrdinaryWord a → P a) : ∀ a ∈ rest, P a := by
  obtain rfl | ⟨files, rfl, hf⟩ := h
  · intro a ha
    cases ha
  · intro a ha
    rcases List.mem_cons.1 ha with rfl | ha
    · exact h1
    · exact h2 a (hf a ha)

theorem stripOutput_command (program : Str) (hp : OrdinaryWord program) (ps : List Part)
    (hps : ∀ p ∈ ps, p.OK) (rest : List Str) (hr : Files rest) :
    stripOutput (program :: (words ps ++ rest)) = program :: (words (ps.filter notOutput) ++ rest) := by
  rw [stripOutput_cons _ _ hp.output, words_parts _ _ _ stripOutput_part ps hps,
    stripOutput_plain rest (files_all hr _ (by simp [List.cons_prefix_cons]) fun a ha => ha.output)]

/-! ### Removing dependency files -/

theorem stripDependency_cons (a : Str) (l : List Str) (h : ¬ t%"-M" <+: a)
    (h1 : ¬ t%"/showIncludes" <+: a) (h2 : ¬ t%"-showIncludes" <+: a) :
    stripDependencyFile (a :: l) = a :: stripDependencyFile l := by
  rw [stripDependencyFile.eq_def]
  dsimp only
  rw [if_neg, if_neg]
  · rw [Bool.or_eq_true, Bool.or_eq_true, startsWith_iff, startsWith_iff, startsWith_iff]
    exact fun hc => hc.elim (fun hc => hc.elim h h1) h2
  · unfold isDependencyValueFlag
    rw [Bool.or_eq_true, Bool.or_eq_true, decide_eq_true_iff, decide_eq_true_iff, decide_eq_true_iff]
    rintro ((rfl | rfl) | rfl) <;> exact h ⟨_, rfl⟩

theorem stripDependency_flag (k : Str) (hk : k ≠ t%"F" ∧ k ≠ t%"T" ∧ k ≠ t%"Q") (l : List Str) :
    stripDependencyFile ((t%"-M" ++ k) :: l) = stripDependencyFile l := by
  rw [stripDependencyFile.eq_def]
  dsimp only
  rw [if_neg, if_pos]
  · rw [startsWith_append]
    rfl
  · simp [isDependencyValueFlag, hk.1, hk.2.1, hk.2.2]

theorem stripDependency_value (k : Str) (hk : k = t%"F" ∨ k = t%"T" ∨ k = t%"Q") (f : Str)
    (l : List Str) : stripDependencyFile ((t%"-M" ++ k) :: f :: l) = stripDependencyFile l := by
  rcases hk with rfl | rfl | rfl <;> rfl

def notDependency : Part → Bool
  | .dependencies _ | .dependenciesTo _ _ => false
  | _ => true

theorem stripDependency_part (p : Part) (hp : p.OK ∧ notOutput p = true) (l : List Str) :
    stripDependencyFile (p.words ++ l) =
      (if notDependency p then p.words else []) ++ stripDependencyFile l := by
  have keep : ∀ (ws : List Str), (∀ w ∈ ws, ¬ t%"-M" <+: w ∧ ¬ t%"/showIncludes" <+: w ∧
      ¬ t%"-showIncludes" <+: w) → stripDependencyFile (ws ++ l) = ws ++ stripDependencyFile l := by
    intro ws hws
    induction ws with
    | nil => rfl
    | cons w ws ih =>
      obtain ⟨a, b, c⟩ := hws w List.mem_cons_self
      rw [List.cons_append, stripDependency_cons _ _ a b c,
        ih fun w hw => hws w (List.mem_cons_of_mem _ hw)]
      rfl
  have hO : ∀ f, OrdinaryWord f → ¬ t%"-M" <+: f ∧ ¬ t%"/showIncludes" <+: f ∧
      ¬ t%"-showIncludes" <+: f := fun f h => ⟨h.dependencies, h.includes⟩
  have hT : ∀ f, TemporariesFlag f → ¬ t%"-M" <+: f ∧ ¬ t%"/showIncludes" <+: f ∧
      ¬ t%"-showIncludes" <+: f := by
    rintro f (⟨s, rfl⟩ | ⟨s, rfl⟩) <;> simp [List.cons_prefix_cons]
  have hC : ∀ f, ColourFlag f → ¬ t%"-M" <+: f ∧ ¬ t%"/showIncludes" <+: f ∧
      ¬ t%"-showIncludes" <+: f := by
    rintro f (⟨s, rfl⟩ | ⟨s, rfl⟩) <;> simp [List.cons_prefix_cons]
  obtain ⟨hp, hn⟩ := hp
  cases p with
  | output f => cases hn
  | outputTo f => cases hn
  | dependencies k => exact stripDependency_flag k hp l
  | dependenciesTo k f => exact stripDependency_value k hp.1 f l
  | temporaries f => exact keep _ (by simpa [Part.words] using hT f hp)
  | colour f => exact keep _ (by simpa [Part.words] using hC f hp)
  | colourPassed f => exact keep _ (by simpa [Part.words] using hC f hp)
  | language n => exact keep _ (by simp [Part.words, List.cons_prefix_cons])
  | languageNext n => exact keep _ (by simpa [Part.words] using hO _ hp)
  | standard d v => exact keep _ (by simp [Part.words, List.cons_prefix_cons])
  | syntaxOnly => exact keep _ (by simp [Part.words, List.cons_prefix_cons])
  | resource d => exact keep _ (by simp [Part.words, List.cons_prefix_cons])
  | resourceNext d => exact keep _ (by simpa [Part.words] using hO _ hp.1)
  | passed a => exact keep _ (by simpa [Part.words] using hO _ hp.1)
  | plain a => exact keep _ (by simpa [Part.words] using hO _ hp.1)

theorem stripDependency_plain (l : List Str) (h : ∀ a ∈ l, ¬ t%"-M" <+: a ∧
    ¬ t%"/showIncludes" <+: a ∧ ¬ t%"-showIncludes" <+: a) : stripDependencyFile l = l := by
  induction l with
  | nil => rfl
  | cons a l ih =>
    obtain ⟨h1, h2, h3⟩ := h a List.mem_cons_self
    rw [stripDependency_cons _ _ h1 h2 h3, ih fun b hb => h b (List.mem_cons_of_mem _ hb)]

theorem stripDependency_command (program : Str) (hp : OrdinaryWord program) (ps : List Part)
    (hps : ∀ p ∈ ps, p.OK ∧ notOutput p = true) (rest : List Str) (hr : Files rest) :
    stripDependencyFile (program :: (words ps ++ rest)) =
      program :: (words (ps.filter notDependency) ++ rest) := by
  rw [stripDependency_cons _ _ hp.dependencies hp.includes.1 hp.includes.2,
    words_parts _ _ _ stripDependency_part ps hps,
    stripDependency_plain rest (files_all hr _ (by simp [List.cons_prefix_cons])
      fun a ha => ⟨ha.dependencies, ha.includes⟩)]

/-! ### Checking the syntax only -/

theorem syntax_push (acc l : List Str) (a : Str) (h1 : ¬ TemporariesFlag a) (h2 : ¬ ColourFlag a) :
    syntaxLoop acc (a :: l) = syntaxLoop (a :: acc) l := by
  rw [syntaxLoop.eq_def]
  dsimp only
  rw [if_neg (by rwa [isTemporaries_iff]), if_neg (by rwa [isColour_iff])]

theorem syntax_temporaries (acc l : List Str) (a : Str) (h1 : TemporariesFlag a) :
    syntaxLoop acc (a :: l) = syntaxLoop acc l := by
  rw [syntaxLoop.eq_def]
  dsimp only
  rw [if_pos (by rwa [isTemporaries_iff])]

theorem colour_not_temporaries (a : Str) (h : ColourFlag a) : ¬ TemporariesFlag a := by
  unfold TemporariesFlag
  rcases h with ⟨s, rfl⟩ | ⟨s, rfl⟩ <;> simp [List.cons_prefix_cons]

theorem syntax_colour (acc l : List Str) (a : Str) (h1 : ColourFlag a)
    (h : acc.head? ≠ some t%"-Xclang") : syntaxLoop acc (a :: l) = syntaxLoop acc l := by
  rw [syntaxLoop.eq_def]
  dsimp only
  rw [if_neg (by rw [isTemporaries_iff]; exact colour_not_temporaries a h1),
    if_pos (by rwa [isColour_iff])]
  cases acc with
  | nil => rfl
  | cons b acc =>
    dsimp only
    rw [if_neg]
    rintro rfl
    exact h rfl

theorem syntax_passed (acc l : List Str) (a : Str) (h1 : ColourFlag a) :
    syntaxLoop acc (t%"-Xclang" :: a :: l) = syntaxLoop acc l := by
  rw [syntax_push _ _ _ (by simp [TemporariesFlag, List.cons_prefix_cons])
    (by simp [ColourFlag, List.cons_prefix_cons]), syntaxLoop.eq_def]
  dsimp only
  rw [if_neg (by rw [isTemporaries_iff]; exact colour_not_temporaries a h1),
    if_pos (by rwa [isColour_iff]), if_pos rfl]

def notTransient : Part → Bool
  | .temporaries _ | .colour _ | .colourPassed _ => false
  | _ => true

theorem syntax_plain (acc l : List Str) (h : ∀ a ∈ l, ¬ TemporariesFlag a ∧ ¬ ColourFlag a) :
    syntaxLoop acc l = acc.reverse ++ l := by
  induction l generalizing acc with
  | nil => simp [syntaxLoop]
  | cons a l ih =>
    obtain ⟨h1, h2⟩ := h a List.mem_cons_self
    rw [syntax_push _ _ _ h1 h2, ih _ fun b hb => h b (List.mem_cons_of_mem _ hb)]
    simp

theorem syntax_words (ws acc l : List Str) (h : ∀ a ∈ ws, ¬ TemporariesFlag a ∧ ¬ ColourFlag a) :
    syntaxLoop acc (ws ++ l) = syntaxLoop (ws.reverse ++ acc) l := by
  induction ws generalizing acc with
  | nil => rfl
  | cons a ws ih =>
    obtain ⟨h1, h2⟩ := h a List.mem_cons_self
    rw [List.cons_append, syntax_push _ _ _ h1 h2, ih _ fun b hb => h b (List.mem_cons_of_mem _ hb)]
    simp

/-- A part that stays does not end with `-Xclang`, and the part that does not stay leaves
no trace. -/
theorem syntax_part (p : Part) (hp : p.OK) (hn : notOutput p = true) (acc l : List Str)
    (hacc : acc.head? ≠ some t%"-Xclang") :
    syntaxLoop acc (p.words ++ l) =
      syntaxLoop ((if notTransient p then p.words else []).reverse ++ acc) l ∧
    ((if notTransient p then p.words else []).reverse ++ acc).head? ≠ some t%"-Xclang" := by
  have hO : ∀ f, OrdinaryWord f → ¬ TemporariesFlag f ∧ ¬ ColourFlag f :=
    fun f h => ⟨h.temporaries, h.colour⟩
  have keep : notTransient p = true → (∀ w ∈ p.words, ¬ TemporariesFlag w ∧ ¬ ColourFlag w) →
      (∃ ws w, p.words = ws ++ [w] ∧ w ≠ t%"-Xclang") →
      syntaxLoop acc (p.words ++ l) =
        syntaxLoop ((if notTransient p then p.words else []).reverse ++ acc) l ∧
      ((if notTransient p then p.words else []).reverse ++ acc).head? ≠ some t%"-Xclang" := by
    intro hk hw hl
    rw [if_pos hk]
    refine ⟨syntax_words _ _ _ hw, ?_⟩
    obtain ⟨ws, w, hws, hne⟩ := hl
    rw [hws]
    simpa using hne
  cases p with
  | output f => cases hn
  | outputTo f => cases hn
  | dependencies k =>
    exact keep rfl (by simp [Part.words, TemporariesFlag, ColourFlag, List.cons_prefix_cons])
      ⟨[], _, rfl, by simp⟩
  | dependenciesTo k f =>
    refine keep rfl ?_ ⟨[t%"-M" ++ k], f, rfl, hp.2.others.2.2⟩
    intro w hw
    simp only [Part.words, List.mem_cons, List.not_mem_nil, or_false] at hw
    rcases hw with rfl | rfl
    · simp [TemporariesFlag, ColourFlag, List.cons_prefix_cons]
    · exact hO _ hp.2
  | temporaries f => exact ⟨syntax_temporaries acc l f hp, hacc⟩
  | colour f => exact ⟨syntax_colour acc l f hp hacc, hacc⟩
  | colourPassed f => exact ⟨syntax_passed acc l f hp, hacc⟩
  | language n =>
    exact keep rfl (by simp [Part.words, TemporariesFlag, ColourFlag, List.cons_prefix_cons])
      ⟨[], _, rfl, by simp⟩
  | languageNext n =>
    refine keep rfl ?_ ⟨[t%"-x"], n, rfl, hp.others.2.2⟩
    intro w hw
    simp only [Part.words, List.mem_cons, List.not_mem_nil, or_false] at hw
    rcases hw with rfl | rfl
    · simp [TemporariesFlag, ColourFlag, List.cons_prefix_cons]
    · exact hO _ hp
  | standard d v =>
    exact keep rfl (by simp [Part.words, TemporariesFlag, ColourFlag, List.cons_prefix_cons])
      ⟨[], _, rfl, by simp⟩
  | syntaxOnly =>
    exact keep rfl (by simp [Part.words, TemporariesFlag, ColourFlag, List.cons_prefix_cons])
      ⟨[], _, rfl, by simp⟩
  | resource d =>
    exact keep rfl (by simp [Part.words, TemporariesFlag, ColourFlag, List.cons_prefix_cons])
      ⟨[], _, rfl, by simp⟩
  | resourceNext d =>
    refine keep rfl ?_ ⟨[t%"-resource-dir"], d, rfl, hp.1.others.2.2⟩
    intro w hw
    simp only [Part.words, List.mem_cons, List.not_mem_nil, or_false] at hw
    rcases hw with rfl | rfl
    · simp [TemporariesFlag, ColourFlag, List.cons_prefix_cons]
    · exact hO _ hp.1
  | passed a =>
    refine keep rfl ?_ ⟨[t%"-Xclang"], a, rfl, hp.1.others.2.2⟩
    intro w hw
    simp only [Part.words, List.mem_cons, List.not_mem_nil, or_false] at hw
    rcases hw with rfl | rfl
    · simp [TemporariesFlag, ColourFlag, List.cons_prefix_cons]
    · exact hO _ hp.1
  | plain a =>
    refine keep rfl ?_ ⟨[], a, rfl, hp.1.others.2.2⟩
    intro w hw
    simp only [Part.words, List.mem_cons, List.not_mem_nil, or_false] at hw
    subst hw
    exact hO _ hp.1

theorem syntax_parts (ps : List Part) (hps : ∀ p ∈ ps, p.OK ∧ notOutput p = true) (acc l : List Str)
    (hacc : acc.head? ≠ some t%"-Xclang") (hl : ∀ a ∈ l, ¬ TemporariesFlag a ∧ ¬ ColourFlag a) :
    syntaxLoop acc (words ps ++ l) = acc.reverse ++ (words (ps.filter notTransient) ++ l) := by
  induction ps generalizing acc with
  | nil => exact syntax_plain acc l hl
  | cons p ps ih =>
    obtain ⟨h1, h2⟩ := hps p List.mem_cons_self
    obtain ⟨h3, h4⟩ := syntax_part p h1 h2 acc (words ps ++ l) hacc
    rw [show words (p :: ps) ++ l = p.words ++ (words ps ++ l) by simp [words], h3,
      ih (fun q hq => hps q (List.mem_cons_of_mem _ hq)) _ h4, List.filter_cons]
    cases notTransient p <;> simp [words]

theorem split_positional (pre rest : List Str) (h : t%"--" ∉ pre)
    (hr : rest = [] ∨ ∃ l, rest = t%"--" :: l) : splitPositional (pre ++ rest) = (pre, rest) := by
  induction pre with
  | nil =>
    rcases hr with rfl | ⟨l, rfl⟩
    · rfl
    · rfl
  | cons a pre ih =>
    rw [List.cons_append, splitPositional, if_neg (by rintro rfl; exact h List.mem_cons_self),
      ih fun hm => h (List.mem_cons_of_mem _ hm)]

theorem insert_argument (extra : Str) (pre rest : List Str) (h : t%"--" ∉ pre)
    (hr : rest = [] ∨ ∃ l, rest = t%"--" :: l) :
    insertArgument extra (pre ++ rest) = pre ++ extra :: rest := by
  unfold insertArgument
  rw [split_positional pre rest h hr]

theorem files_rest {rest : List Str} (h : Files rest) : rest = [] ∨ ∃ l, rest = t%"--" :: l := by
  rcases h with h | ⟨l, h, _⟩
  · exact .inl h
  · exact .inr ⟨l, h⟩

/-- Words with a meaning on their own are in parts only where they are meant. -/
theorem part_words (p : Part) (hp : p.OK) (hn : notOutput p = true) :
    t%"--" ∉ p.words ∧ (t%"-fsyntax-only" ∈ p.words ↔ p = .syntaxOnly) ∧
    (notDependency p = true → notTransient p = true →
      ((∃ w ∈ p.words, ResourceFlag w) ↔ p.isResource = true)) := by
  have hO : ∀ f, OrdinaryWord f → f ≠ t%"--" ∧ f ≠ t%"-fsyntax-only" ∧ ¬ ResourceFlag f :=
    fun f h => ⟨h.others.1, h.others.2.1, h.resource⟩
  have hT : ∀ f, TemporariesFlag f → f ≠ t%"--" ∧ f ≠ t%"-fsyntax-only" := by
    rintro f (⟨s, rfl⟩ | ⟨s, rfl⟩) <;> simp
  have hC : ∀ f, ColourFlag f → f ≠ t%"--" ∧ f ≠ t%"-fsyntax-only" := by
    rintro f (⟨s, rfl⟩ | ⟨s, rfl⟩) <;> simp
  cases p with
  | output f => cases hn
  | outputTo f => cases hn
  | dependencies k => exact ⟨by simp [Part.words], by simp [Part.words], fun h => by cases h⟩
  | dependenciesTo k f =>
    obtain ⟨h1, h2, h3⟩ := hO f hp.2
    exact ⟨by simp [Part.words, h1.symm], by simp [Part.words, h2.symm], fun h => by cases h⟩
  | temporaries f =>
    obtain ⟨h1, h2⟩ := hT f hp
    exact ⟨by simp [Part.words, h1.symm], by simp [Part.words, h2.symm], fun _ h => by cases h⟩
  | colour f =>
    obtain ⟨h1, h2⟩ := hC f hp
    exact ⟨by simp [Part.words, h1.symm], by simp [Part.words, h2.symm], fun _ h => by cases h⟩
  | colourPassed f =>
    obtain ⟨h1, h2⟩ := hC f hp
    exact ⟨by simp [Part.words, h1.symm], by simp [Part.words, h2.symm], fun _ h => by cases h⟩
  | language n =>
    exact ⟨by simp [Part.words], by simp [Part.words], fun _ _ => by
      simp [Part.words, Part.isResource, ResourceFlag, List.cons_prefix_cons]⟩
  | languageNext n =>
    obtain ⟨h1, h2, h3⟩ := hO n hp
    exact ⟨by simp [Part.words, h1.symm], by simp [Part.words, h2.symm], fun _ _ => by
      simpa [Part.words, Part.isResource, ResourceFlag, List.cons_prefix_cons] using h3⟩
  | standard d v =>
    exact ⟨by simp [Part.words], by simp [Part.words], fun _ _ => by
      simp [Part.words, Part.isResource, ResourceFlag, List.cons_prefix_cons]⟩
  | syntaxOnly =>
    exact ⟨by simp [Part.words], by simp [Part.words], fun _ _ => by
      simp [Part.words, Part.isResource, ResourceFlag, List.cons_prefix_cons]⟩
  | resource d =>
    exact ⟨by simp [Part.words], by simp [Part.words], fun _ _ => by
      simp [Part.words, Part.isResource, ResourceFlag, List.cons_prefix_cons]⟩
  | resourceNext d =>
    obtain ⟨h1, h2, h3⟩ := hO d hp.1
    exact ⟨by simp [Part.words, h1.symm], by simp [Part.words, h2.symm], fun _ _ => by
      simp [Part.words, Part.isResource, ResourceFlag, List.cons_prefix_cons]⟩
  | passed a =>
    obtain ⟨h1, h2, h3⟩ := hO a hp.1
    exact ⟨by simp [Part.words, h1.symm], by simp [Part.words, h2.symm], fun _ _ => by
      simpa [Part.words, Part.isResource, ResourceFlag, List.cons_prefix_cons] using h3⟩
  | plain a =>
    obtain ⟨h1, h2, h3⟩ := hO a hp.1
    exact ⟨by simp [Part.words, h1.symm], by simp [Part.words, h2.symm], fun _ _ => by
      simpa [Part.words, Part.isResource, ResourceFlag, List.cons_prefix_cons] using h3⟩

theorem mem_words (ps : List Part) (w : Str) : w ∈ words ps ↔ ∃ p ∈ ps, w ∈ p.words := by
  unfold words
  rw [List.mem_flatMap]

/-- Parts with `-fsyntax-only`. -/
def withSyntax (ps : List Part) : List Part :=
  ps ++ if ps.contains .syntaxOnly then [] else [.syntaxOnly]

theorem words_append (ps qs : List Part) : words (ps ++ qs) = words ps ++ words qs := by
  simp [words]

theorem no_separator (program : Str) (hp : OrdinaryWord program) (ps : List Part)
    (hps : ∀ p ∈ ps, p.OK ∧ notOutput p = true) : t%"--" ∉ program :: words ps := by
  intro h
  rcases List.mem_cons.1 h with h | h
  · exact hp.others.1 h.symm
  · obtain ⟨p, hm, hw⟩ := (mem_words ps _).1 h
    exact (part_words p (hps p hm).1 (hps p hm).2).1 hw

theorem syntax_command (program : Str) (hp : OrdinaryWord program) (ps : List Part)
    (hps : ∀ p ∈ ps, p.OK ∧ notOutput p = true) (rest : List Str) (hr : Files rest) :
    syntaxOnly (program :: (words ps ++ rest)) =
      program :: (words (withSyntax (ps.filter notTransient)) ++ rest) := by
  have hc : (program :: (words ps ++ rest)).contains t%"-fsyntax-only" =
      (ps.filter notTransient).contains .syntaxOnly := by
    rw [Bool.eq_iff_iff, List.contains_iff_mem, List.contains_iff_mem, List.mem_filter]
    constructor
    · intro h
      rcases List.mem_cons.1 h with h | h
      · exact absurd h.symm hp.others.2.1
      · rcases List.mem_append.1 h with h | h
        · obtain ⟨p, hm, hw⟩ := (mem_words ps _).1 h
          have := (part_words p (hps p hm).1 (hps p hm).2).2.1.1 hw
          subst this
          exact ⟨hm, rfl⟩
        · exact absurd rfl (files_all hr (· ≠ t%"-fsyntax-only") (by simp)
            (fun a ha => ha.others.2.1) _ h)
    · intro h
      exact List.mem_cons_of_mem _ (List.mem_append_left _ ((mem_words ps _).2
        ⟨.syntaxOnly, h.1, by simp [Part.words]⟩))
  have hs : syntaxLoop [] (program :: (words ps ++ rest)) =
      program :: (words (ps.filter notTransient) ++ rest) := by
    rw [syntax_push _ _ _ hp.temporaries hp.colour, syntax_parts ps hps [program] rest
      (by simpa using hp.others.2.2) (files_all hr _ (by
        simp [TemporariesFlag, ColourFlag, List.cons_prefix_cons])
        fun a ha => ⟨ha.temporaries, ha.colour⟩)]
    rfl
  unfold syntaxOnly
  dsimp only
  rw [hc, hs]
  unfold withSyntax
  cases hh : (ps.filter notTransient).contains .syntaxOnly with
  | true =>
    rw [if_pos rfl, if_pos rfl, List.append_nil]
  | false =>
    rw [if_neg (by simp), if_neg (by simp), ← List.cons_append, insert_argument _ _ _
      (no_separator program hp _ fun p hm => hps p (List.mem_filter.1 hm).1) (files_rest hr),
      words_append]
    simp [words, Part.words]

/-! ### Resource directory and standard -/

theorem resource_command (dir program : Str) (hp : OrdinaryWord program) (ps : List Part)
    (hps : ∀ p ∈ ps, p.OK ∧ notOutput p = true ∧ notDependency p = true ∧ notTransient p = true)
    (rest : List Str) (hr : Files rest) :
    adjustResourceDir dir (program :: (words ps ++ rest)) =
      program :: (words ps ++ (addedResource dir ps ++ rest)) := by
  have hc : (program :: (words ps ++ rest)).any isResourceDirFlag = ps.any Part.isResource := by
    rw [Bool.eq_iff_iff, List.any_eq_true, List.any_eq_true]
    constructor
    · rintro ⟨a, ha, h⟩
      rw [isResource_iff] at h
      rcases List.mem_cons.1 ha with rfl | ha
      · exact absurd h hp.resource
      · rcases List.mem_append.1 ha with ha | ha
        · obtain ⟨p, hm, hw⟩ := (mem_words ps _).1 ha
          obtain ⟨h1, h2, h3, h4⟩ := hps p hm
          exact ⟨p, hm, ((part_words p h1 h2).2.2 h3 h4).1 ⟨a, hw, h⟩⟩
        · exact absurd h (files_all hr (¬ ResourceFlag ·)
            (by simp [ResourceFlag, List.cons_prefix_cons]) (fun a ha => ha.resource) _ ha)
    · rintro ⟨p, hm, h⟩
      obtain ⟨h1, h2, h3, h4⟩ := hps p hm
      obtain ⟨a, hw, h⟩ := ((part_words p h1 h2).2.2 h3 h4).2 h
      exact ⟨a, List.mem_cons_of_mem _ (List.mem_append_left _ ((mem_words ps _).2 ⟨p, hm, hw⟩)),
        (isResource_iff a).2 h⟩
  unfold adjustResourceDir addedResource
  rw [hc]
  cases hh : ps.any Part.isResource with
  | true => rfl
  | false =>
    rw [if_neg (by simp)]
    dsimp only
    rw [← List.cons_append, split_positional _ _
      (no_separator program hp _ fun p hm => ⟨(hps p hm).1, (hps p hm).2.1⟩) (files_rest hr)]
    rw [Bool.false_or]
    simp

/-- The state of the loop after parts. -/
def stateAfter (s : Standard) : List Part → Standard
  | [] => s
  | .standard d v :: ps => stateAfter { usesLater := t%"2".isPrefixOf v, pre := d } ps
  | _ :: ps => stateAfter s ps

theorem later_prefix (v : Str) : (stripFront t%"2" v).isSome = t%"2".isPrefixOf v := by
  rw [Bool.eq_iff_iff, stripFront_isSome, List.isPrefixOf_iff_prefix]

theorem loop_parts (ps : List Part)
    (hps : ∀ p ∈ ps, p.OK ∧ notOutput p = true ∧ notDependency p = true ∧ notTransient p = true)
    (rest : List Str) (hr : rest = [] ∨ ∃ l, rest = t%"--" :: l) (s : Standard) :
    adjustLoop (words ps ++ rest) s = (words (ps.filter Part.stays), rest, stateAfter s ps) := by
  induction ps generalizing s with
  | nil =>
    rcases hr with rfl | ⟨l, rfl⟩
    · rfl
    · exact loop_separator _ s
  | cons p ps ih =>
    have ih := ih fun q hq => hps q (List.mem_cons_of_mem _ hq)
    obtain ⟨h1, h2, h3, h4⟩ := hps p List.mem_cons_self
    have hw : words (p :: ps) ++ rest = p.words ++ (words ps ++ rest) := by simp [words]
    have other : ∀ ws l s, (∀ a ∈ ws, a ≠ t%"--" ∧ ¬ t%"-x" <+: a ∧ ¬ t%"-std=" <+: a) →
        adjustLoop (ws ++ l) s = (ws ++ (adjustLoop l s).1, (adjustLoop l s).2) := by
      intro ws l s h
      induction ws with
      | nil => rfl
      | cons w ws ih =>
        obtain ⟨a, b, c⟩ := h w List.mem_cons_self
        rw [List.cons_append, loop_other _ a b c, ih fun a ha => h a (List.mem_cons_of_mem _ ha)]
        rfl
    have keep : p.stays = true → stateAfter s (p :: ps) = stateAfter s ps →
        (∀ a ∈ p.words, a ≠ t%"--" ∧ ¬ t%"-x" <+: a ∧ ¬ t%"-std=" <+: a) →
        adjustLoop (words (p :: ps) ++ rest) s =
          (words ((p :: ps).filter Part.stays), rest, stateAfter s (p :: ps)) := by
      intro hk hs hws
      rw [hw, other _ _ _ hws, ih s, List.filter_cons, if_pos hk, hs]
      simp [words]
    cases p with
    | output f => cases h2
    | outputTo f => cases h2
    | dependencies k => cases h3
    | dependenciesTo k f => cases h3
    | temporaries f => cases h4
    | colour f => cases h4
    | colourPassed f => cases h4
    | language n =>
      rw [hw]
      change adjustLoop ((t%"-x" ++ n) :: (words ps ++ rest)) s = _
      rw [loop_joined n h1, ih s]
      rfl
    | languageNext n =>
      rw [hw]
      change adjustLoop (t%"-x" :: n :: (words ps ++ rest)) s = _
      rw [loop_separate, ih s]
      rfl
    | standard d v =>
      rw [hw]
      change adjustLoop ((t%"-std=" ++ (d ++ t%"++" ++ v)) :: (words ps ++ rest)) s = _
      rw [loop_std]
      unfold standardFrom
      rw [split_cpp d v _ ⟨h1, rfl⟩, later_prefix, ih, List.filter_cons]
      change _ = (words (if t%"2".isPrefixOf v then _ else _), _)
      cases hb : t%"2".isPrefixOf v <;> simp [words, stateAfter, Part.words, hb]
    | syntaxOnly => exact keep rfl rfl (by simp [Part.words, List.cons_prefix_cons])
    | resource d => exact keep rfl rfl (by simp [Part.words, List.cons_prefix_cons])
    | resourceNext d =>
      exact keep rfl rfl (by
        simpa [Part.words, List.cons_prefix_cons] using ⟨h1.1.others.1, h1.2.1, h1.2.2⟩)
    | passed d =>
      exact keep rfl rfl (by
        simpa [Part.words, List.cons_prefix_cons] using ⟨h1.1.others.1, h1.2.1, h1.2.2⟩)
    | plain d =>
      exact keep rfl rfl (by
        simpa [Part.words, List.cons_prefix_cons] using ⟨h1.1.others.1, h1.2.1, h1.2.2⟩)

theorem state_last (ps : List Part) (s : Standard) :
    stateAfter s ps = ((ps.filterMap Part.standard?).getLast?.map fun r =>
      ({ usesLater := t%"2".isPrefixOf r.2, pre := r.1 } : Standard)).getD s := by
  induction ps generalizing s with
  | nil => rfl
  | cons p ps ih =>
    cases p with
    | standard d v =>
      change stateAfter _ ps = ((((d, v) :: ps.filterMap Part.standard?).getLast?).map _).getD s
      rw [ih]
      cases hl : ps.filterMap Part.standard? with
      | nil => rfl
      | cons a l =>
        rw [List.getLast?_cons_cons]
        cases hg : (a :: l).getLast? with
        | none => simp at hg
        | some x => rfl
    | _ => exact ih s

theorem appended_standard (ps : List Part) :
    (if (stateAfter {} ps).usesLater then [] else [t%"-std=" ++ (stateAfter {} ps).pre ++ t%"++17"]) =
      addedStandard ps := by
  rw [state_last]
  unfold addedStandard
  cases (ps.filterMap Part.standard?).getLast? with
  | none => rfl
  | some r => rfl

end Verif
