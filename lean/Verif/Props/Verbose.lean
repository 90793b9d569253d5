import Verif.Spec.Main
import Verif.Props.Printing
/-!
# Commands shown by `--verbose` (C87)
-/
namespace Verif
open Spec

/-- Arguments that are shown such that they can be recognized. -/
def Recognizable (a : Str) : Prop := a ≠ [] ∧ (' ' ∉ a → a.head? ≠ some '"')

/-- The text for one argument, src/tool.cpp:167-173. -/
theorem quoted_reads (a rest : Str) (hb : ∀ c ∈ a, c.toNat < 256) (h : Recognizable a)
    (hr : rest = [] ∨ ∃ l, rest = ' ' :: l) :
    ReadsWord ((if a.contains ' ' then '"' :: (writeEscaped a ++ ['"']) else a) ++ rest) a rest := by
  by_cases hs : ' ' ∈ a
  · rw [if_pos (by rw [List.contains_iff_mem]; exact hs)]
    rw [List.cons_append, List.append_assoc]
    exact .quoted (writeEscaped_reads hb rest) hr
  · rw [if_neg (by rw [List.contains_iff_mem]; exact hs)]
    exact .plain h.1 hs (h.2 hs) hr

theorem shown_reads : ∀ args : List Str, (∀ a ∈ args, ∀ c ∈ a, c.toNat < 256) →
    (∀ a ∈ args, Recognizable a) → ReadsWords (emitQuotedArguments args) args
  | [], _, _ => .nil
  | [a], hb, h => by
    refine .last ?_
    have := quoted_reads a [] (hb a (by simp)) (h a (by simp)) (.inl rfl)
    rwa [List.append_nil] at this
  | a :: b :: l, hb, h => by
    exact .cons (by simp) (quoted_reads a _ (hb a (by simp)) (h a (by simp)) (.inr ⟨_, rfl⟩))
      (shown_reads (b :: l) (fun x hx => hb x (List.mem_cons_of_mem _ hx))
        (fun x hx => h x (List.mem_cons_of_mem _ hx)))

theorem until_space {u v r s : Str} (hu : ' ' ∉ u) (hv : ' ' ∉ v) (hr : r = [] ∨ ∃ l, r = ' ' :: l)
    (hs : s = [] ∨ ∃ l, s = ' ' :: l) (e : u ++ r = v ++ s) : u = v ∧ r = s := by
  induction u generalizing v with
  | nil =>
    cases v with
    | nil => exact ⟨rfl, e⟩
    | cons a v =>
      rcases hr with rfl | ⟨l, rfl⟩
      · cases e
      · cases e
        exact absurd List.mem_cons_self hv
  | cons a u ih =>
    cases v with
    | nil =>
      rcases hs with rfl | ⟨l, rfl⟩
      · cases e
      · cases e
        exact absurd List.mem_cons_self hu
    | cons b v =>
      rw [List.cons_append, List.cons_append, List.cons.injEq] at e
      obtain ⟨rfl, h⟩ := ih (fun h => hu (List.mem_cons_of_mem _ h)) (fun h => hv (List.mem_cons_of_mem _ h)) e.2
      exact ⟨by rw [e.1], h⟩

theorem word_cases {t w r : Str} (h : ReadsWord t w r) : (r = [] ∨ ∃ l, r = ' ' :: l) ∧
    ((t = w ++ r ∧ w ≠ [] ∧ ' ' ∉ w ∧ w.head? ≠ some '"') ∨ ∃ u, t = '"' :: u ∧ Reads u w r) := by
  cases h with
  | plain h1 h2 h3 h4 => exact ⟨h4, .inl ⟨rfl, h1, h2, h3⟩⟩
  | quoted h1 h2 => exact ⟨h2, .inr ⟨_, rfl, h1⟩⟩

theorem word_deterministic {t w r w' r' : Str} (h : ReadsWord t w r) (h' : ReadsWord t w' r') :
    w = w' ∧ r = r' := by
  obtain ⟨hr, h⟩ := word_cases h
  obtain ⟨hr', h'⟩ := word_cases h'
  rcases h with ⟨h1, h2, h3, h4⟩ | ⟨u, h1, h2⟩ <;> rcases h' with ⟨h1', h2', h3', h4'⟩ | ⟨u', h1', h2'⟩
  · exact until_space h3 h3' hr hr' (h1.symm.trans h1')
  · cases w with
    | nil => exact absurd rfl h2
    | cons a w =>
      rw [h1] at h1'
      cases h1'
      exact absurd rfl h4
  · cases w' with
    | nil => exact absurd rfl h2'
    | cons a w' =>
      rw [h1'] at h1
      cases h1
      exact absurd rfl h4'
  · rw [h1] at h1'
    cases h1'
    exact C06_reading_deterministic h2 h2'

theorem word_nonempty {w r : Str} : ¬ ReadsWord [] w r := by
  intro h
  rcases (word_cases h).2 with ⟨h1, h2, _⟩ | ⟨u, h1, _⟩
  · exact h2 (List.append_eq_nil_iff.1 h1.symm).1
  · cases h1

/-- **C87.** A text can be read as at most one list of arguments. -/
theorem C87_deterministic {t : Str} {a b : List Str} (h : ReadsWords t a) (h' : ReadsWords t b) : a = b := by
  induction h generalizing b with
  | nil =>
    cases h' with
    | nil => rfl
    | last h => exact absurd h word_nonempty
    | cons _ h _ => exact absurd h word_nonempty
  | last h =>
    cases h' with
    | nil => exact absurd h word_nonempty
    | last h' => rw [(word_deterministic h h').1]
    | cons _ h' _ => cases (word_deterministic h h').2
  | cons hn h hl ih =>
    cases h' with
    | nil => exact absurd h word_nonempty
    | last h' => cases (word_deterministic h h').2
    | cons _ h' hl' =>
      obtain ⟨rfl, e⟩ := word_deterministic h h'
      cases e
      rw [ih hl']

theorem octal_take {t : Str} {v k : Nat} (h : octalEscape t = some (v, k)) :
    ' ' ∉ t.take k ∧ 0 < (t.take k).length := by
  have hd : ∀ c n, octal? c = some n → ' ' ≠ c := by
    rintro c n hc rfl
    cases hc
  cases t with
  | nil => cases h
  | cons a t =>
    rw [octalEscape] at h
    cases ha : octal? a with
    | none => rw [ha] at h; cases h
    | some x =>
      rw [ha] at h
      dsimp only at h
      cases t with
      | nil => cases h; simp [hd a _ ha]
      | cons b t =>
        dsimp only at h
        cases hb : octal? b with
        | none => rw [hb] at h; cases h; simp [hd a _ ha]
        | some y =>
          rw [hb] at h
          dsimp only at h
          cases t with
          | nil => cases h; simp [hd a x ha, hd b y hb]
          | cons c t =>
            dsimp only at h
            cases hc : octal? c with
            | none => rw [hc] at h; cases h; simp [hd a x ha, hd b y hb]
            | some z => rw [hc] at h; cases h; simp [hd a x ha, hd b y hb, hd c z hc]

/-- What is read of a literal without spaces. -/
theorem reads_prefix {t w r : Str} (h : Reads t w r) (hs : ' ' ∉ w) :
    ∃ pre, t = pre ++ r ∧ ' ' ∉ pre ∧ w.length < pre.length := by
  induction h with
  | close rest => exact ⟨['"'], rfl, by simp, by simp⟩
  | plain c t bs rest _ _ _ _ ih =>
    obtain ⟨pre, rfl, h1, h2⟩ := ih fun h => hs (List.mem_cons_of_mem _ h)
    refine ⟨c :: pre, rfl, ?_, by simpa using h2⟩
    intro h
    rcases List.mem_cons.1 h with rfl | h
    · exact hs List.mem_cons_self
    · exact h1 h
  | simple c x t bs rest hx _ ih =>
    obtain ⟨pre, rfl, h1, h2⟩ := ih fun h => hs (List.mem_cons_of_mem _ h)
    refine ⟨'\\' :: c :: pre, rfl, ?_, by simp; omega⟩
    intro h
    rcases List.mem_cons.1 h with h | h
    · cases h
    · rcases List.mem_cons.1 h with rfl | h
      · cases hx
      · exact h1 h
  | octal t v k bs rest hv _ _ ih =>
    obtain ⟨pre, h, h1, h2⟩ := ih fun h => hs (List.mem_cons_of_mem _ h)
    have key := octal_take hv
    refine ⟨'\\' :: (t.take k ++ pre), ?_, ?_, ?_⟩
    · rw [List.cons_append, List.append_assoc, ← h, List.take_append_drop]
    · intro hm
      rcases List.mem_cons.1 hm with hm | hm
      · cases hm
      · rcases List.mem_append.1 hm with hm | hm
        · exact key.1 hm
        · exact h1 hm
    · have := key.2
      simp only [List.length_cons, List.length_append]
      omega

theorem word_recognizable {a rest rest' : Str} (hr : rest = [] ∨ ∃ l, rest = ' ' :: l)
    (h : ReadsWord ((if a.contains ' ' then '"' :: (writeEscaped a ++ ['"']) else a) ++ rest) a rest') :
    Recognizable a := by
  by_cases hs : ' ' ∈ a
  · exact ⟨(by rintro rfl; cases hs), fun h => absurd hs h⟩
  · rw [if_neg (by rw [List.contains_iff_mem]; exact hs)] at h
    obtain ⟨hr', h⟩ := word_cases h
    rcases h with ⟨_, h1, _, h3⟩ | ⟨u, h1, h2⟩
    · exact ⟨h1, fun _ => h3⟩
    · exfalso
      obtain ⟨pre, rfl, h4, h5⟩ := reads_prefix h2 hs
      have : a.length = ('"' :: pre).length := by
        rw [← List.cons_append] at h1
        rw [(until_space hs (by simpa using h4) hr hr' h1).1]
      rw [List.length_cons] at this
      omega

/-- **C87.** The command that is shown can be read as exactly the arguments, if none of them is
empty, and none that begins with a quote is without spaces; and only then. -/
theorem C87_recognizable_partial (args : List Str) (hb : ∀ a ∈ args, ∀ c ∈ a, c.toNat < 256) :
    ReadsWords (emitQuotedArguments args) args ↔ ∀ a ∈ args, Recognizable a := by
  refine ⟨?_, shown_reads args hb⟩
  intro h
  have hs : ∀ (l : List Str) (t : Str), (∀ a ∈ l, ∀ c ∈ a, c.toNat < 256) → t = emitQuotedArguments l →
      ReadsWords t l → ∀ a ∈ l, Recognizable a := by
    intro l
    induction l with
    | nil => intro _ _ _ _ a ha; cases ha
    | cons x l ih =>
      intro t hb ht h
      cases h with
      | last h =>
        intro a ha
        obtain rfl := List.mem_singleton.1 ha
        subst ht
        refine word_recognizable (rest := []) (.inl rfl) (rest' := []) ?_
        rw [List.append_nil]
        exact h
      | cons hn h hl =>
        cases l with
        | nil => exact absurd rfl hn
        | cons y l =>
          rename_i rest
          rw [emitQuotedArguments] at ht
          subst ht
          have hx := word_recognizable (.inr ⟨_, rfl⟩) h
          have hd := word_deterministic h
            (quoted_reads x _ (hb x List.mem_cons_self) hx (.inr ⟨_, rfl⟩))
          intro a ha
          rcases List.mem_cons.1 ha with rfl | ha
          · exact hx
          · exact ih rest (fun a ha => hb a (List.mem_cons_of_mem _ ha)) (List.cons.inj hd.2).2 hl a ha
  exact hs args _ hb rfl h

/-- C87: commands that are shown alike are the same, under these conditions. -/
theorem C87_injective_partial (a b : List Str) (ha : ∀ x ∈ a, ∀ c ∈ x, c.toNat < 256)
    (hb : ∀ x ∈ b, ∀ c ∈ x, c.toNat < 256) (ha' : ∀ x ∈ a, Recognizable x) (hb' : ∀ x ∈ b, Recognizable x)
    (h : emitQuotedArguments a = emitQuotedArguments b) : a = b :=
  C87_deterministic ((C87_recognizable_partial a ha).2 ha') (h ▸ (C87_recognizable_partial b hb).2 hb')

theorem mapM_lines (dir : Str) (found executed : List CompileCommand)
    (h : (found.mapM fun cmd => (adjustCommand dir cmd.commandLine).map fun l => { cmd with commandLine := l }) = some executed) :
    (executed.map fun cmd => some cmd.commandLine) = found.map fun cmd => adjustCommand dir cmd.commandLine := by
  induction found generalizing executed with
  | nil => cases h; rfl
  | cons cmd found ih =>
    rw [List.mapM_cons] at h
    obtain ⟨e, he, h⟩ := Option.bind_eq_some_iff.1 h
    obtain ⟨es, hes, h⟩ := Option.bind_eq_some_iff.1 h
    cases h
    obtain ⟨l, hl, rfl⟩ := Option.map_eq_some_iff.1 he
    rw [List.map_cons, List.map_cons, hl, ih es hes]

/-- C87 (whole program): with `--verbose`, the commands that are found and those that are executed are
shown, in this order, and nothing else.  Without it nothing is shown; the result is the same. -/
theorem C87_messages (h : Host) (args : List Str) (files : Files) (c : CommandLine) (r : ProgramResult)
    (hc : parseCommandLine args = some c) (hr : runProgram h args files = some r) :
    ∃ found executed : List CompileCommand,
      compileCommands h c = some found ∧
      (executed.map fun cmd => some cmd.commandLine) = (found.map fun cmd => adjustCommand h.resourceDir cmd.commandLine) ∧
      runTools c.options (executed.map h.compile) files = some r.result ∧
      (c.verbose = false → r.messages = []) ∧
      (c.verbose = true → r.messages =
        (found.flatMap fun cmd => t%"Analyzing file " ++ cmd.filename ++ t%" from within directory " ++
          cmd.directory ++ t%" using command " ++ cmd.heuristic ++ t%"\n  " ++
          emitQuotedArguments cmd.commandLine ++ t%"\n") ++
        executed.flatMap fun cmd => t%"Adjusting command for file " ++ cmd.filename ++ t%" to\n  " ++
          emitQuotedArguments cmd.commandLine ++ t%"\n") := by
  unfold runProgram at hr
  rw [hc] at hr
  dsimp only at hr
  cases hf : compileCommands h c with
  | none => rw [hf] at hr; cases hr
  | some found =>
    rw [hf] at hr
    dsimp only at hr
    split at hr
    · cases hr
    · next executed he =>
      obtain ⟨res, h1, h2⟩ := Option.map_eq_some_iff.1 hr
      subst h2
      refine ⟨found, executed, rfl, ?_, h1, fun hv => ?_, fun hv => ?_⟩
      · exact mapM_lines h.resourceDir found executed he
      · show (if c.verbose = true then _ else _) = _
        rw [if_neg (by simp [hv])]
      · show (if c.verbose = true then _ else _) = _
        rw [if_pos hv]
        rfl

/-- C87 (what is missing): quotes in arguments without spaces are not escaped, and nothing is shown
for empty arguments, so that different commands look the same. -/
theorem C87_ambiguous :
    emitQuotedArguments [t%"\"a", t%"b\""] = emitQuotedArguments [t%"a b"] ∧
    emitQuotedArguments [t%"-DX", []] = t%"-DX " ∧
    emitQuotedArguments [[]] = emitQuotedArguments [] := by
  decide +kernel

/-- A definition with quotes and one with a space. -/
example : let args := [t%"c++", t%"-DA=\"x\"", t%"-DB=\"x y\""]
    (∀ a ∈ args, ∀ c ∈ a, c.toNat < 256) ∧ (∀ a ∈ args, Recognizable a) ∧
    emitQuotedArguments args = t%"c++ -DA=\"x\" \"-DB=\\\"x y\\\"\"" := by
  refine ⟨by decide +kernel, ?_, by decide +kernel⟩
  intro a ha
  simp only [List.mem_cons, List.not_mem_nil, or_false] at ha
  rcases ha with rfl | rfl | rfl <;> exact ⟨by decide, by decide +kernel⟩

end Verif
