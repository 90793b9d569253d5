import Verif.Spec.Build
import Verif.Props.Options
/-!
# C83: modules defined by the CMake function
-/
namespace Verif
open Spec

/-! ### Decimal numbers -/

/-- The value of a decimal number. -/
def fromDigits (l : Str) : Nat := l.foldl (fun n c => n * 10 + (c.toNat - 48)) 0

theorem digitChar_value (d : Nat) (h : d < 10) : (Nat.digitChar d).toNat - 48 = d := by
  match d, h with
  | 0, _ | 1, _ | 2, _ | 3, _ | 4, _ | 5, _ | 6, _ | 7, _ | 8, _ | 9, _ => rfl

theorem fromDigits_toDigits (n : Nat) : fromDigits (Nat.toDigits 10 n) = n := by
  induction n using Nat.strongRecOn with
  | _ n ih =>
    by_cases h : n < 10
    · rw [Nat.toDigits_of_lt_base h]
      show 0 * 10 + ((Nat.digitChar n).toNat - 48) = n
      rw [digitChar_value n h, Nat.zero_mul, Nat.zero_add]
    · rw [Nat.toDigits_of_base_le (by omega) (by omega)]
      unfold fromDigits
      rw [List.foldl_append]
      show (fromDigits (Nat.toDigits 10 (n / 10))) * 10 + ((Nat.digitChar (n % 10)).toNat - 48) = n
      rw [ih (n / 10) (by omega), digitChar_value _ (by omega)]
      omega

theorem toDigits_injective (m n : Nat) (h : Nat.toDigits 10 m = Nat.toDigits 10 n) : m = n := by
  rw [← fromDigits_toDigits m, h, fromDigits_toDigits]

theorem toDigits_plain (n : Nat) (c : Char) (hc : c.isDigit = false) : c ∉ Nat.toDigits 10 n := by
  intro h
  rw [Nat.isDigit_of_mem_toDigits (by omega) (by omega) h] at hc
  cases hc

theorem toDigits_keyword (n : Nat) : ¬ IsKeyword (Nat.toDigits 10 n) := by
  intro h
  unfold IsKeyword at h
  simp only [List.mem_cons, List.not_mem_nil, or_false] at h
  rcases h with h | h | h
  · exact toDigits_plain n 'E' rfl (by rw [h]; decide)
  · exact toDigits_plain n 'I' rfl (by rw [h]; decide)
  · exact toDigits_plain n 'U' rfl (by rw [h]; decide)

/-! ### Reading the arguments -/

theorem not_keyword {x : Str} (h : ¬ IsKeyword x) :
    x ≠ t%"HEADER" ∧ x ≠ t%"LINK_LIBRARIES" ∧ x ≠ t%"NUM_BINDING_FILES" := by
  unfold IsKeyword at h
  simp only [List.mem_cons, List.not_mem_nil, or_false, not_or] at h
  exact h

theorem parse_cons (state : KeywordState) (a : ParsedArguments) (x : Str) (l : List Str) :
    cmakeParseArguments state a (x :: l) =
      if x = t%"HEADER" then cmakeParseArguments .header a l
      else if x = t%"LINK_LIBRARIES" then cmakeParseArguments .libraries a l
      else if x = t%"NUM_BINDING_FILES" then cmakeParseArguments .count a l
      else match state with
      | .header => cmakeParseArguments .none { a with header := some x } l
      | .libraries => cmakeParseArguments .libraries { a with libraries := a.libraries ++ [x] } l
      | .count => cmakeParseArguments .count { a with count := a.count ++ [x] } l
      | .none => cmakeParseArguments .none { a with unparsed := a.unparsed ++ [x] } l := by
  rw [cmakeParseArguments.eq_def]
  rfl

theorem parse_step (s : KeywordState) (a : ParsedArguments) (x : Str) (l : List Str) (h : ¬ IsKeyword x) :
    cmakeParseArguments s a (x :: l) = match s with
      | .header => cmakeParseArguments .none { a with header := some x } l
      | .libraries => cmakeParseArguments .libraries { a with libraries := a.libraries ++ [x] } l
      | .count => cmakeParseArguments .count { a with count := a.count ++ [x] } l
      | .none => cmakeParseArguments .none { a with unparsed := a.unparsed ++ [x] } l := by
  obtain ⟨h1, h2, h3⟩ := not_keyword h
  rw [parse_cons, if_neg h1, if_neg h2, if_neg h3]

theorem parse_others (l rest : List Str) (h : ∀ x ∈ l, ¬ IsKeyword x) : ∀ a : ParsedArguments,
    cmakeParseArguments .none a (l ++ rest) =
      cmakeParseArguments .none { a with unparsed := a.unparsed ++ l } rest := by
  induction l with
  | nil => intro a; simp
  | cons x l ih =>
    intro a
    rw [List.cons_append, parse_step _ _ _ _ (h x List.mem_cons_self)]
    dsimp only
    rw [ih fun y hy => h y (List.mem_cons_of_mem _ hy)]
    simp

theorem parse_libraries (l rest : List Str) (h : ∀ x ∈ l, ¬ IsKeyword x) : ∀ a : ParsedArguments,
    cmakeParseArguments .libraries a (l ++ rest) =
      cmakeParseArguments .libraries { a with libraries := a.libraries ++ l } rest := by
  induction l with
  | nil => intro a; simp
  | cons x l ih =>
    intro a
    rw [List.cons_append, parse_step _ _ _ _ (h x List.mem_cons_self)]
    dsimp only
    rw [ih fun y hy => h y (List.mem_cons_of_mem _ hy)]
    simp

/-- The list does not start with arguments for `pybind11_add_module`. -/
def NoOther : List BuildArgument → Prop
  | .other _ :: _ => False
  | _ => True

theorem delimited_tail (x : BuildArgument) (l : List BuildArgument) (h : Delimited (x :: l)) :
    Delimited l := by
  cases x <;> cases l with
  | nil => trivial
  | cons y l => cases y <;> first | exact h | exact absurd h id

/-- What results from reading the arguments. -/
theorem parse_call (l : List BuildArgument) : ∀ (s : KeywordState) (a : ParsedArguments),
    (∀ x ∈ l, x.OK) → Delimited l → (s ≠ .none → NoOther l) →
    cmakeParseArguments s a (l.flatMap BuildArgument.text) =
      { header := (headersOf l).foldl (fun _ p => some p) a.header
        libraries := a.libraries ++ librariesOf l
        count := a.count ++ (countsOf l).map (Nat.toDigits 10)
        unparsed := a.unparsed ++ othersOf l } := by
  induction l with
  | nil =>
    intro s a _ _ _
    simp [cmakeParseArguments, headersOf, librariesOf, countsOf, othersOf]
  | cons x l ih =>
    intro s a hok hd hs
    have hok' : ∀ y ∈ l, y.OK := fun y hy => hok y (List.mem_cons_of_mem _ hy)
    have hd' := delimited_tail x l hd
    have hx := hok x List.mem_cons_self
    rw [List.flatMap_cons]
    cases x with
    | header p =>
      show cmakeParseArguments s a (t%"HEADER" :: p :: l.flatMap BuildArgument.text) = _
      rw [parse_cons, if_pos rfl, parse_step _ _ _ _ hx.1]
      dsimp only
      rw [ih .none _ hok' hd' fun h => absurd rfl h]
      rfl
    | libraries ts =>
      show cmakeParseArguments s a (t%"LINK_LIBRARIES" :: (ts ++ l.flatMap BuildArgument.text)) = _
      rw [parse_cons, if_neg (by decide), if_pos rfl, parse_libraries _ _ hx]
      rw [ih .libraries _ hok' hd' fun _ => ?_]
      · simp [headersOf, librariesOf, countsOf, othersOf]
      · cases l with
        | nil => trivial
        | cons y l => cases y <;> first | trivial | exact absurd hd id
    | count n =>
      show cmakeParseArguments s a (t%"NUM_BINDING_FILES" :: Nat.toDigits 10 n ::
        l.flatMap BuildArgument.text) = _
      rw [parse_cons, if_neg (by decide), if_neg (by decide), if_pos rfl,
        parse_step _ _ _ _ (toDigits_keyword n)]
      dsimp only
      rw [ih .count _ hok' hd' fun _ => ?_]
      · simp [headersOf, librariesOf, countsOf, othersOf]
      · cases l with
        | nil => trivial
        | cons y l => cases y <;> first | trivial | exact absurd hd id
    | other args =>
      have hs' : s = .none := by
        cases s with
        | none => rfl
        | header => exact absurd (hs (by simp)) id
        | libraries => exact absurd (hs (by simp)) id
        | count => exact absurd (hs (by simp)) id
      subst hs'
      show cmakeParseArguments .none a (args ++ l.flatMap BuildArgument.text) = _
      rw [parse_others _ _ hx.2, ih .none _ hok' hd' fun h => absurd rfl h]
      simp [headersOf, librariesOf, countsOf, othersOf]

/-- C83: a module is built from the generated files and the other sources given, and linked
to the given libraries; the tool is called with the header, the name of the target, and the
generated files.

The documentation shows sources after the number of files; see `C83_swallowed`. -/
theorem C83_target_partial (cm : CMakeWorld) (ok : CMakeOK cm) (target : Str) (l : List BuildArgument)
    (header : Str) (count : Nat) (hl : BuildCall l header count) :
    ∃ t, addModule cm target (l.flatMap BuildArgument.text) = some t ∧
      t.outputs.length = count ∧
      (∀ k, k < count → t.outputs[k]? = some (bindingFile cm target k)) ∧
      t.command = [t%"-p", cm.buildDir, t%"--module-name", target, cm.absolute header] ++
        t.outputs.map (t%"-o=" ++ ·) ∧
      t.sources = t.outputs ++ othersOf l ∧
      t.libraries = librariesOf l ++ [t%"genpybind::genpybind"] := by
  have hp := parse_call l .none {} hl.ok hl.delimited fun h => absurd rfl h
  rw [hl.header] at hp
  simp only [List.foldl_cons, List.foldl_nil, List.nil_append] at hp
  have hne : header ≠ [] := by
    have : header ∈ headersOf l := by rw [hl.header]; exact List.mem_singleton.2 rfl
    obtain ⟨x, hx, e⟩ := List.mem_filterMap.1 this
    cases x with
    | header p =>
      simp at e
      subst e
      exact (hl.ok _ hx).2
    | libraries _ => cases e
    | count _ => cases e
    | other _ => cases e
  have hcount : ∃ last, count = last + 1 ∧ cm.lastIndex
      (if (countsOf l).map (Nat.toDigits 10) = [] ∨
          cm.lessThanOne (cmakeList ((countsOf l).map (Nat.toDigits 10))) = true then t%"1"
        else cmakeList ((countsOf l).map (Nat.toDigits 10))) = some last := by
    have h1 : cm.lastIndex t%"1" = some 0 := ok.index 0
    rcases hl.count with ⟨hc, hn⟩ | ⟨n, hc, hn⟩
    · refine ⟨0, hn, ?_⟩
      rw [hc, if_pos (.inl rfl), h1]
    · rw [hc]
      simp only [List.map_cons, List.map_nil, cmakeList, ok.less]
      cases n with
      | zero =>
        refine ⟨0, hn, ?_⟩
        rw [if_pos (.inr (by decide)), h1]
      | succ n =>
        refine ⟨n, by rw [hn]; omega, ?_⟩
        rw [if_neg (by simp), ok.index]
  obtain ⟨last, rfl, hlast⟩ := hcount
  unfold addModule
  rw [hp]
  dsimp only
  rw [hlast]
  cases header with
  | nil => exact absurd rfl hne
  | cons c header =>
    refine ⟨_, rfl, by simp, ?_, rfl, rfl, rfl⟩
    intro k hk
    dsimp only
    rw [List.getElem?_map, List.getElem?_range hk]
    rfl

theorem bindingFile_injective (cm : CMakeWorld) (target : Str) (m n : Nat)
    (h : bindingFile cm target m = bindingFile cm target n) : m = n := by
  unfold bindingFile at h
  exact toDigits_injective m n (List.append_cancel_left (List.append_cancel_right h))

theorem bindingFile_absolute (cm : CMakeWorld) (ok : CMakeOK cm) (target : Str) (n : Nat) :
    AbsolutePath (bindingFile cm target n) := by
  obtain ⟨⟨rest, hr⟩, hh⟩ := ok.binaryDir
  have hform : ∃ tail, bindingFile cm target n = cm.binaryDir ++ '/' :: tail := by
    unfold bindingFile
    exact ⟨t%"genpybind-" ++ (target ++ (t%"-" ++ (Nat.toDigits 10 n ++ t%".cpp"))), by
      simp only [List.append_assoc]; rfl⟩
  obtain ⟨tail, ht⟩ := hform
  rw [ht]
  refine ⟨⟨rest ++ '/' :: tail, by rw [hr]; rfl⟩, ?_⟩
  rintro ⟨host, e, hne, hn⟩
  rw [hr] at e
  injection e with _ e
  cases rest with
  | nil => exact ok.notRoot hr
  | cons c rest =>
    injection e with _ e
    rw [← e] at hn
    exact hn (by simp)

theorem nodup_map_injective {α β : Type} (f : α → β) (hf : ∀ a b, f a = f b → a = b) :
    ∀ l : List α, l.Nodup → (l.map f).Nodup := by
  intro l h
  rw [List.Nodup, List.pairwise_map]
  exact h.imp fun hne e => hne (hf _ _ e)

/-- The outputs of a target. -/
theorem target_outputs {cm : CMakeWorld} {target : Str} {args : List Str} {t : ModuleTarget}
    (h : addModule cm target args = some t) :
    t.outputs.Nodup ∧ t.outputs ≠ [] ∧ ∀ p ∈ t.outputs, ∃ k, p = bindingFile cm target k := by
  unfold addModule at h
  dsimp only at h
  split at h
  · cases h
  · cases h
  · cases h
  · cases h
    refine ⟨nodup_map_injective _ (bindingFile_injective cm target) _ List.nodup_range, by simp, ?_⟩
    intro p hp
    obtain ⟨k, _, rfl⟩ := List.mem_map.1 hp
    exact ⟨k, rfl⟩

/-- Output files as settings. -/
theorem spelled_outputs (l : List Str) (h : ∀ p ∈ l, AbsolutePath p) :
    SpelledOut (l.map (Setting.value .output)) (l.map (t%"-o=" ++ ·)) := by
  induction l with
  | nil => exact .nil
  | cons p l ih =>
    exact .cons (now := [t%"-o=" ++ p]) (.joined (d := t%"-") (o := .output) (text := p) (.inl rfl)
      (.inr (h p List.mem_cons_self))) (ih fun q hq => h q (List.mem_cons_of_mem _ hq))

/-- C83: the tool understands the command: all files are accepted and different, and
nothing else is asked for. -/
theorem C83_command (cm : CMakeWorld) (ok : CMakeOK cm) (target : Str) (l : List BuildArgument)
    (header : Str) (count : Nat) (hl : BuildCall l header count) (ht : target ≠ t%"--") (t : ModuleTarget)
    (h : addModule cm target (l.flatMap BuildArgument.text) = some t) :
    (∃ c, parseCommandLine t.command = some c ∧
      c.options = { outputs := t.outputs, moduleName := target } ∧
      c.source = cm.absolute header ∧ c.buildPath = cm.buildDir ∧ c.extraArgs = [] ∧
      c.extraArgsBefore = [] ∧ c.command = none) ∧
    t.outputs.Nodup ∧ ∀ p ∈ t.outputs, AbsolutePath p ∧ p ≠ t%"-" := by
  obtain ⟨t', h', _, _, hcmd, _, _⟩ := C83_target_partial cm ok target l header count hl
  rw [h] at h'
  cases h'
  obtain ⟨hnd, hne, hout⟩ := target_outputs h
  have habs : ∀ p ∈ t.outputs, AbsolutePath p := by
    intro p hp
    obtain ⟨k, rfl⟩ := hout p hp
    exact bindingFile_absolute cm ok target k
  have hslash : ∀ p, AbsolutePath p → p ≠ t%"-" ∧ p ≠ t%"--" ∧ p.head? ≠ some '-' := by
    rintro p ⟨⟨rest, rfl⟩, _⟩
    exact ⟨by simp, by simp, by simp⟩
  refine ⟨?_, hnd, fun p hp => ⟨habs p hp, (hslash p (habs p hp)).1⟩⟩
  have hspell : SpelledOut (.value .buildPath cm.buildDir :: .value .moduleName target ::
      .source (cm.absolute header) :: t.outputs.map (Setting.value .output)) t.command := by
    rw [hcmd]
    exact .cons (now := [t%"-p", cm.buildDir]) (.separate (d := t%"-") (o := .buildPath) (.inl rfl) trivial)
      (.cons (now := [t%"--module-name", target])
        (.separate (d := t%"--") (o := .moduleName) (.inr rfl) trivial)
        (.cons (now := [cm.absolute header]) (.source (.inr (hslash _ (ok.absolute header)).2.2))
          (spelled_outputs t.outputs habs)))
  have hdash : t%"--" ∉ t.command := by
    rw [hcmd]
    intro hm
    rcases List.mem_append.1 hm with hm | hm
    · simp only [List.mem_cons, List.not_mem_nil, or_false] at hm
      rcases hm with e | e | e | e | e
      · exact absurd e (by decide)
      · exact (hslash _ ok.buildDir).2.1 e.symm
      · exact absurd e (by decide)
      · exact ht e.symm
      · exact (hslash _ (ok.absolute header)).2.1 e.symm
    · obtain ⟨p, _, e⟩ := List.mem_map.1 hm
      simp at e
  obtain ⟨h1, h2⟩ := C82_accepted t.command [] hdash (.inl rfl)
  rw [List.append_nil] at h1 h2
  have hv : ∀ o, o ≠ .output → (t.outputs.map (Setting.value .output)).filter (isValueOf o) = [] := by
    intro o ho
    rw [List.filter_eq_nil_iff]
    intro s hs
    obtain ⟨p, _, rfl⟩ := List.mem_map.1 hs
    simp only [isValueOf, decide_eq_true_eq]
    exact fun e => ho e.symm
  have hall : AllowedSettings (.value .buildPath cm.buildDir :: .value .moduleName target ::
      .source (cm.absolute header) :: t.outputs.map (Setting.value .output)) (cm.absolute header) := by
    refine ⟨?_, ?_, ?_, ?_⟩
    · rw [List.filter_cons_of_neg (by simp [isValueOf]), List.filter_cons_of_pos rfl,
        List.filter_cons_of_neg (by simp [isValueOf]), hv _ (by decide)]
      exact Nat.le_refl 1
    · rw [List.filter_cons_of_pos rfl, List.filter_cons_of_neg (by simp [isValueOf]),
        List.filter_cons_of_neg (by simp [isValueOf]), hv _ (by decide)]
      exact Nat.le_refl 1
    · intro o
      rw [List.filter_eq_nil_iff.2]
      · exact Nat.zero_le _
      · intro s hs
        simp only [List.mem_cons, List.mem_map] at hs
        rcases hs with rfl | rfl | rfl | ⟨p, _, rfl⟩ <;> simp [isFlagOf]
    · rw [List.filter_cons_of_neg (by simp [isSource]), List.filter_cons_of_neg (by simp [isSource]),
        List.filter_cons_of_pos rfl, List.filter_eq_nil_iff.2]
      intro s hs
      obtain ⟨p, _, rfl⟩ := List.mem_map.1 hs
      simp [isSource]
  obtain ⟨c, hc⟩ := h1.2 ⟨_, _, hspell, hall⟩
  obtain ⟨h3, h4, h5, _⟩ := h2 c _ hc hspell
  have hflag : ∀ o, Setting.flag o true ∉ (.value .buildPath cm.buildDir :: .value .moduleName target ::
      .source (cm.absolute header) :: t.outputs.map (Setting.value .output) : List Setting) := by
    intro o hm
    simp at hm
  have hinj : ∀ o (x y : List Str), x.map (Setting.value o) = y.map (Setting.value o) → x = y := by
    intro o x
    induction x with
    | nil =>
      intro y e
      cases y with
      | nil => rfl
      | cons b y => cases e
    | cons a x ih =>
      intro y e
      cases y with
      | nil => cases e
      | cons b y =>
        simp only [List.map_cons, List.cons.injEq, Setting.value.injEq, true_and] at e
        rw [e.1, ih y e.2]
  refine ⟨c, hc, ?_, ?_, ?_, ?_, ?_, h5 rfl⟩
  · have e1 : c.options.outputs = t.outputs := by
      apply hinj .output
      rw [h4.outputs, List.filter_cons_of_neg (by simp [isValueOf]),
        List.filter_cons_of_neg (by simp [isValueOf]), List.filter_cons_of_neg (by simp [isValueOf]),
        List.filter_eq_self]
      intro s hs
      obtain ⟨p, _, rfl⟩ := List.mem_map.1 hs
      rfl
    have e2 : c.options.moduleName = target := h4.moduleName target (by simp)
    have e3 : c.options.keepOutputFiles = false := by
      cases hk : c.options.keepOutputFiles with
      | false => rfl
      | true => exact absurd (h4.keepOutputFiles.1 hk) (hflag _)
    have e4 : c.options.expectFailure = false := by
      cases hk : c.options.expectFailure with
      | false => rfl
      | true => exact absurd (h4.expectFailure.1 hk) (hflag _)
    cases hopt : c.options with
    | mk a1 a2 a3 a4 =>
      rw [hopt] at e1 e2 e3 e4
      dsimp only at e1 e2 e3 e4
      rw [e1, e2, e3, e4]
  · have h6 := h3.source
    rw [hall.source] at h6
    simp only [List.cons.injEq, Setting.source.injEq, and_true] at h6
    exact h6.symm
  · exact h4.buildPath _ (by simp)
  · apply hinj .extraArg
    rw [h4.extraArgs, List.filter_cons_of_neg (by simp [isValueOf]),
        List.filter_cons_of_neg (by simp [isValueOf]), List.filter_cons_of_neg (by simp [isValueOf]),
        hv _ (by decide)]
    rfl
  · apply hinj .extraArgBefore
    rw [h4.extraArgsBefore, List.filter_cons_of_neg (by simp [isValueOf]),
        List.filter_cons_of_neg (by simp [isValueOf]), List.filter_cons_of_neg (by simp [isValueOf]),
        hv _ (by decide)]
    rfl

/-- C83: two ways of building a module that differ in the number of files (and in what is
passed to `pybind11_add_module`): the tool succeeds for both or none of them.  If it does, all
generated sources of the target exist, and the modules built from them behave the same when they
are imported. -/
theorem C83_count (cm : CMakeWorld) (ok : CMakeOK cm) (target : Str) (ht : target ≠ t%"--")
    (l l' : List BuildArgument) (header : Str) (count count' : Nat)
    (hl : BuildCall l header count) (hl' : BuildCall l' header count')
    (t t' : ModuleTarget) (h : addModule cm target (l.flatMap BuildArgument.text) = some t)
    (h' : addModule cm target (l'.flatMap BuildArgument.text) = some t')
    (i : ToolInput) (hok : InputOK i) (unit : CommandLine → ToolInput)
    (hu : ∀ c, c.source = cm.absolute header → c.buildPath = cm.buildDir → c.command = none →
      c.extraArgs = [] → c.extraArgsBefore = [] → unit c = i)
    (hc : ∀ k, i.creatable (bindingFile cm target k) = true)
    (files files' : Files) (r r' : ToolResult)
    (hr : runMain t.command unit files = some r) (hr' : runMain t'.command unit files' = some r') :
    r.exitCode = r'.exitCode ∧ r.diags = r'.diags ∧
    (r.exitCode = 0 → ∃ lines lines' : List (List Line),
      lines.length = count ∧ lines'.length = count' ∧
      (∀ k ls, lines[k]? = some ls → r.files (bindingFile cm target k) = some (fileText i ls)) ∧
      (∀ k ls, lines'[k]? = some ls → r'.files (bindingFile cm target k) = some (fileText i ls)) ∧
      codeOf lines = codeOf lines' ∧ importModule lines = importModule lines') := by
  have prep : ∀ (l : List BuildArgument) count (hl : BuildCall l header count) (t : ModuleTarget)
      (h : addModule cm target (l.flatMap BuildArgument.text) = some t) (files : Files) (r : ToolResult)
      (hr : runMain t.command unit files = some r),
      runTool { outputs := t.outputs, moduleName := target } i files = some r ∧
      (ToolOptions.outputFiles { outputs := t.outputs, moduleName := target }) = t.outputs ∧
      t.outputs.Nodup ∧ (∀ p ∈ t.outputs, i.creatable p = true) ∧ t.outputs.length = count ∧
      ∀ k, k < count → t.outputs[k]? = some (bindingFile cm target k) := by
    intro l count hl t h files r hr
    obtain ⟨⟨c, h1, h2, h3, h4, h5, h6, h7⟩, h8, _⟩ :=
      C83_command cm ok target l header count hl ht t h
    obtain ⟨t2, h9, h10, h11, _⟩ := C83_target_partial cm ok target l header count hl
    rw [h] at h9
    cases h9
    obtain ⟨_, hne, hout⟩ := target_outputs h
    unfold runMain at hr
    rw [h1] at hr
    dsimp only at hr
    rw [hu c h3 h4 h7 h5 h6, h2] at hr
    refine ⟨hr, ?_, h8, ?_, h10, h11⟩
    · unfold ToolOptions.outputFiles
      dsimp only
      rw [if_neg]
      simpa using hne
    · intro p hp
      obtain ⟨k, rfl⟩ := hout p hp
      exact hc k
  obtain ⟨p1, p2, p3, p4, p5, p6⟩ := prep l count hl t h files r hr
  obtain ⟨q1, q2, q3, q4, q5, q6⟩ := prep l' count' hl' t' h' files' r' hr'
  obtain ⟨e1, e2, e3⟩ := C81_run _ _ i hok files files' r r' p1 q1 rfl rfl (p2.symm ▸ p3) (q2.symm ▸ q3)
    (p2.symm ▸ p4) (q2.symm ▸ q4)
  refine ⟨e1, e2, fun h0 => ?_⟩
  obtain ⟨lines, lines', a1, a2, a3, a4, a5, a6⟩ := e3 rfl h0
  rw [p2, p5] at a1
  rw [q2, q5] at a2
  have hslash : ∀ k, bindingFile cm target k ≠ ['-'] := by
    intro k e
    obtain ⟨⟨rest, hr⟩, _⟩ := bindingFile_absolute cm ok target k
    rw [e] at hr
    cases hr
  refine ⟨lines, lines', a1, a2, ?_, ?_, a5, a6⟩
  · intro k ls hk
    have hlt : k < count := by
      rw [← a1]
      exact (List.getElem?_eq_some_iff.1 hk).1
    exact (a3 k _ ls (by rw [p2]; exact p6 k hlt) hk).1 (hslash k)
  · intro k ls hk
    have hlt : k < count' := by
      rw [← a2]
      exact (List.getElem?_eq_some_iff.1 hk).1
    exact (a4 k _ ls (by rw [q2]; exact q6 k hlt) hk).1 (hslash k)

/-- C83 (what is missing): the documentation of the function shows arguments for
`pybind11_add_module` after the number of files.  Written like this the configuration fails. -/
theorem C83_swallowed (cm : CMakeWorld) (ok : CMakeOK cm) (target header file : Str) (n : Nat) (hn : 0 < n)
    (hh : ¬ IsKeyword header) (hf : ¬ IsKeyword file) :
    addModule cm target [t%"HEADER", header, t%"NUM_BINDING_FILES", Nat.toDigits 10 n, file] = none := by
  have e : cmakeParseArguments .none {} [t%"HEADER", header, t%"NUM_BINDING_FILES", Nat.toDigits 10 n, file] =
      { header := some header, count := [Nat.toDigits 10 n, file] } := by
    rw [parse_cons, if_pos rfl, parse_step _ _ _ _ hh]
    dsimp only
    rw [parse_cons, if_neg (by decide), if_neg (by decide), if_pos rfl,
      parse_step _ _ _ _ (toDigits_keyword n)]
    dsimp only
    rw [parse_step _ _ _ _ hf]
    rfl
  unfold addModule
  rw [e]
  dsimp only
  rw [if_neg]
  · rw [show cmakeList [Nat.toDigits 10 n, file] = Nat.toDigits 10 n ++ ';' :: file from rfl,
      ok.indexList _ (by simp)]
  · rintro (h | h)
    · cases h
    · rw [show cmakeList [Nat.toDigits 10 n, file] = Nat.toDigits 10 n ++ ';' :: file from rfl,
        ok.lessList] at h
      simp at h
      omega

/-- C83 (what is missing): sources after libraries are taken for libraries, and are not
compiled. -/
theorem C83_not_compiled (cm : CMakeWorld) (ok : CMakeOK cm) (target header library file : Str)
    (hh : ¬ IsKeyword header) (hne : header ≠ []) (hl : ¬ IsKeyword library) (hf : ¬ IsKeyword file) :
    ∃ t, addModule cm target [t%"HEADER", header, t%"LINK_LIBRARIES", library, file] = some t ∧
      t.sources = t.outputs ∧ t.libraries = [library, file, t%"genpybind::genpybind"] := by
  have e : cmakeParseArguments .none {} [t%"HEADER", header, t%"LINK_LIBRARIES", library, file] =
      { header := some header, libraries := [library, file] } := by
    rw [parse_cons, if_pos rfl, parse_step _ _ _ _ hh]
    dsimp only
    rw [parse_cons, if_neg (by decide), if_pos rfl, parse_step _ _ _ _ hl]
    dsimp only
    rw [parse_step _ _ _ _ hf]
    rfl
  unfold addModule
  rw [e]
  dsimp only
  rw [if_pos (.inl rfl), show cm.lastIndex t%"1" = some 0 from ok.index 0]
  cases header with
  | nil => exact absurd rfl hne
  | cons c header => exact ⟨_, rfl, by simp, rfl⟩

/-- C83: a header is required. -/
theorem C83_no_header (cm : CMakeWorld) (target : Str) (l : List BuildArgument)
    (hok : ∀ a ∈ l, a.OK) (hd : Delimited l) (hh : headersOf l = []) :
    addModule cm target (l.flatMap BuildArgument.text) = none := by
  have hp := parse_call l .none {} hok hd fun h => absurd rfl h
  rw [hh] at hp
  unfold addModule
  rw [hp]
  dsimp only [List.foldl_nil]
  split <;> first | rfl | contradiction

/-- CMake, for numbers and lists of numbers. -/
def exCMake : CMakeWorld where
  buildDir := t%"/build"
  binaryDir := t%"/build/sub"
  absolute := fun p => t%"/source/" ++ p
  lessThanOne := fun s => fromDigits (s.takeWhile (·.isDigit)) < 1
  lastIndex := fun s => if s.all (·.isDigit) ∧ 0 < fromDigits s then some (fromDigits s - 1) else none

theorem takeWhile_digits (n : Nat) (rest : Str) : (Nat.toDigits 10 n ++ rest).takeWhile (·.isDigit) =
    Nat.toDigits 10 n ++ rest.takeWhile (·.isDigit) := by
  have h : ∀ c ∈ Nat.toDigits 10 n, c.isDigit = true :=
    fun c hc => Nat.isDigit_of_mem_toDigits (by omega) (by omega) hc
  revert h
  generalize Nat.toDigits 10 n = l
  intro h
  induction l with
  | nil => rfl
  | cons c l ih =>
    rw [List.cons_append, List.takeWhile_cons_of_pos (h c List.mem_cons_self),
      ih fun d hd => h d (List.mem_cons_of_mem _ hd), List.cons_append]

theorem exCMake_ok : CMakeOK exCMake where
  absolute := by
    intro p
    refine ⟨⟨t%"source/" ++ p, rfl⟩, ?_⟩
    rintro ⟨host, e, _⟩
    injection e with _ e
    injection e with e _
    exact absurd e (by decide)
  buildDir := by
    refine ⟨⟨t%"build", rfl⟩, ?_⟩
    rintro ⟨host, e, _⟩
    injection e with _ e
    injection e with e _
    exact absurd e (by decide)
  binaryDir := by
    refine ⟨⟨t%"build/sub", rfl⟩, ?_⟩
    rintro ⟨host, e, _⟩
    injection e with _ e
    injection e with e _
    exact absurd e (by decide)
  notRoot := by decide
  less := by
    intro n
    have : (Nat.toDigits 10 n).takeWhile (·.isDigit) = Nat.toDigits 10 n := by
      simpa using takeWhile_digits n []
    show decide (fromDigits ((Nat.toDigits 10 n).takeWhile (·.isDigit)) < 1) = _
    rw [this, fromDigits_toDigits]
  index := by
    intro n
    show (if (Nat.toDigits 10 (n + 1)).all (·.isDigit) = true ∧ 0 < fromDigits (Nat.toDigits 10 (n + 1)) then
      some (fromDigits (Nat.toDigits 10 (n + 1)) - 1) else none) = some n
    rw [fromDigits_toDigits, if_pos]
    · rfl
    · refine ⟨List.all_eq_true.2 fun c hc => Nat.isDigit_of_mem_toDigits (by omega) (by omega) hc, by omega⟩
  lessList := by
    intro n rest
    have : (Nat.toDigits 10 n ++ ';' :: rest).takeWhile (·.isDigit) = Nat.toDigits 10 n := by
      simpa using takeWhile_digits n (';' :: rest)
    show decide (fromDigits ((Nat.toDigits 10 n ++ ';' :: rest).takeWhile (·.isDigit)) < 1) = _
    rw [this, fromDigits_toDigits]
  indexList := by
    intro text h
    show (if text.all (·.isDigit) = true ∧ 0 < fromDigits text then some (fromDigits text - 1) else none) = none
    rw [if_neg]
    rintro ⟨ha, _⟩
    exact absurd (List.all_eq_true.1 ha _ h) (by decide)

/-- C83: the use in the README, and with several files. -/
example : BuildCall [.other [t%"MODULE"], .header t%"x.h", .other [t%"a.cpp", t%"b.cpp"]] t%"x.h" 1 ∧
    BuildCall [.other [t%"MODULE"], .libraries [t%"lib"], .count 3, .header t%"x.h"] t%"x.h" 3 := by
  constructor
  · refine ⟨?_, trivial, rfl, .inl ⟨rfl, rfl⟩⟩
    intro a ha
    simp only [List.mem_cons, List.not_mem_nil, or_false] at ha
    rcases ha with rfl | rfl | rfl
    · exact ⟨by simp, by simp [IsKeyword]⟩
    · exact ⟨by simp [IsKeyword], by simp⟩
    · exact ⟨by simp, by simp [IsKeyword]⟩
  · refine ⟨?_, trivial, rfl, .inr ⟨3, rfl, rfl⟩⟩
    intro a ha
    simp only [List.mem_cons, List.not_mem_nil, or_false] at ha
    rcases ha with rfl | rfl | rfl | rfl
    · exact ⟨by simp, by simp [IsKeyword]⟩
    · simp [BuildArgument.OK, IsKeyword]
    · trivial
    · exact ⟨by simp [IsKeyword], by simp⟩

example : (addModule exCMake t%"m" [t%"MODULE", t%"HEADER", t%"x.h", t%"a.cpp"]).map (·.sources) =
    some [t%"/build/sub/genpybind-m-0.cpp", t%"MODULE", t%"a.cpp"] := by decide +kernel

end Verif
