import Verif.Spec.Options
import Verif.Props.Split
/-!
# C82: the command line
-/
namespace Verif
open Spec

theorem splitEquals_spec (s : Str) :
    ((splitEquals s).2 = none ∧ (splitEquals s).1 = s ∨
      ∃ t, (splitEquals s).2 = some t ∧ s = (splitEquals s).1 ++ '=' :: t) ∧
    '=' ∉ (splitEquals s).1 := by
  induction s with
  | nil => exact ⟨.inl ⟨rfl, rfl⟩, by simp [splitEquals]⟩
  | cons c s ih =>
    unfold splitEquals
    split
    · next h => exact ⟨.inr ⟨s, rfl, by rw [h]; rfl⟩, by simp⟩
    · next h =>
      refine ⟨?_, ?_⟩
      · rcases ih.1 with ⟨h1, h2⟩ | ⟨t, h1, h2⟩
        · exact .inl ⟨h1, by simp only [h2]⟩
        · refine .inr ⟨t, h1, ?_⟩
          simp only [List.cons_append]
          rw [← h2]
      · simp only [List.mem_cons, not_or]
        exact ⟨fun e => h e.symm, ih.2⟩

theorem splitEquals_plain (name : Str) (h : '=' ∉ name) : splitEquals name = (name, none) := by
  induction name with
  | nil => rfl
  | cons c s ih =>
    have h' : ¬ '=' = c ∧ '=' ∉ s := by
      rw [List.mem_cons, not_or] at h
      exact h
    unfold splitEquals
    rw [if_neg fun e => h'.1 e.symm, ih h'.2]

theorem splitEquals_joined (name text : Str) (h : '=' ∉ name) :
    splitEquals (name ++ '=' :: text) = (name, some text) := by
  induction name with
  | nil => simp [splitEquals]
  | cons c s ih =>
    have h' : ¬ '=' = c ∧ '=' ∉ s := by
      rw [List.mem_cons, not_or] at h
      exact h
    rw [List.cons_append]
    unfold splitEquals
    rw [if_neg fun e => h'.1 e.symm, ih h'.2]

theorem lookup_value (o : ValueOption) : lookupOption (valueOptionName o) = some (.value o) := by
  cases o <;> rfl

theorem lookup_flag (o : FlagOption) : lookupOption (flagOptionName o) = some (.flag o) := by
  cases o <;> rfl

theorem ite_cases {α : Type} {p : Prop} [Decidable p] {a b c : α} (h : (if p then a else b) = c) :
    p ∧ a = c ∨ ¬ p ∧ b = c := by
  by_cases hp : p
  · exact .inl ⟨hp, (if_pos hp).symm.trans h⟩
  · exact .inr ⟨hp, (if_neg hp).symm.trans h⟩

/-- Only the names in the table are found. -/
theorem lookup_name (name : Str) (k : OptionKind) (h : lookupOption name = some k) :
    (∃ o, k = .value o ∧ name = valueOptionName o) ∨ ∃ o, k = .flag o ∧ name = flagOptionName o := by
  unfold lookupOption at h
  iterate 11
    rcases ite_cases h with ⟨rfl, h⟩ | ⟨_, h⟩
    · cases h
      first
        | exact .inl ⟨_, rfl, rfl⟩
        | exact .inr ⟨_, rfl, rfl⟩
  cases h

theorem valueName_plain (o : ValueOption) : '=' ∉ valueOptionName o := by cases o <;> decide
theorem flagName_plain (o : FlagOption) : '=' ∉ flagOptionName o := by cases o <;> decide

/-- Names neither are empty nor start with a dash. -/
theorem valueName_head (o : ValueOption) : ∃ c s, valueOptionName o = c :: s ∧ c ≠ '-' := by
  cases o <;> exact ⟨_, _, rfl, by decide⟩
theorem flagName_head (o : FlagOption) : ∃ c s, flagOptionName o = c :: s ∧ c ≠ '-' := by
  cases o <;> exact ⟨_, _, rfl, by decide⟩

theorem optionBody_dash (d : Str) (hd : IsDash d) (c : Char) (s : Str) (hc : c ≠ '-') :
    optionBody (d ++ c :: s) = some (c :: s) := by
  rcases hd with rfl | rfl
  · show optionBody ('-' :: c :: s) = _
    unfold optionBody
    split
    · next h => injection h with _ h; injection h with h _; exact absurd h hc
    · next h =>
      injection h with _ h
      rw [h]
    · next h1 h2 => exact absurd rfl (h2 c s)
  · rfl

theorem optionBody_none (arg : Str) : optionBody arg = none ↔ (arg = t%"-" ∨ arg.head? ≠ some '-') := by
  unfold optionBody
  split
  · simp
  · simp
  · next h1 h2 =>
    simp only [true_iff]
    cases arg with
    | nil => exact .inr (by simp)
    | cons c s =>
      by_cases hc : c = '-'
      · subst hc
        cases s with
        | nil => exact .inl rfl
        | cons c s => exact absurd rfl (h2 c s)
      · exact .inr (by simpa using hc)

theorem optionBody_some (arg body : Str) (h : optionBody arg = some body) :
    ∃ d, IsDash d ∧ arg = d ++ body := by
  unfold optionBody at h
  split at h
  · cases h
    exact ⟨_, .inr rfl, rfl⟩
  · cases h
    exact ⟨_, .inl rfl, rfl⟩
  · cases h

theorem absolute_iff (p : Str) : isAbsolutePath p = true ↔ AbsolutePath p := by
  unfold isAbsolutePath AbsolutePath
  split
  · next c rest =>
    simp only [Bool.or_eq_true, decide_eq_true_eq, List.contains_iff_mem]
    constructor
    · intro h
      refine ⟨⟨_, rfl⟩, ?_⟩
      rintro ⟨host, e, _, hn⟩
      injection e with _ e
      injection e with _ e
      subst e
      rcases h with h | h
      · exact hn (by rw [h]; exact List.mem_cons_self)
      · exact hn (List.mem_cons_of_mem _ h)
    · rintro ⟨_, h⟩
      false_or_by_contra
      rename_i hn
      rw [not_or] at hn
      refine h ⟨c :: rest, rfl, by simp, ?_⟩
      rw [List.mem_cons, not_or]
      exact ⟨fun e => hn.1 e.symm, hn.2⟩
  · next rest hne =>
    simp only [true_iff]
    refine ⟨⟨_, rfl⟩, ?_⟩
    rintro ⟨host, e, hh, _⟩
    injection e with _ e
    cases host with
    | nil => exact hh rfl
    | cons c host => exact hne c host e
  · next h1 h2 =>
    simp only [Bool.false_eq_true, false_iff]
    rintro ⟨⟨rest, rfl⟩, _⟩
    exact h2 rest rfl

theorem accepts_iff (o : ValueOption) (text : Str) : acceptsValue o text = true ↔ ValueOK o text := by
  cases o <;> simp [acceptsValue, ValueOK, absolute_iff]

theorem parseFlag_iff (word : Str) (on : Bool) : parseFlag word = some on ↔ FlagWord on word := by
  unfold parseFlag FlagWord
  cases on <;>
  · simp only [List.mem_cons, List.not_mem_nil, or_false, if_true, Bool.false_eq_true, if_false]
    split
    · next h => 
      simp only [Option.some.injEq]
      rcases h with rfl | rfl | rfl | rfl | rfl <;> simp
    · next h =>
      split
      · next h' => 
        simp only [Option.some.injEq]
        rcases h' with rfl | rfl | rfl | rfl <;> simp
      · next h' => simp_all

/-- C82: arguments are accepted exactly if they are options written in one of the
documented ways, or inputs, and then mean that. -/
theorem C82_read (args : List Str) (l : List Setting) :
    parseSettings args = some l ↔ SpelledOut l args := by
  constructor
  · revert l
    suffices h : ∀ n (args : List Str), args.length ≤ n → ∀ l, parseSettings args = some l →
        SpelledOut l args from h args.length args (Nat.le_refl _)
    intro n
    induction n with
    | zero =>
      intro args hn l h
      cases args with
      | nil =>
        cases h
        exact .nil
      | cons a args => exact absurd hn (by simp)
    | succ n ih =>
      intro args hn l h
      cases args with
      | nil =>
        cases h
        exact .nil
      | cons arg args =>
        have hlen : args.length ≤ n := by simpa using hn
        unfold parseSettings at h
        cases hb : optionBody arg with
        | none =>
          rw [hb] at h
          dsimp only at h
          obtain ⟨l', hl', rfl⟩ := Option.map_eq_some_iff.1 h
          exact .cons (now := [arg]) (.source ((optionBody_none arg).1 hb)) (ih args hlen l' hl')
        | some body =>
          rw [hb] at h
          dsimp only at h
          obtain ⟨d, hd, rfl⟩ := optionBody_some arg body hb
          have hsp := (splitEquals_spec body).1
          cases hk : lookupOption (splitEquals body).1 with
          | none =>
            rw [hk] at h
            cases h
          | some k =>
            rw [hk] at h
            cases k with
            | flag o =>
              have hname : (splitEquals body).1 = flagOptionName o := by
                rcases lookup_name _ _ hk with ⟨_, e, _⟩ | ⟨o', e, hn⟩
                · cases e
                · cases e
                  exact hn
              dsimp only at h
              cases hf : parseFlag ((splitEquals body).2.getD []) with
              | none =>
                rw [hf] at h
                cases h
              | some on =>
                rw [hf] at h
                dsimp only at h
                obtain ⟨l', hl', rfl⟩ := Option.map_eq_some_iff.1 h
                rcases hsp with ⟨h1, h2⟩ | ⟨t, h1, h2⟩
                · rw [h1] at hf
                  rw [← h2, hname]
                  cases hf
                  exact .cons (now := [d ++ flagOptionName o]) (.plain hd) (ih args hlen l' hl')
                · rw [h1] at hf
                  rw [h2, hname, ← List.append_assoc]
                  exact .cons (now := [d ++ flagOptionName o ++ '=' :: t])
                    (.worded hd ((parseFlag_iff _ _).1 hf)) (ih args hlen l' hl')
            | value o =>
              have hname : (splitEquals body).1 = valueOptionName o := by
                rcases lookup_name _ _ hk with ⟨o', e, hn⟩ | ⟨_, e, _⟩
                · cases e
                  exact hn
                · cases e
              rcases hsp with ⟨h1, h2⟩ | ⟨t, h1, h2⟩
              · rw [h1] at h
                dsimp only at h
                cases args with
                | nil => cases h
                | cons text args =>
                  dsimp only at h
                  rcases ite_cases h with ⟨hv, h⟩ | ⟨_, h⟩
                  · obtain ⟨l', hl', rfl⟩ := Option.map_eq_some_iff.1 h
                    rw [← h2, hname]
                    exact .cons (now := [d ++ valueOptionName o, text])
                      (.separate hd ((accepts_iff _ _).1 hv)) (ih args (by simp at hlen; omega) l' hl')
                  · cases h
              · rw [h1] at h
                dsimp only at h
                rcases ite_cases h with ⟨hv, h⟩ | ⟨_, h⟩
                · obtain ⟨l', hl', rfl⟩ := Option.map_eq_some_iff.1 h
                  rw [h2, hname, ← List.append_assoc]
                  exact .cons (now := [d ++ valueOptionName o ++ '=' :: t])
                    (.joined hd ((accepts_iff _ _).1 hv)) (ih args hlen l' hl')
                · cases h
  · intro h
    induction h with
    | nil => rfl
    | cons hs _ ih =>
      cases hs with
      | @joined d o text hd hv =>
        obtain ⟨c, s, e, hc⟩ := valueName_head o
        have hb : optionBody (d ++ valueOptionName o ++ '=' :: text) =
            some (valueOptionName o ++ '=' :: text) := by
          rw [List.append_assoc, e, List.cons_append]
          exact optionBody_dash d hd c _ hc
        rw [List.cons_append, List.nil_append]
        unfold parseSettings
        rw [hb]
        dsimp only
        rw [splitEquals_joined _ _ (valueName_plain o)]
        dsimp only
        rw [lookup_value]
        dsimp only
        rw [if_pos ((accepts_iff _ _).2 hv), ih]
        rfl
      | @separate d o text hd hv =>
        obtain ⟨c, s, e, hc⟩ := valueName_head o
        have hb : optionBody (d ++ valueOptionName o) = some (valueOptionName o) := by
          rw [e]
          exact optionBody_dash d hd c _ hc
        rw [List.cons_append, List.cons_append, List.nil_append]
        unfold parseSettings
        rw [hb]
        dsimp only
        rw [splitEquals_plain _ (valueName_plain o)]
        dsimp only
        rw [lookup_value]
        dsimp only
        rw [if_pos ((accepts_iff _ _).2 hv), ih]
        rfl
      | @plain d o hd =>
        obtain ⟨c, s, e, hc⟩ := flagName_head o
        have hb : optionBody (d ++ flagOptionName o) = some (flagOptionName o) := by
          rw [e]
          exact optionBody_dash d hd c _ hc
        rw [List.cons_append, List.nil_append]
        unfold parseSettings
        rw [hb]
        dsimp only
        rw [splitEquals_plain _ (flagName_plain o)]
        dsimp only
        rw [lookup_flag]
        dsimp only
        rw [show parseFlag ((none : Option Str).getD []) = some true from rfl]
        dsimp only
        rw [ih]
        rfl
      | @worded d o on word hd hw =>
        obtain ⟨c, s, e, hc⟩ := flagName_head o
        have hb : optionBody (d ++ flagOptionName o ++ '=' :: word) =
            some (flagOptionName o ++ '=' :: word) := by
          rw [List.append_assoc, e, List.cons_append]
          exact optionBody_dash d hd c _ hc
        rw [List.cons_append, List.nil_append]
        unfold parseSettings
        rw [hb]
        dsimp only
        rw [splitEquals_joined _ _ (flagName_plain o)]
        dsimp only
        rw [lookup_flag]
        dsimp only
        rw [show parseFlag ((some word).getD []) = some on from (parseFlag_iff _ _).2 hw]
        dsimp only
        rw [ih]
        rfl
      | @source path hp =>
        rw [List.cons_append, List.nil_append]
        unfold parseSettings
        rw [(optionBody_none path).2 hp]
        dsimp only
        rw [ih]
        rfl

/-- The values of an option. -/
theorem valuesOf_filter (o : ValueOption) (l : List Setting) :
    (valuesOf o l).map (Setting.value o) = l.filter (isValueOf o) := by
  unfold valuesOf
  induction l with
  | nil => rfl
  | cons s l ih =>
    cases s with
    | value o' t =>
      by_cases h : o' = o
      · subst h
        rw [List.filterMap_cons_some (b := t) (by simp), List.map_cons, ih,
          List.filter_cons_of_pos (by simp [isValueOf])]
      · rw [List.filterMap_cons_none (by simp [h]), ih, List.filter_cons_of_neg (by simp [isValueOf, h])]
    | flag o' b => rw [List.filterMap_cons_none rfl, ih, List.filter_cons_of_neg (by simp [isValueOf])]
    | source x => rw [List.filterMap_cons_none rfl, ih, List.filter_cons_of_neg (by simp [isValueOf])]

/-- The occurrences of a flag. -/
theorem flagsOf_filter (o : FlagOption) (l : List Setting) :
    (flagsOf o l).map (Setting.flag o) = l.filter (isFlagOf o) := by
  unfold flagsOf
  induction l with
  | nil => rfl
  | cons s l ih =>
    cases s with
    | flag o' b =>
      by_cases h : o' = o
      · subst h
        rw [List.filterMap_cons_some (b := b) (by simp), List.map_cons, ih,
          List.filter_cons_of_pos (by simp [isFlagOf])]
      · rw [List.filterMap_cons_none (by simp [h]), ih, List.filter_cons_of_neg (by simp [isFlagOf, h])]
    | value o' b => rw [List.filterMap_cons_none rfl, ih, List.filter_cons_of_neg (by simp [isFlagOf])]
    | source x => rw [List.filterMap_cons_none rfl, ih, List.filter_cons_of_neg (by simp [isFlagOf])]

/-- The inputs. -/
theorem sourcesOf_filter (l : List Setting) :
    (sourcesOf l).map Setting.source = l.filter isSource := by
  unfold sourcesOf
  induction l with
  | nil => rfl
  | cons s l ih =>
    cases s with
    | source x =>
      rw [List.filter_cons_of_pos rfl, ← ih]
      rfl
    | value o' b => rw [List.filterMap_cons_none rfl, ih, List.filter_cons_of_neg (by simp [isSource])]
    | flag o' b => rw [List.filterMap_cons_none rfl, ih, List.filter_cons_of_neg (by simp [isSource])]

theorem mem_valuesOf (o : ValueOption) (l : List Setting) (t : Str) :
    t ∈ valuesOf o l ↔ Setting.value o t ∈ l := by
  unfold valuesOf
  rw [List.mem_filterMap]
  constructor
  · rintro ⟨s, hs, h⟩
    cases s with
    | value o' t' =>
      by_cases e : o' = o
      · subst e
        simp at h
        subst h
        exact hs
      · simp [e] at h
    | flag _ _ => cases h
    | source _ => cases h
  · intro h
    exact ⟨_, h, by simp⟩

theorem mem_flagsOf (o : FlagOption) (l : List Setting) (b : Bool) :
    b ∈ flagsOf o l ↔ Setting.flag o b ∈ l := by
  unfold flagsOf
  rw [List.mem_filterMap]
  constructor
  · rintro ⟨s, hs, h⟩
    cases s with
    | flag o' t' =>
      by_cases e : o' = o
      · subst e
        simp at h
        subst h
        exact hs
      · simp [e] at h
    | value _ _ => cases h
    | source _ => cases h
  · intro h
    exact ⟨_, h, by simp⟩

/-- If there is at most one value, it is the one in effect. -/
theorem headD_once {α : Type} (l : List α) (d : α) (h : l.length ≤ 1) (x : α) (hx : x ∈ l) :
    l.headD d = x := by
  match l, h with
  | [], _ => cases hx
  | [y], _ => rw [List.mem_singleton.1 hx]; rfl

theorem headD_flag (l : List Bool) (h : l.length ≤ 1) : l.headD false = true ↔ true ∈ l := by
  match l, h with
  | [], _ => simp
  | [y], _ => simp [eq_comm]

/-- What precedes `--`. -/
theorem own_args (own tail : List Str) (ho : t%"--" ∉ own) (ht : tail = [] ∨ ∃ c, tail = t%"--" :: c) :
    (own ++ tail).takeWhile (· ≠ t%"--") = own ∧
    (if (own ++ tail).contains t%"--" then
      some (((own ++ tail).dropWhile (· ≠ t%"--")).drop 1) else none) =
      (if tail = [] then none else some (tail.drop 1)) := by
  induction own with
  | nil =>
    rcases ht with rfl | ⟨c, rfl⟩
    · exact ⟨rfl, rfl⟩
    · refine ⟨by simp, ?_⟩
      rw [if_pos (by simp), if_neg (by simp)]
      simp
  | cons a own ih =>
    rw [List.mem_cons, not_or] at ho
    have := ih ho.2
    have hne : a ≠ t%"--" := fun e => ho.1 e.symm
    refine ⟨?_, ?_⟩
    · rw [List.cons_append, List.takeWhile_cons_of_pos (by simpa using hne), this.1]
    · rw [← this.2, List.cons_append, List.dropWhile_cons_of_pos (by simpa using hne)]
      have : (a :: (own ++ tail)).contains t%"--" = (own ++ tail).contains t%"--" := by
        rw [List.contains_cons]
        have : (t%"--" == a) = false := by simpa using ho.1
        rw [this, Bool.false_or]
      rw [this]

/-- C82: a command line is accepted exactly if it consists of options in one of the
documented ways of writing them, no option is repeated for which this makes no sense, and
there is one input.  The settings are then in effect, and everything after the first `--` is
the compilation command. -/
theorem C82_accepted (own tail : List Str) (ho : t%"--" ∉ own)
    (ht : tail = [] ∨ ∃ command, tail = t%"--" :: command) :
    ((∃ c, parseCommandLine (own ++ tail) = some c) ↔
      ∃ l source, SpelledOut l own ∧ AllowedSettings l source) ∧
    ∀ c l, parseCommandLine (own ++ tail) = some c → SpelledOut l own →
      AllowedSettings l c.source ∧ InEffect c l ∧
      (tail = [] → c.command = none) ∧ ∀ command, tail = t%"--" :: command → c.command = some command := by
  obtain ⟨hown, hcmd⟩ := own_args own tail ho ht
  have hvl : ∀ o l, (l.filter (isValueOf o)).length = (valuesOf o l).length := by
    intro o l
    rw [← valuesOf_filter o l, List.length_map]
  have hfl : ∀ o l, (l.filter (isFlagOf o)).length = (flagsOf o l).length := by
    intro o l
    rw [← flagsOf_filter, List.length_map]
  have hallowed : ∀ l x, AllowedSettings l x ↔ (valuesOf .moduleName l).length ≤ 1 ∧
      (valuesOf .buildPath l).length ≤ 1 ∧ (∀ o, (flagsOf o l).length ≤ 1) ∧ sourcesOf l = [x] := by
    intro l x
    constructor
    · rintro ⟨h1, h2, h3, h4⟩
      rw [hvl] at h1
      rw [hvl] at h2
      refine ⟨h1, h2, fun o => ?_, ?_⟩
      · have := h3 o
        rw [hfl] at this
        exact this
      · rw [← sourcesOf_filter] at h4
        cases hs : sourcesOf l with
        | nil => rw [hs] at h4; cases h4
        | cons a m =>
          rw [hs] at h4
          cases m with
          | nil =>
            simp only [List.map_cons, List.map_nil, List.cons.injEq, Setting.source.injEq, and_true] at h4
            rw [h4]
          | cons b m => simp at h4
    · rintro ⟨h1, h2, h3, h4⟩
      refine ⟨(hvl _ l).symm ▸ h1, (hvl _ l).symm ▸ h2, fun o => (hfl o l).symm ▸ h3 o, ?_⟩
      rw [← sourcesOf_filter, h4]
      rfl
  have hcond : ∀ l, ((valuesOf .moduleName l).length > 1 || (valuesOf .buildPath l).length > 1 ||
       (flagsOf .dumpAst l).length > 1 || (flagsOf .keepOutputFiles l).length > 1 ||
       (flagsOf .expectFailure l).length > 1 || (flagsOf .verbose l).length > 1) = false ↔
      ((valuesOf .moduleName l).length ≤ 1 ∧ (valuesOf .buildPath l).length ≤ 1 ∧
        ∀ o, (flagsOf o l).length ≤ 1) := by
    intro l
    simp only [Bool.or_eq_false_iff, decide_eq_false_iff_not, Nat.not_lt, gt_iff_lt]
    constructor
    · rintro ⟨⟨⟨⟨⟨h1, h2⟩, h3⟩, h4⟩, h5⟩, h6⟩
      exact ⟨h1, h2, fun o => by cases o <;> assumption⟩
    · rintro ⟨h1, h2, h3⟩
      exact ⟨⟨⟨⟨⟨h1, h2⟩, h3 _⟩, h3 _⟩, h3 _⟩, h3 _⟩
  constructor
  · constructor
    · rintro ⟨c, hc⟩
      unfold parseCommandLine at hc
      rw [hown] at hc
      cases hp : parseSettings own with
      | none => rw [hp] at hc; cases hc
      | some l =>
        rw [hp] at hc
        dsimp only at hc
        rcases ite_cases hc with ⟨_, hc⟩ | ⟨hn, hc⟩
        · cases hc
        · have hn' := (hcond l).1 (by simpa using hn)
          split at hc
          · next x hx =>
            exact ⟨l, x, (C82_read own l).1 hp, (hallowed l x).2 ⟨hn'.1, hn'.2.1, hn'.2.2, hx⟩⟩
          · cases hc
    · rintro ⟨l, x, hl, ha⟩
      obtain ⟨h1, h2, h3, h4⟩ := (hallowed l x).1 ha
      unfold parseCommandLine
      rw [hown, (C82_read own l).2 hl]
      dsimp only
      rw [if_neg (by rw [(hcond l).2 ⟨h1, h2, h3⟩]; simp), h4]
      exact ⟨_, rfl⟩
  · intro c l hc hl
    unfold parseCommandLine at hc
    rw [hcmd, hown, (C82_read own l).2 hl] at hc
    dsimp only at hc
    rcases ite_cases hc with ⟨_, hc⟩ | ⟨hn, hc⟩
    · cases hc
    · obtain ⟨h1, h2, h3⟩ := (hcond l).1 (by simpa using hn)
      split at hc
      · next x hx =>
        cases hc
        refine ⟨(hallowed l x).2 ⟨h1, h2, h3, hx⟩, ?_, ?_, ?_⟩
        · constructor
          · exact valuesOf_filter _ l
          · intro n hn
            exact headD_once _ _ h1 n ((mem_valuesOf _ _ _).2 hn)
          · intro hn
            have : valuesOf .moduleName l = [] := by
              rw [List.eq_nil_iff_forall_not_mem]
              exact fun t ht => hn t ((mem_valuesOf _ _ _).1 ht)
            dsimp only
            rw [this]
            rfl
          · exact (headD_flag _ (h3 _)).trans (mem_flagsOf _ _ _)
          · exact (headD_flag _ (h3 _)).trans (mem_flagsOf _ _ _)
          · exact (headD_flag _ (h3 _)).trans (mem_flagsOf _ _ _)
          · exact (headD_flag _ (h3 _)).trans (mem_flagsOf _ _ _)
          · exact valuesOf_filter _ l
          · exact valuesOf_filter _ l
          · intro n hn
            exact headD_once _ _ h2 n ((mem_valuesOf _ _ _).2 hn)
          · intro hn
            have : valuesOf .buildPath l = [] := by
              rw [List.eq_nil_iff_forall_not_mem]
              exact fun t ht => hn t ((mem_valuesOf _ _ _).1 ht)
            dsimp only
            rw [this]
            rfl
          · exact valuesOf_filter _ l
          · exact valuesOf_filter _ l
        · intro e
          dsimp only
          rw [if_pos e]
        · intro command e
          dsimp only
          rw [e, if_neg (by simp)]
          rfl
      · cases hc

/-- Output files in what has been read. -/
theorem outputs_ok (own : List Str) (l : List Setting) (h : SpelledOut l own) :
    ∀ p, Setting.value .output p ∈ l → p = t%"-" ∨ AbsolutePath p := by
  induction h with
  | nil => intro p hp; cases hp
  | cons hs _ ih =>
    intro p hp
    rcases List.mem_cons.1 hp with rfl | hp
    · cases hs with
      | joined _ hv => exact hv
      | separate _ hv => exact hv
    · exact ih p hp

/-- Every command line consists of two parts. -/
theorem own_exists (args : List Str) : ∃ own tail, args = own ++ tail ∧ t%"--" ∉ own ∧
    (tail = [] ∨ ∃ command, tail = t%"--" :: command) := by
  induction args with
  | nil => exact ⟨[], [], rfl, by simp, .inl rfl⟩
  | cons a args ih =>
    by_cases ha : a = t%"--"
    · exact ⟨[], a :: args, rfl, by simp, .inr ⟨args, by rw [ha]⟩⟩
    · obtain ⟨own, tail, rfl, h1, h2⟩ := ih
      refine ⟨a :: own, tail, rfl, ?_, h2⟩
      rw [List.mem_cons, not_or]
      exact ⟨fun e => ha e.symm, h1⟩

/-- C82: files are only written to absolute paths, which mean the same in every directory. -/
theorem C82_absolute (args : List Str) (c : CommandLine) (hc : parseCommandLine args = some c) :
    ∀ p ∈ c.options.outputFiles, p = t%"-" ∨ AbsolutePath p := by
  obtain ⟨own, tail, rfl, ho, ht⟩ := own_exists args
  obtain ⟨h1, h2⟩ := C82_accepted own tail ho ht
  obtain ⟨l, x, hl, _⟩ := h1.1 ⟨c, hc⟩
  have he := (h2 c l hc hl).2.1.outputs
  have key : ∀ p ∈ c.options.outputs, p = t%"-" ∨ AbsolutePath p := by
    intro p hp
    refine outputs_ok own l hl p ?_
    have : Setting.value .output p ∈ l.filter (isValueOf .output) := by
      rw [← he]
      exact List.mem_map.2 ⟨p, hp, rfl⟩
    exact (List.mem_filter.1 this).1
  intro p hp
  unfold ToolOptions.outputFiles at hp
  split at hp
  · exact .inl (List.mem_singleton.1 hp)
  · exact key p hp

/-- C82: if the command line is not accepted the tool fails and nothing is written, even if
failure is expected. -/
theorem C82_rejected (args : List Str) (unit : CommandLine → ToolInput) (files : Files)
    (hc : parseCommandLine args = none) :
    ∃ r, runMain args unit files = some r ∧ r.exitCode = 1 ∧ r.files = files ∧ r.printed = [] := by
  unfold runMain
  rw [hc]
  exact ⟨_, rfl, rfl, rfl, rfl⟩

/-- A command line with a compilation command. -/
def exArguments : List Str := [t%"-p", t%"build", t%"--module-name=m", t%"-o=/a", t%"x.h", t%"--xfail=0",
  t%"-o", t%"/b", t%"--", t%"-I.", t%"-o", t%"c"]

/-- C82: it is accepted. -/
example : (parseCommandLine exArguments).map (fun c => (c.options.outputs, c.options.moduleName, c.source)) =
      some ([t%"/a", t%"/b"], t%"m", t%"x.h") ∧
    (parseCommandLine exArguments).map (fun c => (c.options.expectFailure, c.buildPath, c.command)) =
      some (false, t%"build", some [t%"-I.", t%"-o", t%"c"]) := by
  constructor <;> decide +kernel

example : ∃ l source, SpelledOut l (exArguments.take 8) ∧ AllowedSettings l source ∧
    t%"--" ∉ exArguments.take 8 := by
  refine ⟨[.value .buildPath t%"build", .value .moduleName t%"m", .value .output t%"/a", .source t%"x.h",
    .flag .expectFailure false, .value .output t%"/b"], t%"x.h", ?_, ?_, by decide +kernel⟩
  · exact (C82_read _ _).1 (by decide +kernel)
  · exact ⟨by decide, by decide, by intro o; cases o <;> decide, by decide⟩

/-- Relative paths, repeated options, several inputs and unknown options are errors. -/
example : (parseCommandLine [t%"x.h", t%"-o", t%"a.cpp"]).isNone ∧
    (parseCommandLine [t%"x.h", t%"--module-name=a", t%"--module-name=b"]).isNone ∧
    (parseCommandLine [t%"x.h", t%"y.h"]).isNone ∧ (parseCommandLine []).isNone ∧
    (parseCommandLine [t%"x.h", t%"-o/a"]).isNone ∧ (parseCommandLine [t%"x.h", t%"-o"]).isNone := by
  decide +kernel

end Verif
