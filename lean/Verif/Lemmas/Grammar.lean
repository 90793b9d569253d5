import Verif.Lemmas.ParserList
/-! The list parser agrees with the grammar. -/
namespace Verif
open Spec

theorem ofString?_kindName (k : AnnotationKind) :
    AnnotationKind.ofString? (kindName k) = some k := by
  cases k <;> decide +kernel

theorem toString?_kindName (k : AnnotationKind) :
    k.toString? = some (kindName k) := by
  cases k <;> decide +kernel

/-- Every kind has a spelling: the `llvm_unreachable` is never reached. -/
theorem AnnotationKind.toString_total (k : AnnotationKind) : k.toString?.isSome = true := by
  rw [toString?_kindName]; rfl

theorem table_kindName : ∀ e ∈ AnnotationKind.table, e.2 = kindName e.1 := by
  decide +kernel

theorem ofString?_iff (s : Str) (k : AnnotationKind) :
    AnnotationKind.ofString? s = some k ↔ s = kindName k := by
  constructor
  · intro h
    unfold AnnotationKind.ofString? at h
    simp only [Option.map_eq_some_iff] at h
    obtain ⟨e, h1, rfl⟩ := h
    have h2 := List.find?_some h1
    simp only [decide_eq_true_eq] at h2
    rw [← h2]
    exact table_kindName e (List.mem_of_find?_eq_some h1)
  · rintro rfl; exact ofString?_kindName k

theorem valueOf_iff (l : Lexeme) (v : LiteralValue) : valueOf l = some v ↔ Value l v := by
  constructor
  · intro h
    cases l <;> simp [valueOf] at h
    · rename_i s
      by_cases e1 : s = t%"true"
      · subst e1; simp at h; subst h; exact .tru
      by_cases e2 : s = t%"false"
      · subst e2; simp at h; subst h; exact .fls
      by_cases e3 : s = t%"default"
      · subst e3; simp at h; subst h; exact .dflt
      simp [e1, e2, e3] at h
      subst h
      exact .word _ e1 e2 e3
    · subst h; exact .str _
    · subst h; exact .num _
  · intro h
    cases h with
    | str | num | tru | fls | dflt => simp [valueOf]
    | word s e1 e2 e3 => simp [valueOf, e1, e2, e3]

theorem pArgs_sound (ls : List Lexeme) :
    ∃ pre, ls = pre ++ (pArgs ls).2 ∧ Values pre (pArgs ls).1 := by
  fun_induction pArgs ls with
  | case1 => exact ⟨[], rfl, .nil⟩
  | case2 l ls h => exact ⟨[], rfl, .nil⟩
  | case3 l v h ls' ih =>
    obtain ⟨pre, h1, h2⟩ := ih
    refine ⟨l :: .comma :: pre, ?_, .cons _ _ _ _ ((valueOf_iff _ _).1 h) h2⟩
    simpa using h1
  | case4 l v h ls hc => exact ⟨[l], rfl, .last _ _ ((valueOf_iff _ _).1 h)⟩

theorem pArgs_complete {pre vs} (h : Values pre vs) (rest : List Lexeme) :
    pArgs (pre ++ .rpar :: rest) = (vs, .rpar :: rest) := by
  induction h with
  | nil => simp [pArgs, valueOf]
  | last l v h =>
    simp only [List.cons_append, List.nil_append]
    exact pArgs_cons_some ((valueOf_iff _ _).2 h) (by simp)
  | cons l v ls vs h _ ih =>
    simp only [List.cons_append]
    unfold pArgs
    simp [(valueOf_iff _ _).2 h, ih]

/-- `ls` does not begin with an opening parenthesis. -/
def NoLpar (ls : List Lexeme) : Prop := ∀ r, ls ≠ .lpar :: r

theorem pArguments_noLpar {ls} (h : NoLpar ls) : pArguments ls = (.ok [], ls) := by
  unfold pArguments
  split
  · rename_i l; exact absurd rfl (h l)
  · rfl

theorem pArguments_sound {ls vs rest} (h : pArguments ls = (.ok vs, rest)) :
    ∃ pre, ls = pre ++ rest ∧ Args pre vs ∧ (pre = [] → NoLpar rest) := by
  by_cases hl : ∃ r, ls = .lpar :: r
  · obtain ⟨r, rfl⟩ := hl
    unfold pArguments at h
    obtain ⟨pre, h1, h2⟩ := pArgs_sound r
    simp only at h
    split at h
    · rename_i rest' hr
      simp at h
      obtain ⟨rfl, rfl⟩ := h
      refine ⟨.lpar :: pre ++ [.rpar], ?_, .parens _ _ h2, by simp⟩
      rw [hr] at h1
      simp [← h1]
    all_goals simp at h
  · have hl' : NoLpar ls := fun r hr => hl ⟨r, hr⟩
    rw [pArguments_noLpar hl'] at h
    simp at h
    obtain ⟨rfl, rfl⟩ := h
    exact ⟨[], rfl, .omitted, fun _ => hl'⟩

theorem pArguments_complete {pre vs rest} (h : Args pre vs) (hr : NoLpar rest) :
    pArguments (pre ++ rest) = (.ok vs, rest) := by
  cases h with
  | omitted => simpa using pArguments_noLpar hr
  | parens ls vs h =>
    have := pArgs_complete h rest
    simp only [List.cons_append, List.append_assoc, List.nil_append]
    unfold pArguments
    simp [this]

theorem pAnns_sound (ls : List Lexeme) :
    ∃ pre rest, ls = pre ++ rest ∧ Anns pre (pAnns ls).2 ∧
      match (pAnns ls).1 with
      | none => rest = []
      | some e => e.token = [] ∨ ∃ l ∈ rest, e.token = l.text := by
  generalize hn : ls.length = n
  induction n using Nat.strongRecOn generalizing ls with
  | ind n ih =>
    cases ls with
    | nil => exact ⟨[], [], rfl, by rw [pAnns]; exact .nil, by rw [pAnns]⟩
    | cons l ls =>
      by_cases hid : ∃ s, l = .ident s
      · obtain ⟨s, rfl⟩ := hid
        cases hs : AnnotationKind.ofString? s with
        | none =>
          rw [pAnns_unknown hs]
          exact ⟨[], _, rfl, .nil, .inr ⟨.ident s, by simp, rfl⟩⟩
        | some k =>
          have hk := (ofString?_iff s k).1 hs
          rcases hp : pArguments ls with ⟨r, rest⟩
          cases r with
          | error e =>
            rw [pAnns_error hs hp]
            refine ⟨[], _, rfl, .nil, ?_⟩
            simp only
            by_cases hl : ∃ r, ls = .lpar :: r
            · obtain ⟨r, rfl⟩ := hl
              obtain ⟨pre, h1, -⟩ := pArgs_sound r
              unfold pArguments at hp
              simp only at hp
              split at hp
              · simp at hp
              · simp at hp; left; rw [← hp.1]
              · rename_i s' r' hr'
                simp at hp; right
                rw [← hp.1, h1, hr']
                exact ⟨.bad s', by simp, rfl⟩
              · rename_i l' r' _ _ hr'
                simp at hp; right
                rw [← hp.1, h1, hr']
                exact ⟨l', by simp, rfl⟩
            · rw [pArguments_noLpar (fun r hr => hl ⟨r, hr⟩)] at hp
              simp at hp
          | ok vs =>
            obtain ⟨pre, h1, h2, -⟩ := pArguments_sound hp
            have hann : Ann (.ident s :: pre) ⟨k, vs⟩ := by rw [hk]; exact .mk _ _ _ h2
            cases rest with
            | nil =>
              rw [pAnns_end hs hp]
              exact ⟨.ident s :: pre, [], by simp [h1], .last _ _ hann, rfl⟩
            | cons l' rest =>
              by_cases hc : l' = .comma
              · subst hc
                rw [pAnns_comma hs hp]
                have hlen : rest.length < n := by
                  have := congrArg List.length h1
                  simp at this hn; omega
                obtain ⟨pre', rest', g1, g2, g3⟩ := ih rest.length hlen rest rfl
                refine ⟨(.ident s :: pre) ++ .comma :: pre', rest', ?_, .cons _ _ _ _ hann g2, g3⟩
                rw [h1, g1]; simp
              · rw [pAnns_junk hs hp hc]
                exact ⟨.ident s :: pre, l' :: rest, by simp [h1], .last _ _ hann,
                  .inr ⟨l', by simp, rfl⟩⟩
      · rw [pAnns_other (fun s hs => hid ⟨s, hs⟩)]
        exact ⟨[], _, rfl, .nil, .inr ⟨l, by simp, rfl⟩⟩

theorem pAnns_ok {ls as} (h : Anns ls as) : pAnns ls = (none, as) := by
  induction h with
  | nil => rw [pAnns]
  | last ls a h =>
    obtain ⟨k, ls, vs, h⟩ := h
    apply pAnns_end (ofString?_kindName k)
    simpa using pArguments_complete h (rest := []) (by intro r hr; cases hr)
  | cons ls a ls' as h _ ih =>
    obtain ⟨k, ls, vs, h⟩ := h
    have := pArguments_complete h (rest := .comma :: ls') (by intro r hr; cases hr)
    rw [List.cons_append, pAnns_comma (ofString?_kindName k) this, ih]

/-- The parsed annotations extend those of every derivable prefix (unless the
prefix stops right before an opening parenthesis that continues it). -/
theorem pAnns_maximal {pre as} (h : Anns pre as) (rest : List Lexeme) (hr : NoLpar rest) :
    as <+: (pAnns (pre ++ rest)).2 := by
  induction h with
  | nil => simp
  | last ls a h =>
    obtain ⟨k, ls, vs, h⟩ := h
    have hp := pArguments_complete h hr
    rw [List.cons_append]
    cases rest with
    | nil => rw [pAnns_end (ofString?_kindName k) hp]; simp
    | cons l rest =>
      by_cases hc : l = .comma
      · subst hc; rw [pAnns_comma (ofString?_kindName k) hp]; simp
      · rw [pAnns_junk (ofString?_kindName k) hp hc]; simp
  | cons ls a ls' as h _ ih =>
    obtain ⟨k, ls, vs, h⟩ := h
    have := pArguments_complete h (rest := .comma :: (ls' ++ rest)) (by intro r hr; cases hr)
    have e : Lexeme.ident (kindName k) :: ls ++ Lexeme.comma :: ls' ++ rest
        = Lexeme.ident (kindName k) :: (ls ++ Lexeme.comma :: (ls' ++ rest)) := by simp
    rw [e, pAnns_comma (ofString?_kindName k) this]
    simpa using ih

theorem pAnns_none_iff (ls : List Lexeme) (as : List Annotation) :
    pAnns ls = (none, as) ↔ Anns ls as := by
  constructor
  · intro h
    obtain ⟨pre, rest, h1, h2, h3⟩ := pAnns_sound ls
    rw [h] at h2 h3
    simp only at h2 h3
    subst h3
    simp at h1
    rw [h1]; exact h2
  · exact pAnns_ok

end Verif
