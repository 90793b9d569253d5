import Verif.Lemmas.Grammar
import Verif.Spec.Reasons
/-!
# Where the parser stops
-/
namespace Verif
open Spec

theorem pArgs_local (ls : List Lexeme) :
    ((pArgs ls).2 = [] → Values ls (pArgs ls).1) ∧
    ∀ l rest, (pArgs ls).2 = l :: rest → ∃ c, ls = c ++ l :: rest ∧ Values c (pArgs ls).1 ∧
      ∀ more, pArgs (c ++ l :: more) = ((pArgs ls).1, l :: more) := by
  fun_induction pArgs ls with
  | case1 => exact ⟨fun _ => .nil, by simp⟩
  | case2 l ls hv =>
    refine ⟨by simp, ?_⟩
    rintro l' rest h
    simp only [List.cons.injEq] at h
    obtain ⟨rfl, rfl⟩ := h
    refine ⟨[], rfl, .nil, fun more => ?_⟩
    rw [List.nil_append, pArgs]
    simp only [hv]
  | case3 l v hv ls' ih =>
    refine ⟨fun h => .cons _ _ _ _ ((valueOf_iff _ _).1 hv) (ih.1 h), fun l' rest h => ?_⟩
    obtain ⟨c, h1, h2, h3⟩ := ih.2 l' rest h
    refine ⟨l :: .comma :: c, by rw [h1]; simp, .cons _ _ _ _ ((valueOf_iff _ _).1 hv) h2,
      fun more => ?_⟩
    rw [List.cons_append, List.cons_append, pArgs]
    simp only [hv, h3]
  | case4 l v hv ls hc =>
    refine ⟨?_, ?_⟩
    · rintro h
      dsimp only at h
      subst h
      exact .last _ _ ((valueOf_iff _ _).1 hv)
    · rintro l' rest h
      dsimp only at h
      refine ⟨[l], by simp only [h]; rfl, .last _ _ ((valueOf_iff _ _).1 hv), fun more => ?_⟩
      rw [List.singleton_append]
      refine pArgs_cons_some hv fun ls' e => ?_
      simp only [List.cons.injEq] at e
      exact hc rest (by rw [h, e.1])

theorem value_simple {l v} (h : Value l v) : l ≠ .rpar ∧ l ≠ .lpar := by
  cases h <;> simp

theorem values_simple {ls vs} (h : Values ls vs) : Lexeme.rpar ∉ ls ∧ Lexeme.lpar ∉ ls := by
  induction h with
  | nil => simp
  | last l v h => simp [(value_simple h).1.symm, (value_simple h).2.symm]
  | cons l v ls vs h _ ih => simp [(value_simple h).1.symm, (value_simple h).2.symm, ih]

theorem unclosed_values {front c vs} (h : Values c vs) : Unclosed (front ++ .lpar :: c) :=
  ⟨front, c, rfl, (values_simple h).1⟩

/-- What is open is open at the end. -/
theorem unclosed_append {a b : List Lexeme} (h : Unclosed (a ++ b)) : Unclosed b ∨ Unclosed a ∧ Lexeme.rpar ∉ b := by
  obtain ⟨front, c, h1, h2⟩ := h
  rcases List.append_eq_append_iff.1 h1 with ⟨m, rfl, hb⟩ | ⟨m, ha, hc⟩
  · exact .inl ⟨m, c, hb, h2⟩
  · cases m with
    | nil =>
      simp only [List.append_nil, List.nil_append] at ha hc
      exact .inl ⟨[], c, by rw [← hc]; rfl, h2⟩
    | cons l m =>
      simp only [List.cons_append, List.cons.injEq] at hc
      obtain ⟨rfl, rfl⟩ := hc
      exact .inr ⟨⟨front, m, ha, fun h => h2 (by simp [h])⟩, fun h => h2 (by simp [h])⟩

theorem args_closed {s c vs} (h : Args c vs) : ¬ Unclosed (Lexeme.ident s :: c) := by
  rintro ⟨front, d, h1, h2⟩
  cases h with
  | omitted =>
    cases front with
    | nil => cases h1
    | cons x xs => cases xs <;> simp at h1
  | parens ls vs hv =>
    have hl : (Lexeme.ident s :: (.lpar :: ls ++ [.rpar])).getLast? = some .rpar := by
      rw [← List.cons_append, List.getLast?_append]
      rfl
    rw [h1, List.getLast?_append] at hl
    cases d with
    | nil => simp at hl
    | cons x xs =>
      rw [List.getLast?_cons_cons] at hl
      cases hx : (x :: xs).getLast? with
      | none => simp at hx
      | some y =>
        rw [hx] at hl
        simp only [Option.some_or, Option.some.injEq] at hl
        subst hl
        exact h2 (List.mem_of_getLast? hx)

theorem args_not_starting {s c vs} (h : Args c vs) : ¬ Starting (Lexeme.ident s :: c) := by
  rintro (h' | h')
  · cases h'
  · cases h with
    | omitted => cases h'
    | parens ls vs hv =>
      rw [← List.cons_append, List.getLast?_append] at h'
      cases h'

theorem unclosed_behind {s c vs pre} (h : Args c vs) :
    Unclosed (.ident s :: c ++ .comma :: pre) ↔ Unclosed pre := by
  constructor
  · intro hu
    rcases unclosed_append hu with hu | ⟨hu, _⟩
    · rcases unclosed_append (a := [.comma]) hu with hu | ⟨⟨front, d, hu, _⟩, _⟩
      · exact hu
      · cases front with
        | nil => cases hu
        | cons x xs => cases xs <;> simp at hu
    · exact absurd hu (args_closed h)
  · rintro ⟨front, d, rfl, hd⟩
    exact ⟨.ident s :: c ++ .comma :: front, d, by simp, hd⟩

theorem starting_behind (a pre : List Lexeme) : Starting (a ++ .comma :: pre) ↔ Starting pre := by
  unfold Starting
  rw [List.getLast?_append]
  cases pre with
  | nil => simp
  | cons x xs => simp [List.getLast?_cons_cons]

theorem wrong_behind {s c vs pre} (h : Args c vs) (next : Option Lexeme) (e : ParseErrorKind)
    (hw : Wrong pre next e) : Wrong (.ident s :: c ++ .comma :: pre) next e := by
  cases e <;> simp only [Wrong, unclosed_behind h, starting_behind] at hw ⊢ <;> exact hw

theorem unclosed_nil : ¬ Unclosed [] := by
  rintro ⟨front, c, h, _⟩
  cases front <;> cases h

/-- The reported token is the first at which the list of annotations cannot be continued. -/
theorem pAnns_local (ls : List Lexeme) (e : ParseError) (as : List Annotation)
    (h : pAnns ls = (some e, as)) :
    (∃ pre l rest, ls = pre ++ l :: rest ∧ e.token = l.text ∧ Viable pre ∧
      (∀ more, (pAnns (pre ++ l :: more)).1 ≠ none) ∧ Wrong pre (some l) e.kind) ∨
      e.token = [] ∧ Viable ls ∧ Wrong ls none e.kind := by
  have hn : ∀ n, ∀ ls, ls.length ≤ n → ∀ as, pAnns ls = (some e, as) →
      (∃ pre l rest, ls = pre ++ l :: rest ∧ e.token = l.text ∧ Viable pre ∧
        (∀ more, (pAnns (pre ++ l :: more)).1 ≠ none) ∧ Wrong pre (some l) e.kind) ∨
        e.token = [] ∧ Viable ls ∧ Wrong ls none e.kind := by
    intro n
    induction n with
    | zero =>
      intro ls hle as h
      have : ls = [] := List.length_eq_zero_iff.1 (by omega)
      subst this
      rw [pAnns] at h
      cases h
    | succ n ih =>
      intro ls hle as h
      have hnil : Viable [] := ⟨[], [], .nil⟩
      match ls with
      | [] => rw [pAnns] at h; cases h
      | l :: ls =>
        by_cases hid : ∃ s, l = .ident s
        · obtain ⟨s, rfl⟩ := hid
          cases hs : AnnotationKind.ofString? s with
          | none =>
            rw [pAnns_unknown hs] at h
            cases h
            exact .inl ⟨[], .ident s, ls, rfl, rfl, hnil, fun more => by
              rw [List.nil_append, pAnns_unknown hs]; simp, unclosed_nil, .inl rfl, s, rfl,
              fun k hk => by rw [(ofString?_iff s k).2 hk] at hs; cases hs⟩
          | some k =>
            have hsk : s = kindName k := (ofString?_iff s k).1 hs
            cases ha : pArguments ls with
            | mk r rest =>
              cases r with
              | ok vs =>
                obtain ⟨c, rfl, hargs, hno⟩ := pArguments_sound ha
                have hloc : ∀ l more, l ≠ .lpar → pArguments (c ++ l :: more) = (.ok vs, l :: more) :=
                  fun l more hl => pArguments_complete hargs fun r hr => by
                    simp only [List.cons.injEq] at hr
                    exact hl hr.1
                have hloc' : ∀ l more, c ≠ [] → pArguments (c ++ l :: more) = (.ok vs, l :: more) := by
                  intro l more hc
                  cases hargs with
                  | omitted => exact absurd rfl hc
                  | parens cs vs hv =>
                    have := pArgs_complete hv (l :: more)
                    simp only [List.cons_append, List.append_assoc, List.nil_append]
                    unfold pArguments
                    simp [this]
                match rest with
                | [] =>
                  rw [pAnns_end hs ha] at h
                  cases h
                | l :: rest =>
                  have hl : ∀ more, pArguments (c ++ l :: more) = (.ok vs, l :: more) := by
                    intro more
                    by_cases hc : c = []
                    · refine hloc l more ?_
                      rintro rfl
                      exact hno hc rest rfl
                    · exact hloc' l more hc
                  by_cases hcm : l = .comma
                  · subst hcm
                    rw [pAnns_comma hs ha] at h
                    have h' : pAnns rest = (some e, (pAnns rest).2) := by
                      rw [Prod.ext_iff] at h
                      exact Prod.ext h.1 rfl
                    rcases ih rest (by simp at hle; omega) _ h' with ⟨pre, l, r, h1, h2, h3, h4, h5⟩ | ⟨h1, h2, h5⟩
                    · left
                      refine ⟨.ident s :: c ++ .comma :: pre, l, r, by rw [h1]; simp, h2, ?_, fun more => ?_,
                        wrong_behind hargs _ _ h5⟩
                      · obtain ⟨m, bs, hm⟩ := h3
                        refine ⟨m, ⟨k, vs⟩ :: bs, ?_⟩
                        have := Anns.cons (.ident s :: c) ⟨k, vs⟩ _ bs (hsk ▸ .mk k c vs hargs) hm
                        simpa using this
                      · have hh := pAnns_comma hs (hl (pre ++ l :: more))
                        simp only [List.cons_append, List.append_assoc]
                        rw [hh]
                        exact h4 more
                    · right
                      refine ⟨h1, ?_, wrong_behind hargs _ _ h5⟩
                      obtain ⟨m, bs, hm⟩ := h2
                      refine ⟨m, ⟨k, vs⟩ :: bs, ?_⟩
                      have := Anns.cons (.ident s :: c) ⟨k, vs⟩ _ bs (hsk ▸ .mk k c vs hargs) hm
                      simpa using this
                  · rw [pAnns_junk hs ha hcm] at h
                    cases h
                    left
                    refine ⟨.ident s :: c, l, rest, rfl, rfl,
                      ⟨[], [⟨k, vs⟩], by rw [List.append_nil]; exact .last _ _ (hsk ▸ .mk k c vs hargs)⟩,
                      fun more => ?_, .inr ⟨args_closed hargs, by simp, fun hst => ?_⟩⟩
                    · rw [List.cons_append, pAnns_junk hs (hl more) hcm]
                      simp
                    · exact absurd hst (args_not_starting hargs)
              | error e' =>
                rw [pAnns_error hs ha] at h
                have he : e' = e := by
                  simpa using congrArg Prod.fst h
                subst he
                unfold pArguments at ha
                split at ha
                · rename_i ls1
                  obtain ⟨hv, hl⟩ := pArgs_local ls1
                  have via : ∀ c, Values c (pArgs ls1).1 → Viable (.ident s :: .lpar :: c) := fun c hc =>
                    ⟨[.rpar], [⟨k, _⟩], by
                      have := Anns.last _ _ (Ann.mk k _ _ (Args.parens c _ hc))
                      rw [← hsk] at this
                      simpa using this⟩
                  split at ha
                  · cases ha
                  · rename_i h2
                    cases ha
                    exact .inr ⟨rfl, via _ (hv h2), unclosed_values (front := [.ident s]) (hv h2), by simp⟩
                  · rename_i t r h2
                    cases ha
                    obtain ⟨c, rfl, hc, hm⟩ := hl _ _ h2
                    left
                    refine ⟨.ident s :: .lpar :: c, .bad t, rest, by simp, rfl, via c hc, fun more => ?_,
                      .inl ⟨t, rfl⟩⟩
                    have : pArguments (.lpar :: (c ++ .bad t :: more)) = (.error ⟨.invalidToken, t⟩, more) := by
                      unfold pArguments
                      dsimp only
                      rw [hm more]
                    simp only [List.cons_append]
                    rw [pAnns_error hs this]
                    simp
                  · rename_i t _ hnr hnb hh
                    cases ha
                    obtain ⟨c, rfl, hc, hm⟩ := hl _ _ hh
                    left
                    refine ⟨.ident s :: .lpar :: c, t, rest, by simp, rfl, via c hc, fun more => ?_,
                      unclosed_values (front := [.ident s]) hc, fun s' hs' => hnb s' ?_⟩
                    rotate_left
                    · exact Option.some.inj hs'
                    have : ∃ e r, pArguments (.lpar :: (c ++ t :: more)) = (.error e, r) := by
                      unfold pArguments
                      dsimp only
                      rw [hm more]
                      cases t with
                      | rpar => exact absurd rfl hnr
                      | _ => exact ⟨_, _, rfl⟩
                    obtain ⟨e, r, this⟩ := this
                    simp only [List.cons_append]
                    rw [pAnns_error hs this]
                    simp
                · cases ha
        · have hid' : ∀ s, l ≠ .ident s := fun s hs => hid ⟨s, hs⟩
          rw [pAnns_other hid'] at h
          cases h
          exact .inl ⟨[], l, ls, rfl, rfl, hnil, fun more => by
            rw [List.nil_append, pAnns_other hid']; simp, .inr ⟨unclosed_nil, by simp,
              fun _ s hs => hid' s (Option.some.inj hs)⟩⟩
  exact hn ls.length ls (Nat.le_refl _) as h

theorem pAnns_stops (ls : List Lexeme) (e : ParseError) (h : (pAnns ls).1 = some e) :
    StopsAt ls e.kind e.token := by
  rcases pAnns_local ls e _ (Prod.ext h rfl) with ⟨pre, l, rest, h1, h2, h3, h4, h5⟩ | ⟨h1, h2, h3⟩
  · refine .inl ⟨pre, l, rest, h1, h2, h3, ?_, h5⟩
    rintro ⟨more, as, hm⟩
    rw [List.append_assoc, List.singleton_append] at hm
    exact h4 more (by rw [pAnns_ok hm])
  · refine .inr ⟨h1, h2, ?_, h3⟩
    rintro ⟨as, hm⟩
    rw [pAnns_ok hm] at h
    cases h

end Verif
