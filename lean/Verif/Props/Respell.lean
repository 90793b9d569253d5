import Verif.Spec.Interchange
import Verif.Lemmas.Interchange
import Verif.Lemmas.Respell
import Verif.Props.Macro
import Verif.Props.ToolExamples
/-!
# C88: how annotations are written does not matter
-/
namespace Verif
open Spec

/-! ### From texts to effects -/

theorem anns_nil {ls : List Lexeme} {as : List Annotation} (h : Anns ls as) : ls = [] ↔ as = [] := by
  cases h with
  | nil => simp
  | last ls a h => cases h; simp
  | cons ls a ls' as h => cases h; simp

theorem hspace_trimmed {c : Char} (h : ¬ (HSpace c ∨ c = '\n' ∨ c = '\r')) : ¬ HSpace c := fun hh => h (.inl hh)

theorem lexes_contents {t : Str} {ls : List Lexeme} (h : Lexes t ls) (hb : ∀ s, Lexeme.bad s ∉ ls) :
    (∃ c ∈ t, ¬ (HSpace c ∨ c = '\n' ∨ c = '\r')) ↔ ls ≠ [] := by
  cases h with
  | done ws h =>
    simp only [ne_eq, not_true_eq_false, iff_false]
    rintro ⟨c, hc, hn⟩
    exact hn (.inl (h c hc))
  | step ws txt rest l ls hws hl hr =>
    simp only [ne_eq, reduceCtorEq, not_false_eq_true, iff_true]
    have idc : ∀ c, IdCont c → ¬ (HSpace c ∨ c = '\n' ∨ c = '\r') := by
      intro c hc
      have hr : 48 ≤ c.toNat ∧ c.toNat ≤ 57 ∨ 97 ≤ c.toNat ∧ c.toNat ≤ 122 ∨ 65 ≤ c.toNat ∧ c.toNat ≤ 90 ∨ c.toNat = 95 := by
        rcases hc with (h | h | h) | h
        · exact .inr (.inl h)
        · exact .inr (.inr (.inl h))
        · subst h; exact .inr (.inr (.inr rfl))
        · exact .inl h
      rintro ((h | h | h | h) | h | h)
      · subst h; revert hr; decide
      · subst h; revert hr; decide
      · omega
      · omega
      · subst h; revert hr; decide
      · subst h; revert hr; decide
    have sp : ∀ c : Char, c = '(' ∨ c = ')' ∨ c = ',' ∨ c = '"' → ¬ (HSpace c ∨ c = '\n' ∨ c = '\r') := by
      rintro c (rfl | rfl | rfl | rfl) <;> unfold HSpace <;> decide
    have : ∃ c ∈ txt, ¬ (HSpace c ∨ c = '\n' ∨ c = '\r') := by
      cases hl with
      | lpar => exact ⟨'(', by simp, sp _ (by simp)⟩
      | rpar => exact ⟨')', by simp, sp _ (by simp)⟩
      | comma => exact ⟨',', by simp, sp _ (by simp)⟩
      | ident c s _ hc => exact ⟨c, by simp, idc c (.inl hc)⟩
      | num ds _ h1 h2 =>
        cases txt with
        | nil => exact absurd rfl h1
        | cons d ds => exact ⟨d, by simp, idc d (.inr (h2 d (by simp)))⟩
      | str raw => exact ⟨'"', by simp, sp _ (by simp)⟩
      | tooBig => exact absurd (List.mem_cons_self ..) (hb _)
      | unterminated => exact absurd (List.mem_cons_self ..) (hb _)
      | other => exact absurd (List.mem_cons_self ..) (hb _)
    obtain ⟨c, hc, hn⟩ := this
    exact ⟨c, by simp [hc], hn⟩

theorem wordsApart_bad {ls : List Lexeme} (h : WordsApart ls) (s : Str) : Lexeme.bad s ∉ ls := by
  induction ls with
  | nil => simp
  | cons l ls ih =>
    simp only [List.mem_cons, not_or]
    exact ⟨fun e => h.head s e.symm, ih h.tail⟩

/-- Whether there is anything but white space in the texts. -/
theorem texts_contents {texts : List Str} {as : List Annotation} (h : TextsRead marker texts as) (d : DeclInfo) :
    hasAnnotations { d with attrTexts := texts } (allowEmpty := false) = !as.isEmpty := by
  induction h with
  | nil => rfl
  | other t ts as hn _ ih =>
    rw [← ih]
    unfold hasAnnotations
    simp only [List.any_cons]
    rw [(consumeFront_none _ _).2 (by rw [lozenge_eq]; exact hn)]
    simp
  | ours t ls new ts as hl ha _ ih =>
    have e : hasAnnotations { d with attrTexts := (marker ++ t) :: ts } (allowEmpty := false) =
        (!(ltrim t).isEmpty || hasAnnotations { d with attrTexts := ts } (allowEmpty := false)) := by
      unfold hasAnnotations
      simp only [List.any_cons]
      rw [(consumeFront_some lozenge (marker ++ t) t).2 (by rw [lozenge_eq])]
      simp
    rw [e, ih]
    have h1 := (ltrim_nonempty t).trans (lexes_contents hl (wordsApart_bad (anns_clean ha)))
    have h2 := anns_nil ha
    cases hn : (ltrim t).isEmpty with
    | false =>
      have : new ≠ [] := fun hh => h1.1 hn (h2.2 hh)
      cases new with
      | nil => exact absurd rfl this
      | cons => simp
    | true =>
      have : new = [] := by
        apply Classical.byContradiction
        intro hh
        have := h1.2 (fun hl => hh (h2.1 hl))
        rw [hn] at this
        cases this
      subst this
      simp

theorem annotated_iff (d : DeclInfo) : hasAnnotations d = true ↔ ∃ t ∈ d.attrTexts, marker <+: t := by
  unfold hasAnnotations
  rw [List.any_eq_true]
  constructor
  · rintro ⟨t, ht, h⟩
    refine ⟨t, ht, ?_⟩
    cases hc : consumeFront lozenge t with
    | none => rw [hc] at h; cases h
    | some rest =>
      rw [consumeFront_some, lozenge_eq] at hc
      rw [hc]
      exact List.prefix_append _ _
  · rintro ⟨t, ht, rest, rfl⟩
    refine ⟨_, ht, ?_⟩
    rw [(consumeFront_some lozenge (marker ++ rest) rest).2 (by rw [lozenge_eq])]
    rfl

theorem applyAnnotations_texts (w : EmitWorld) (texts : Nat → List Str) (x : Nat)
    (h : hasAnnotations ((reannotate w texts).info x) = hasAnnotations (w.info x)) (as : List Annotation)
    (a : DeclAttrs) :
    applyAnnotations (reannotate w texts).toDeclEnv x a as = applyAnnotations w.toDeclEnv x a as := by
  induction as generalizing a with
  | nil => rfl
  | cons b as ih =>
    have : applyAnnotation (reannotate w texts).toDeclEnv x a b = applyAnnotation w.toDeclEnv x a b := by
      unfold applyAnnotation reportInvalidAnnotation supportsTypedefDiags
      rw [h]
      rfl
    simp only [applyAnnotations, this, ih]

theorem sameEffect_of {w : EmitWorld} {texts : Nat → List Str}
    (h : ∀ x, texts x = (w.info x).attrTexts ∨
      SameAnnotations w.toDeclEnv (w.info x) (w.info x).attrTexts (texts x)) : SameEffect w texts := by
  have ha : ∀ x, hasAnnotations ((reannotate w texts).info x) = hasAnnotations (w.info x) := by
    intro x
    rw [Bool.eq_iff_iff, annotated_iff, annotated_iff]
    rcases h x with h | h
    · show (∃ t ∈ texts x, _) ↔ _
      rw [h]
    · exact h.annotated.symm
  refine ⟨ha, fun s x => ?_⟩
  rcases h x with hx | hx
  · have : (reannotate w texts).info x = w.info x := by
      show { w.info x with attrTexts := texts x } = _
      rw [hx]
    unfold Storage.insert
    dsimp only
    simp only [applyAnnotations_texts w texts x (ha x)]
    show (if shouldSkip ((reannotate w texts).info x) then _ else _) = _
    rw [this]
  · obtain ⟨as, bs, h1, h2, h3⟩ := hx.meaning
    have hp : parseAllTexts x [] (w.info x).attrTexts = (as, []) := C12_texts_read x _ as h1
    have hp' : parseAllTexts x [] (texts x) = (bs, []) := C12_texts_read x _ bs h2
    have hc : hasAnnotations ((reannotate w texts).info x) (allowEmpty := false) =
        hasAnnotations (w.info x) (allowEmpty := false) := by
      have e1 := texts_contents h1 (w.info x)
      have e2 := texts_contents h2 (w.info x)
      have hn := interchangeable_nil _ h3
      show hasAnnotations { w.info x with attrTexts := texts x } (allowEmpty := false) = _
      rw [e2]
      have e1' : hasAnnotations (w.info x) (allowEmpty := false) = !as.isEmpty := e1
      rw [e1']
      cases as with
      | nil => rw [hn.1 rfl]
      | cons a as =>
        cases bs with
        | nil => exact absurd (hn.2 rfl) (by simp)
        | cons => rfl
    unfold Storage.insert
    dsimp only
    rw [hc]
    have hp'' : parseAllTexts x [] ((reannotate w texts).info x).attrTexts = (bs, []) := hp'
    rw [hp'', hp]
    dsimp only
    simp only [applyAnnotations_texts w texts x (ha x)]
    have ht : supportsTypedefDiags x ((reannotate w texts).info x) = supportsTypedefDiags x (w.info x) := by
      unfold supportsTypedefDiags
      rw [ha x]
      rfl
    rw [ht]
    have key := apply_interchangeable w.toDeclEnv x h3
    have sh := shape_start w.toDeclEnv x ((w.info x).kind ≠ .namespace ∧
      hasAnnotations (w.info x) (allowEmpty := false) = true) (some true)
    have key := key _ sh
    show (if shouldSkip (w.info x) then _ else if s.has x then _ else
      (s.set x (applyAnnotations w.toDeclEnv x _ bs).1, _ ++ [] ++ (applyAnnotations w.toDeclEnv x _ bs).2)) = _
    split
    · rfl
    · split
      · rfl
      · have e : (freshAttrs ((reannotate w texts).info x)) = freshAttrs (w.info x) := rfl
        have k : ((reannotate w texts).info x).kind = (w.info x).kind := rfl
        rw [e, k]
        rw [key]

/-! ### Runs -/

/-- C88: if the annotations of any number of declarations are written in another way that means the
same, the run is the same in every respect: files, printed code, everything reported, exit code. -/
theorem C88_run (o : ToolOptions) (i : ToolInput) (files : Files) (texts : Nat → List Str)
    (h : ∀ x, texts x = (i.world.info x).attrTexts ∨
      SameAnnotations i.world.toDeclEnv (i.world.info x) (i.world.info x).attrTexts (texts x)) :
    runTool o (reannotated i texts) files = runTool o i files := by
  have hh := fun name => respell_handle i (sameEffect_of h) name o.outputFiles
  unfold runTool
  show (match moduleNameFor o.moduleName i.mainFile with
    | none => none
    | some name => _) = _
  cases moduleNameFor o.moduleName i.mainFile with
  | none => rfl
  | some name =>
    dsimp only
    rw [hh name]
    rfl

theorem attributeTexts_marked {uses : List (List PPToken)} {texts : List Str} (h : AttributeTexts uses texts) :
    (∃ t ∈ texts, marker <+: t) ↔ uses ≠ [] := by
  cases h with
  | nil => simp
  | cons ts text us texts h _ =>
    obtain ⟨body, bytes, -, -, rfl⟩ := h
    exact ⟨fun _ => by simp, fun _ => ⟨_, List.mem_cons_self .., List.prefix_append _ _⟩⟩

/-- C88 (as written): the same for annotations written with the macro.  Each declaration has the
same attributes as before, or it is annotated by means of other uses `v` of the macro (as well as
before, `u`) that mean the same. -/
theorem C88_macro (o : ToolOptions) (i : ToolInput) (files : Files) (texts : Nat → List Str)
    (h : ∀ x, texts x = (i.world.info x).attrTexts ∨ ∃ u v as bs, (∀ ts ∈ u, Written ts) ∧ (∀ ts ∈ v, Written ts) ∧
      AttributeTexts u (i.world.info x).attrTexts ∧ AttributeTexts v (texts x) ∧ (u = [] ↔ v = []) ∧
      UsesMean u as ∧ UsesMean v bs ∧ Interchangeable i.world.toDeclEnv (i.world.info x) as bs) :
    runTool o (reannotated i texts) files = runTool o i files := by
  refine C88_run o i files texts fun x => ?_
  rcases h x with h | ⟨u, v, as, bs, hu, hv, tu, tv, he, mu, mv, hi⟩
  · exact .inl h
  · refine .inr ⟨?_, as, bs, (texts_of_uses hu tu as).2 mu, (texts_of_uses hv tv bs).2 mv, hi⟩
    rw [attributeTexts_marked tu, attributeTexts_marked tv]
    exact not_congr he

/-! ### Ways to write the same -/

theorem anns_append {ls ms : List Lexeme} {as bs : List Annotation} (h : Anns ls as) (hm : Anns ms bs)
    (hne : ls ≠ []) (hl : ∀ p, ls ≠ p ++ [.comma]) : Anns (ls ++ .comma :: ms) (as ++ bs) := by
  induction h with
  | nil => exact absurd rfl hne
  | last ls a h => exact .cons ls a ms bs h hm
  | cons ls a ls' as h h' ih =>
    have h1 : ls' ≠ [] := by
      rintro rfl
      exact hl ls rfl
    have h2 : ∀ p, ls' ≠ p ++ [.comma] := by
      rintro p rfl
      exact hl (ls ++ .comma :: p) (by simp)
    have := Anns.cons ls a _ _ h (ih h1 h2)
    simpa using this

theorem spells_append {ts us : List PPToken} {ls ms : List Lexeme} (h : Spells ts ls) (h' : Spells us ms) :
    Spells (ts ++ us) (ls ++ ms) := by
  induction h with
  | nil => exact h'
  | cons t ts l ls hm _ ih => exact .cons t _ l _ hm ih

theorem meaningful_comma {s : Str} (h : Meaningful s .comma) : s = [','] := by cases h; rfl

theorem spells_last {ts : List PPToken} {ls : List Lexeme} (h : Spells ts ls) {p : List Lexeme}
    (he : ls = p ++ [.comma]) : ∃ q t, ts = q ++ [t] ∧ t.spelling = [','] := by
  induction h generalizing p with
  | nil => simp at he
  | cons t ts l ls hm hs ih =>
    cases p with
    | nil =>
      simp only [List.nil_append, List.cons.injEq] at he
      obtain ⟨rfl, rfl⟩ := he
      cases hs
      exact ⟨[], t, rfl, meaningful_comma hm⟩
    | cons x p =>
      simp only [List.cons_append, List.cons.injEq] at he
      obtain ⟨q, u, rfl, hu⟩ := ih he.2
      exact ⟨t :: q, u, rfl, hu⟩

/-- C88 (one or several uses of the macro): `GENPYBIND(ts) GENPYBIND(us)` can be written
`GENPYBIND(ts, us)`, unless `ts` is empty or ends with a comma. -/
theorem C88_join (ts us : List PPToken) (c : PPToken) (rest : List (List PPToken)) (as : List Annotation)
    (hc : c.spelling = [',']) (hne : ts ≠ []) (hl : ∀ q t, ts = q ++ [t] → t.spelling ≠ [','])
    (h : UsesMean (ts :: us :: rest) as) : UsesMean ((ts ++ c :: us) :: rest) as := by
  cases h with
  | cons _ _ ls new as hs ha h =>
    cases h with
    | cons _ _ ms new' as hs' ha' h =>
      rw [← List.append_assoc]
      refine .cons _ _ (ls ++ .comma :: ms) _ _ (spells_append hs (.cons c us .comma ms ?_ hs')) ?_ h
      · rw [hc]; exact .comma
      · refine anns_append ha ha' ?_ ?_
        · rintro rfl
          cases hs
          exact hne rfl
        · intro p hp
          obtain ⟨q, t, e, ht⟩ := spells_last hs hp
          exact hl q t e ht

/-- C88 (order): annotations about different things that are all in order can be written in any
order. -/
theorem C88_permuted (env : DeclEnv) (d : DeclInfo) (as bs : List Annotation) (h : List.Perm as bs)
    (hs : as.Pairwise fun a b => setting a.kind ≠ setting b.kind) (hd : ∀ a ∈ as, Silent env d a) :
    Interchangeable env d as bs := by
  induction h with
  | nil => exact .refl _
  | cons a _ ih =>
    exact .append [a] [a] _ _ (.refl _) (ih (List.pairwise_cons.1 hs).2 fun b hb => hd b (List.mem_cons_of_mem _ hb))
  | swap a b l =>
    have h1 := (List.pairwise_cons.1 hs).1 a (List.mem_cons_self ..)
    exact .append [b, a] [a, b] l l (.swap b a h1 (hd a (by simp))) (.refl _)
  | trans h1 _ ih1 ih2 =>
    refine .trans _ _ _ (ih1 hs hd) (ih2 ?_ fun a ha => hd a (h1.mem_iff.2 ha))
    exact (h1.pairwise_iff fun h => fun e => h e.symm).1 hs

/-- C88 (last one): what is said before about a thing with a single value does not matter, even if
something else is said in between. -/
theorem C88_last (env : DeclEnv) (d : DeclInfo) (a b : Annotation) (as : List Annotation)
    (hs : setting a.kind = setting b.kind) (h1 : SingleValued a.kind) (h2 : SingleValued b.kind)
    (ha : Silent env d a) (hb : Silent env d b) (hd : ∀ c ∈ as, setting c.kind ≠ setting a.kind) :
    Interchangeable env d (a :: as ++ [b]) (as ++ [b]) := by
  induction as with
  | nil => exact .overridden a b hs h1 h2 ha hb
  | cons c as ih =>
    have hc := hd c (List.mem_cons_self ..)
    have e1 : Interchangeable env d ([a, c] ++ (as ++ [b])) ([c, a] ++ (as ++ [b])) :=
      .append _ _ _ _ (.symm _ _ (.swap c a hc ha)) (.refl _)
    have e2 : Interchangeable env d ([c] ++ (a :: as ++ [b])) ([c] ++ (as ++ [b])) :=
      .append _ _ _ _ (.refl _) (ih fun x hx => hd x (List.mem_cons_of_mem _ hx))
    exact .trans _ _ _ e1 e2

/-! ### Cases -/

/-- In the example, `hidden` becomes an attribute that is not ours, `visible(true), ` and then
`visible( false )`; `visible` becomes `visible ( true )`. -/
def exRespelled : Nat → List Str
  | 1 => [lozenge ++ t%" visible ( true )"]
  | 3 => [t%"other", lozenge ++ t%"visible(true), ", lozenge ++ t%"visible( false )"]
  | x => (exUnit.info x).attrTexts

theorem textsRead_of {t : Str} {new : List Annotation} 
    (h : (match parseAnnotations t with | .ok as => decide (as = new) | .error _ => false) = true) {ts : List Str}
    {as : List Annotation} (hr : TextsRead marker ts as) :
    TextsRead marker ((lozenge ++ t) :: ts) (new ++ as) := by
  obtain ⟨ls, hl, ha⟩ := (C02_parse_iff_grammar t new).1 (by
    split at h
    · next he => rw [he, of_decide_eq_true h]
    · cases h)
  rw [lozenge_eq]
  exact .ours t ls new ts as hl ha hr

example (files : Files) : runTool exOptions (reannotated exInput exRespelled) files = runTool exOptions exInput files := by
  refine C88_run _ _ _ _ fun x => ?_
  match x with
  | 1 =>
    refine .inr ⟨?_, [⟨.visible, []⟩], [⟨.visible, [.boolean true]⟩], ?_, ?_, ?_⟩
    · exact ⟨fun _ => ⟨_, List.mem_cons_self .., by rw [← lozenge_eq]; exact List.prefix_append _ _⟩,
        fun _ => ⟨_, List.mem_cons_self .., by rw [← lozenge_eq]; exact List.prefix_append _ _⟩⟩
    · exact textsRead_of (new := [⟨.visible, []⟩]) (by decide +kernel) .nil
    · exact textsRead_of (new := [⟨.visible, [.boolean true]⟩]) (by decide +kernel) .nil
    · exact .flag _ ⟨trivial, trivial, .bare, by simp [forms], rfl⟩ ⟨trivial, trivial, .one .boolean, by simp [forms], rfl⟩
  | 3 =>
    refine .inr ⟨?_, [⟨.hidden, []⟩], [⟨.visible, [.boolean true]⟩, ⟨.visible, [.boolean false]⟩], ?_, ?_, ?_⟩
    · exact ⟨fun _ => ⟨_, List.mem_cons_of_mem _ (List.mem_cons_self ..), by rw [← lozenge_eq]; exact List.prefix_append _ _⟩,
        fun _ => ⟨_, List.mem_cons_self .., by rw [← lozenge_eq]; exact List.prefix_append _ _⟩⟩
    · exact textsRead_of (new := [⟨.hidden, []⟩]) (by decide +kernel) .nil
    · exact .other _ _ _ (by decide +kernel) (textsRead_of (new := [⟨.visible, [.boolean true]⟩]) (by decide +kernel)
        (textsRead_of (new := [⟨.visible, [.boolean false]⟩]) (by decide +kernel) .nil))
    · have sv : ∀ b : Bool, Silent exUnit.toDeclEnv (exUnit.info 3) ⟨.visible, [.boolean b]⟩ :=
        fun b => ⟨⟨trivial, trivial, .one .boolean, by simp [forms], rfl⟩, fun _ => rfl⟩
      exact .trans _ _ _ .hidden (.symm _ _ (.overridden _ _ rfl trivial trivial (sv true) (sv false)))
  | 0 | 2 | 4 | 5 | 6 => exact .inl rfl
  | n + 7 => exact .inl rfl

/-- `keep_alive(return, this), noconvert(x), return_value_policy(copy)` in any order. -/
example : Interchangeable exEnv (exEnv.info 0)
    [⟨.keepAlive, [.string t%"return", .string t%"this"]⟩, ⟨.noconvert, [.string t%"x"]⟩, ⟨.returnValuePolicy, [.string t%"copy"]⟩]
    [⟨.returnValuePolicy, [.string t%"copy"]⟩, ⟨.keepAlive, [.string t%"return", .string t%"this"]⟩, ⟨.noconvert, [.string t%"x"]⟩] := by
  refine C88_permuted _ _ _ _ (List.perm_append_comm (l₁ := [_, _]) (l₂ := [_])) (by decide) ?_
  simp only [List.mem_cons, List.not_mem_nil, or_false]
  rintro a (rfl | rfl | rfl)
  · exact ⟨⟨.inr (.inl rfl), trivial, .two .string, by simp [forms], rfl⟩, fun y => by
      simp [acceptedDiagKinds, keepAliveNames, exEnv]⟩
  · exact ⟨⟨.inr (.inl rfl), trivial, .some .string, by simp [forms], by simp [Form.Accepts, LiteralValue.kind]⟩,
      fun y => by simp [acceptedDiagKinds, exEnv]⟩
  · exact ⟨⟨.inr (.inl rfl), trivial, .one .string, by simp [forms], rfl⟩, fun y => rfl⟩

/-- C88: it does matter in which order annotations about the same thing are given. -/
theorem C88_order_matters :
    firstInsert { exEnv with info := fun _ => { kind := .record, attrTexts := [lozenge ++ t%"visible, hidden"] } } 0 ≠
    firstInsert { exEnv with info := fun _ => { kind := .record, attrTexts := [lozenge ++ t%"hidden, visible"] } } 0 := by
  decide +kernel

/-- C88: `GENPYBIND()` is not the same as no annotation: with it, an alias of something that cannot
be exposed is an error. -/
theorem C88_empty_matters :
    (firstInsert { exEnv with info := fun _ => { kind := .typedefName, aliasTarget := none, attrTexts := [lozenge] } } 0).2 ≠ [] ∧
    (firstInsert { exEnv with info := fun _ => { kind := .typedefName, aliasTarget := none, attrTexts := [] } } 0).2 = [] := by
  decide +kernel

end Verif
