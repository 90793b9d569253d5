import Verif.Lemmas.Printing
import Verif.Props.Parsing
/-!
# C04, C06: printing annotations and emitting string literals
-/
namespace Verif
open Spec

/-- Bytes written as they are inside a string literal. -/
def PlainByte (c : Char) : Prop := 0x20 ≤ c.toNat ∧ c.toNat ≤ 0x7e ∧ c ≠ '"' ∧ c ≠ '\\'

/-- Argument values that survive printing and parsing unchanged. -/
def Survives : LiteralValue → Prop
  | .string s => ∀ c ∈ s, PlainByte c
  | .unsigned n => n < 2 ^ 32
  | .boolean _ => True
  | .default => True
  | .nothing => False

theorem escapeChar_plain {c : Char} (h : PlainByte c) : escapeChar c = [c] := by
  obtain ⟨h1, h2, h3, h4⟩ := h
  unfold escapeChar
  rw [if_neg h4, if_neg, if_neg, if_neg h3, if_pos ⟨h1, h2⟩]
  · rintro rfl; simp at h1
  · rintro rfl; simp at h1

theorem escapeChar_length (c : Char) : 1 ≤ (escapeChar c).length ∧
    (¬ PlainByte c → 2 ≤ (escapeChar c).length) := by
  unfold escapeChar
  repeat' split
  all_goals simp
  rename_i h1 h2 h3 h4 h5
  exact ⟨h5.1, h5.2, h4, h1⟩

theorem writeEscaped_eq_self_iff (s : Str) : writeEscaped s = s ↔ ∀ c ∈ s, PlainByte c := by
  have len : ∀ s : Str, s.length ≤ (writeEscaped s).length := by
    intro s
    induction s with
    | nil => simp
    | cons c s ih =>
      have := (escapeChar_length c).1
      unfold writeEscaped at *
      simp only [List.flatMap_cons, List.length_append, List.length_cons]; omega
  constructor
  · induction s with
    | nil => simp
    | cons c s ih =>
      intro h
      by_cases hp : PlainByte c
      · have e : writeEscaped (c :: s) = c :: writeEscaped s := by
          simp [writeEscaped, escapeChar_plain hp]
        rw [e] at h
        simp only [List.cons.injEq, true_and] at h
        intro x hx
        simp at hx
        rcases hx with rfl | hx
        · exact hp
        · exact ih h x hx
      · exfalso
        have h2 := (escapeChar_length c).2 hp
        have h3 := len s
        have h4 := congrArg List.length h
        unfold writeEscaped at *
        simp only [List.flatMap_cons, List.length_append, List.length_cons] at h4; omega
  · intro h
    induction s with
    | nil => rfl
    | cons c s ih =>
      have := ih (fun x hx => h x (by simp [hx]))
      unfold writeEscaped at *
      rw [List.flatMap_cons, this, escapeChar_plain (h c (by simp))]
      rfl

/-- C04: for every list of annotations whose unsigned arguments fit 32 bits,
printing succeeds and parsing the printed text gives the same annotations with
strings replaced by their escaped text (and `nothing` by the string "nothing"). -/
theorem C04_reparse (as : List Annotation)
    (hf : ∀ a ∈ as, ∀ n, .unsigned n ∈ a.arguments → n < 2 ^ 32) :
    ∃ s, printAnnotations as = some s ∧
      parseAnnotations s = .ok (as.map fun a => ⟨a.kind, a.arguments.map fun
        | .string s => .string (writeEscaped s)
        | .nothing => .string t%"nothing"
        | v => v⟩) := by
  have hf' : ∀ a ∈ as, ∀ v ∈ a.arguments, Fits v := by
    intro a ha v hv n hn; subst hn; exact hf a ha n hv
  obtain ⟨s, h1, h2, -⟩ := lexes_anns as hf'
  refine ⟨s, h1, ?_⟩
  rw [C02_parse_iff_grammar]
  refine ⟨_, h2, ?_⟩
  have := anns_lexemesOfAnns as
  exact this

/-- C04: printing and parsing is the identity exactly on the annotation lists
all of whose arguments survive: no string needing escapes and no `nothing`. -/
theorem C04_roundtrip (as : List Annotation)
    (hf : ∀ a ∈ as, ∀ n, .unsigned n ∈ a.arguments → n < 2 ^ 32) :
    (∃ s, printAnnotations as = some s ∧ parseAnnotations s = .ok as) ↔
      ∀ a ∈ as, ∀ v ∈ a.arguments, Survives v := by
  obtain ⟨s, h1, h2⟩ := C04_reparse as hf
  have hre : ∀ v : LiteralValue, (∀ n, v = .unsigned n → n < 2 ^ 32) →
      (reread v = v ↔ Survives v) := by
    intro v hv
    cases v with
    | nothing => simp [reread, Survives]
    | string s => simp only [reread, Survives, LiteralValue.string.injEq, writeEscaped_eq_self_iff]
    | unsigned n => simp [reread, Survives]; exact hv n rfl
    | boolean b => simp [reread, Survives]
    | default => simp [reread, Survives]
  have hmap : (∃ s, printAnnotations as = some s ∧ parseAnnotations s = .ok as) ↔
      as.map rereadAnn = as := by
    constructor
    · rintro ⟨s', g1, g2⟩
      rw [h1] at g1
      cases g1
      rw [h2] at g2
      simp only [Except.ok.injEq] at g2
      exact g2
    · intro h
      refine ⟨s, h1, ?_⟩
      rw [h2]
      exact congrArg Except.ok h
  rw [hmap]
  clear hmap h1 h2
  induction as with
  | nil => simp
  | cons a as ih =>
    have ih := ih (fun x hx => hf x (by simp [hx]))
    have ha : rereadAnn a = a ↔ ∀ v ∈ a.arguments, Survives v := by
      obtain ⟨k, vs⟩ := a
      have hv : ∀ v ∈ vs, ∀ n, v = .unsigned n → n < 2 ^ 32 := by
        intro v hv n hn; subst hn; exact hf ⟨k, vs⟩ (by simp) n hv
      simp only [rereadAnn, Annotation.mk.injEq, true_and]
      clear ih hf
      induction vs with
      | nil => simp
      | cons v vs ih =>
        simp only [List.map_cons, List.cons.injEq, List.forall_mem_cons,
          ih (fun x hx => hv x (by simp [hx])), hre v (hv v (by simp))]
    simp only [List.map_cons, List.cons.injEq, List.forall_mem_cons, ha, ih]

/-- C04, negative part: a string with a quote does not survive. -/
theorem C04_not_identity_on_escapes :
    ¬ ∃ s, printAnnotations [⟨.exposeAs, [.string t%"a\"b"]⟩] = some s ∧
      parseAnnotations s = .ok [⟨.exposeAs, [.string t%"a\"b"]⟩] := by
  rw [C04_roundtrip _ (by simp)]
  intro h
  have := h _ (List.mem_cons_self) _ (List.mem_cons_self) '"' (by simp)
  exact this.2.2.1 rfl

example : ∀ a ∈ [(⟨.exposeAs, [.string t%"some name", .unsigned 4294967295]⟩ : Annotation)],
    ∀ v ∈ a.arguments, Survives v := by
  intro a ha v hv
  simp at ha; subst ha
  simp at hv
  rcases hv with rfl | rfl
  · intro c hc
    simp at hc
    rcases hc with rfl | rfl | rfl | rfl | rfl | rfl | rfl | rfl | rfl <;> simp [PlainByte]
  · simp [Survives]

/-! ### C06 -/

/-- C06: for every byte string and whatever follows, the emitted literal is
read by the C++ rules as exactly that byte string, ending at its own closing
quote; it consists of printable ASCII characters only (so no line break). -/
theorem C06_literal_reads_back (s : Str) (hs : ∀ c ∈ s, c.toNat < 256) (rest : Str) :
    (∃ body, emitStringLiteral s = '"' :: body ∧ Reads (body ++ rest) s rest) ∧
    (∀ c ∈ emitStringLiteral s, 0x20 ≤ c.toNat ∧ c.toNat ≤ 0x7e) := by
  refine ⟨⟨_, rfl, ?_⟩, ?_⟩
  · have := writeEscaped_reads hs rest
    simpa using this
  · intro c hc
    simp only [emitStringLiteral, List.mem_cons, List.mem_append, List.not_mem_nil, or_false,
      writeEscaped, List.mem_flatMap] at hc
    rcases hc with rfl | ⟨x, -, hx⟩ | rfl
    · simp
    · exact escapeChar_printable x c hx
    · simp

theorem octalEscape_simple_disjoint {c x t} (h : simpleEscape? c = some x) :
    octalEscape (c :: t) = none := by
  have : octal? c = none := by
    unfold octal?
    rw [if_neg]
    rintro ⟨h1, h2⟩
    unfold simpleEscape? at h
    have key : ∀ d : Char, (d.toNat < 48 ∨ 55 < d.toNat) → c ≠ d := by
      rintro d hd rfl; omega
    rw [if_neg (key _ (by decide)), if_neg (key _ (by decide)), if_neg (key _ (by decide)),
      if_neg (key _ (by decide)), if_neg (key _ (by decide)), if_neg (key _ (by decide)),
      if_neg (key _ (by decide)), if_neg (key _ (by decide)), if_neg (key _ (by decide)),
      if_neg (key _ (by decide)), if_neg (key _ (by decide))] at h
    cases h
  simp [octalEscape, this]

/-- Reading a literal is unambiguous: it cannot end earlier or denote other bytes. -/
theorem C06_reading_deterministic {t bs rest bs' rest' : Str} (h : Reads t bs rest)
    (h' : Reads t bs' rest') : bs = bs' ∧ rest = rest' := by
  induction h generalizing bs' rest' with
  | close rest =>
    cases h' with
    | close => exact ⟨rfl, rfl⟩
    | plain _ _ _ _ h1 => exact absurd rfl h1
  | plain c t bs rest h1 h2 h3 _ ih =>
    cases h' with
    | close => exact absurd rfl h1
    | plain _ _ _ _ _ _ _ h => obtain ⟨rfl, rfl⟩ := ih h; exact ⟨rfl, rfl⟩
    | simple => exact absurd rfl h2
    | octal => exact absurd rfl h2
  | simple c x t bs rest hs _ ih =>
    cases h' with
    | plain _ _ _ _ _ h2 => exact absurd rfl h2
    | simple _ _ _ _ _ hs' h =>
      rw [hs] at hs'; cases hs'
      obtain ⟨rfl, rfl⟩ := ih h; exact ⟨rfl, rfl⟩
    | octal _ v k _ _ ho => rw [octalEscape_simple_disjoint hs] at ho; cases ho
  | octal t v k bs rest ho hv _ ih =>
    cases h' with
    | plain _ _ _ _ _ h2 => exact absurd rfl h2
    | simple _ _ _ _ _ hs' h => rw [octalEscape_simple_disjoint hs'] at ho; cases ho
    | octal _ v' k' _ _ ho' _ h =>
      rw [ho] at ho'; cases ho'
      obtain ⟨rfl, rfl⟩ := ih h; exact ⟨rfl, rfl⟩

example : ∀ c ∈ [Char.ofNat 0, '"', Char.ofNat 255, '7'], c.toNat < 256 := by decide

end Verif
