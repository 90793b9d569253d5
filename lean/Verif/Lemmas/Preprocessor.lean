import Verif.Spec.Preprocessor
import Verif.Props.Build
/-!
# Macro expansion step by step
-/
namespace Verif
open Spec

theorem replaceParts_mono {f g : Nat → List MacroToken → Option (List MacroToken × Nat)}
    (hfg : ∀ c ts r, f c ts = some r → g c ts = some r) (args : List (List MacroToken)) :
    ∀ (body : List MacroPart) (c : Nat) (r : List MacroToken × Nat),
      replaceParts f args c body = some r → replaceParts g args c body = some r := by
  intro body
  induction body with
  | nil => intro c r h; exact h
  | cons part body ih =>
    intro c r h
    have step : ∀ (x : List MacroToken × Nat), ((replaceParts f args x.2 body).map fun r => (x.1 ++ r.1, r.2)) = some r →
        ((replaceParts g args x.2 body).map fun r => (x.1 ++ r.1, r.2)) = some r := by
      intro x h
      rw [Option.map_eq_some_iff] at h
      obtain ⟨y, hy, rfl⟩ := h
      rw [ih _ _ hy]
      rfl
    cases part with
    | token t => exact step ([{ tok := t }], c) h
    | param k s =>
      simp only [replaceParts] at h ⊢
      cases hf : f c (args.getD k []) with
      | none => rw [hf] at h; cases h
      | some y =>
        rw [hf] at h
        rw [hfg _ _ _ hf]
        exact step (setSpaced s y.1, y.2) h
    | stringized k s => exact step (_, c) h
    | pasted j k s => exact step (_, c) h

theorem expand_succ (macros : Macros) : ∀ (n c : Nat) (ts : List MacroToken) (r : List MacroToken × Nat),
    expandMacros macros n c ts = some r → expandMacros macros (n + 1) c ts = some r := by
  intro n
  induction n with
  | zero => intro c ts r h; cases h
  | succ n ih =>
    intro c ts r h
    cases ts with
    | nil => exact h
    | cons t ts =>
      have keep : ∀ c (f : List MacroToken × Nat → List MacroToken × Nat),
          (expandMacros macros n c ts).map f = some r → (expandMacros macros (n + 1) c ts).map f = some r := by
        intro c f h
        rw [Option.map_eq_some_iff] at h
        obtain ⟨y, hy, rfl⟩ := h
        rw [ih _ _ _ hy]
        rfl
      rw [expandMacros] at h ⊢
      split
      · rename_i hh
        rw [if_pos hh] at h
        exact keep _ _ h
      · rename_i hh
        rw [if_neg hh] at h
        cases hm : macros t.tok.spelling with
        | none =>
          rw [hm] at h
          exact keep _ _ h
        | some m =>
          rw [hm] at h
          cases m with
          | counter => exact keep _ _ h
          | object body =>
            dsimp only at h ⊢
            cases hs : replaceParts (expandMacros macros n) [] c body with
            | none => rw [hs] at h; cases h
            | some y =>
              rw [hs] at h
              rw [replaceParts_mono (fun c ts r => ih c ts r) [] body c y hs]
              exact ih _ _ _ h
          | function params variadic body =>
            dsimp only at h ⊢
            cases ts with
            | nil => exact keep _ _ h
            | cons p rest =>
              dsimp only at h ⊢
              split
              · rename_i hp
                rw [if_pos hp] at h
                exact keep _ _ h
              · rename_i hp
                rw [if_neg hp] at h
                cases ha : readArguments (params - 1) variadic 0 [] rest with
                | none => rw [ha] at h; cases h
                | some x =>
                  rw [ha] at h
                  obtain ⟨args, close, rest'⟩ := x
                  dsimp only at h ⊢
                  cases hs : replaceParts (expandMacros macros n) args c body with
                  | none => rw [hs] at h; cases h
                  | some y =>
                    rw [hs] at h
                    rw [replaceParts_mono (fun c ts r => ih c ts r) args body c y hs]
                    exact ih _ _ _ h

theorem expand_mono (macros : Macros) {n m c : Nat} {ts : List MacroToken} {r : List MacroToken × Nat}
    (h : expandMacros macros n c ts = some r) (hm : n ≤ m) : expandMacros macros m c ts = some r := by
  induction hm with
  | refl => exact h
  | step _ ih => exact expand_succ macros _ _ _ _ ih

/-- Tokens expand to this. -/
def Expands (macros : Macros) (c : Nat) (ts : List MacroToken) (out : List MacroToken) (c' : Nat) : Prop :=
  ∃ n, expandMacros macros n c ts = some (out, c')

/-- The replacement list of a macro becomes this. -/
def Replaced (macros : Macros) (args : List (List MacroToken)) (c : Nat) (body : List MacroPart)
    (out : List MacroToken) (c' : Nat) : Prop :=
  ∃ n, replaceParts (expandMacros macros n) args c body = some (out, c')

section
variable {macros : Macros} {c c' c1 : Nat} {ts out l new : List MacroToken} {args : List (List MacroToken)}
  {body : List MacroPart}

theorem Expands.unique {out' : List MacroToken} {c2 : Nat} (h : Expands macros c ts out c')
    (h' : Expands macros c ts out' c2) : out = out' ∧ c' = c2 := by
  obtain ⟨n, hn⟩ := h
  obtain ⟨m, hm⟩ := h'
  have h1 := expand_mono macros hn (Nat.le_max_left n m)
  have h2 := expand_mono macros hm (Nat.le_max_right n m)
  rw [h1] at h2
  cases h2
  exact ⟨rfl, rfl⟩

theorem Expands.nil : Expands macros c [] [] c := ⟨1, rfl⟩

theorem Expands.copy {t : MacroToken} (ht : macros t.tok.spelling = none) (h : Expands macros c ts out c') :
    Expands macros c (t :: ts) (t :: out) c' := by
  obtain ⟨n, hn⟩ := h
  refine ⟨n + 1, ?_⟩
  rw [expandMacros]
  rw [ht, hn]
  split <;> rfl

theorem Expands.copies (hl : ∀ t ∈ l, macros t.tok.spelling = none) (h : Expands macros c ts out c') :
    Expands macros c (l ++ ts) (l ++ out) c' := by
  induction l with
  | nil => exact h
  | cons t l ih => exact .copy (hl t (by simp)) (ih fun u hu => hl u (by simp [hu]))

theorem Expands.counter {t : MacroToken} (ht : macros t.tok.spelling = some .counter)
    (hh : t.tok.spelling ∉ t.hide) (h : Expands macros (c + 1) ts out c') :
    Expands macros c (t :: ts)
      ({ tok := { spelling := Nat.toDigits 10 c, spaced := t.tok.spaced } } :: out) c' := by
  obtain ⟨n, hn⟩ := h
  refine ⟨n + 1, ?_⟩
  rw [expandMacros]
  rw [if_neg hh, ht]
  dsimp only
  rw [hn]
  rfl

theorem Expands.object {t : MacroToken} (ht : macros t.tok.spelling = some (.object body))
    (hh : t.tok.spelling ∉ t.hide) (hs : Replaced macros [] c body new c1)
    (h : Expands macros c1 (addHidden (t.tok.spelling :: t.hide) (setSpaced t.tok.spaced new) ++ ts) out c') :
    Expands macros c (t :: ts) out c' := by
  obtain ⟨n, hn⟩ := h
  obtain ⟨m, hm⟩ := hs
  refine ⟨max n m + 1, ?_⟩
  rw [expandMacros]
  rw [if_neg hh, ht]
  dsimp only
  rw [replaceParts_mono (fun _ _ _ h => expand_mono macros h (Nat.le_max_right n m)) [] body c _ hm]
  exact expand_mono macros hn (Nat.le_max_left n m)

theorem Expands.function {t p close : MacroToken} {params : Nat} {variadic : Bool} {rest : List MacroToken}
    (ht : macros t.tok.spelling = some (.function params variadic body)) (hh : t.tok.spelling ∉ t.hide)
    (hp : p.tok.spelling = ['('])
    (ha : readArguments (params - 1) variadic 0 [] rest = some (args, close, ts))
    (hs : Replaced macros args c body new c1)
    (h : Expands macros c1 (addHidden (t.tok.spelling :: t.hide.filter (close.hide.contains ·))
      (setSpaced t.tok.spaced new) ++ ts) out c') :
    Expands macros c (t :: p :: rest) out c' := by
  obtain ⟨n, hn⟩ := h
  obtain ⟨m, hm⟩ := hs
  refine ⟨max n m + 1, ?_⟩
  rw [expandMacros]
  rw [if_neg hh, ht]
  dsimp only
  rw [if_neg (by simp [hp]), ha]
  dsimp only
  rw [replaceParts_mono (fun _ _ _ h => expand_mono macros h (Nat.le_max_right n m)) args body c _ hm]
  exact expand_mono macros hn (Nat.le_max_left n m)

theorem Replaced.nil : Replaced macros args c [] [] c := ⟨0, rfl⟩

theorem Replaced.token {t : PPToken} (h : Replaced macros args c body new c1) :
    Replaced macros args c (.token t :: body) ({ tok := t } :: new) c1 := by
  obtain ⟨n, hn⟩ := h
  refine ⟨n, ?_⟩
  simp only [replaceParts, hn]
  rfl

theorem Replaced.param {k : Nat} {s : Bool} {c2 : Nat} (he : Expands macros c (args.getD k []) out c1)
    (h : Replaced macros args c1 body new c2) :
    Replaced macros args c (.param k s :: body) (setSpaced s out ++ new) c2 := by
  obtain ⟨n, hn⟩ := h
  obtain ⟨m, hm⟩ := he
  refine ⟨max n m, ?_⟩
  simp only [replaceParts]
  rw [expand_mono macros hm (Nat.le_max_right n m)]
  simp only [Option.map_some]
  rw [replaceParts_mono (fun _ _ _ h => expand_mono macros h (Nat.le_max_left n m)) args body _ _ hn]
  rfl

theorem Replaced.stringized {k : Nat} {s : Bool} (h : Replaced macros args c body new c1) :
    Replaced macros args c (.stringized k s :: body)
      ({ tok := { spelling := annotateLiteral ((args.getD k []).map (·.tok)), literal := true, spaced := s } } :: new)
      c1 := by
  obtain ⟨n, hn⟩ := h
  refine ⟨n, ?_⟩
  simp only [replaceParts, hn]
  rfl

theorem Replaced.pasted {j k : Nat} {s : Bool} (h : Replaced macros args c body new c1) :
    Replaced macros args c (.pasted j k s :: body)
      (setSpaced s (paste (args.getD j []) (args.getD k [])) ++ new) c1 := by
  obtain ⟨n, hn⟩ := h
  refine ⟨n, ?_⟩
  simp only [replaceParts, hn]
  rfl

end

/-! ### Arguments -/

/-- Parentheses are balanced. -/
inductive Closed : List PPToken → Prop where
  | nil : Closed []
  | token {t : PPToken} {l : List PPToken} : t.spelling ≠ ['('] → t.spelling ≠ [')'] → Closed l → Closed (t :: l)
  | group {p q : PPToken} {l l' : List PPToken} : p.spelling = ['('] → q.spelling = [')'] → Closed l →
      Closed l' → Closed (p :: l ++ q :: l')

theorem Closed.append {a b : List PPToken} (ha : Closed a) (hb : Closed b) : Closed (a ++ b) := by
  induction ha with
  | nil => exact hb
  | token h1 h2 _ ih => exact .token h1 h2 ih
  | group h1 h2 h3 _ _ ih =>
    rw [List.append_assoc]
    exact .group h1 h2 h3 ih

theorem read_cons (commas : Nat) (variadic : Bool) (depth : Nat) (arg : List MacroToken) (t : MacroToken)
    (ts : List MacroToken) : readArguments commas variadic depth arg (t :: ts) =
    if t.tok.spelling = ['('] then readArguments commas variadic (depth + 1) (arg ++ [t]) ts
    else if t.tok.spelling = [')'] then
      match depth with
      | 0 => if commas = 0 then some ([arg], t, ts) else none
      | depth + 1 => readArguments commas variadic depth (arg ++ [t]) ts
    else if t.tok.spelling = [','] ∧ depth = 0 then
      match commas with
      | 0 => if variadic then readArguments 0 variadic 0 (arg ++ [t]) ts else none
      | commas + 1 => (readArguments commas variadic 0 [] ts).map fun r => (arg :: r.1, r.2)
    else readArguments commas variadic depth (arg ++ [t]) ts := by
  rw [readArguments.eq_def]
  cases depth <;> cases commas <;> rfl

/-- All of it is part of an argument. -/
theorem read_closed {l : List PPToken} (hl : Closed l) : ∀ (m : List MacroToken), m.map (·.tok) = l →
    ∀ (d : Nat) (arg rest : List MacroToken),
      readArguments 0 true d arg (m ++ rest) = readArguments 0 true d (arg ++ m) rest := by
  induction hl with
  | nil =>
    intro m hm d arg rest
    rw [List.map_eq_nil_iff] at hm
    subst hm
    simp
  | token h1 h2 _ ih =>
    intro m hm d arg rest
    obtain ⟨t, m, rfl, rfl, rfl⟩ := List.map_eq_cons_iff.1 hm
    rw [List.cons_append, read_cons, if_neg h1, if_neg h2]
    have hk := ih m rfl d (arg ++ [t]) rest
    rw [List.append_assoc] at hk
    split
    · rename_i hc
      obtain ⟨_, rfl⟩ := hc
      exact hk
    · exact hk
  | group h1 h2 _ _ ih1 ih2 =>
    intro m hm d arg rest
    obtain ⟨a, b, rfl, ha, hb⟩ := List.map_eq_append_iff.1 hm
    obtain ⟨p, a, rfl, rfl, rfl⟩ := List.map_eq_cons_iff.1 ha
    obtain ⟨q, b, rfl, rfl, rfl⟩ := List.map_eq_cons_iff.1 hb
    rw [List.append_assoc, List.cons_append, List.cons_append, read_cons, if_pos h1, ih1 a rfl, read_cons,
      if_neg (by rw [h2]; decide), if_pos h2]
    dsimp only
    rw [ih2 b rfl]
    congr 1
    simp

/-- The argument of a variadic macro. -/
theorem read_argument {m : List MacroToken} (hm : Closed (m.map (·.tok))) (close : MacroToken)
    (hc : close.tok.spelling = [')']) (rest : List MacroToken) :
    readArguments 0 true 0 [] (m ++ close :: rest) = some ([m], close, rest) := by
  rw [read_closed hm m rfl, read_cons, if_neg (by rw [hc]; decide), if_pos hc]
  simp

theorem source_closed (macros : Macros) : ∀ (d : Source), d.Plain macros → Closed d.tokens
  | .nil, _ => .nil
  | .token _ rest, h => .token h.1.1 h.1.2.1 (source_closed macros rest h.2)
  | .group _ _ inner rest, h => .group rfl rfl (source_closed macros inner h.1) (source_closed macros rest h.2)
  | .annotate _ _ _ inner rest, h =>
    .token (by simp [tok]) (by simp [tok]) (.group rfl rfl (source_closed macros inner h.1) (source_closed macros rest h.2))
  | .manual _ _ _ inner rest, h =>
    .token (by simp [tok]) (by simp [tok]) (.group rfl rfl (source_closed macros inner h.1) (source_closed macros rest h.2))
  | .parentType _ rest, h => .token (by simp [tok]) (by simp [tok]) (source_closed macros rest h)

end Verif
