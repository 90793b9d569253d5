import Verif.Spec.Grammar
/-!
# Specification: identifiers
-/
namespace Verif.Spec

/-- C++ identifiers (ASCII). -/
def ValidIdent (s : Str) : Prop :=
  ∃ c cs, s = c :: cs ∧ IdStart c ∧ ∀ x ∈ cs, IdCont x

/-- `Collapsed s r`: `r` is `s` with every maximal run of characters that cannot
be part of an identifier replaced by one underscore. -/
inductive Collapsed : Str → Str → Prop where
  | nil : Collapsed [] []
  | keep (c s r) : IdCont c → Collapsed s r → Collapsed (c :: s) (c :: r)
  | run (bad s r) : bad ≠ [] → (∀ x ∈ bad, ¬ IdCont x) → NotFollowedBy (fun x => ¬ IdCont x) s →
      Collapsed s r → Collapsed (bad ++ s) ('_' :: r)

/-- The identifier for a text: a non-empty prefix of characters that cannot
start an identifier becomes one underscore, then runs are collapsed. -/
inductive Sanitized : Str → Str → Prop where
  | good (c s r) : IdStart c → Collapsed (c :: s) r → Sanitized (c :: s) r
  | bad (pre s r) : pre ≠ [] → (∀ x ∈ pre, ¬ IdStart x) → NotFollowedBy (fun x => ¬ IdStart x) s →
      Collapsed s r → Sanitized (pre ++ s) ('_' :: r)
  | nil : Sanitized [] []

end Verif.Spec
