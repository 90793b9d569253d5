import Verif.Model.LiteralHeap
/-!
# Specification: literal values as plain values

A store of variables holding values.  `none` as content is a *hollow* variable:
one that claims to hold a string but has none.
-/
namespace Verif.Spec
open LH (Op Obs)

/-- Content of a variable: a value, or hollow. -/
abbrev Content := Option LiteralValue

/-- A store. -/
abbrev VStore := Nat → Option Content

/-- Point update. -/
def VStore.set (st : VStore) (x : Nat) (v : Option Content) : VStore :=
  fun y => if y = x then v else st y

/-- Is the content a string (or pretends to be one)? -/
def stringLike : Content → Bool
  | none => true
  | some (.string _) => true
  | some _ => false

/-- Assigning a value to a live variable. -/
def assign (st : VStore) (x : Nat) (v : Content) : Option VStore :=
  match st x with
  | none => none
  | some _ => some (st.set x (some v))

/-- Value semantics of the operations; `none` means not allowed (dead variable,
hollow variable read). -/
def vstep (st : VStore) : Op → Option (VStore × List Obs)
  | .construct x => match st x with
    | some _ => none
    | none => some (st.set x (some (some .nothing)), [])
  | .copyConstruct x y => match st y, st x with
    | some (some v), none => some (st.set x (some (some v)), [])
    | _, _ => none
  | .moveConstruct x y => match st y, st x with
    | some c, none =>
      let st' := st.set x (some c)
      some (if stringLike c then st'.set y (some (some .nothing)) else st', [])
    | _, _ => none
  | .copyAssign x y =>
    if x = y then (match st x with | some _ => some (st, []) | none => none)
    else match st x, st y with
    | some _, some (some v) => some (st.set x (some (some v)), [])
    | _, _ => none
  | .moveAssign x y => match st x, st y with
    | some cx, some cy =>
      if stringLike cy then
        -- the old string is handed over to the source; a source whose target held
        -- no string becomes hollow
        some ((st.set y (some (if stringLike cx then cx else none))).set x (some cy), [])
      else some (st.set x (some cy), [])
    | _, _ => none
  | .setNothing x => (assign st x (some .nothing)).map (·, [])
  | .setString x s => (assign st x (some (.string s))).map (·, [])
  | .setStringFrom x y => match st x, st y with
    | some _, some (some (.string s)) =>
      if x = y then none else some (st.set x (some (some (.string s))), [])
    | _, _ => none
  | .setUnsigned x n => (assign st x (some (.unsigned n))).map (·, [])
  | .setBoolean x b => (assign st x (some (.boolean b))).map (·, [])
  | .setDefault x => (assign st x (some .default)).map (·, [])
  | .destroy x => match st x with
    | some _ => some (st.set x none, [])
    | none => none
  | .read x => match st x with
    | some (some v) => some (st, [.val v])
    | _ => none
  | .equal x y => match st x, st y with
    | some (some v), some (some w) => some (st, [.bool (v = w)])
    | some none, some (some w) => if stringLike (some w) then none else some (st, [.bool false])
    | some (some v), some none => if stringLike (some v) then none else some (st, [.bool false])
    | _, _ => none

/-- A history. -/
def vrun (st : VStore) : List Op → Option (VStore × List Obs)
  | [] => some (st, [])
  | op :: ops =>
    match vstep st op with
    | none => none
    | some (st', o) =>
      match vrun st' ops with
      | none => none
      | some (st'', o') => some (st'', o ++ o')

end Verif.Spec

namespace Verif.Spec
open LH (Op Obs)

/-- Along the history, a string is only ever move-assigned to a variable which
holds a string itself. -/
def MovesIntoStrings (st : VStore) : List Op → Prop
  | [] => True
  | op :: ops =>
    (∀ x y cx cy, op = .moveAssign x y → st x = some cx → st y = some cy →
      stringLike cy = true → stringLike cx = true) ∧
    ∀ st' o, vstep st op = some (st', o) → MovesIntoStrings st' ops

end Verif.Spec
