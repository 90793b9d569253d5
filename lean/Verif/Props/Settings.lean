import Verif.Lemmas.Settings
import Verif.Props.Annotations
/-!
# C67: settings made by several annotations
-/
namespace Verif
open Spec

theorem latest_map {α : Type} (g : Annotation → Option α) (as : List Annotation) (v : Option α)
    (h : Latest (fun a => (g a).map some) as none v) : v = (as.filterMap g).getLast? := by
  unfold Latest at h
  rw [h]
  clear h
  have : as.filterMap (fun a => (g a).map some) = (as.filterMap g).map some := by
    induction as with
    | nil => rfl
    | cons a as ih =>
      rw [List.filterMap_cons, List.filterMap_cons]
      cases g a with
      | none => simpa using ih
      | some x => simpa using ih
  rw [this, List.getLast?_map]
  cases (as.filterMap g).getLast? <;> rfl

theorem some_iff {p : Prop} {b c : Bool} (h1 : b = true ↔ p) (h2 : c = true ↔ p) : b = c := by
  cases b <;> cases c <;> simp_all

/-- C67: the settings of a declaration are determined by the sequence of its
annotations: the last one counts for switches and values, names and bases add up. -/
theorem C67_settings (env : DeclEnv) (s : Storage) (id : Nat)
    (hs : shouldSkip (env.info id) = false) (hh : s.has id = false) :
    ∃ y, (s.insert env id).1.entries id = some y ∧
      Settings env (env.info id) (parseAllTexts id [] (env.info id).attrTexts).1 y := by
  rw [insert_eq env s id hs hh]
  refine ⟨(firstInsert env id).1, by simp [Storage.set], ?_⟩
  let d := env.info id
  let as := (parseAllTexts id [] d.attrTexts).1
  let x := if d.kind ≠ .namespace ∧ hasAnnotations d (allowEmpty := false) = true
    then { freshAttrs d with named := { (freshAttrs d).named with visible := some true } } else freshAttrs d
  have hx : (firstInsert env id).1 = (applyAnnotations env id x as).1 := rfl
  have sh : Shape (env.info id) x := by
    show Shape (env.info id) (if d.kind ≠ .namespace ∧ hasAnnotations d (allowEmpty := false) = true
      then { freshAttrs d with named := { (freshAttrs d).named with visible := some true } } else freshAttrs d)
    split
    · exact shape_of_eq (shape_fresh _) _
    · exact shape_of_eq (shape_fresh _) _
  rw [hx]
  have hpart : ∀ {σ : Type} (get : DeclAttrs → Option σ) (z v : σ) (R : List Annotation → σ → σ → Prop),
      (∀ v, R [] v v) → (∀ as bs u v w, R as u v → R bs v w → R (as ++ bs) u w) →
      (∀ a x v, Shape (env.info id) x → get x = some v →
        ∃ v', get (applyAnnotation env id x a).1 = some v' ∧ R [a] v v') →
      (get x).isSome = (get (applyAnnotations env id x as).1).isSome →
      (∀ v, get x = some v → v = z) →
      get (applyAnnotations env id x as).1 = some v → R as z v := by
    intro σ get z v R h1 h2 h3 h4 h5 h6
    rw [h6] at h4
    obtain ⟨u, hu⟩ := Option.isSome_iff_exists.1 h4
    obtain ⟨v', hv', hr⟩ := part_all env id get R h1 h2 h3 as x sh u hu
    rw [h6] at hv'
    cases hv'
    rw [h5 u hu] at hr
    exact hr
  have sh' := shape_applyAll env id as x sh
  have fresh : ∀ {σ : Type} (get : DeclAttrs → Option σ) (z : σ),
      (∀ (y : DeclAttrs) n, get { y with named := n } = get y) →
      (get (freshAttrs d) = none ∨ get (freshAttrs d) = some z) → ∀ v, get x = some v → v = z := by
    intro σ get z h1 h2 v hv
    have : get x = get (freshAttrs d) := by
      show get (if d.kind ≠ .namespace ∧ hasAnnotations d (allowEmpty := false) = true
        then { freshAttrs d with named := { (freshAttrs d).named with visible := some true } } else
        freshAttrs d) = _
      split
      · exact h1 _ _
      · rfl
    rw [this] at hv
    rcases h2 with h2 | h2 <;> rw [h2] at hv <;> cases hv
    rfl
  have hns : ∀ n, (applyAnnotations env id x as).1.namespace_ = some n → NsR d as {} n := fun n hn =>
    hpart (·.namespace_) {} n (NsR d) (fun _ => ⟨.nil, .nil⟩)
      (fun _ _ _ _ _ h1 h2 => ⟨h1.1.trans h2.1, h1.2.trans h2.2⟩) (ns_step env id)
      (some_iff sh.namespace_ sh'.namespace_)
      (fresh _ _ (fun _ _ => rfl) (by simp only [freshAttrs]; split <;> simp)) hn
  have henum : ∀ n, (applyAnnotations env id x as).1.enum = some n → EnumR as {} n := fun n hn =>
    hpart (·.enum) {} n EnumR (fun _ => ⟨.nil, .nil⟩)
      (fun _ _ _ _ _ h1 h2 => ⟨h1.1.trans h2.1, h1.2.trans h2.2⟩) (enum_step env id)
      (some_iff sh.enum sh'.enum)
      (fresh _ _ (fun _ _ => rfl) (by simp only [freshAttrs]; split <;> simp)) hn
  have hrec : ∀ n, (applyAnnotations env id x as).1.record = some n → RecordR env d as {} n := fun n hn =>
    hpart (·.record) {} n (RecordR env d) (fun _ => ⟨.nil, .nil, .nil, .nil⟩)
      (fun _ _ _ _ _ h1 h2 => ⟨h1.1.trans h2.1, h1.2.1.trans h2.2.1, h1.2.2.1.trans h2.2.2.1,
        h1.2.2.2.trans h2.2.2.2⟩) (record_step env id)
      (some_iff sh.record sh'.record)
      (fresh _ _ (fun _ _ => rfl) (by simp only [freshAttrs]; split <;> simp)) hn
  have htyp : ∀ n, (applyAnnotations env id x as).1.typedefName = some n → TypedefR d as {} n := fun n hn =>
    hpart (·.typedefName) {} n (TypedefR d) (fun _ => ⟨.nil, .nil⟩)
      (fun _ _ _ _ _ h1 h2 => ⟨h1.1.trans h2.1, h1.2.trans h2.2⟩) (typedef_step env id)
      (some_iff sh.typedefName sh'.typedefName)
      (fresh _ _ (fun _ _ => rfl) (by simp only [freshAttrs]; split <;> simp)) hn
  have hvar : ∀ n, (applyAnnotations env id x as).1.fieldOrVar = some n → VarR d as {} n := fun n hn =>
    hpart (·.fieldOrVar) {} n (VarR d) (fun _ => ⟨.nil, fun h => ⟨h, .nil⟩, .nil⟩)
      (fun _ _ _ _ _ h1 h2 => ⟨h1.1.trans h2.1, fun h => ⟨(h2.2.1 (h1.2.1 h).1).1,
        (h1.2.1 h).2.trans (h2.2.1 (h1.2.1 h).1).2⟩, h1.2.2.trans h2.2.2⟩) (var_step env id)
      (some_iff sh.fieldOrVar sh'.fieldOrVar)
      (fresh _ _ (fun _ _ => rfl) (by simp only [freshAttrs]; split <;> simp)) hn
  have hmeth : ∀ n, (applyAnnotations env id x as).1.method = some n → MethodR d as {} n := fun n hn =>
    hpart (·.method) {} n (MethodR d) (fun _ => ⟨.nil, .nil⟩)
      (fun _ _ _ _ _ h1 h2 => ⟨h1.1.trans h2.1, h1.2.trans h2.2⟩) (method_step env id)
      (some_iff sh.method sh'.method)
      (fresh _ _ (fun _ _ => rfl) (by simp only [freshAttrs]; split <;> simp)) hn
  have hctor : ∀ n, (applyAnnotations env id x as).1.constructor = some n →
      Latest (implicitOf d) as false n.implicitConversion := fun n hn =>
    hpart (·.constructor) {} n (fun as u v => Latest (implicitOf d) as u.implicitConversion
        v.implicitConversion) (fun _ => .nil)
      (fun _ _ _ _ _ h1 h2 => h1.trans h2) (ctor_step env id)
      (some_iff sh.constructor sh'.constructor)
      (fresh _ _ (fun _ _ => rfl) (by simp only [freshAttrs]; split <;> simp)) hn
  constructor
  · intro n hn
    simpa using (hns n hn).1 ()
  · intro n hn b
    simpa using (hns n hn).2 b
  · exact fun n hn => (henum n hn).1
  · exact fun n hn => latest_map _ _ _ (henum n hn).2
  · exact fun n hn => (hrec n hn).1
  · exact fun n hn => (hrec n hn).2.1
  · intro n hn b
    refine ((hrec n hn).2.2.1 b).trans ?_
    simp only [List.not_mem_nil, false_or]
    constructor
    · rintro ⟨args, h1, h2, h3⟩; exact ⟨h2, args, h1, h3⟩
    · rintro ⟨h2, args, h1, h3⟩; exact ⟨args, h1, h2, h3⟩
  · intro n hn b
    refine ((hrec n hn).2.2.2 b).trans ?_
    simp only [List.not_mem_nil, false_or]
    constructor
    · rintro ⟨args, h1, h2, h3⟩; exact ⟨h2, args, h1, h3⟩
    · rintro ⟨h2, args, h1, h3⟩; exact ⟨args, h1, h2, h3⟩
  · intro n hn
    simpa using (htyp n hn).1 ()
  · intro n hn
    simpa using (htyp n hn).2 ()
  · exact fun n hn => (hvar n hn).1
  · intro n hn l
    refine (((hvar n hn).2.1 (by simp)).2 l).trans ?_
    simp only [reduceCtorEq, false_or]
    constructor
    · rintro ⟨args, h1, h2⟩; exact ⟨⟨args, h1⟩, h2⟩
    · rintro ⟨⟨args, h1⟩, h2⟩; exact ⟨args, h1, h2⟩
  · intro n hn
    simpa using (hvar n hn).2.2 ()
  · intro n hn b hb
    have := (hmeth n hn).1 b
    simp only [ne_eq, hb, not_false_eq_true, true_and, List.not_mem_nil, false_or] at this
    rw [this]
    constructor
    · rintro ⟨args, h1, h2, h3⟩; exact ⟨h2, args, h1, h3⟩
    · rintro ⟨h2, args, h1, h3⟩; exact ⟨args, h1, h2, h3⟩
  · intro n hn b hb
    have := (hmeth n hn).2 b
    simp only [ne_eq, hb, not_false_eq_true, true_and, List.not_mem_nil, false_or] at this
    rw [this]
    constructor
    · rintro ⟨args, h1, h2, h3⟩; exact ⟨h2, args, h1, h3⟩
    · rintro ⟨h2, args, h1, h3⟩; exact ⟨args, h1, h2, h3⟩
  · intro n hn
    have := hctor n hn
    unfold Latest at this
    rw [this]
    by_cases hsc : SideCondition .implicitConversion d
    · have e : implicitOf d = switchOf .implicitConversion := by
        funext a
        unfold implicitOf
        rw [if_pos hsc]
      rw [e]
      show ((lastSwitch .implicitConversion as).getD false = true) ↔ _
      cases lastSwitch .implicitConversion as with
      | none => simp
      | some b =>
        simp only [Option.getD_some, Option.some.injEq]
        constructor
        · exact fun h => ⟨hsc.1, hsc.2, h⟩
        · exact fun h => h.2.2
    · have e : implicitOf d = fun _ => none := by
        funext a
        unfold implicitOf
        rw [if_neg hsc]
      rw [e]
      have e' : as.filterMap (fun _ => (none : Option Bool)) = [] := by
        rw [List.filterMap_eq_nil_iff]
        exact fun _ _ => rfl
      rw [e']
      simp only [List.getLast?_nil, Option.getD_none, Bool.false_eq_true, false_iff]
      exact fun h => hsc ⟨h.1, h.2.1⟩

/-- A class `3` with bases `4` and `5`. -/
def exSettings : DeclEnv where
  info := fun
    | 0 => { kind := .record, name := t%"S", bases := [4, 5], allBases := [4, 5]
             attrTexts := [marker ++ t%"dynamic_attr, holder_type(A), inline_base(\"P\")",
               marker ++ t%"dynamic_attr(false), holder_type(B), inline_base(\"Q\"), hide_base"] }
    | _ => { kind := .record }
  hasName := fun names b => (b = 4 && names.contains t%"P") || (b = 5 && names.contains t%"Q")

/-- C67: the later annotations count, both bases are inlined. -/
example : shouldSkip (exSettings.info 0) = false ∧
    ((Storage.empty.insert exSettings 0).1.entries 0).bind (·.record) =
      some ⟨false, [4, 5], [4, 5], t%"B"⟩ := by decide +kernel

end Verif
