import Verif.Spec.Implicit
import Verif.Props.Call
import Verif.Props.Contents
import Verif.Props.Access
/-!
# C105: implicit conversions
-/
namespace Verif
open Spec

variable {V : Type}

/-- A constructor with a single parameter takes a value its parameter can be loaded from. -/
theorem takes_single (P : PyValues V) (w : EmitWorld) (c : Nat) (q : FnParam) (hq : (w.fn c).params = [q])
    (v : V) (hn : P.isNone v = false) : Matches P w false [v] [] c [v] ↔ P.loads c (some 0) false v = true := by
  have hp : paramsOf w c = [q.param] := by simp [paramsOf, hq]
  constructor
  · rintro ⟨_, h⟩
    obtain ⟨_, conv, h1, h2⟩ := h 0 v rfl
    have : conv = false := by
      cases conv with
      | false => rfl
      | true => exact absurd (h1.1 rfl).1 (by simp)
    rwa [this] at h2
  · intro h
    refine ⟨⟨by rw [hp]; rfl, by rw [hp]; exact Nat.le_refl _, ?_, by simp⟩, ?_⟩
    · intro k p u _ hu
      exact .inl hu
    · intro k u hu
      match k, hu with
      | 0, hu =>
        cases hu
        exact ⟨fun _ => hn, false, by simp, h⟩
      | k + 1, hu => simp at hu

/-- The first one that takes a value. -/
theorem first_exists (P : PyValues V) (w : EmitWorld) (v : V) : ∀ ds : List Nat,
    (∃ d ∈ ds, TakesDirectly P w v d) → ∃ d given, FirstMatch P w false [v] [] ds d given
  | [], h => by obtain ⟨d, hd, _⟩ := h; cases hd
  | e :: ds, h => by
    by_cases he : TakesDirectly P w v e
    · obtain ⟨given, hg⟩ := he
      exact ⟨e, given, (firstMatch_cons ..).2 (.inl ⟨rfl, hg⟩)⟩
    · obtain ⟨d, hd, ht⟩ := h
      rcases List.mem_cons.1 hd with rfl | hd
      · exact absurd ht he
      · obtain ⟨d', given, h'⟩ := first_exists P w v ds ⟨d, hd, ht⟩
        exact ⟨d', given, (firstMatch_cons ..).2 (.inr ⟨fun given' hg => he ⟨given', hg⟩, h'⟩)⟩

/-- C105: a value is converted if one of the registered conversions takes it without further
conversions, by the first constructor that does. -/
theorem C105_convert (P : PyValues V) (w : EmitWorld) (ss : List Stmt)
    (hs : ∀ s ∈ ss, ∃ d, IsOverload w s d) (ho : ∀ d ∈ ss.filterMap overloadOf, OrdinaryParams w d)
    (cs : List Nat) (hcs : ∀ c ∈ cs, c ∈ ss.filterMap overloadOf ∧ ∃ q, (w.fn c).params = [q])
    (self v : V) (hc : CalledFor P (ss.filterMap overloadOf) [] (some self)) (hn : P.isNone v = false)
    (r : Nat × List V) :
    convertValue P ss cs self v = some r ↔
      (∃ c ∈ cs, P.loads c (some 0) false v = true) ∧
      ∃ d given, r = (d, self :: given) ∧ FirstMatch P w false [v] [] (ss.filterMap overloadOf) d given := by
  have hd := fun r => C80_dispatch P w ss hs ho (some self) [v] [] ⟨by simp, by simp⟩ hc r
  simp only [Option.isSome_some, Option.toList_some, List.cons_append, List.nil_append] at hd
  have hin : ∀ c ∈ cs, P.loads c (some 0) false v = true →
      ∃ d ∈ ss.filterMap overloadOf, TakesDirectly P w v d := by
    intro c hcm hl
    obtain ⟨h1, q, hq⟩ := hcs c hcm
    exact ⟨c, h1, [v], (takes_single P w c q hq v hn).2 hl⟩
  have hres : (∃ d ∈ ss.filterMap overloadOf, TakesDirectly P w v d) → ∀ d given,
      Resolved P w [v] [] (ss.filterMap overloadOf) d given ↔
        FirstMatch P w false [v] [] (ss.filterMap overloadOf) d given := by
    rintro ⟨d', hd', given', hg⟩ d given
    constructor
    · rintro (h | ⟨h, _⟩)
      · exact h
      · exact absurd hg (h d' hd' given')
    · exact .inl
  unfold convertValue
  constructor
  · intro h
    obtain ⟨c, hcm, hr⟩ := List.exists_of_findSome?_eq_some h
    split at hr
    · rename_i hl
      refine ⟨⟨c, hcm, hl⟩, ?_⟩
      obtain ⟨d, given, e, h'⟩ := (hd r).1 hr
      exact ⟨d, given, e, (hres (hin c hcm hl) d given).1 h'⟩
    · cases hr
  · rintro ⟨⟨c, hcm, hl⟩, d, given, rfl, hf⟩
    have hdisp := (hd (d, self :: given)).2 ⟨d, given, rfl, (hres (hin c hcm hl) d given).2 hf⟩
    clear hcs hin
    induction cs with
    | nil => cases hcm
    | cons c' cs ih =>
      rw [List.findSome?_cons]
      by_cases hl' : P.loads c' (some 0) false v = true
      · rw [if_pos hl', hdisp]
      · rw [if_neg hl']
        rcases List.mem_cons.1 hcm with rfl | hcm
        · exact absurd hl hl'
        · exact ih hcm

/-- C105: nothing else is converted. -/
theorem C105_rejected (P : PyValues V) (ss : List Stmt) (cs : List Nat) (self v : V)
    (h : ∀ c ∈ cs, P.loads c (some 0) false v = false) : convertValue P ss cs self v = none := by
  unfold convertValue
  rw [List.findSome?_eq_none_iff]
  intro c hc
  rw [if_neg (by rw [h c hc]; simp)]

/-- C105: if no other constructor takes the value without conversions, the one that is called is
annotated with `implicit_conversion`, and it gets the value itself. -/
theorem C105_annotated_partial (P : PyValues V) (w : EmitWorld) (ds cs : List Nat)
    (hcs : ∀ c ∈ cs, ∃ q, (w.fn c).params = [q]) (v : V)
    (hother : ∀ d ∈ ds, TakesDirectly P w v d → d ∈ cs) (d : Nat) (given : List V)
    (hf : FirstMatch P w false [v] [] ds d given) : d ∈ cs ∧ given = [v] := by
  obtain ⟨pre, post, rfl, hm, _⟩ := hf
  have hd := hother d (by simp) ⟨given, hm⟩
  refine ⟨hd, ?_⟩
  obtain ⟨q, hq⟩ := hcs d hd
  have hp : paramsOf w d = [q.param] := by simp [paramsOf, hq]
  have hl := hm.1.length
  rw [hp] at hl
  match given, hl with
  | [u], _ =>
    rcases hm.1.values 0 q.param u (by rw [hp]; rfl) rfl with h | ⟨h, _⟩
    · simp only [List.getElem?_cons_zero, Option.some.injEq] at h
      rw [h]
    · simp at h

/-- The constructors of a class are among its attributes. -/
theorem defined_init (mro : List Str → List (List Str)) (types modules : List (List Str))
    (isClass : List Str → Bool) (l : List Execution)
    (hc : NoClash mro (.start types modules) (definitions isClass [] l)) (object : List Str) (m : Bool)
    (overloads : List Stmt)
    (hn : expectedNames (.start types modules) (definitions isClass [] l) object t%"__init__" =
      some (.functions m overloads)) (e : Execution) (he : e ∈ l) (heo : e.object = object)
    (p : Nat × List Str) (hp : initOf e.stmt = some p) : e.stmt ∈ overloads := by
  have hdef : definedBy isClass object e.stmt =
      some ⟨object, t%"__init__", .function (isClass object), e.stmt⟩ := by
    unfold initOf at hp
    split at hp
    · rename_i hs; rw [hs]; rfl
    · cases hp
  have hmem := (defined_sublist isClass l []).subset (List.mem_filterMap.2 ⟨e, he, by rw [heo]; exact hdef⟩)
  have hstart := hc.fresh _ hmem
  dsimp only at hstart
  unfold expectedNames at hn
  rw [hstart] at hn
  dsimp only at hn
  have hin := (mem_definitionsOf _ object t%"__init__" _).2 ⟨hmem, rfl, rfl⟩
  split at hn
  · cases hn
  · rename_i d ds hds
    split at hn
    · cases hn
      rw [hds] at hin
      exact List.mem_map.2 ⟨_, hin, rfl⟩
    · cases hn

/-- C105: for whole runs.  A value that is not an instance of a class is converted to it if and only if the parameter of
some constructor annotated with `implicit_conversion` takes it without conversions, so that conversions are never
chained; what is called is the first constructor of the class that takes this value without conversions. -/
theorem C105_run (o : ToolOptions) (i : ToolInput) (ok : InputOK i) (lk : LookupOK i.world)
    (re : Reopening i.world.toWorld) (hu : NoBareReopening i.world.toWorld i.tree) (files : Files)
    (r : ToolResult) (hr : runTool o i files = some r) (hx : o.expectFailure = false) (h0 : r.exitCode = 0)
    (hnd : o.outputFiles.Nodup) :
    ∃ name g b order place, moduleNameFor o.moduleName i.mainFile = some name ∧
      Placement i name g b order place ∧
      ∃ lines : List (List Line), lines.length = o.outputFiles.length ∧
        (∀ (k : Nat) path ls, o.outputFiles[k]? = some path → lines[k]? = some ls →
          (path ≠ ['-'] → r.files path = some (fileText i ls)) ∧
          (path = ['-'] → r.printed = [fileText i ls])) ∧
        ∀ st, importModule lines = .ok st → ∀ mro,
          NoClash mro (.start (st.types.map (·.2)) st.modules)
            (definitions (fun x => decide (x ∈ st.types.map (·.2))) [] st.executed) →
          ∃ names, PyNames.run mro (.start (st.types.map (·.2)) st.modules)
            (definitions (fun x => decide (x ∈ st.types.map (·.2))) [] st.executed) = .ok names ∧
          ∀ object overloads, names object t%"__init__" = some (.functions true overloads) →
          (∀ s ∈ overloads, overloadOf s ≠ none) →
          (∀ d ∈ overloads.filterMap overloadOf, OrdinaryParams i.world d) →
          ∀ (V : Type) (P : PyValues V) (self v : V),
            CalledFor P (overloads.filterMap overloadOf) [] (some self) → P.isNone v = false →
            ∀ result, convertValue P overloads (conversionsOf object st.executed) self v = some result ↔
              (∃ c, ConvertingFor i name g b place object c ∧ P.loads c (some 0) false v = true) ∧
              ∃ d given, result = (d, self :: given) ∧
                FirstMatch P i.world false [v] [] (overloads.filterMap overloadOf) d given := by
  obtain ⟨name, g, b, order, place, hn, hb, hv, hp, lines, h1, h2, _, h4⟩ :=
    C69_module o i ok files r hr hx h0 hnd
  have pl : Placement i name g b order place := ⟨hb, hv, hp⟩
  refine ⟨name, g, b, order, place, hn, pl, lines, h1, h2, ?_⟩
  intro st hst mro hclash
  have hex : st.executed = executed i name g b order place := (h4 st hst).1
  have hrun := C73_names mro _ _ _ hclash
  refine ⟨_, hrun, ?_⟩
  intro object overloads hattr hall hord V P self v hc hnone result
  -- what is registered
  have hconv : ∀ c, c ∈ conversionsOf object st.executed ↔ ConvertingFor i name g b place object c := by
    intro c
    have hder := derived_built i.world i.tree ok.unit g b pl.graph
    unfold conversionsOf ConvertingFor
    rw [hex]
    constructor
    · intro h
      obtain ⟨e, he, h⟩ := List.mem_filterMap.1 h
      split at h
      · rename_i heo
        obtain ⟨⟨c', source, target⟩, hs, rfl⟩ := Option.map_eq_some_iff.1 h
        obtain ⟨x, h1, h2, h3, h4, h5, _⟩ :=
          (C74_conversions i ok lk re hu name g b order place pl object c' source target).1 ⟨e, he, heo, hs⟩
        exact ⟨x, h1, h2, h3, h4, h5⟩
      · cases h
    · rintro ⟨x, h1, h2, h3, h4, h5⟩
      have hl := (C41_converting i.world ok.emit b.storage hder c h5).2.2
      match hps : (i.world.fn c).params, hl with
      | [q], _ =>
        obtain ⟨e, he, heo, hs⟩ :=
          (C74_conversions i ok lk re hu name g b order place pl object c q.type.text (i.world.typeName x)).2
            ⟨x, h1, h2, h3, h4, h5, ⟨q, hps, rfl⟩, rfl⟩
        exact List.mem_filterMap.2 ⟨e, he, by rw [if_pos heo, hs]; rfl⟩
  have hcs : ∀ c ∈ conversionsOf object st.executed,
      c ∈ overloads.filterMap overloadOf ∧ ∃ q, (i.world.fn c).params = [q] := by
    intro c hcm
    have hder := derived_built i.world i.tree ok.unit g b pl.graph
    obtain ⟨x, h1, h2, h3, h4, h5⟩ := (hconv c).1 hcm
    constructor
    · obtain ⟨e, he, heo, hi⟩ := (C71_constructors i ok lk re hu name g b order place pl object c _).2
        ⟨⟨x, h1, h2, h3, h4⟩, rfl⟩
      have := defined_init mro _ _ _ _ hclash object true overloads hattr e (by rw [hex]; exact he) heo _ hi
      refine List.mem_filterMap.2 ⟨e.stmt, this, ?_⟩
      unfold initOf at hi
      split at hi
      · rename_i hs; cases hi; rw [hs]; rfl
      · cases hi
    · have hl := (C41_converting i.world ok.emit b.storage hder c h5).2.2
      match hps : (i.world.fn c).params, hl with
      | [q], _ => exact ⟨q, rfl⟩
  have hover : ∀ s ∈ overloads, ∃ d, IsOverload i.world s d := by
    intro s hs
    rw [hex] at hrun
    obtain ⟨d, hd, _, _, hw, rfl⟩ := run_origin mro _ _ _ _ hrun (fun _ h => h)
      (by
        intro o n m ss h
        rcases start_cases _ _ _ _ _ h with h | h <;> cases h) object _ true overloads
      (by rw [hex] at hattr; exact hattr) s hs
    obtain ⟨e, he, hde⟩ := definitions_functions _ _ _ d hd true hw
    have hobj : e.stmt = d.stmt := by
      unfold definedBy at hde
      split at hde <;> cases hde <;> first | rfl | assumption
    cases hd' : overloadOf d.stmt with
    | none => exact absurd hd' (hall _ hs)
    | some k =>
      rw [← hobj] at hd' ⊢
      exact ⟨k, executed_overload i ok lk re hu name g b order place pl e he k hd'⟩
  rw [C105_convert P i.world overloads hover hord _ hcs self v hc hnone result]
  simp only [hconv]

/-! ### Example -/

local macro "eval_run" : tactic => `(tactic| (
  simp only [handleTranslationUnit, emitModule, findEnclosingScopes, analyze, pruneGraph, hideNamespaces,
    declContextsWithVisibleNamedDecls, deriveEffectiveVisibility, dfs_fuel]
  decide +kernel))

/-- `struct visible B {}; struct visible D : B {};
struct visible S { explicit S(const B &); implicit_conversion S(const D &); implicit_conversion S(int); };` where the
first constructor has these annotations. -/
def exConvert (first : List Str) : EmitWorld := { exUnit with
  info := fun
    | 0 => { kind := .translationUnit }
    | 1 => { kind := .record, name := t%"B", attrTexts := [lozenge ++ t%"visible"] }
    | 2 => { kind := .record, name := t%"D", attrTexts := [lozenge ++ t%"visible"], allBases := [1], bases := [1] }
    | 3 => { kind := .record, name := t%"S", attrTexts := [lozenge ++ t%"visible"] }
    | 4 => { kind := .constructor, name := t%"S", params := [t%"x"], minRequired := 1, attrTexts := first }
    | 5 => { kind := .constructor, name := t%"S", params := [t%"x"], minRequired := 1, converting := true
             attrTexts := [lozenge ++ t%"implicit_conversion"] }
    | 6 => { kind := .constructor, name := t%"S", params := [t%"x"], minRequired := 1, converting := true
             attrTexts := [lozenge ++ t%"implicit_conversion"] }
    | _ => { kind := .other }
  ancestors := fun
    | 0 => []
    | 4 => [3, 0] | 5 => [3, 0] | 6 => [3, 0]
    | _ => [0]
  access := fun
    | 4 => .public | 5 => .public | 6 => .public
    | _ => .none
  fn := fun
    | 4 => exMathFn [exMathB]
    | 5 => exMathFn [⟨t%"const ::D &", some 2⟩]
    | 6 => exMathFn [exMathInt]
    | _ => exMathFn []
  typeName := fun | 1 => t%"::B" | 2 => t%"::D" | _ => t%"::S"
  selfType := fun r _ => { text := if r = 1 then t%"::B" else if r = 2 then t%"::D" else t%"::S", record := some r }
  hierarchy := fun
    | 2 => .cons { id := 1, access := .public } .nil .nil
    | _ => .nil
  found := fun
    | 3 => [4, 5, 6].map fun d => ⟨d, none, false, .public, false, false, some 3, none⟩
    | _ => [] }

def exConvertInput (first : List Str) : ToolInput where
  mainFile := t%"/src/my-lib.h"
  world := exConvert first
  tree := .node 0 [.node 1 [], .node 2 [], .node 3 [.node 4 [], .node 5 [], .node 6 []]]
  pick := fun _ => lastSmallest (exConvert first).loc
  iterate := fun g => g.nodes

/-- Values of Python: an integer, instances of `B`, `D` and `S`, and something else. -/
inductive ExInstance where
  | int | b | d | s | text
  deriving DecidableEq, Repr

def exInstances : PyValues ExInstance where
  isNone := fun _ => false
  loads := fun fn param _ v => match param with
    | none => decide (v = .s)
    | some _ =>
      if fn = 4 then decide (v = .b ∨ v = .d) else if fn = 5 then decide (v = .d) else decide (v = .int)
  object := fun _ => .text
  loads_more := by
    intro fn param v h
    exact h

/-- What conversions of these values to `S` call. -/
def exConvertResult (first : List Str) : Option (List (Option (Nat × List ExInstance))) :=
  let w := exConvert first
  let i := exConvertInput first
  let b := buildGraph w.toWorld i.tree
  match b.1 with
  | none => none
  | some graph =>
    let r := analyze w.toWorld b.2.storage i.members t%"my_lib" graph
    let m := emitModule w b.2.storage r.pruned r.vis i.pick r.pruned.nodes 1 t%"my_lib"
    match importModule [m.stream 0] with
    | .error _ => none
    | .ok st =>
      match PyNames.run exMathMro (.start (st.types.map (·.2)) st.modules)
          (definitions (fun x => decide (x ∈ st.types.map (·.2))) [] st.executed) with
      | .error _ => none
      | .ok names => match names [t%"S"] t%"__init__" with
        | some (.functions true l) =>
          some ([.int, .b, .d, .text].map (convertValue exInstances l (conversionsOf [t%"S"] st.executed) .s))
        | _ => none

def exConvertDiags (first : List Str) : List Diag :=
  (handleTranslationUnit (exConvertInput first) t%"my_lib" [t%"/a"]).diags

set_option maxRecDepth 8000 in
/-- Integers and instances of `D` are converted by the annotated constructors. -/
example : exConvertResult [lozenge ++ t%"hidden"] =
    some [some (6, [.s, .int]), none, some (5, [.s, .d]), none] := by
  unfold exConvertResult
  eval_run

set_option maxRecDepth 8000 in
/-- C105: it need not be an annotated constructor that is called.  Here the first constructor takes a reference to the
base, and cannot be used for implicit conversions in C++; as it comes first it is used nevertheless if an instance of
the derived class is converted, for which there is another constructor.  Nothing is reported. -/
theorem C105_explicit : exConvertDiags [] = [] ∧
    exConvertResult [] = some [some (6, [.s, .int]), none, some (4, [.s, .d]), none] ∧
    ((exConvert []).info 4).converting = false := by
  refine ⟨?_, ?_, rfl⟩
  · unfold exConvertDiags
    eval_run
  · unfold exConvertResult
    eval_run

theorem exConvert_ok (first : List Str) : InputOK (exConvertInput first) where
  unit := by
    refine ⟨rfl, fun id => ?_, by simp only [exConvertInput]; decide +kernel, fun id p ps => ?_,
      fun id h => ?_, rfl,
      fun a x => ?_, fun a x => ?_, fun a => ?_⟩
    all_goals simp only [exConvertInput, exConvert]
    · split <;> simp_all [exUnit]
    · split <;> simp <;> rintro rfl rfl <;> rfl
    · split <;> simp_all [exConvert, exUnit, exConvertInput]
    · split <;> simp
    · split <;> simp
    · split <;> simp
  emit := by
    refine ⟨by simp [exConvertInput, exConvert, exUnit], by simp [exConvertInput, exConvert, exUnit], ?_,
      fun _ _ => rfl⟩
    intro d
    simp only [exConvertInput, exConvert]
    split <;> (try rfl) <;> (split <;> simp_all) <;> rfl
  bases := by
    intro x a
    simp only [exConvertInput, exConvert, exUnit, EmitWorld.bases]
    split <;> simp [Hierarchy.direct]
  picks := lastSmallest_ok _
  iterate := fun _ => .refl _

theorem exConvert_namespaces (first : List Str) (x : Nat) : ((exConvert first).info x).kind ≠ .namespace := by
  simp only [exConvert]
  split <;> simp

theorem exConvert_bare (first : List Str) :
    NoBareReopening (exConvertInput first).world.toWorld (exConvertInput first).tree := by
  rintro s t hs ht ⟨h1, _⟩
  exact absurd h1 (exConvert_namespaces first _)

theorem exConvert_reopening (first : List Str) : Reopening (exConvertInput first).world.toWorld where
  name := by
    rintro x y ⟨h, _⟩
    exact absurd h (exConvert_namespaces first _)
  scope := by
    rintro x y p q ⟨h, _⟩
    exact absurd h (exConvert_namespaces first _)
  access := by
    intro x h
    exact absurd h (exConvert_namespaces first _)

theorem exConvert_lookup (first : List Str) : LookupOK (exConvertInput first).world where
  same := by
    rintro x y ⟨h, _⟩
    exact absurd h (exConvert_namespaces first _)
  operators := by simp [exConvertInput, exConvert, exUnit]
  specialized := by simp [exConvertInput, exConvert, exUnit]

/-- The requirements on values are met. -/
example : CalledFor exInstances [4, 5, 6] [] (some .s) := ⟨by simp [exInstances], by simp [exInstances], by simp⟩

example (first : List Str) : TakesDirectly exInstances (exConvert first) .d 5 :=
  ⟨[.d], (takes_single exInstances (exConvert first) 5 _ rfl .d rfl).2 rfl⟩

end Verif
