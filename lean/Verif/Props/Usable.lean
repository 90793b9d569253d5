import Verif.Lemmas.Usable
import Verif.Props.Distinct
import Verif.Props.ToolExamples
/-!
# C91: what the generated code refers to can be referred to
-/
namespace Verif
open Spec

/-- C91: the classes, enums and namespaces of a module can be named in the generated code.
Partial: nothing is checked for types marked as visible, those named by annotated aliases, and
those local to functions; see `C91_private_type`, `C91_private_alias`. -/
theorem C91_types_partial (i : ToolInput) (ok : InputOK i) (nm : NamingOK i.world)
    (src : NameableTypes i.world.toWorld i.tree) (name : Str) (g : Graph) (b : Building)
    (h : buildGraph i.world.toWorld i.tree = (some g, b)) (x : Nat)
    (hx : x ∈ (analyze i.world.toWorld b.storage i.members name g).pruned.nodes) :
    Nameable i.world.toWorld x := by
  have hcg := C23_graphs i.world.toWorld i.tree ok.unit g b h
  obtain ⟨⟨h1, _, h3⟩, _⟩ := (kept_nodes i.world.toWorld b.storage i.members name g hcg x).1 hx
  exact (nameable_context i.world i.tree ok.unit nm src g b h x h1 h3).1

/-- Aliases are stored with the visibility given by their own annotations. -/
theorem alias_visible (w : EmitWorld) (root : Tree) (wf : WellFormed w.toWorld root) (g : Graph)
    (b : Building) (h : buildGraph w.toWorld root = (some g, b)) (d : Nat) (a o : DeclAttrs)
    (ha : attrsOf w b.storage d = some a) (hk : (w.info d).kind = .typedefName)
    (ho : ownAttrs w.toWorld d = some o) : a.named.visible = o.named.visible := by
  have ht : ∀ e, (w.info e).aliasTarget = some d → False := by
    intro e he
    rcases wf.target_tag e d he with h | h <;> rw [hk] at h <;> cases h
  unfold attrsOf at ha
  rw [C53_others w.toWorld root wf g b h d (fun ⟨e, he⟩ => ht e he.2.2.2.1)
    (fun ⟨e, he⟩ => ht e he.2.2.2.1), (traverse_inv w.toWorld root wf.distinct).entries] at ha
  rw [ownAttrs_eq] at ho
  by_cases hv : d ∈ visited w.toWorld root
  · rw [if_pos hv] at ha
    unfold entryOf at ha
    split at ho
    · cases ho
      by_cases hn : annot w.toWorld d = true
      · rw [if_pos hn] at ha
        cases ha
        rfl
      · rw [if_neg hn] at ha
        dsimp only at ha
        rw [ownAttrs_eq] at ha
        split at ha <;> cases ha <;> rfl
    · cases ho
  · rw [if_neg hv] at ha
    dsimp only at ha
    rw [ownAttrs_eq, ho] at ha
    cases ha
    rfl

/-- C91: what is written for a context of the module refers to functions, data members, enumerators
and types that can be accessed, in a way they can be used: constructors of classes that are
not abstract, neither deleted functions nor functions without overload for `overload_cast`, data
members the address of which can be taken.  Partial: see `C91_types_partial` for types and
`C91_using`, `C91_bit_field`, `C91_deleted_getter` for members that have to be left to the user. -/
theorem C91_context_partial (i : ToolInput) (ok : InputOK i) (lk : LookupOK i.world)
    (nm : NamingOK i.world) (src : NameableTypes i.world.toWorld i.tree) (t : Traits) (name : Str)
    (g : Graph) (b : Building) (h : buildGraph i.world.toWorld i.tree = (some g, b))
    (srm : NameableMembers i.world b.storage) (x : Nat)
    (hx : Contributes i.world.toWorld b.storage name g x)
    (su : ∀ d, Offers i.world b.storage g x d → Suitable i.world b.storage t d) :
    ∀ st ∈ (exposeContext i.world (analyze i.world.toWorld b.storage i.members name g).vis b.storage
      (Exposer.create i.world b.storage x) x).emitted.stmts, Referable i.world t x st := by
  have hcg := C23_graphs i.world.toWorld i.tree ok.unit g b h
  have hder := derived_built i.world i.tree ok.unit g b h
  have hNx := nameable_context i.world i.tree ok.unit nm src g b h x hx.1 hx.2.2
  have hsh := fun d => shown_iff i.world b.storage i.members name g hcg x d hx.1 hx.2.1
  -- whatever is shown can be named, or is an operator
  have hdecl : ∀ d, d ∈ proposedDecls i.world (Exposer.create i.world b.storage x) x →
      shown i.world b.storage (analyze i.world.toWorld b.storage i.members name g).vis x d = true →
      (Nameable i.world.toWorld d ∧ Suitable i.world b.storage t d) ∨
        (i.world.info x).kind = .record ∧ supportsOperator (i.world.info d) = true ∧
          (i.world.info d).kind.isMethod = false := by
    intro d hd hs
    rcases proposed_cases i.world lk nm b.storage x d hd with ⟨m, hm, hdm⟩ | h
    · exact .inl ⟨nameable_member i.world nm b.storage srm x m d hNx hm hdm,
        su d ⟨⟨m, hm, hdm⟩, (hsh d).1 hs⟩⟩
    · exact .inr h
  intro st hst
  rw [(exposeContext_eq i.world _ b.storage _ x (enum_not_proposed i.world ok.emit b.storage x)).1,
    List.mem_append] at hst
  rcases hst with hst | hst
  · obtain ⟨d, hd, hst⟩ := List.mem_flatMap.1 hst
    unfold declOutput at hst
    cases ha : attrsOf i.world b.storage d with
    | none => rw [ha] at hst; cases hst
    | some a =>
      rw [ha] at hst
      dsimp only at hst
      split at hst
      · rename_i hsv
        have hc := hdecl d hd (by unfold shown; rw [ha]; exact hsv)
        have hal := fun o hk ho => alias_visible i.world i.tree ok.unit g b h d a o ha hk ho
        cases he : Exposer.create i.world b.storage x with
        | record y p =>
          rw [he] at hst
          have hyx : y = x := by
            unfold Exposer.create at he
            split at he <;> cases he
            rfl
          rw [hyx] at hst
          exact usable_record i.world t b.storage hder i.tree src srm x d a ha
            (hc.imp_right fun h => h.2) hal st hst
        | _ =>
          rw [he] at hst
          have hk : (i.world.info x).kind ≠ .record := by
            intro hk
            unfold Exposer.create at he
            rw [hk] at he
            cases he
          obtain ⟨hN, hS⟩ := hc.resolve_right fun h => hk h.1
          first
          | exact usable_generic i.world t b.storage hder i.tree src srm x d a ha hN hS hal st hst
          | (simp only [declStmts, handleDeclEnum] at hst
             split at hst
             · simp only [List.mem_singleton] at hst
               subst hst
               exact hN
             · simp [Emitted.none] at hst)
      · cases hst
  · cases he : Exposer.create i.world b.storage x with
    | record y p =>
      have hyx : y = x := by
        unfold Exposer.create at he
        split at he <;> cases he
        rfl
      subst hyx
      have hall := hst
      rw [he] at hst hdecl hall
      have := properties_select (fun st => match st with | .property .. => none | st => some st)
        (fun _ _ _ => rfl) i.world (addAll ([], []) (accessors i.world b.storage
          (analyze i.world.toWorld b.storage i.members name g).vis (.record y p) y)).1
      rw [List.filterMap_eq_nil_iff] at this
      have := this st hst
      cases st with
      | property n gt stt =>
        have hin : Stmt.property n gt stt ∈ (exposeContext i.world
            (analyze i.world.toWorld b.storage i.members name g).vis b.storage
            (.record y p) y).emitted.stmts := by
          rw [(exposeContext_eq i.world _ b.storage _ y (by simp)).1, List.mem_append]
          exact .inr hst
        obtain ⟨d, hd, rfl, rfl⟩ := (C36_iff i.world b.storage hder _ y p y n gt stt).1 hin
        have hacc : ∀ d, d ∈ proposedDecls i.world (.record y p) y →
            shown i.world b.storage (analyze i.world.toWorld b.storage i.members name g).vis y d = true →
            isAccessor i.world b.storage d = true → CanPoint i.world t d := by
          intro d hd hs hi
          have hmeth : (i.world.info d).kind = .method ∧
              ((i.world.info d).operator = none ∨ (i.world.info d).operator = some .call) := by
            unfold isAccessor at hi
            cases ha : attrsOf i.world b.storage d with
            | none => rw [ha] at hi; cases hi
            | some a =>
              rw [ha] at hi
              refine (attrsOf_shape i.world b.storage hder d a ha).method.1 ?_
              cases hm : a.method with
              | none => simp [hm] at hi
              | some m => rfl
          rcases hdecl d hd hs with ⟨hN, hS⟩ | ⟨_, _, hm⟩
          · exact ⟨hN, hS.accessor hi, hS.function (by rw [hmeth.1]; rfl)⟩
          · rw [hmeth.1] at hm; cases hm
        have hget : ∀ l : List Str, l.contains n = true → l.isEmpty = false := by
          intro l hl
          cases l with
          | nil => simp at hl
          | cons _ _ => rfl
        refine ⟨?_, ?_⟩
        · have hm := List.mem_of_getLast? hd
          unfold getters at hm
          obtain ⟨h1, h2⟩ := List.mem_filter.1 hm
          rw [Bool.and_eq_true] at h2
          refine hacc d h1 h2.1 ?_
          have h3 := h2.2
          unfold isAccessor
          rw [Option.any_eq_true] at h3 ⊢
          obtain ⟨m, hm, hc⟩ := h3
          exact ⟨m, hm, by rw [hget _ hc]; rfl⟩
        · intro q hq
          obtain ⟨d', hd', rfl⟩ := Option.map_eq_some_iff.1 hq
          have hm := List.mem_of_getLast? hd'
          unfold setters at hm
          obtain ⟨h1, h2⟩ := List.mem_filter.1 hm
          rw [Bool.and_eq_true] at h2
          refine hacc d' h1 h2.1 ?_
          have h3 := h2.2
          unfold isAccessor
          rw [Option.any_eq_true] at h3 ⊢
          obtain ⟨m, hm, hc⟩ := h3
          exact ⟨m, hm, by rw [hget _ hc]; simp⟩
      | _ => cases this
    | enum y =>
      rw [he] at hst
      unfold finalStmts finalizeEnum at hst
      dsimp only at hst
      split at hst
      · split at hst
        · simp only [List.mem_singleton] at hst
          subst hst
          trivial
        · simp [Emitted.none] at hst
      · simp [Emitted.none] at hst
    | _ =>
      rw [he] at hst
      simp only [finalStmts, List.mem_singleton] at hst
      subst hst
      trivial

/-- C91: everything executed when the module is imported, manual bindings aside, refers to what
can be referred to. -/
theorem C91_run_partial (i : ToolInput) (ok : InputOK i) (lk : LookupOK i.world)
    (nm : NamingOK i.world) (src : NameableTypes i.world.toWorld i.tree) (t : Traits) (name : Str)
    (g : Graph) (b : Building) (order : List Nat) (place : Nat → List Str)
    (pl : Placement i name g b order place) (srm : NameableMembers i.world b.storage)
    (su : ∀ x d, Contributes i.world.toWorld b.storage name g x → Offers i.world b.storage g x d →
      Suitable i.world b.storage t d) :
    ∀ e ∈ executed i name g b order place, (∃ v l, e.stmt = .manual v l) ∨
      ∃ x, Contributes i.world.toWorld b.storage name g x ∧ place x = e.object ∧
        Nameable i.world.toWorld x ∧ Referable i.world t x e.stmt := by
  intro e he
  have hcg := C23_graphs i.world.toWorld i.tree ok.unit g b pl.graph
  unfold executed executionsOf at he
  rcases List.mem_append.1 he with he | he
  · obtain ⟨x, hx, he⟩ := List.mem_flatMap.1 he
    obtain ⟨st, hst, rfl⟩ := List.mem_map.1 he
    have hn := pl.sorted.perm.mem_iff.1 (List.mem_filter.1 hx).1
    have hc := ((kept_nodes i.world.toWorld b.storage i.members name g hcg x).1 hn).1
    exact .inr ⟨x, hc, rfl, C91_types_partial i ok nm src name g b pl.graph x hn,
      C91_context_partial i ok lk nm src t name g b pl.graph srm x hc (fun d hd => su x d hc hd) st hst⟩
  · obtain ⟨v, _, hv⟩ := List.mem_filterMap.1 he
    obtain ⟨l, _, rfl⟩ := Option.map_eq_some_iff.1 hv
    exact .inl ⟨v, l, rfl⟩

/-! ### What is not checked -/

/-- `struct 5 { protected: void 4(); };
struct GENPYBIND(visible) 1 : private 5 { int 2 : 3; GENPYBIND(getter_for(p)) int 3() = delete; using 5::4;
void 8(int, ...); GENPYBIND(expose_here) typedef 9 7;
private: struct GENPYBIND(visible) 6 {}; struct 9 {}; };` -/
def exAwkward : EmitWorld := { exUnit with
  info := fun
    | 0 => { kind := .translationUnit }
    | 1 => { kind := .record, name := t%"S", attrTexts := [lozenge ++ t%"visible"] }
    | 2 => { kind := .field, name := t%"bits" }
    | 3 => { kind := .method, name := t%"get_p", attrTexts := [lozenge ++ t%"getter_for(p)"] }
    | 4 => { kind := .method, name := t%"f" }
    | 5 => { kind := .record, name := t%"Base" }
    | 6 => { kind := .record, name := t%"Secret", attrTexts := [lozenge ++ t%"visible"] }
    | 7 => { kind := .typedefName, name := t%"Alias", attrTexts := [lozenge ++ t%"expose_here"],
             aliasTarget := some 9 }
    | 8 => { kind := .method, name := t%"h", params := [t%"x"], minRequired := 1 }
    | 9 => { kind := .record, name := t%"Hidden" }
    | _ => { kind := .other }
  ancestors := fun
    | 0 => [] | 1 => [0] | 5 => [0] | 4 => [5, 0]
    | 2 => [1, 0] | 3 => [1, 0] | 6 => [1, 0] | 7 => [1, 0] | 8 => [1, 0] | 9 => [1, 0] | 10 => [1, 0]
    | _ => [0]
  access := fun
    | 2 => .public | 3 => .public | 7 => .public | 8 => .public | 10 => .public
    | 4 => .protected | 6 => .private | 9 => .private | _ => .none
  fn := fun
    | 3 => { exPlain t%"S::get_p" 0 with isDeleted := true }
    | 4 => exPlain t%"Base::f" 0
    | 8 => exPlain t%"S::h" 1
    | _ => exPlain t%"::other" 0
  qualifiedName := fun _ => t%"S::bits"
  typeName := fun | 1 => t%"::S" | 6 => t%"::S::Secret" | _ => t%"::S::Hidden"
  hierarchy := fun | 1 => .cons { access := .private, id := 5 } .nil .nil | _ => .nil
  aliasTag := fun | 7 => some t%"::S::Hidden" | _ => none
  found := fun
    | 1 => [⟨2, none, false, .public, false, false, some 1, none⟩,
        ⟨3, none, false, .public, false, false, some 1, none⟩,
        ⟨10, none, false, .public, false, false, some 1, some 4⟩,
        ⟨7, none, false, .public, false, false, some 1, none⟩,
        ⟨8, none, false, .public, false, false, some 1, none⟩]
    | _ => [] }

def exAwkwardInput : ToolInput where
  mainFile := t%"/src/my-lib.h"
  world := exAwkward
  tree := .node 0 [.node 5 [.node 4 []], .node 1 [.node 2 [], .node 3 [], .node 10 [], .node 8 [],
    .node 7 [], .node 6 [], .node 9 []]]
  pick := fun _ => lastSmallest exAwkward.loc
  iterate := fun g => g.nodes

/-- The bit-field is one, the function with an ellipsis, too. -/
def exTraits : Traits where
  isBitField := fun x => x = 2
  isReference := fun _ => false
  isVariadic := fun x => x = 8
  isRefQualified := fun _ => false
  isVolatile := fun _ => false

/-- Rewrites a run to a form that can be evaluated. -/
local macro "eval_run" : tactic => `(tactic| (
  simp only [handleTranslationUnit, emitModule, findEnclosingScopes, analyze, pruneGraph, hideNamespaces,
    declContextsWithVisibleNamedDecls, deriveEffectiveVisibility, dfs_fuel]
  decide +kernel))

/-- What is generated for it. -/
def exAwkwardText : Str := t%"#include \"/src/my-lib.h\"
#include <genpybind/binding-helpers.h>
#include <pybind11/pybind11.h>

void expose_context(::pybind11::module& context);
void expose_context_S(::pybind11::class_<::S>& context);
void expose_context_S_Secret(::pybind11::class_<::S::Secret>& context);
void expose_context_S_Hidden(::pybind11::class_<::S::Hidden>& context);

PYBIND11_MODULE(my_lib, root) {
auto context = root;
auto context_S = ::pybind11::class_<::S>(context, \"S\");
auto context_S_Secret = ::pybind11::class_<::S::Secret>(context_S, \"Secret\");
auto context_S_Hidden = ::pybind11::class_<::S::Hidden>(context_S, \"Alias\");

expose_context(context);
expose_context_S(context_S);
expose_context_S_Secret(context_S_Secret);
expose_context_S_Hidden(context_S_Hidden);
}

void expose_context(::pybind11::module& context) {
(void)context;
}

void expose_context_S(::pybind11::class_<::S>& context) {
context.def_readwrite(\"bits\", &::S::bits);
context.def(\"f\", ::pybind11::overload_cast<>(&::Base::f), \"\");
context.def(\"h\", ::pybind11::overload_cast<int>(&::S::h), \"\", ::pybind11::arg(\"x\"));
context.def_property_readonly(\"p\", ::pybind11::overload_cast<>(&::S::get_p));
}

void expose_context_S_Secret(::pybind11::class_<::S::Secret>& context) {
}

void expose_context_S_Hidden(::pybind11::class_<::S::Hidden>& context) {
}

"

set_option maxRecDepth 8000 in
/-- The tool succeeds without a diagnostic. -/
theorem C91_awkward_run :
    (handleTranslationUnit exAwkwardInput t%"my_lib" [t%"/a"]).diags = [] ∧
    (handleTranslationUnit exAwkwardInput t%"my_lib" [t%"/a"]).outputs = [(t%"/a", exAwkwardText)] := by
  unfold exAwkwardText
  constructor <;> eval_run

/-- What is written for the class. -/
def exAwkwardStmts : List Stmt :=
  (exposeContext exAwkward (fun x => if x = 1 then some true else none)
    (buildGraph exAwkward.toWorld exAwkwardInput.tree).2.storage
    (Exposer.create exAwkward (buildGraph exAwkward.toWorld exAwkwardInput.tree).2.storage 1) 1).emitted.stmts

/-- C91: a private class is exposed if it is marked as visible. -/
theorem C91_private_type : t%"::pybind11::class_<::S::Secret>" <:+: exAwkwardText ∧
    exAwkward.typeName 6 = t%"::S::Secret" ∧ ¬ Nameable exAwkward.toWorld 6 := by
  refine ⟨?_, rfl, fun h => ?_⟩
  · unfold exAwkwardText; decide +kernel
  · rcases h.1 with h | h <;> cases h

/-- C91: a private class is exposed if an accessible alias is annotated with `expose_here`, though
the alias could be used to refer to it. -/
theorem C91_private_alias : t%"::pybind11::class_<::S::Hidden>" <:+: exAwkwardText ∧
    exAwkward.typeName 9 = t%"::S::Hidden" ∧ ¬ Nameable exAwkward.toWorld 9 ∧
    Nameable exAwkward.toWorld 7 := by
  refine ⟨?_, rfl, fun h => ?_, .inl rfl, ?_⟩
  · unfold exAwkwardText; decide +kernel
  · rcases h.1 with h | h <;> cases h
  · intro y hy
    have : y = 1 ∨ y = 0 := by simpa [exAwkward] using hy
    rcases this with rfl | rfl
    · exact ⟨.inr rfl, .inr (.inr (.inr (.inr rfl)))⟩
    · exact ⟨.inr rfl, .inl rfl⟩

/-- C91: a member that has been made accessible by a using-declaration is still referred to as
member of the base class, where it is protected. -/
theorem C91_using : t%"overload_cast<>(&::Base::f)" <:+: exAwkwardText ∧
    (∃ a b c d e f, Stmt.function 4 a b c d e f ∈ exAwkwardStmts ∧
      ¬ Referable exAwkward exTraits 1 (.function 4 a b c d e f)) := by
  refine ⟨?_, _, _, _, _, _, _, (?_ : Stmt.function 4 false t%"f" ⟨4, [], t%"Base::f", false⟩ [] [] [] ∈ _), ?_⟩
  · unfold exAwkwardText; decide +kernel
  · decide +kernel
  · rintro ⟨_, h, _⟩
    rcases h.1 with h | h <;> cases h

/-- C91: the address of a bit-field is taken. -/
theorem C91_bit_field : t%"def_readwrite(\"bits\", &::S::bits)" <:+: exAwkwardText ∧
    .field 2 false false t%"bits" t%"S::bits" ∈ exAwkwardStmts ∧
    ¬ Referable exAwkward exTraits 1 (.field 2 false false t%"bits" t%"S::bits") := by
  refine ⟨?_, ?_, ?_⟩
  · unfold exAwkwardText; decide +kernel
  · decide +kernel
  · rintro ⟨_, h⟩
    cases (h rfl).1

/-- C91: a deleted getter is used (while deleted functions are left out otherwise). -/
theorem C91_deleted_getter : t%"def_property_readonly(\"p\", ::pybind11::overload_cast<>(&::S::get_p))" <:+:
      exAwkwardText ∧
    .property t%"p" ⟨3, [], t%"S::get_p", false⟩ none ∈ exAwkwardStmts ∧
    ¬ Referable exAwkward exTraits 1 (.property t%"p" ⟨3, [], t%"S::get_p", false⟩ none) := by
  refine ⟨?_, ?_, ?_⟩
  · unfold exAwkwardText; decide +kernel
  · decide +kernel
  · rintro ⟨⟨_, h, _⟩, _⟩
    cases h

/-- C91: the parameter types of a function with an ellipsis do not select it. -/
theorem C91_variadic : t%"overload_cast<int>(&::S::h)" <:+: exAwkwardText ∧ exTraits.isVariadic 8 = true ∧
    ∀ a b c d e f, ¬ Referable exAwkward exTraits 1 (.function 8 a b c d e f) := by
  refine ⟨?_, rfl, ?_⟩
  · unfold exAwkwardText; decide +kernel
  · rintro a b c d e f ⟨_, _, _, h, _⟩
    cases h

/-! ### Cases of the hypotheses -/

theorem exUnit_open (x : Nat) : Open exUnit.toWorld x := by
  unfold Open
  simp only [exUnit]
  split <;> simp

theorem exUnit_qualifies (x y : Nat) (hy : y ∈ exUnit.ancestors x) : Qualifies exUnit.toWorld y := by
  have : y = 0 ∨ y = 1 ∨ y = 4 ∨ y = 5 := by
    simp only [exUnit] at hy
    split at hy <;> simp at hy <;> omega
  rcases this with rfl | rfl | rfl | rfl <;> simp [Qualifies, exUnit]

theorem exUnit_nameable (x : Nat) : Nameable exUnit.toWorld x :=
  ⟨exUnit_open x, fun y hy => ⟨exUnit_open y, exUnit_qualifies x y hy⟩⟩

theorem exUnit_naming : NamingOK exUnit where
  scopes x _ := exUnit_open x
  members := by
    intro x f hf _
    simp only [exUnit] at hf
    split at hf
    · simp at hf; rcases hf with rfl | rfl <;> rfl
    · simp at hf; subst hf; rfl
    · cases hf
  within := by
    intro x f hf _ _ y hy
    simp only [exUnit] at hf
    split at hf
    · simp at hf
      rcases hf with rfl | rfl <;> simp [exUnit] at hy ⊢ <;> omega
    · simp at hf
      subst hf
      simp [exUnit] at hy ⊢
      omega
    · cases hf
  inherited := by
    intro x f hf _ hb
    simp only [exUnit] at hf
    split at hf
    · simp at hf; rcases hf with rfl | rfl <;> cases hb
    · simp at hf; subst hf; cases hb
    · cases hf
  parent := by
    intro x f hf r hr
    simp only [exUnit] at hf
    split at hf
    · simp at hf; rcases hf with rfl | rfl <;> cases hr <;> rfl
    · simp at hf; subst hf; cases hr
    · cases hf
  specialized t l h := by simp [exUnit] at h
  free r f hf := by simp [exUnit] at hf

theorem exUnit_types : NameableTypes exUnit.toWorld exUnitTree where
  types x _ _ _ _ := exUnit_open x
  aliases _ _ _ _ _ x _ := exUnit_nameable x
  locals t _ _ y hy := exUnit_qualifies t.id y hy

example (s : Storage) : NameableMembers exUnit s where
  complete _ _ _ _ _ h := absurd rfl h
  bases _ y _ := exUnit_nameable y
  usings _ _ _ _ y _ := exUnit_nameable y

/-- The members of the class are suitable. -/
example : Suitable exUnit (buildGraph exUnit.toWorld exUnitTree).2.storage exTraits 2 := by
  refine ⟨(fun h => by cases h), (fun _ => by decide), fun h => ?_⟩
  revert h
  decide +kernel

/-- There is something that can be referred to. -/
example : Referable exUnit exTraits 1
    (.function 2 false t%"f" (emitFunctionPointer exUnit 2) [] [] []) := by
  exact ⟨rfl, exUnit_nameable 2, rfl, rfl, rfl, rfl⟩

end Verif
