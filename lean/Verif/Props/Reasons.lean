import Verif.Lemmas.ModuleReasons
import Verif.Spec.Messages
/-!
# C77: diagnostics are justified
-/
namespace Verif
open Spec

/-- C77: every diagnostic for the annotations of a declaration is justified by them. -/
theorem C77_annotations (env : DeclEnv) (s : Storage) (id : Nat) (hs : shouldSkip (env.info id) = false)
    (q : Diag) (hq : q ∈ (s.insert env id).2) : AnnotationReason env id q := by
  cases hh : s.has id with
  | false =>
    rw [insert_eq _ _ _ hs hh] at hq
    exact insert_said env id q hq
  | true =>
    unfold Storage.insert at hq
    rw [if_neg (by simp [hs]), if_pos hh] at hq
    cases hq

/-- C77: every diagnostic of a run is justified by the source code, or by the structure and the
contents of the module. -/
theorem C77_run (i : ToolInput) (ok : InputOK i) (lk : LookupOK i.world) (mo : MembersOK i.world)
    (name : Str) (outputs : List Str) (q : Diag) (hq : q ∈ (handleTranslationUnit i name outputs).diags) :
    SourceReason i.world.toWorld i.tree q ∨ ∃ g b, buildGraph i.world.toWorld i.tree = (some g, b) ∧
      ModuleReason i name b.storage g q :=
  run_reason i ok lk mo name outputs q hq

/-- C77: the same, for the program as a whole. -/
theorem C77_tool (o : ToolOptions) (i : ToolInput) (ok : InputOK i) (lk : LookupOK i.world)
    (mo : MembersOK i.world) (files : Files) (r : ToolResult) (h : runTool o i files = some r) (q : Diag)
    (hq : q ∈ r.diags) :
    ∃ name, moduleNameFor o.moduleName i.mainFile = some name ∧
      (SourceReason i.world.toWorld i.tree q ∨ ∃ g b, buildGraph i.world.toWorld i.tree = (some g, b) ∧
        ModuleReason i name b.storage g q) := by
  unfold runTool at h
  cases hn : moduleNameFor o.moduleName i.mainFile with
  | none => rw [hn] at h; cases h
  | some name =>
    rw [hn] at h
    cases h
    exact ⟨name, rfl, run_reason i ok lk mo name _ q hq⟩

/-! ### Which parse error is reported -/

theorem viable_prefix {a b : List Lexeme} (h : Viable (a ++ b)) : Viable a := by
  obtain ⟨more, as, h⟩ := h
  exact ⟨b ++ more, as, by rw [← List.append_assoc]; exact h⟩

theorem wrong_unique {ls : List Lexeme} {next : Option Lexeme} {e e' : ParseErrorKind}
    (h : Wrong ls next e) (h' : Wrong ls next e') : e = e' := by
  have aux : ∀ {a b}, Wrong ls next a → Wrong ls next b → a = .invalidAnnotation →
      b ≠ .invalidAnnotation → False := by
    rintro a b ha hb rfl hn
    obtain ⟨h1, h2, s, h3, _⟩ := ha
    cases b with
    | invalidAnnotation => exact hn rfl
    | missingClosingParen => exact h1 hb.1
    | invalidToken =>
      rcases hb with ⟨t, ht⟩ | ⟨_, _, h4⟩
      · rw [h3] at ht; cases ht
      · exact h4 h2 s h3
  have aux' : Wrong ls next .missingClosingParen → Wrong ls next .invalidToken → False := by
    rintro ⟨h1, h2⟩ (⟨t, ht⟩ | ⟨h3, _⟩)
    · exact h2 t ht
    · exact h3 h1
  cases e <;> cases e' <;> first
    | rfl
    | exact (aux h h' rfl (by simp)).elim
    | exact (aux h' h rfl (by simp)).elim
    | exact (aux' h h').elim
    | exact (aux' h' h).elim

/-- C77: the error for a text that is no list of annotations, and the part of the text it points
at, are determined by the text. -/
theorem C77_parse_error_unique (ls : List Lexeme) (e e' : ParseErrorKind) (tok tok' : Str)
    (h : StopsAt ls e tok) (h' : StopsAt ls e' tok') : e = e' ∧ tok = tok' := by
  have aux : ∀ {pre l rest pre' l' rest'}, ls = pre ++ l :: rest → ls = pre' ++ l' :: rest' →
      ¬ Viable (pre ++ [l]) → Viable pre' → pre.length < pre'.length → False := by
    intro pre l rest pre' l' rest' h1 h2 h3 h4 hlt
    refine h3 (viable_prefix (b := pre'.drop (pre.length + 1)) ?_)
    have : pre ++ [l] = pre'.take (pre.length + 1) := by
      have e1 : ls.take (pre.length + 1) = pre ++ [l] := by
        rw [h1, List.take_append, List.take_of_length_le (by omega)]; simp
      have e2 : ls.take (pre.length + 1) = pre'.take (pre.length + 1) := by
        rw [h2, List.take_append, show pre.length + 1 - pre'.length = 0 by omega]; simp
      rw [← e1, e2]
    rw [this, List.take_append_drop]
    exact h4
  have whole : ∀ {pre l rest}, ls = pre ++ l :: rest → ¬ Viable (pre ++ [l]) → Viable ls → False := by
    intro pre l rest h1 h2 h3
    refine h2 (viable_prefix (b := rest) ?_)
    rw [List.append_assoc, List.singleton_append, ← h1]
    exact h3
  rcases h with ⟨pre, l, rest, h1, h2, h3, h4, h5⟩ | ⟨h1, h2, _, h3⟩ <;>
    rcases h' with ⟨pre', l', rest', h1', h2', h3', h4', h5'⟩ | ⟨h1', h2', _, h3'⟩
  · have hlen : pre.length = pre'.length := by
      rcases Nat.lt_trichotomy pre.length pre'.length with hlt | heq | hlt
      · exact (aux h1 h1' h4 h3' hlt).elim
      · exact heq
      · exact (aux h1' h1 h4' h3 hlt).elim
    obtain ⟨rfl, hr⟩ := List.append_inj (h1.symm.trans h1') hlen
    simp only [List.cons.injEq] at hr
    obtain ⟨rfl, _⟩ := hr
    exact ⟨wrong_unique h5 h5', by rw [h2, h2']⟩
  · exact (whole h1 h4 h2').elim
  · exact (whole h1' h4' h2).elim
  · exact ⟨wrong_unique h3 h3', by rw [h1, h1']⟩

/-- C77: it is the error the parser reports. -/
theorem C77_parse_error (text : Str) (ls : List Lexeme) (hl : Lexes text ls) (e : ParseErrorKind) (tok : Str) :
    parseAnnotations text = .error ⟨e, tok⟩ ↔ StopsAt ls e tok := by
  have key : ∀ x, parseAnnotations text = .error x ↔ (pAnns ls).1 = some x := by
    intro x
    unfold parseAnnotations
    rw [parseAnnotationsInto_eq, lexAll_of_lexes hl]
    cases h : (pAnns ls).1 with
    | none => simp
    | some y => simp
  rw [key]
  constructor
  · intro h
    exact pAnns_stops ls _ h
  · intro h
    cases hp : (pAnns ls).1 with
    | none =>
      exfalso
      have ha : Anns ls (pAnns ls).2 := (pAnns_none_iff ls _).1 (Prod.ext hp rfl)
      rcases h with ⟨pre, l, rest, h1, _, _, h4, _⟩ | ⟨_, _, h3, _⟩
      · refine h4 ⟨rest, (pAnns ls).2, ?_⟩
        rw [List.append_assoc, List.singleton_append, ← h1]
        exact ha
      · exact h3 ⟨_, ha⟩
    | some x =>
      obtain ⟨rfl, rfl⟩ := C77_parse_error_unique ls _ _ _ _ (pAnns_stops ls x hp) h
      rfl

/-- A name that is no annotation. -/
example : (parseAnnotationsInto t%"visible, hiden" []).1 = some ⟨.invalidAnnotation, t%"hiden"⟩ := by decide +kernel
/-- A missing comma. -/
example : (parseAnnotationsInto t%"visible hidden" []).1 = some ⟨.invalidToken, t%"hidden"⟩ := by decide +kernel
/-- A missing parenthesis. -/
example : (parseAnnotationsInto t%"keep_alive(this, return" []).1 = some ⟨.missingClosingParen, []⟩ := by decide +kernel

/-- Per cent signs in templates. -/
example : formatDiagnostic [t%"50%0"] t%"100%% of %0" = some t%"100% of 50%0" := by decide +kernel

/-! ### Messages -/

theorem shows_one {display : Nat → Str} {q : Diag} {parts : List Str} (text : Str)
    (h : message display q = some text) (hp : ∀ p ∈ parts, p <:+: text) : Shows display q parts :=
  ⟨text, h, hp⟩

theorem infix_at (pre p post : Str) : p <:+: pre ++ (p ++ post) := ⟨pre, post, by simp⟩

theorem shows_first {display : Nat → Str} {q : Diag} (pre p post : Str)
    (h : message display q = some (pre ++ (p ++ post))) : Shows display q [p] := by
  refine shows_one _ h fun r hr => ?_
  rw [List.mem_singleton] at hr
  subst hr
  exact infix_at ..

theorem shows_two {display : Nat → Str} {q : Diag} (pre p mid r post : Str)
    (h : message display q = some (pre ++ (p ++ (mid ++ (r ++ post))))) : Shows display q [p, r] := by
  refine shows_one _ h fun x hx => ?_
  simp only [List.mem_cons, List.not_mem_nil, or_false] at hx
  rcases hx with rfl | rfl
  · exact infix_at ..
  · refine ⟨pre ++ (p ++ mid), post, by simp⟩

theorem complaint_shows (display : Nat → Str) (env : DeclEnv) (id : Nat) (a : Annotation) (q : Diag)
    (h : Complaint env id a q) : Shows display q (shownParts display q) := by
  cases h with
  | unsupported p => exact shows_two t%"Invalid annotation for " _ t%": " _ [] rfl
  | converting p => exact shows_two t%"Invalid annotation for " _ t%": " _ [] rfl
  | signature => exact shows_two t%"Signature of " _ t%" is incompatible with '" _ t%"' annotation" rfl
  | scope => exact shows_first t%"'" _ t%"' can only be used in global scope" rfl
  | type => exact shows_two t%"Wrong type of argument for '" _ t%"' annotation: " _ [] rfl
  | number => exact shows_first t%"Wrong number of arguments for '" _ t%"' annotation" rfl
  | spelling => exact shows_two t%"Invalid spelling in '" _ t%"' annotation: '" _ t%"'" rfl
  | parameter => exact shows_two t%"Invalid argument specifier in '" _ t%"' annotation: '" _ t%"'" rfl
  | base => exact shows_first t%"Unknown base type in '" _ t%"' annotation" rfl

theorem annotation_shows (display : Nat → Str) (env : DeclEnv) (id : Nat) (q : Diag)
    (h : AnnotationReason env id q) : Shows display q (shownParts display q) := by
  cases h with
  | text t tok ls e =>
    cases e with
    | invalidToken => exact shows_first t%"Invalid token in genpybind annotation: " tok [] rfl
    | missingClosingParen =>
      exact shows_first t%"Invalid token in genpybind annotation while looking for ')': " tok [] rfl
    | invalidAnnotation => exact shows_first t%"Invalid genpybind annotation: " tok [] rfl
  | target => exact shows_one _ rfl fun _ hp => nomatch hp
  | conflict => exact shows_two t%"'" _ t%"' and '" _ t%"' cannot be used at the same time" rfl
  | annotation a _ _ h => exact complaint_shows display env id a q h

theorem source_shows (display : Nat → Str) (w : World) (root : Tree) (q : Diag)
    (h : SourceReason w root q) : Shows display q (shownParts display q) := by
  cases h with
  | own t _ _ _ h => exact annotation_shows display _ _ q h
  | target a x _ _ h => exact annotation_shows display _ _ q h
  | qualifiers => exact shows_one _ rfl fun _ hp => nomatch hp
  | differs => exact shows_one _ rfl fun _ hp => nomatch hp
  | first => exact shows_one _ rfl fun _ hp => nomatch hp
  | again => exact shows_first t%"'" _ t%"' has already been exposed elsewhere" rfl
  | previous => exact shows_one _ rfl fun _ hp => nomatch hp

theorem module_shows (display : Nat → Str) (i : ToolInput) (name : Str) (s : Storage) (g : Graph) (q : Diag)
    (h : ModuleReason i name s g q) (hk : q.kind ≠ .assertion) :
    Shows display q (shownParts display q) := by
  cases h with
  | cycle => exact shows_one _ rfl fun _ hp => nomatch hp
  | hidden =>
    exact shows_first t%"Declaration context '" (display _)
      (t%"' contains 'visible' declarations but is not exposed") rfl
  | dependency => exact shows_one _ rfl fun _ hp => nomatch hp
  | member x d _ _ _ h => exact annotation_shows display _ _ q h
  | parameter => exact shows_one _ rfl fun _ hp => nomatch hp
  | getter => exact shows_two [] t%"getter" t%" already defined for '" _ t%"'" rfl
  | setter => exact shows_two [] t%"setter" t%" already defined for '" _ t%"'" rfl
  | replaced => exact shows_one _ rfl fun _ hp => nomatch hp
  | unreadable => exact shows_first t%"No getter for the '" _ t%"' property" rfl
  | unnamed => exact absurd rfl hk

/-- C77: every diagnostic of a run can be shown, since all arguments its text refers to are
there, and the message contains them as they are. -/
theorem C77_messages (i : ToolInput) (ok : InputOK i) (lk : LookupOK i.world) (mo : MembersOK i.world)
    (name : Str) (outputs : List Str) (display : Nat → Str) (q : Diag)
    (hq : q ∈ (handleTranslationUnit i name outputs).diags) (hk : q.kind ≠ .assertion) :
    Shows display q (shownParts display q) := by
  rcases C77_run i ok lk mo name outputs q hq with h | ⟨g, b, _, h⟩
  · exact source_shows display _ _ q h
  · exact module_shows display i name b.storage g q h hk

/-! ### Cycles -/

theorem steps_chain {R : Nat → Nat → Prop} {a b c : Nat} (h1 : Steps R a b) (h2 : Steps R b c) :
    Steps R a c := by
  induction h2 with
  | one h => exact .more h1 h
  | more _ h ih => exact .more ih h

/-- C77: if contexts cannot be exposed because each would have to come before the other, then
one of them has been moved by an alias: it is true that `expose_here` annotations form a cycle. -/
theorem C77_cycle_moved (i : ToolInput) (ok : InputOK i) (g : Graph) (b : Building)
    (h : buildGraph i.world.toWorld i.tree = (some g, b)) (name : Str) (rank : Nat → Nat)
    (hr : StartsAfter i.world.toWorld i.world.bases rank) (c : Nat)
    (hc : Steps (Depends i.world.toWorld b.storage i.world.bases
      (analyze i.world.toWorld b.storage i.members name g).pruned) c c) :
    ∃ a x, ExposesHere i.world.toWorld i.tree a x ∧
      Steps (Depends i.world.toWorld b.storage i.world.bases
        (analyze i.world.toWorld b.storage i.members name g).pruned) c x ∧
      Steps (Depends i.world.toWorld b.storage i.world.bases
        (analyze i.world.toWorld b.storage i.members name g).pruned) x c := by
  have hb := built i.world.toWorld i.tree ok.unit g b h
  have hcg := C23_graphs i.world.toWorld i.tree ok.unit g b h
  have hd := derived_built i.world i.tree ok.unit g b h
  obtain ⟨_, _, hedge, _⟩ := C26_places i.world.toWorld b.storage i.members name g hcg
  have hstep : ∀ p x, Edge (analyze i.world.toWorld b.storage i.members name g).pruned p x →
      (¬ ∃ a, ExposesHere i.world.toWorld i.tree a x) → rank p < rank x := by
    intro p x hE hn
    rcases (built_edge_iff hb p x).1 ((hedge p x).1 hE).1 with ⟨a, ha, _⟩ | ⟨_, _, hctx, hp⟩
    · exact absurd ⟨a, ha⟩ hn
    · exact hr.1 x p ((scopeOf_find _ _ ok.unit x p (context_not_unit _ _ ok.unit x hctx)).2 hp.symm)
  have hpass : ∀ p, PassedOver b.storage p → ¬ ∃ a, ExposesHere i.world.toWorld i.tree a p := by
    rintro p ⟨attrs, ns, h1, h2, _⟩ ⟨a, ha⟩
    have hk := (attrsOf_shape i.world b.storage hd p attrs (by unfold attrsOf; rw [h1])).namespace_.1
      (by rw [h2]; rfl)
    rcases ok.unit.target_tag a p ha.2.2.2.1 with h | h <;> rw [hk] at h <;> cases h
  have hscope : ∀ p x, EnclosingScope b.storage (analyze i.world.toWorld b.storage i.members name g).pruned p x →
      (¬ ∃ a, ExposesHere i.world.toWorld i.tree a x) → rank p < rank x := by
    intro p x hs
    induction hs with
    | here hE _ => exact hstep _ _ hE
    | above _ hE _ hp ih => exact fun hn => Nat.lt_trans (ih (hpass _ hp)) (hstep _ _ hE hn)
  apply Classical.byContradiction
  intro hno
  have hall : ∀ x, Steps (Depends i.world.toWorld b.storage i.world.bases
      (analyze i.world.toWorld b.storage i.members name g).pruned) c x →
      Steps (Depends i.world.toWorld b.storage i.world.bases
        (analyze i.world.toWorld b.storage i.members name g).pruned) x c → rank c < rank x := by
    have hone : ∀ p x, Depends i.world.toWorld b.storage i.world.bases
        (analyze i.world.toWorld b.storage i.members name g).pruned p x →
        (¬ ∃ a, ExposesHere i.world.toWorld i.tree a x) → rank p < rank x := by
      rintro p x ⟨_, hs | ⟨_, _, hbase⟩⟩ hn
      · exact hscope p x hs hn
      · exact hr.2 x _ p hbase
    intro x hx
    induction hx with
    | one hR => exact fun hx => hone _ _ hR fun ⟨a, ha⟩ => hno ⟨a, _, ha, .one hR, hx⟩
    | more hp hR ih =>
      intro hx
      exact Nat.lt_trans (ih (steps_chain (.one hR) hx))
        (hone _ _ hR fun ⟨a, ha⟩ => hno ⟨a, _, ha, .more hp hR, hx⟩)
  exact Nat.lt_irrefl _ (hall c hc hc)

/-! ### Examples -/

theorem exBroken_wellFormed (text : Str) (second : Option ArgsType) :
    WellFormed (exBroken text second).toWorld exUnitTree := by
  refine ⟨rfl, fun id => ?_, by decide +kernel, exUnit_wellFormed.nested, exUnit_wellFormed.outermost, rfl,
    fun a x => ?_, fun a x => ?_, fun a => ?_⟩
  · simp only [exBroken]
    split
    · simp [exUnit]
    · exact exUnit_wellFormed.unit_kind id
  all_goals simp only [exBroken, exUnit]
  · split <;> (try split) <;> simp
  · split <;> (try split) <;> simp
  · split <;> (try split) <;> simp

/-- The example of a method with questionable annotations and parameters meets the assumptions. -/
theorem exBroken_ok (text : Str) (second : Option ArgsType) : InputOK (exBrokenInput text second) where
  unit := exBroken_wellFormed text second
  emit := by
    refine ⟨by simp [exBrokenInput, exBroken, exUnit], by simp [exBrokenInput, exBroken, exUnit], ?_,
      fun _ _ => rfl⟩
    intro d
    by_cases hd : d = 2
    · subst hd
      rfl
    · have h1 : (exBroken text second).info d = exUnit.info d := by
        simp only [exBroken]
      have h2 : (exBroken text second).fn d = exUnit.fn d := by
        simp only [exBroken]
      show ((exBroken text second).info d).params = ((exBroken text second).fn d).params.map _
      rw [h1, h2]
      exact exInput_ok.emit.params d
  bases := by
    intro x a
    simp [exBrokenInput, exBroken, exUnit, EmitWorld.bases, Hierarchy.direct]
  picks := lastSmallest_ok _
  iterate := fun _ => .refl _

example (text : Str) (second : Option ArgsType) : LookupOK (exBrokenInput text second).world where
  same := by
    have key : ∀ x, ((exBroken text second).info x).kind = .namespace → x = 4 := by
      intro x
      simp only [exBroken, exUnit]
      split <;> (try split) <;> simp
    intro x y h
    rw [key x h.1, key y h.2.1]
  operators := by simp [exBrokenInput, exBroken, exUnit]
  specialized := by simp [exBrokenInput, exBroken, exUnit]

example (text : Str) (second : Option ArgsType) : MembersOK (exBrokenInput text second).world where
  ofClass := by
    intro x f hf d hd hk
    have hf : f ∈ exUnit.found x := hf
    simp only [exUnit] at hf
    split at hf
    · rfl
    · simp only [List.mem_singleton] at hf
      subst hf
      have hd : d ∈ [6] := hd
      rw [List.mem_singleton] at hd
      subst hd
      rcases hk with h | h <;> cases h
    · cases hf
  ofUnit := by
    intro x f hf d hd hk
    exfalso
    revert hk
    simp only [exBrokenInput, exBroken, exUnit]
    split <;> (try split) <;> simp
  once := by
    intro x hk
    have hx : x = 1 := by
      revert hk
      simp only [exBrokenInput, exBroken, exUnit]
      split <;> (try split) <;> simp
    subst hx
    simp [exBrokenInput, exBroken, exUnit, specializationsOf]
  distinct := by simp [exBrokenInput, exBroken, exUnit, specializationsOf]

/-- Rewrites a run to a form that can be evaluated. -/
local macro "eval_run" : tactic => `(tactic| (
  simp only [handleTranslationUnit, emitModule, findEnclosingScopes, analyze, pruneGraph, hideNamespaces,
    declContextsWithVisibleNamedDecls, deriveEffectiveVisibility, dfs_fuel]
  decide +kernel))

/-- A class that is exposed in one derived from it, see `exInside`. -/
def exInDerived : ToolInput := { exInside with world := { exInside.world with fn := fun _ => exPlain [] } }

/-- Where the definitions of `exInDerived` start. -/
def exRank : Nat → Nat | 0 => 0 | 2 => 1 | 1 => 2 | _ => 3

theorem exInDerived_wellFormed : WellFormed exInDerived.world.toWorld exInDerived.tree := by
  refine ⟨rfl, fun id => ?_, by decide +kernel, fun id p ps => ?_, fun id h => ?_, rfl,
    fun a x => ?_, fun a x => ?_, fun a => ?_⟩
  all_goals simp only [exInDerived, exInside, exInput, exUnit]
  · split <;> simp_all
  · split <;> simp <;> rintro rfl rfl <;> rfl
  · split <;> simp_all [exInDerived, exInside, exInput, exUnit]
  · split <;> simp <;> rintro rfl <;> simp
  · split <;> simp <;> rintro rfl <;> simp
  · split <;> simp

theorem exInDerived_ok : InputOK exInDerived where
  unit := exInDerived_wellFormed
  emit := by
    refine ⟨by simp [exInDerived, exInside, exInput, exUnit], by simp [exInDerived, exInside, exInput, exUnit], ?_, fun _ _ => rfl⟩
    intro d
    simp only [exInDerived, exInside]
    split <;> rfl
  bases := by
    intro x a
    simp only [exInDerived, exInside, EmitWorld.bases]
    split <;> simp [Hierarchy.direct]
  picks := lastSmallest_ok _
  iterate := fun _ => .refl _

example : StartsAfter exInDerived.world.toWorld exInDerived.world.bases exRank ∧
    ∃ g b, buildGraph exInDerived.world.toWorld exInDerived.tree = (some g, b) ∧
      ∃ c, Steps (Depends exInDerived.world.toWorld b.storage exInDerived.world.bases
        (analyze exInDerived.world.toWorld b.storage exInDerived.members t%"my_lib" g).pruned) c c := by
  refine ⟨⟨fun x p h => ?_, fun x a p h => ?_⟩, ?_⟩
  · obtain ⟨pre, post, h, hk, _⟩ := h
    have hp : p ∈ exInDerived.world.toWorld.ancestors x := by rw [h]; simp
    simp only [exInDerived, exInside] at hp
    split at hp
    · cases hp
    · simp only [List.mem_cons, List.not_mem_nil, or_false] at hp
      rcases hp with rfl | rfl <;> decide
    · rename_i h0 _
      rw [List.mem_singleton] at hp
      subst hp
      match x, h0 with
      | 1, _ => decide
      | 2, _ => decide
      | n + 3, _ => exact Nat.zero_lt_succ 2
  · simp only [exInDerived, exInside, EmitWorld.bases] at h
    split at h
    · simp only [Hierarchy.direct, List.map_cons, List.map_nil, List.mem_singleton, Prod.mk.injEq] at h
      rw [h.2]
      decide
    · cases h
  · have hs : ((buildGraph exInDerived.world.toWorld exInDerived.tree).1).isSome = true := by decide +kernel
    obtain ⟨g, hg⟩ := Option.isSome_iff_exists.1 hs
    have hb : buildGraph exInDerived.world.toWorld exInDerived.tree =
        (some g, (buildGraph exInDerived.world.toWorld exInDerived.tree).2) := by rw [← hg]
    refine ⟨g, _, hb, ?_⟩
    rcases C34_outcome exInDerived.world _ _ (fun _ => none) exInDerived.pick _ (emitInput exInDerived exInDerived_ok g _ hb t%"my_lib") 1 t%"my_lib" with
      ⟨hno, order, hv, ho⟩ | ⟨h, _⟩
    · exfalso
      have hc : ((buildGraph exInDerived.world.toWorld exInDerived.tree).1.map fun g =>
          (declContextsSortedByDependencies exInDerived.world.toWorld exInDerived.world.bases exInDerived.pick
            (exInDerived.iterate (analyze exInDerived.world.toWorld
              (buildGraph exInDerived.world.toWorld exInDerived.tree).2.storage exInDerived.members t%"my_lib" g).pruned)
            (analyze exInDerived.world.toWorld
              (buildGraph exInDerived.world.toWorld exInDerived.tree).2.storage exInDerived.members t%"my_lib" g).pruned
            (findEnclosingScopes exInDerived.world.toWorld (buildGraph exInDerived.world.toWorld exInDerived.tree).2.storage
              (analyze exInDerived.world.toWorld (buildGraph exInDerived.world.toWorld exInDerived.tree).2.storage
                exInDerived.members t%"my_lib" g).pruned)).2.isSome) = some true := by eval_run
      rw [hg, Option.map_some, ho] at hc
      cases hc
    · exact h

/-- What is shown for some mistakes: a setter without getter, an unknown parameter, a missing
parenthesis, a missing comma, an unknown annotation, and a parameter behind `**kwargs`. -/
theorem C77_examples :
    (exBrokenDiags t%"setter_for(z)" none).map (message fun _ => []) =
      [some t%"No getter for the 'z' property"] ∧
    (exBrokenDiags t%"noconvert(z)" none).map (message fun _ => []) =
      [some t%"Invalid argument specifier in 'noconvert' annotation: 'z'"] ∧
    (exBrokenDiags t%"noconvert(hidden(y))" none).map (message fun _ => []) =
      [some t%"Invalid token in genpybind annotation while looking for ')': ("] ∧
    (exBrokenDiags t%"visible hidden" none).map (message fun _ => []) =
      [some t%"Invalid token in genpybind annotation: hidden"] ∧
    (exBrokenDiags t%"visible, hiden" none).map (message fun _ => []) =
      [some t%"Invalid genpybind annotation: hiden"] ∧
    (exBrokenDiags t%"visible" (some .kwargs)).map (message fun _ => []) =
      [some t%"cannot be followed by other parameters"] := by
  refine ⟨?_, ?_, ?_, ?_, ?_, ?_⟩ <;> (unfold exBrokenDiags; eval_run)

end Verif
