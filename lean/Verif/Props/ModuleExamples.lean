import Verif.Props.Objects
/-!
# Cases of the theorems about modules
-/
namespace Verif
open Spec

/-- `emitModule` for given enclosing scopes. -/
def emitModuleWith (w : EmitWorld) (s : Storage) (g : Graph) (vis : Visibilities) (pick : Pick)
    (nodes : List Nat) (streams : Nat) (moduleName : Str) (parents : EnclosingScopes) : ModuleOutput :=
  let sorted := declContextsSortedByDependencies w.toWorld w.bases pick nodes g parents
  match sorted.2 with
  | some cycle => { storage := s, diags := [{ decl := cycle, kind := .exposeHereCycle }] }
  | none =>
    let n := nameContexts w s sorted.1
    let d := defineItems w g vis streams n.worklist.length
      { storage := s, writes := (emitMain w s g parents moduleName n).map (0, ·) } 0 n.worklist
    { storage := d.storage, diags := d.diags, writes := d.writes }

theorem emitModule_with (w : EmitWorld) (s : Storage) (g : Graph) (vis : Visibilities) (pick : Pick)
    (nodes : List Nat) (streams : Nat) (moduleName : Str) :
    emitModule w s g vis pick nodes streams moduleName =
      emitModuleWith w s g vis pick nodes streams moduleName (findEnclosingScopes w.toWorld s g) := rfl

/-- `enum 1 {}; namespace 2 module { struct 3 {}; } namespace 4 module { struct 5 : 3 {}; }`
with a variable 6 for manual bindings by a lambda 7; 4 re-opens the namespace 2. -/
def exMod : EmitWorld where
  info := fun
    | 0 => { kind := .translationUnit }
    | 1 => { kind := .enum, name := t%"E", attrTexts := [lozenge ++ t%"visible"] }
    | 2 => { kind := .namespace, name := t%"n", attrTexts := [lozenge ++ t%"module"] }
    | 3 => { kind := .record, name := t%"A", attrTexts := [lozenge ++ t%"visible"] }
    | 4 => { kind := .namespace, name := t%"n", attrTexts := [lozenge ++ t%"module"] }
    | 5 => { kind := .record, name := t%"B", attrTexts := [lozenge ++ t%"visible"] }
    | _ => { kind := .var, name := t%"v", attrTexts := [lozenge ++ t%"hidden, manual, postamble"],
             lambda := some ⟨7, true, 1, true, false⟩, inTranslationUnit := true }
  hasName := fun _ _ => false
  ancestors := fun _ => []
  canonical := fun | 4 => 2 | x => x
  access := fun _ => .none
  loc := fun x => x
  dependentContext := fun _ => false
  unit := 0
  fn := fun _ => exPlain t%"f" 0
  qualifiedName := fun _ => t%"n"
  typeName := fun | 1 => t%"::E" | 3 => t%"::n::A" | _ => t%"::n::B"
  selfType := fun r _ => { text := t%"::S", record := some r }
  brief := fun _ => []
  aliasTag := fun _ => none
  isConstType := fun _ => false
  manual := fun _ => ⟨some t%"c", t%"{}"⟩
  isAbstract := fun _ => false
  isScoped := fun _ => false
  hierarchy := fun | 5 => .cons { access := .public, id := 3 } .nil .nil | _ => .nil
  specializations := fun _ => none
  found := fun _ => []
  hasLocation := fun _ => true
  associated := fun _ => []
  unitVars := [6]

theorem exMod_ok : EmitOK exMod := by
  refine ⟨by simp [exMod], by simp [exMod], ?_, fun _ _ => rfl⟩
  intro d
  simp only [exMod]
  split <;> rfl

def exModGraph : Graph where
  root := 0
  nodes := [0, 1, 2, 3, 4, 5]
  children := fun | 0 => [1, 2, 4] | 2 => [3] | 4 => [5] | _ => []

/-- All annotations are known. -/
def exModStorage : Storage where
  entries := fun x => if x ∈ [1, 2, 3, 4, 5, 6] then ownAttrs exMod.toWorld x else none
  size := 6

theorem exMod_derived : Derived exMod exModStorage := by
  intro x a h
  unfold exModStorage at h
  dsimp only at h
  split at h
  · exact ⟨a, a.named, h, rfl⟩
  · cases h

theorem exMod_input : EmitInput exMod exModGraph (fun _ => lastSmallest exMod.loc) [5, 3, 1, 0, 4, 2] := by
  refine ⟨⟨⟨⟨⟨by simp [exModGraph], ?_, ?_⟩, ?_, ?_, ?_⟩, rfl, ?_⟩, ?_, by simp [exModGraph]⟩, ?_,
    lastSmallest_ok _, by decide⟩
  · intro p c
    simp only [Edge, exModGraph]
    split <;> simp <;> omega
  · intro p c
    simp only [Edge, exModGraph]
    split <;> simp
  · intro p q c
    simp only [Edge, exModGraph]
    split <;> split <;> simp_all <;> omega
  · intro p
    simp only [exModGraph]
    split <;> simp
  · intro p
    simp only [Edge, exModGraph]
    split <;> simp
  · intro x hx hne
    simp only [exMod]
    split <;> simp_all [exModGraph]
  · have r0 : Reachable exModGraph 0 := .root
    have step : ∀ p c, Reachable exModGraph p → c ∈ exModGraph.children p →
        Reachable exModGraph c := fun p c h hc => .step h trivial hc
    have r2 := step 0 2 r0 (by simp [exModGraph])
    have r4 := step 0 4 r0 (by simp [exModGraph])
    intro x hx
    simp only [exModGraph, List.mem_cons, List.not_mem_nil, or_false] at hx
    rcases hx with rfl | rfl | rfl | rfl | rfl | rfl
    · exact r0
    · exact step 0 1 r0 (by simp [exModGraph])
    · exact r2
    · exact step 2 3 r2 (by simp [exModGraph])
    · exact r4
    · exact step 4 5 r4 (by simp [exModGraph])
  · intro x a
    simp only [exMod, EmitWorld.bases]
    split <;> simp [Hierarchy.direct]

theorem exMod_order : declContextsSortedByDependencies exMod.toWorld exMod.bases
    (fun _ => lastSmallest exMod.loc) [5, 3, 1, 0, 4, 2] exModGraph
    (findEnclosingScopes exMod.toWorld exModStorage exModGraph) = ([0, 1, 2, 3, 4, 5], none) :=
  dfs_eval 40 _ _ _ (fun m : EnclosingScopes => declContextsSortedByDependencies exMod.toWorld exMod.bases
    (fun _ => lastSmallest exMod.loc) [5, 3, 1, 0, 4, 2] exModGraph m) _ (by decide +kernel)

/-- C54 and C09: both declarations of the namespace share an identifier. -/
example : identifiersOf exMod [0, 1, 2, 3, 4, 5] =
    [t%"context", t%"context_E", t%"context_n", t%"context_n_A", t%"context_n_B"] := by decide +kernel
example : [0, 1, 2, 3, 4, 5].map (identifierOf exMod [0, 1, 2, 3, 4, 5]) =
    [t%"context", t%"context_E", t%"context_n", t%"context_n_A", t%"context_n", t%"context_n_B"] := by
  decide +kernel

/-- C35: five definitions in two files. -/
example : ((contextsOf exMod [0, 1, 2, 3, 4, 5]).zipIdx.map fun p => p.2 * 2 / 5) = [0, 0, 0, 1, 1] := by
  decide +kernel

/-- C46: the binding at the end of the module. -/
example : (exMod.unitVars.filterMap fun v => (postambleLambda exModStorage v).map (Line.postamble v)) =
    [.postamble 6 7] := by decide +kernel

/-- A binding at the end of the module is written although the variable is hidden. -/
theorem C46_hidden_postamble :
    (attrsOf exMod exModStorage 6).map (·.named.visible) = some (some false) ∧
    Line.postamble 6 7 ∈ (emitModule exMod exModStorage exModGraph (fun _ => some false)
      (fun _ => lastSmallest exMod.loc) [5, 3, 1, 0, 4, 2] 1 t%"m").stream 0 := by
  refine ⟨by decide +kernel, ?_⟩
  rw [stream_eq exMod exMod_ok exModStorage exModGraph _ _ _ exMod_input 1 _ _ exMod_order, if_pos rfl]
  refine List.mem_append_left _ ?_
  unfold mainOf
  refine List.mem_append_right _ (List.mem_append_left _ ?_)
  decide +kernel

/-- `postamble` has an effect only together with `manual`: otherwise the variable
is exposed like any other. -/
theorem C46_postamble_alone :
    let v : DeclInfo := { kind := .var, name := t%"v", attrTexts := [lozenge ++ t%"postamble"],
                          lambda := some ⟨7, true, 1, true, false⟩, inTranslationUnit := true }
    let w := { exEmit with info := fun d => if d = 32 then v else exEmit.info d }
    ((attrsOf w .empty 32).bind (·.fieldOrVar)) = some { postamble := true } ∧
    postambleLambda .empty 32 = none ∧
    (exposeContext w exAll .empty .plain 0).emitted.stmts.filterMap attributeOf =
      [(30, t%"T", t%"::S"), (32, t%"v", t%"v")] := by
  decide +kernel

/-! ### C28 -/

theorem placed_own (w : EmitWorld) (s : Storage) (g : Graph) (p x : Nat) (path : List Str) (n : Str)
    (hE : Edge g p x) (hp : PlacedAt w s g p path) (ho : hasObject w s x = true)
    (hn : exposedName w s x = n) : PlacedAt w s g x (path ++ [n]) := hn ▸ .own hE hp ho

theorem exMod_agree : Agree exMod exModStorage exModGraph := by
  refine ⟨by decide +kernel, by decide +kernel, ?_⟩
  intro p x q y hp hq
  have hx := exMod_input.graph.child p x hp
  have hy := exMod_input.graph.child q y hq
  have hpn := exMod_input.graph.parent p x hp
  have hqn := exMod_input.graph.parent q y hq
  revert hp hq
  have : ∀ p ∈ exModGraph.nodes, ∀ x ∈ exModGraph.nodes, ∀ q ∈ exModGraph.nodes, ∀ y ∈ exModGraph.nodes,
      x ∈ exModGraph.children p → y ∈ exModGraph.children q →
      sameContext exMod x y = true → sameContext exMod p q = true := by decide +kernel
  exact this p hpn x hx q hqn y hy

example : (identifiersOf exMod [0, 1, 2, 3, 4, 5]).Nodup := by decide +kernel

/-- The class of the re-opened namespace is placed in the submodule. -/
example : PlacedAt exMod exModStorage exModGraph 5 [t%"n", t%"B"] := by
  have h4 : PlacedAt exMod exModStorage exModGraph 4 [t%"n"] :=
    placed_own _ _ _ 0 4 [] _ (by simp [Edge, exModGraph]) .root (by decide +kernel) (by decide +kernel)
  exact placed_own _ _ _ 4 5 [t%"n"] _ (by simp [Edge, exModGraph]) h4 (by decide +kernel) (by decide +kernel)

/-- `namespace visible 1 { namespace 2 { struct 3 {}; } namespace 4 module { struct 5 {}; } }`,
where 4 re-opens the namespace 2. -/
def exReopen : EmitWorld := { exMod with
  info := fun
    | 0 => { kind := .translationUnit }
    | 1 => { kind := .namespace, name := t%"o", attrTexts := [lozenge ++ t%"visible"] }
    | 2 => { kind := .namespace, name := t%"a" }
    | 4 => { kind := .namespace, name := t%"a", attrTexts := [lozenge ++ t%"module"] }
    | _ => { kind := .record, name := t%"X" }
  qualifiedName := fun | 1 => t%"o" | _ => t%"o::a"
  typeName := fun | 3 => t%"::o::a::Y" | _ => t%"::o::a::X"
  hierarchy := fun _ => .nil
  unitVars := [] }

def exReopenGraph : Graph where
  root := 0
  nodes := [0, 1, 2, 3, 4, 5]
  children := fun | 0 => [1] | 1 => [2, 4] | 2 => [3] | 4 => [5] | _ => []

def exReopenStorage : Storage where
  entries := fun x => if x ∈ [1, 2, 3, 4, 5] then ownAttrs exReopen.toWorld x else none
  size := 5

theorem exReopen_run : runIntroducers [(t%"root", [])]
    ((emitModule exReopen exReopenStorage exReopenGraph exAll (fun _ => lastSmallest exReopen.loc)
      [5, 3, 1, 0, 4, 2] 1 t%"m").stream 0) =
    some [(t%"context_o_a_X", [t%"X"]), (t%"context_o_a_Y", [t%"X"]), (t%"context_o_a", []),
      (t%"context_o", []), (t%"context", []), (t%"root", [])] := by
  rw [emitModule_with]
  exact dfs_eval 40 _ _ _ (fun m : EnclosingScopes => runIntroducers [(t%"root", [])]
    ((emitModuleWith exReopen exReopenStorage exReopenGraph exAll (fun _ => lastSmallest exReopen.loc)
      [5, 3, 1, 0, 4, 2] 1 t%"m" m).stream 0)) _ (by decide +kernel)

/-- C28 does not hold for all inputs: only the annotations of the first declaration of
a namespace count.  Here it has none, so there is no submodule for the second one. -/
theorem C28_reopened :
    PlacedAt exReopen exReopenStorage exReopenGraph 5 [t%"a", t%"X"] ∧
    (exReopen.info 4).attrTexts = [lozenge ++ t%"module"] ∧
    identifierOf exReopen [0, 1, 2, 3, 4, 5] 5 = t%"context_o_a_X" ∧
    ∃ env, runIntroducers [(t%"root", [])]
      ((emitModule exReopen exReopenStorage exReopenGraph exAll (fun _ => lastSmallest exReopen.loc)
        [5, 3, 1, 0, 4, 2] 1 t%"m").stream 0) = some env ∧
      env.lookup t%"context_o_a_X" = some [t%"X"] := by
  have h1 : PlacedAt exReopen exReopenStorage exReopenGraph 1 [] :=
    .inside (p := 0) (by simp [Edge, exReopenGraph]) .root (by decide +kernel)
  have h4 : PlacedAt exReopen exReopenStorage exReopenGraph 4 [t%"a"] :=
    placed_own _ _ _ 1 4 [] _ (by simp [Edge, exReopenGraph]) h1 (by decide +kernel) (by decide +kernel)
  exact ⟨placed_own _ _ _ 4 5 [t%"a"] _ (by simp [Edge, exReopenGraph]) h4 (by decide +kernel) (by decide +kernel),
    rfl, by decide +kernel, _, exReopen_run, by decide +kernel⟩

end Verif
