import Verif.Lemmas.Module
import Verif.Lemmas.DeclOutput
import Verif.Props.Sorting
import Verif.Props.Identifiers
/-!
# Lemmas about the objects introduced by the module definition
-/
namespace Verif
open Spec

/-- The object of a context given that of the context around it. -/
def extend (w : EmitWorld) (s : Storage) (x : Nat) (path : List Str) : List Str :=
  if hasObject w s x then path ++ [exposedName w s x] else path

theorem placed_step (w : EmitWorld) (s : Storage) (g : Graph) (hf : Forest g) (p x : Nat)
    (hE : Edge g p x) (path : List Str) (h : PlacedAt w s g x path) :
    ∃ pp, PlacedAt w s g p pp ∧ path = extend w s x pp := by
  unfold extend
  cases h with
  | root => exact absurd hE (hf.root_top p)
  | inside hE' hp ho =>
    rw [hf.unique _ _ _ hE hE']
    exact ⟨_, hp, by rw [ho]; rfl⟩
  | own hE' hp ho =>
    rw [hf.unique _ _ _ hE hE']
    exact ⟨_, hp, by rw [ho]; rfl⟩

theorem placed_root (w : EmitWorld) (s : Storage) (g : Graph) (hf : Forest g) (path : List Str)
    (h : PlacedAt w s g g.root path) : path = [] := by
  generalize hr : g.root = r at h
  cases h with
  | root => rfl
  | inside hE _ _ => exact absurd (hr ▸ hE) (hf.root_top _)
  | own hE _ _ => exact absurd (hr ▸ hE) (hf.root_top _)

theorem placed_extend (w : EmitWorld) (s : Storage) (g : Graph) (p x : Nat)
    (hE : Edge g p x) (path : List Str) (h : PlacedAt w s g p path) :
    PlacedAt w s g x (extend w s x path) := by
  unfold extend
  cases ho : hasObject w s x with
  | true => exact .own hE h ho
  | false => exact .inside hE h ho

theorem placed_exists (w : EmitWorld) (s : Storage) (g : Graph) (x : Nat) (h : Reachable g x) :
    ∃ path, PlacedAt w s g x path := by
  induction h with
  | root => exact ⟨[], .root⟩
  | step _ _ hE ih =>
    obtain ⟨path, hp⟩ := ih
    exact ⟨_, placed_extend w s g _ _ hE path hp⟩

theorem placed_unique (w : EmitWorld) (s : Storage) (g : Graph) (hf : Forest g) {x : Nat}
    {a b : List Str} (ha : PlacedAt w s g x a) (hb : PlacedAt w s g x b) : a = b := by
  induction ha generalizing b with
  | root => exact (placed_root w s g hf b hb).symm
  | inside hE _ ho ih =>
    obtain ⟨pp, hp, rfl⟩ := placed_step w s g hf _ _ hE b hb
    rw [ih hp]
    unfold extend
    rw [ho]
    rfl
  | own hE _ ho ih =>
    obtain ⟨pp, hp, rfl⟩ := placed_step w s g hf _ _ hE b hb
    rw [ih hp]
    unfold extend
    rw [ho]
    rfl

theorem passedOver_object (w : EmitWorld) (s : Storage) (hd : Derived w s) (x : Nat)
    (h : PassedOver s x) : hasObject w s x = false := by
  obtain ⟨a, ns, h1, h2, h3⟩ := h
  have ha : attrsOf w s x = some a := by
    unfold attrsOf
    rw [h1]
  have hk := (attrsOf_shape w s hd x a ha).namespace_.1 (by rw [h2]; rfl)
  unfold hasObject
  rw [hk, h1]
  dsimp only
  rw [h2]
  exact h3

theorem scope_placed (w : EmitWorld) (s : Storage) (hd : Derived w s) (g : Graph) (hf : Forest g)
    (q x : Nat) (h : EnclosingScope s g q x) (path : List Str) (hp : PlacedAt w s g x path) :
    ∃ pq, PlacedAt w s g q pq ∧ path = extend w s x pq := by
  induction h generalizing path with
  | here hE _ => exact placed_step w s g hf _ _ hE path hp
  | above _ hE _ hpo ih =>
    obtain ⟨pp, h1, h2⟩ := placed_step w s g hf _ _ hE path hp
    obtain ⟨pq, h3, h4⟩ := ih pp h1
    refine ⟨pq, h3, ?_⟩
    rw [h2, h4]
    unfold extend
    rw [passedOver_object w s hd _ hpo]
    simp

theorem agree_placed (w : EmitWorld) (s : Storage) (g : Graph) (hg : ContextGraph w.toWorld g)
    (ag : Agree w s g) {x y : Nat} {a b : List Str} (hxy : sameContext w x y = true)
    (ha : PlacedAt w s g x a) (hb : PlacedAt w s g y b) : a = b := by
  have hroot : ∀ y, sameContext w g.root y = true → y = g.root := by
    intro y h
    unfold sameContext at h
    simp only [Bool.or_eq_true, decide_eq_true_eq, hg.root_kind] at h
    rcases h with h | h
    · exact h.symm
    · simp at h
  have step : ∀ p x path y b, Edge g p x → sameContext w x y = true → PlacedAt w s g y b →
      (∀ {y b}, sameContext w p y = true → PlacedAt w s g y b → path = b) → extend w s x path = b := by
    intro p x path y b hE hxy hb ih
    have hx := hg.child p x hE
    have fin : ∀ q pb, Edge g q y → PlacedAt w s g q pb → extend w s x path = extend w s y pb := by
      intro q pb hE' hq
      rw [ih (ag.parent _ _ _ _ hE hE' hxy) hq]
      unfold extend
      rw [ag.object x hx y (hg.child q y hE') hxy, ag.name x hx y (hg.child q y hE') hxy]
    cases hb with
    | root =>
      have := hroot x (sameContext_symm w hxy)
      subst this
      exact absurd hE (hg.root_top p)
    | inside hE' hq ho =>
      rw [fin _ _ hE' hq]
      unfold extend
      rw [ho]
      rfl
    | own hE' hq ho =>
      rw [fin _ _ hE' hq]
      unfold extend
      rw [ho]
      rfl
  induction ha generalizing y b with
  | root =>
    have := hroot y hxy
    subst this
    exact (placed_root w s g hg.toForest b hb).symm
  | inside hE _ ho ih =>
    have := step _ _ _ _ _ hE hxy hb ih
    rwa [extend, ho] at this
  | own hE _ ho ih =>
    have := step _ _ _ _ _ hE hxy hb ih
    rwa [extend, ho] at this

theorem introducer_object (w : EmitWorld) (s : Storage) (g : Graph) (x : Nat)
    (p : Str) (path : List Str) :
    Introducer.object path ((Exposer.create w s x).introducer w s g p) = extend w s x path := by
  have hname : emitSpelling (w.info x) (s.lookupNamed x) = exposedName w s x := by
    unfold emitSpelling exposedName Storage.lookupNamed
    cases s.entries x with
    | none => rfl
    | some a =>
      dsimp only
      by_cases h : a.named.spelling = []
      · rw [if_neg (by simp [h]), if_neg (by simp), if_neg (by simp [h])]
      · rw [if_pos (by simpa using h), if_pos h]
  unfold extend hasObject Exposer.create
  cases hk : (w.info x).kind with
  | record =>
    simp only [if_true]
    rw [← hname]
    rfl
  | enum =>
    simp only [if_true]
    rw [← hname]
    rfl
  | «namespace» =>
    simp only [Exposer.introducer]
    cases hs : s.entries x with
    | none => rfl
    | some a =>
      simp only [Option.bind_some]
      have key : ∀ o : Option NamespaceDeclAttrs,
          Introducer.object path (match o with
            | some attrs =>
              if attrs.module = true then Introducer.submodule p (emitSpelling (w.info x) (s.lookupNamed x))
              else Introducer.same p
            | none => Introducer.same p) =
          if (match o with | some ns => ns.module | none => false) = true then
            path ++ [exposedName w s x] else path := by
        intro o
        cases o with
        | none => rfl
        | some ns =>
          by_cases hm : ns.module = true
          · simp only [hm, if_true]
            rw [← hname]
            rfl
          · simp only [hm, if_false]
            rfl
      exact key a.namespace_
  | _ => rfl

theorem baseName_some (l : ContextLabel) : ∃ n, l.baseName = some n := by
  cases l <;> exact ⟨_, makeValidIdentifier_eq _⟩

theorem mapM_baseName (l : List ContextLabel) :
    l.mapM ContextLabel.baseName = some (l.map fun x => x.baseName.getD []) := by
  induction l with
  | nil => rfl
  | cons x l ih =>
    obtain ⟨n, hn⟩ := baseName_some x
    rw [List.mapM_cons, ih, hn]
    simp [hn]

theorem root_not_identifier (w : EmitWorld) (order : List Nat) : t%"root" ∉ identifiersOf w order := by
  have := C09_never_root ((contextsOf w order).map (contextLabel w)) _ (mapM_baseName _)
  rw [List.map_map] at this
  exact this

theorem run_skip (env : List (Str × List Str)) (l : List Line) (h : ∀ x ∈ l, introducedOf x = none) :
    runIntroducers env l = some env := by
  induction l with
  | nil => rfl
  | cons x l ih =>
    have hx := h x (by simp)
    have := ih fun y hy => h y (by simp [hy])
    cases x with
    | introduce a b => cases hx
    | _ => exact this

theorem run_append (env : List (Str × List Str)) (l m : List Line) :
    runIntroducers env (l ++ m) = (runIntroducers env l).bind fun e => runIntroducers e m := by
  induction l generalizing env with
  | nil => rfl
  | cons x l ih =>
    cases x with
    | introduce a b =>
      simp only [List.cons_append, runIntroducers]
      cases env.lookup b.parent with
      | none => rfl
      | some p =>
        cases env.lookup a with
        | none => exact ih _
        | some _ => rfl
    | _ => exact ih env

theorem lookup_mem_keys {α β : Type} [BEq α] [LawfulBEq α] (l : List (α × β)) (x : α) :
    l.lookup x = none ↔ x ∉ l.map (·.1) := by
  induction l with
  | nil => simp
  | cons p l ih =>
    rw [List.lookup]
    by_cases h : x = p.1
    · subst h
      simp
    · rw [beq_eq_false_iff_ne.2 h]
      simp [ih, h]

end Verif
