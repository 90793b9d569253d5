/-!
# Instantiation of annotated templates (src/instantiate_annotated_templates.cpp)

Class template specializations are numbers, of which there can be infinitely many
(`template <int N> struct A { using next = A<N + 1>; }`).  What clang does is given by
`TemplateWorld`.
-/
namespace Verif

/-- `clang::TemplateSpecializationKind`. -/
inductive SpecKind where
  | undeclared | implicit | explicitSpecialization | explicitDeclaration | explicitDefinition
  deriving DecidableEq, Repr

/-- A declaration visited by `VisitTypedefNameDecl` or
`VisitClassTemplateSpecializationDecl`, src/instantiate_annotated_templates.cpp:100-118. -/
structure Visit where
  /-- the specializations that have to exist, i.e. have to be listed by their template, for
  the declaration to be visited: the ones that contain it and, if it is one, itself -/
  needs : List Nat := []
  annotated : Bool := true
  /-- the specialization itself, or the one that is the underlying type of the alias -/
  target : Option Nat
  deriving DecidableEq, Repr

/-- The translation unit.  Simplified in that what can be found in a definition is fixed;
what is found depends on the specializations that exist at that time. -/
structure TemplateWorld where
  /-- what is visited in the translation unit, in order -/
  roots : List Visit
  /-- what is visited in the definition of a specialization, in order -/
  body : Nat → List Visit
  /-- the kind at the beginning -/
  kind : Nat → SpecKind
  /-- those that exist at the beginning -/
  existing : Nat → Bool
  /-- the ones implicitly instantiated together with the definition and members -/
  creates : Nat → List Nat
  /-- whether `InstantiateClassTemplateSpecialization` gives a definition -/
  definable : Nat → Bool

structure TemplateState where
  pending : List Nat := []
  done : List Nat := []
  /-- the ones implicitly instantiated meanwhile -/
  created : List Nat := []
  /-- in the order in which `addDecl` has been called -/
  added : List Nat := []
  /-- the ones whose members have been instantiated, in order -/
  instantiated : List Nat := []
  deriving DecidableEq, Repr

/-- The declarations pushed to `pending` in a traversal,
src/instantiate_annotated_templates.cpp:100-118. -/
def visitAll (w : TemplateWorld) (created done : List Nat) (l : List Visit) : List Nat :=
  l.filterMap fun v =>
    if v.needs.all (fun n => w.existing n || created.contains n) && v.annotated then
      v.target.filter fun y => !done.contains y
    else none

/-- `getTemplateSpecializationKind` at some point. -/
def kindNow (w : TemplateWorld) (s : TemplateState) (x : Nat) : SpecKind :=
  if s.instantiated.contains x then .explicitDefinition
  else if w.kind x = .undeclared && s.created.contains x then .implicit
  else w.kind x

/-- `instantiateSpecialization`, src/instantiate_annotated_templates.cpp:44-98.  `none` is
the assertion at :90; without assertions a null pointer is dereferenced at :92. -/
def instantiateSpecialization (w : TemplateWorld) (s : TemplateState) (x : Nat) :
    Option TemplateState :=
  match kindNow w s x with
  | .explicitSpecialization | .explicitDefinition => some s
  | k =>
    let s := if k = .undeclared || k = .implicit then { s with added := s.added ++ [x] } else s
    if k = .undeclared && !w.definable x then none
    else some { s with
      instantiated := s.instantiated ++ [x]
      created := s.created ++ w.creates x }

/-- An iteration of the loop at src/instantiate_annotated_templates.cpp:31-40, for the
specialization that has been removed from `pending`. -/
def processSpecialization (w : TemplateWorld) (s : TemplateState) (x : Nat) :
    Option TemplateState :=
  (instantiateSpecialization w { s with done := s.done ++ [x] } x).map fun s =>
    { s with pending := s.pending ++ visitAll w s.created s.done (w.body x) }

inductive TemplateResult where
  /-- not finished after the given number of iterations -/
  | running (s : TemplateState)
  | finished (s : TemplateState)
  /-- undefined behavior -/
  | failed
  deriving DecidableEq, Repr

/-- The loop, for at most the given number of iterations. -/
def runTemplates (w : TemplateWorld) : Nat → TemplateState → TemplateResult
  | n, s =>
    match s.pending with
    | [] => .finished s
    | x :: rest =>
      match n with
      | 0 => .running s
      | n + 1 =>
        match processSpecialization w { s with pending := rest } x with
        | none => .failed
        | some s => runTemplates w n s

/-- `HandleTranslationUnit`, src/instantiate_annotated_templates.cpp:27-41. -/
def instantiateTemplates (w : TemplateWorld) (n : Nat) : TemplateResult :=
  runTemplates w n { pending := visitAll w [] [] w.roots }

end Verif
