import Verif.Model.DefaultArgument
/-!
# Meaning of default arguments

`Meaning` is what an expression denotes: entities instead of names, explicit types.
`Reads` relates pieces of text to what they mean if they are used in the global
namespace, outside of all functions and classes.  Text of node classes that are not
distinguished is opaque; it is taken to mean itself.
-/
namespace Verif.DefaultArgument

mutual
inductive Meaning where
  | opaque (parts : MeaningParts)
  /-- `T{...}`; the type is left open if it follows from the surrounding initializer -/
  | braces (type : Option Str) (args : Meanings)
  /-- `T(...)` -/
  | call (type : Str) (args : Meanings)
  /-- `static_cast<T>(...)`, `(T)...` (empty name) -/
  | cast (kind : Str) (type : Str) (sub : Meaning)
  /-- a namespace-scope variable, a function, an enumerator, a static member ... -/
  | entity (scopes : List Str) (name : Str) (arguments : Option Str)
  /-- a parameter or local variable -/
  | localVariable (name : Str)
  /-- access of a member; `dynamic` if the member to be called is looked up at run time -/
  | member (base : Meaning) (arrow : Bool) (scopes : List Str) (name : Str)
      (arguments : Option Str) (dynamic : Bool)
inductive Meanings where
  | nil
  | cons (m : Meaning) (rest : Meanings)
inductive MeaningParts where
  | nil
  | text (s : Str) (rest : MeaningParts)
  | sub (m : Meaning) (rest : MeaningParts)
end

/-- The initializer `m` with an explicit type. -/
def Meaning.withType (t : Str) : Meaning → Meaning
  | .braces _ args => .braces (some t) args
  | m => m

mutual
/-- What an expression means.  `nested` is whether it occurs in a braced initializer. Implicit
conversions are left out, as well as default arguments of constructors. -/
def Expr.meaning : Expr → (nested : Bool) → Meaning
  | .wrapper e, n => e.meaning n
  | .other ps, n => .opaque (ps.meaning n)
  | .initList t es, n => .braces (if n then none else some t) (es.meaning true)
  | .construct t list std args, n =>
    if list then
      if std then (if n then args.single n else (args.single true).withType t)
      else .braces (if n then none else some t) (args.meaning true)
    else args.single n
  | .temporary t list std args, n =>
    if std then (args.single true).withType t
    else if list then .braces (some t) (args.meaning n)
    else .call t (args.meaning n)
  | .cStyleCast t e, n => .cast [] t (e.meaning n)
  | .namedCast c t e, n => .cast c t (e.meaning n)
  | .functionalCast t parens e, n =>
    if parens then .call t (.cons (e.meaning n) .nil) else (e.meaning true).withType t
  | .declRef r, _ => if r.isLocal then .localVariable r.name else .entity r.scopes r.name r.arguments
  | .member base arrow r, n => .member (base.meaning n) arrow r.scopes r.name r.arguments r.isVirtual
/-- The arguments that are not default arguments. -/
def Args.meaning : Args → Bool → Meanings
  | .nil, _ => .nil
  | .cons e isDefault rest, n => if isDefault then rest.meaning n else .cons (e.meaning n) (rest.meaning n)
/-- The only argument. -/
def Args.single : Args → Bool → Meaning
  | .nil, _ => .opaque .nil
  | .cons e _ _, n => e.meaning n
def Parts.meaning : Parts → Bool → MeaningParts
  | .nil, _ => .nil
  | .text s rest, n => .text s (rest.meaning n)
  | .sub e rest, n => .sub (e.meaning n) (rest.meaning n)
end

/-- How names are read that are qualified with the global namespace. -/
inductive ReadsName : List Tok → List Str → Str → Option Str → Prop where
  | mk (scopes : List Str) (template : Bool) (name : Str) (args : Option Str) (h : name ≠ []) :
    ReadsName (.text t%"::" :: scopes.map .scope ++
      (if template then [.text t%"template "] else []) ++ [.name name args]) scopes name args

mutual
/-- `Reads nested text m`: the text, used in the global namespace, means `m`.  Types have to be
given explicitly outside of braced initializers. -/
inductive Reads : Bool → List Tok → Meaning → Prop where
  | opaque {n ts ps} : ReadsParts n ts ps → Reads n ts (.opaque ps)
  | typed {n t ts ms} : ReadsArgs true ts ms →
    Reads n (.type t :: .text t%"{" :: ts ++ [.text t%"}"]) (.braces (some t) ms)
  | untyped {ts ms} : ReadsArgs true ts ms →
    Reads true (.text t%"{" :: ts ++ [.text t%"}"]) (.braces none ms)
  | call {n t ts ms} : ReadsArgs n ts ms →
    Reads n (.type t :: .text t%"(" :: ts ++ [.text t%")"]) (.call t ms)
  | cStyleCast {n t ts m} : Reads n ts m →
    Reads n (.text t%"(" :: .type t :: .text t%")" :: ts) (.cast [] t m)
  | namedCast {n c t ts m} : Reads n ts m →
    Reads n (.text c :: .text t%"<" :: .type t :: .text t%">(" :: ts ++ [.text t%")"]) (.cast c t m)
  /-- looked up in the global namespace, where there are no local variables -/
  | entity {n ts scopes name args} : ReadsName ts scopes name args →
    Reads n ts (.entity scopes name args)
  /-- naming the class of a member suppresses dynamic dispatch -/
  | member {n bs ts m arrow scopes name args} : Reads n bs m → ReadsName ts scopes name args →
    Reads n (bs ++ .text (if arrow then t%"->" else t%".") :: ts)
      (.member m arrow scopes name args false)
inductive ReadsArgs : Bool → List Tok → Meanings → Prop where
  | nil {n} : ReadsArgs n [] .nil
  | single {n ts m} : Reads n ts m → ReadsArgs n ts (.cons m .nil)
  | cons {n ts ts' m ms} : Reads n ts m → ReadsArgs n ts' ms → ms ≠ .nil →
    ReadsArgs n (ts ++ .text t%", " :: ts') (.cons m ms)
inductive ReadsParts : Bool → List Tok → MeaningParts → Prop where
  | nil {n} : ReadsParts n [] .nil
  | text {n s ts ps} : ReadsParts n ts ps → ReadsParts n (.raw s :: ts) (.text s ps)
  | sub {n ts ts' m ps} : Reads n ts m → ReadsParts n ts' ps → ReadsParts n (ts ++ ts') (.sub m ps)
end

mutual
/-- Whether a list initializer without its type is a list in braces. -/
def Expr.isBraces : Expr → Bool
  | .wrapper e => e.isBraces
  | .initList _ _ => true
  | .construct _ list std args => list && (!std || args.isBraces)
  | _ => false
def Args.isBraces : Args → Bool
  | .cons e false .nil => e.isBraces
  | .cons e false (.cons _ true _) => e.isBraces
  | _ => false
end

mutual
/-- The default arguments for which the printed text is right.  `nested` is whether the
expression occurs in a braced initializer that is printed as such. -/
def Expr.Supported : Expr → (nested : Bool) → Prop
  | .wrapper e, n => e.Supported n
  | .other ps, n => ps.Supported n
  | .initList _ es, _ => es.Supported false true
  | .construct _ list std args, n =>
    args.Supported true (list || n) ∧
    if list then (std = true → args.isBraces) else ∃ e rest, args = .cons e false rest ∧ rest.allDefault
  | .temporary _ list std args, n =>
    args.Supported true n ∧ (std = true → list = true ∧ n = true ∧ args.isBraces)
  | .cStyleCast _ e, n => e.Supported n
  | .namedCast _ _ e, n => e.Supported n
  | .functionalCast _ parens e, n => e.Supported n ∧ (parens = false → n = true ∧ e.isBraces)
  | .declRef r, _ => r.isLocal = false ∧ r.name ≠ []
  | .member base _ r, n => base.Supported n ∧ base.isAnonymousField = false ∧ r.isLocal = false ∧
      r.name ≠ [] ∧ r.isVirtual = false
/-- Elements of initializers are no default arguments, those of constructors come last. -/
def Args.Supported : Args → (constructor nested : Bool) → Prop
  | .nil, _, _ => True
  | .cons e isDefault rest, c, n =>
    if isDefault then c = true ∧ rest.allDefault else e.Supported n ∧ rest.Supported c n
def Args.allDefault : Args → Prop
  | .nil => True
  | .cons _ isDefault rest => isDefault = true ∧ rest.allDefault
def Parts.Supported : Parts → Bool → Prop
  | .nil, _ => True
  | .text _ rest, n => rest.Supported n
  | .sub e rest, n => e.Supported n ∧ rest.Supported n
end

end Verif.DefaultArgument
