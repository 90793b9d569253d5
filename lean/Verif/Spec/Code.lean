import Verif.Spec.CppString
import Verif.Spec.Grammar
/-!
# Reading generated code

A reader for the subset of C++ that is written for a module: statements are separated
and calls split into their arguments by looking at brackets and literals only, i.e. as a
C++ compiler would do without knowing what the texts provided by clang (types, names and
expressions) mean.  The result says, in terms of the interface of pybind11, what the code
does.
-/
namespace Verif.Spec.Code

/-! ### Brackets and literals -/

/-- Whether a position is in a literal. -/
inductive Mode where
  | code | string | stringEscape | char | charEscape
  deriving DecidableEq, Repr

/-- A position in the code. -/
structure Pos where
  mode : Mode := .code
  /-- number of open parentheses, brackets and braces -/
  depth : Nat := 0
  /-- number of open angle brackets, outside of all others -/
  angle : Nat := 0
  /-- the previous character is a dash (outside of other brackets) -/
  dash : Bool := false
  deriving DecidableEq, Repr

/-- Opening bracket. -/
def isOpen (c : Char) : Bool := c = '(' || c = '[' || c = '{'

/-- Closing bracket. -/
def isClose (c : Char) : Bool := c = ')' || c = ']' || c = '}'

/-- The position after a character; none if this closes something that is not open. -/
def Pos.next (p : Pos) (c : Char) : Option Pos :=
  match p.mode with
  | .string =>
    if c = '\\' then some { p with mode := .stringEscape }
    else if c = '"' then some { p with mode := .code }
    else if c = '\n' then none
    else some p
  | .stringEscape => some { p with mode := .string }
  | .char =>
    if c = '\\' then some { p with mode := .charEscape }
    else if c = '\'' then some { p with mode := .code }
    else if c = '\n' then none
    else some p
  | .charEscape => some { p with mode := .char }
  | .code =>
    let q := { p with dash := false }
    if c = '"' then some { q with mode := .string }
    else if c = '\'' then some { q with mode := .char }
    else if isOpen c then some { q with depth := p.depth + 1 }
    else if isClose c then
      match p.depth with
      | 0 => none
      | d + 1 => some { q with depth := d }
    else if p.depth ≠ 0 then some q
    else if c = '<' then some { q with angle := p.angle + 1 }
    else if c = '>' && !p.dash then
      match p.angle with
      | 0 => none
      | a + 1 => some { q with angle := a }
    else some { q with dash := c = '-' }

/-- Neither in a literal nor in brackets. -/
def Pos.outside (p : Pos) : Bool := p.mode = .code && p.depth = 0

/-- Not in angle brackets either. -/
def Pos.top (p : Pos) : Bool := p.outside && p.angle = 0

/-- Split at commas; `done` is the current part, backwards. -/
def splitLoop (p : Pos) (done : Str) : Str → Option (List Str)
  | [] => if p.top then some [done.reverse] else none
  | c :: t =>
    if c = ',' && p.top then (splitLoop {} [] t).map (done.reverse :: ·)
    else match p.next c with
      | none => none
      | some p => splitLoop p (c :: done) t

/-- White space. -/
def isSpace (c : Char) : Bool := c = ' ' || c = '\n' || c = '\t'

/-- A list of arguments. -/
def splitArgs (t : Str) : Option (List Str) :=
  if t.all isSpace then some [] else (splitLoop {} [] t).map (·.map (·.dropWhile isSpace))

/-- What is in brackets, and what follows them. -/
def groupLoop (p : Pos) (done : Str) : Str → Option (Str × Str)
  | [] => none
  | c :: t =>
    match p.next c with
    | none => none
    | some p => if p.depth = 0 then some (done.reverse, t) else groupLoop p (c :: done) t

/-- The contents of the group that starts with the given bracket, and what follows. -/
def group (c : Char) : Str → Option (Str × Str)
  | [] => none
  | d :: t => if d = c then groupLoop { depth := 1 } [] t else none

/-- The same for angle brackets, without the opening one. -/
def angleLoop (p : Pos) (done : Str) : Str → Option (Str × Str)
  | [] => none
  | c :: t =>
    match p.next c with
    | none => none
    | some p => if p.angle = 0 then some (done.reverse, t) else angleLoop p (c :: done) t

/-- Template arguments, without the opening bracket, and what follows. -/
def angleGroup (t : Str) : Option (Str × Str) := angleLoop { angle := 1 } [] t

/-- Statements, or declarations of a file.  They end with a semicolon or, in the latter case
and for blocks, with a closing brace. -/
def itemsLoop (file : Bool) (p : Pos) (done : Str) : Str → Option (List Str)
  | [] => if done = [] then some [] else none
  | c :: t =>
    if c = ';' && p.mode = .code && p.depth = 1 then
      (itemsLoop file { depth := 1 } [] t).map (done.reverse :: ·)
    else if isSpace c && done = [] then itemsLoop file p [] t
    else match p.next c with
      | none => none
      | some q =>
        if q.depth = 0 then none
        else if c = '}' && p.mode = .code && q.depth = 1 && (file || done.getLast? = some '{') then
          (itemsLoop file { depth := 1 } [] t).map ((c :: done).reverse :: ·)
        else itemsLoop file q (c :: done) t

/-- The statements of a block. -/
def statements (t : Str) : Option (List Str) := itemsLoop false { depth := 1 } [] t

/-- The declarations of a file. -/
def declarations (t : Str) : Option (List Str) := itemsLoop true { depth := 1 } [] t

/-! ### Words and literals -/

/-- Remove a prefix. -/
def strip : Str → Str → Option Str
  | [], t => some t
  | _ :: _, [] => none
  | c :: p, d :: t => if c = d then strip p t else none

/-- Remove a suffix. -/
def stripEnd (s t : Str) : Option Str := (strip s.reverse t.reverse).map List.reverse

/-- The longest prefix of such characters, and what follows. -/
def span (f : Char → Bool) : Str → Str × Str
  | [] => ([], [])
  | c :: t => if f c then (c :: (span f t).1, (span f t).2) else ([], c :: t)

/-- An identifier and what follows. -/
def identifier (t : Str) : Str × Str := span isIdentifierContinue t

/-- The contents of a string literal, after its opening quote, and what follows it; of at
most `n` characters. -/
def unescape : Nat → Str → Option (Str × Str)
  | 0, _ => none
  | _ + 1, [] => none
  | n + 1, c :: t =>
    if c = '"' then some ([], t)
    else if c = '\n' then none
    else if c = '\\' then
      match t with
      | [] => none
      | d :: r =>
        match simpleEscape? d, octalEscape (d :: r) with
        | some x, _ => (unescape n r).map fun q => (x :: q.1, q.2)
        | none, some (v, k) =>
          if v < 256 then (unescape n ((d :: r).drop k)).map fun q => (Char.ofNat v :: q.1, q.2)
          else none
        | none, none => none
    else (unescape n t).map fun q => (c :: q.1, q.2)

/-- A string literal. -/
def literal (t : Str) : Option Str :=
  match t with
  | '"' :: t =>
    match unescape (t.length + 1) t with
    | some (s, []) => some s
    | _ => none
  | _ => none

/-- A number. -/
def number (t : Str) : Option Nat :=
  if t ≠ [] && t.all isDigit then some (decimal t) else none

/-! ### Arguments of pybind11 functions -/

/-- The expression returned by a lambda expression. -/
inductive Body where
  | unary (operator operand : Str)
  | binary (left operator right : Str)
  deriving DecidableEq, Repr

/-- What is called. -/
inductive Target where
  /-- the function with these parameter types -/
  | overload (types : List Str) (name : Str) (isConst : Bool)
  /-- a lambda expression; parameters are types and names -/
  | lambda (params : List (Str × Str)) (result : Str) (body : Body)
  /-- conversion to string via `operator<<` -/
  | lshift (type : Str)
  deriving DecidableEq, Repr

/-- Further arguments of `def`. -/
inductive Extra where
  | arg (name : Str) (noconvert acceptsNone : Bool) (default : Option Str)
  | returnValuePolicy (policy : Str)
  | keepAlive (nurse patient : Nat)
  | isOperator
  deriving DecidableEq, Repr

/-- Parts separated by spaces. -/
def wordsLoop (done : Str) : Str → List Str
  | [] => [done.reverse]
  | c :: t => if c = ' ' then done.reverse :: wordsLoop [] t else wordsLoop (c :: done) t

/-- An expression that applies an operator. -/
def readBody (t : Str) : Option Body :=
  match wordsLoop [] t with
  | [e] =>
    let p := span (fun c => !isIdentifierContinue c) e
    some (.unary p.1 p.2)
  | [a, op, b] => some (.binary a op b)
  | _ => none

/-- A parameter: a type and a name. -/
def readParam (t : Str) : Option (Str × Str) :=
  let p := span isIdentifierContinue t.reverse
  match p.2 with
  | ' ' :: type => some (type.reverse, p.1.reverse)
  | _ => none

/-- What is called: see `Target`. -/
def readTarget (t : Str) : Option Target :=
  match strip t%"::pybind11::overload_cast<" t with
  | some t => do
    let (types, t) ← angleGroup t
    let types ← splitArgs types
    let (args, t) ← group '(' t
    if t ≠ [] then none
    else match ← splitArgs args with
      | [name] => return .overload types (← strip t%"&::" name) false
      | [name, flag] =>
        if flag = t%"::pybind11::const_" then return .overload types (← strip t%"&::" name) true else none
      | _ => none
  | none =>
  match strip t%"::genpybind::string_from_lshift<" t with
  | some t => do
    let (type, t) ← angleGroup t
    if t ≠ [] then none else return .lshift type
  | none => do
    let (params, t) ← group '(' (← strip t%"[]" t)
    let params ← splitArgs params
    -- the expression does not contain braces
    let p := span (· ≠ '{') (← strip t%" -> " t).reverse
    let result ← stripEnd t%" {" p.2.reverse
    let expr ← stripEnd t%"; }" (← strip t%" return " p.1.reverse)
    return .lambda (← params.mapM readParam) result (← readBody expr)

/-- Further arguments: see `Extra`. -/
def readExtra (t : Str) : Option Extra :=
  match strip t%"::pybind11::arg" t with
  | some t => do
    let (name, t) ← group '(' t
    let name ← literal name
    let (noconvert, t) := match strip t%".noconvert()" t with
      | some t => (true, t)
      | none => (false, t)
    let (acceptsNone, t) := match strip t%".none(false)" t with
      | some t => (false, t)
      | none => (true, t)
    if t = [] then return .arg name noconvert acceptsNone none
    else return .arg name noconvert acceptsNone (some (← strip t%" = " t))
  | none =>
  match strip t%"pybind11::return_value_policy::" t with
  | some t => return .returnValuePolicy t
  | none =>
  match strip t%"pybind11::keep_alive<" t with
  | some t => do
    let (args, t) ← angleGroup t
    if t ≠ t%"()" then none
    else match ← splitArgs args with
      | [i, j] => return .keepAlive (← number i) (← number j)
      | _ => none
  | none => if t = t%"::pybind11::is_operator()" then some .isOperator else none

/-! ### Statements -/

/-- A statement that applies to the object of a scope. -/
inductive Statement where
  /-- make objects constructible from values of these types -/
  | constructor (types : List Str) (doc : Str) (extras : List Extra)
  | function (isStatic : Bool) (name : Str) (target : Target) (doc : Option Str) (extras : List Extra)
  | property (name : Str) (getter : Target) (setter : Option Target)
  | member (isStatic writable : Bool) (name address : Str)
  | enumerator (name value : Str) (doc : Option Str)
  /-- make enumerators attributes of the scope of the enum -/
  | exportValues
  /-- set an attribute to a value -/
  | attribute (name value : Str)
  /-- set an attribute to the object for a type -/
  | typeAttribute (name type : Str)
  | implicitlyConvertible (source target : Str)
  /-- execute a block, with a name for the object -/
  | manual (parameter : Option Str) (block : Str)
  | nothing
  deriving DecidableEq, Repr

/-- The interface of pybind11 (`class_`, `enum_`, `module_`): methods with their arguments. -/
def readMethod (method : Str) (args : List Str) : Option Statement :=
  if method = t%"def" || method = t%"def_static" then
    match args with
    | [] => none
    | first :: rest =>
      match strip t%"::pybind11::init<" first with
      | some t => do
        let (types, t) ← angleGroup t
        if t ≠ t%"()" || method ≠ t%"def" then none
        else match rest with
          | [] => none
          | doc :: extras => return .constructor (← splitArgs types) (← literal doc) (← extras.mapM readExtra)
      | none =>
        match rest with
        | [] => none
        | [target] => do
          return .function (method = t%"def_static") (← literal first) (← readTarget target) none []
        | target :: doc :: extras => do
          return .function (method = t%"def_static") (← literal first) (← readTarget target)
            (some (← literal doc)) (← extras.mapM readExtra)
  else if method = t%"def_property" then
    match args with
    | [name, getter, setter] => do
      return .property (← literal name) (← readTarget getter) (some (← readTarget setter))
    | _ => none
  else if method = t%"def_property_readonly" then
    match args with
    | [name, getter] => do return .property (← literal name) (← readTarget getter) none
    | _ => none
  else if method = t%"value" then
    match args with
    | [name, value] => do return .enumerator (← literal name) value none
    | [name, value, doc] => do return .enumerator (← literal name) value (some (← literal doc))
    | _ => none
  else if method = t%"export_values" then
    match args with
    | [] => some .exportValues
    | _ => none
  else
    match args with
    | [name, address] => do
      let (isStatic, writable) ←
        if method = t%"def_readwrite" then some (false, true)
        else if method = t%"def_readonly" then some (false, false)
        else if method = t%"def_readwrite_static" then some (true, true)
        else if method = t%"def_readonly_static" then some (true, false)
        else none
      return .member isStatic writable (← literal name) (← strip t%"&::" address)
    | _ => none

/-- Manual bindings: a block, or a lambda expression applied to the object. -/
def readManual (t : Str) : Option (Option Str × Str) :=
  match strip t%"[]" t with
  | some t => do
    let (param, t) ← group '(' t
    let param ← strip t%"auto &" param
    let (block, t) ← group '{' (t.dropWhile isSpace)
    if t.dropWhile isSpace = t%"(context)" then return (some param, block) else none
  | none => do
    let (block, t) ← group '{' t
    if t = [] then return (none, block) else none

/-- A statement for the object `context`. -/
def readStatement (t : Str) : Option Statement :=
  if t = t%"(void)context" then some .nothing
  else match strip t%"context." t with
  | some t => do
    let (method, t) := identifier t
    let (args, t) ← group '(' t
    let args ← splitArgs args
    if method = t%"attr" then
      let value ← strip t%" = ::" t
      match args with
      | [name] =>
        match strip t%"genpybind::getObjectForType<" value with
        | some value => do
          let (type, t) ← angleGroup value
          if t = t%"()" then return .typeAttribute (← literal name) type else none
        | none => return .attribute (← literal name) value
      | _ => none
    else if t ≠ [] then none
    else readMethod method args
  | none =>
  match strip t%"::pybind11::implicitly_convertible<" t with
  | some t => do
    let (types, t) ← angleGroup t
    if t ≠ t%"()" then none
    else match ← splitArgs types with
      | [source, target] => return .implicitlyConvertible source target
      | _ => none
  | none => (readManual t).map fun p => .manual p.1 p.2

/-- The statements of a function. -/
def readBlock (t : Str) : Option (List Statement) := do (← statements t).mapM readStatement

/-! ### Files -/

/-- The type of the object of a scope. -/
inductive ObjectType where
  | module
  | enum (type : Str)
  /-- the class, its bases and its holder -/
  | class_ (types : List Str)
  deriving DecidableEq, Repr

/-- A type and what follows. -/
def readObjectType (t : Str) : Option (ObjectType × Str) :=
  match strip t%"::pybind11::module" t with
  | some t => some (.module, t)
  | none =>
  match strip t%"::pybind11::enum_<" t with
  | some t => do
    let (type, t) ← angleGroup t
    return (.enum type, t)
  | none => do
    let (types, t) ← angleGroup (← strip t%"::pybind11::class_<" t)
    return (.class_ (← splitArgs types), t)

/-- How the object of a scope is created. -/
inductive Creation where
  /-- the object of another scope -/
  | same (var : Str)
  | submodule (parent name : Str)
  | type (type : ObjectType) (parent name : Str) (doc : Option Str) (flag : Option Str)
  deriving DecidableEq, Repr

/-- See `Creation`. -/
def readCreation (t : Str) : Option Creation :=
  match strip t%"::" t with
  | some _ => do
    let (type, t) ← readObjectType t
    let (args, t) ← group '(' t
    if t ≠ [] then none
    else match ← splitArgs args with
      | [parent, name] => return .type type parent (← literal name) none none
      | [parent, name, other] =>
        match literal other with
        | some doc => return .type type parent (← literal name) (some doc) none
        | none => return .type type parent (← literal name) none (some other)
      | [parent, name, doc, flag] =>
        return .type type parent (← literal name) (some (← literal doc)) (some flag)
      | _ => none
  | none => do
    let (parent, t) := identifier t
    if t = [] then return .same parent
    else
      let (args, t) ← group '(' (← strip t%".def_submodule" t)
      if t ≠ [] then none
      else match ← splitArgs args with
        | [name] => return .submodule parent (← literal name)
        | _ => none

/-- A statement of the module definition. -/
inductive ModuleStatement where
  | create (var : Str) (creation : Creation)
  | call (function var : Str)
  | manual (parameter : Option Str) (block : Str)
  deriving DecidableEq, Repr

/-- See `ModuleStatement`. -/
def readModuleStatement (t : Str) : Option ModuleStatement :=
  match strip t%"auto " t with
  | some t => do
    let (var, t) := identifier t
    return .create var (← readCreation (← strip t%" = " t))
  | none =>
  match strip t%"expose_" t with
  | some t => do
    let (function, t) := identifier t
    let (args, t) ← group '(' t
    if t ≠ [] then none
    else match ← splitArgs args with
      | [var] => return .call function var
      | _ => none
  | none => (readManual t).map fun p => .manual p.1 p.2

/-- A declaration in a generated file. -/
inductive Declaration where
  | declare (function : Str) (type : ObjectType)
  | define (function : Str) (type : ObjectType) (body : List Statement)
  | module (name : Str) (body : List ModuleStatement)
  deriving DecidableEq, Repr

/-- See `Declaration`. -/
def readDeclaration (t : Str) : Option Declaration :=
  match strip t%"void expose_" t with
  | some t => do
    let (function, t) := identifier t
    let (param, t) ← group '(' t
    let (type, name) ← readObjectType param
    if name ≠ t%"& context" then none
    else if t = [] then return .declare function type
    else
      let (body, t) ← group '{' (t.dropWhile isSpace)
      if t ≠ [] then none else return .define function type (← readBlock body)
  | none => do
    let (args, t) ← group '(' (← strip t%"PYBIND11_MODULE" t)
    match ← splitArgs args with
    | [name, root] =>
      let (body, t) ← group '{' (t.dropWhile isSpace)
      if root ≠ t%"root" || t ≠ [] then none
      else return .module name (← (← statements body).mapM readModuleStatement)
    | _ => none

/-- The text up to the end of the line, and what follows. -/
def line (t : Str) : Str × Str :=
  let p := span (· ≠ '\n') t
  (p.1, p.2.tail)

/-- Includes at the start of a file, and what follows; at most `n`. -/
def includes : Nat → Str → Option (List Str × Str)
  | 0, _ => none
  | n + 1, t =>
    match strip t%"#include " t with
    | some t => do
      let (l, t) := line t
      let (ls, t) ← includes n t
      return (l :: ls, t)
    | none => some ([], t)

/-- What is in a generated file: includes and declarations. -/
def readFile (t : Str) : Option (List Str × List Declaration) := do
  let (names, t) ← includes (t.length + 1) t
  return (names, ← (← declarations t).mapM readDeclaration)

end Verif.Spec.Code
