import Verif.Model.Literal
/-!
# `LiteralValue` as a tagged union owning heap storage

src/annotations/literal_value.cpp and include/genpybind/annotations/literal_value.h,
with an explicit heap.  Every kind of undefined behaviour is a distinct fault.
-/
namespace Verif.LH

/-- Undefined behaviour (or failed assertion). -/
inductive Fault where
  | doubleFree        -- `delete` of a cell that is not live
  | useAfterFree      -- access to a cell that is not live
  | nullDeref         -- access through a null pointer
  | wrongMember       -- read of an inactive union member / failed assertion
  | lifetime          -- the caller uses a dead object or constructs over a live one
  deriving DecidableEq, Repr

/-- The anonymous union, literal_value.h:36-40, with its active member.
`ptr none` is `nullptr`. -/
inductive Payload where
  | ptr (p : Option Nat)
  | int (n : Nat)
  | bool (b : Bool)
  deriving DecidableEq, Repr

/-- A `LiteralValue` object, literal_value.h:24-40. -/
structure Obj where
  kind : LiteralKind
  payload : Payload
  deriving DecidableEq, Repr

/-- Heap cells holding `std::string`s, next fresh address, and the `LiteralValue`
objects (by an arbitrary naming of their storage). -/
structure Mem where
  heap : Nat → Option Str
  next : Nat
  vars : Nat → Option Obj

/-- Point update. -/
def upd {α : Type} (f : Nat → α) (x : Nat) (v : α) : Nat → α := fun y => if y = x then v else f y

abbrev M := Except Fault

/-- Access to a live object. -/
def getVar (m : Mem) (x : Nat) : M Obj :=
  match m.vars x with
  | some o => .ok o
  | none => .error .lifetime

/-- Store into an object. -/
def putVar (m : Mem) (x : Nat) (o : Obj) : Mem := { m with vars := upd m.vars x (some o) }

/-- `delete string` (deleting `nullptr` is a no-op). -/
def free (m : Mem) : Option Nat → M Mem
  | none => .ok m
  | some a =>
    match m.heap a with
    | none => .error .doubleFree
    | some _ => .ok { m with heap := upd m.heap a none }

/-- Read the string a pointer refers to. -/
def deref (m : Mem) : Option Nat → M Str
  | none => .error .nullDeref
  | some a =>
    match m.heap a with
    | none => .error .useAfterFree
    | some s => .ok s

/-- The member `string` of the union. -/
def stringMember (o : Obj) : M (Option Nat) :=
  match o.payload with
  | .ptr p => .ok p
  | _ => .error .wrongMember

/-- `new std::string(value)`. -/
def alloc (m : Mem) (s : Str) : Nat × Mem :=
  (m.next, { m with heap := upd m.heap m.next (some s), next := m.next + 1 })

/-- `LiteralValue::LiteralValue()`, literal_value.h:44. -/
def construct (m : Mem) (x : Nat) : M Mem :=
  match m.vars x with
  | some _ => .error .lifetime
  | none => .ok (putVar m x ⟨.nothing, .ptr none⟩)

/-- `LiteralValue::setNothing`, literal_value.cpp:97-102. -/
def setNothing (m : Mem) (x : Nat) : M Mem := do
  let o ← getVar m x
  let m ← if o.kind = .string then do
      let p ← stringMember o
      free m p
    else .ok m
  .ok (putVar m x ⟨.nothing, .ptr none⟩)

/-- `LiteralValue::setString`, literal_value.cpp:104-108, with a text the caller
owns independently of `x`. -/
def setString (m : Mem) (x : Nat) (s : Str) : M Mem := do
  let m ← setNothing m x
  let r := alloc m s
  .ok (putVar r.2 x ⟨.string, .ptr (some r.1)⟩)

/-- `LiteralValue::getString` used as a reference, literal_value.cpp:127-130:
dereferences the pointer (must not be null) but does not read the cell yet. -/
def stringRef (m : Mem) (y : Nat) : M (Option Nat) := do
  let o ← getVar m y
  if o.kind ≠ .string then .error .wrongMember
  else do
    let p ← stringMember o
    match p with
    | none => .error .nullDeref
    | some a => .ok (some a)

/-- `x.setString(y.getString())`: the `StringRef` argument refers to the cell of
`y`, which is read after `setNothing`, literal_value.cpp:104-108. -/
def setStringFrom (m : Mem) (x y : Nat) : M Mem := do
  let p ← stringRef m y
  let m ← setNothing m x
  let s ← deref m p
  let r := alloc m s
  .ok (putVar r.2 x ⟨.string, .ptr (some r.1)⟩)

/-- `LiteralValue::setUnsigned`, literal_value.cpp:110-114. -/
def setUnsigned (m : Mem) (x n : Nat) : M Mem := do
  let m ← setNothing m x
  .ok (putVar m x ⟨.unsigned, .int n⟩)

/-- `LiteralValue::setBoolean`, literal_value.cpp:116-120. -/
def setBoolean (m : Mem) (x : Nat) (b : Bool) : M Mem := do
  let m ← setNothing m x
  .ok (putVar m x ⟨.boolean, .bool b⟩)

/-- `LiteralValue::setDefault`, literal_value.cpp:122-125. -/
def setDefault (m : Mem) (x : Nat) : M Mem := do
  let m ← setNothing m x
  .ok (putVar m x ⟨.default, .ptr none⟩)

/-- `LiteralValue::getUnsigned`, literal_value.cpp:132-135. -/
def getUnsigned (o : Obj) : M Nat :=
  match o.kind, o.payload with
  | .unsigned, .int n => .ok n
  | _, _ => .error .wrongMember

/-- `LiteralValue::getBoolean`, literal_value.cpp:137-140. -/
def getBoolean (o : Obj) : M Bool :=
  match o.kind, o.payload with
  | .boolean, .bool b => .ok b
  | _, _ => .error .wrongMember

/-- `LiteralValue::operator=(const LiteralValue &)`, literal_value.cpp:49-71. -/
def copyAssign (m : Mem) (x y : Nat) : M Mem := do
  let _ ← getVar m x
  let _ ← getVar m y
  if x = y then .ok m
  else do
    let m ← setNothing m x
    let o ← getVar m y
    match o.kind with
    | .nothing => .ok m
    | .string => setStringFrom m x y
    | .unsigned => do let n ← getUnsigned o; setUnsigned m x n
    | .boolean => do let b ← getBoolean o; setBoolean m x b
    | .default => setDefault m x

/-- `LiteralValue::LiteralValue(const LiteralValue &)`, literal_value.cpp:45-47. -/
def copyConstruct (m : Mem) (x y : Nat) : M Mem := do
  let _ ← getVar m y
  let m ← construct m x
  copyAssign m x y

/-- `std::swap(string, other.string)` for two (possibly identical) objects. -/
def swapStrings (m : Mem) (x y : Nat) : M Mem := do
  let ox ← getVar m x
  let oy ← getVar m y
  let px ← stringMember ox
  let py ← stringMember oy
  let m := putVar m x { ox with payload := .ptr py }
  let oy ← getVar m y
  .ok (putVar m y { oy with payload := .ptr px })

/-- `LiteralValue::LiteralValue(LiteralValue &&)`, literal_value.cpp:73-82. -/
def moveConstruct (m : Mem) (x y : Nat) : M Mem := do
  let _ ← getVar m y
  let m ← construct m x
  let oy ← getVar m y
  if oy.kind = .string then do
    let ox ← getVar m x
    let m := putVar m x { ox with kind := .string }
    let m ← swapStrings m x y
    let oy ← getVar m y
    .ok (putVar m y { oy with kind := .nothing })
  else copyAssign m x y

/-- `LiteralValue::operator=(LiteralValue &&)`, literal_value.cpp:84-95. -/
def moveAssign (m : Mem) (x y : Nat) : M Mem := do
  let ox ← getVar m x
  let oy ← getVar m y
  if oy.kind = .string then do
    let m := if ox.kind ≠ .string then putVar m x ⟨.string, .ptr none⟩ else m
    swapStrings m x y
  else copyAssign m x y

/-- `LiteralValue::~LiteralValue`, literal_value.cpp:16-19. -/
def destroy (m : Mem) (x : Nat) : M Mem := do
  let o ← getVar m x
  let m ← if o.kind = .string then do
      let p ← stringMember o
      free m p
    else .ok m
  .ok { m with vars := upd m.vars x none }

/-- Reading a value completely, as `print` does, literal_value.cpp:142-162 (the
getters, literal_value.cpp:127-140, read the same members). -/
def read (m : Mem) (x : Nat) : M LiteralValue := do
  let o ← getVar m x
  match o.kind with
  | .nothing => .ok .nothing
  | .string => do let p ← stringMember o; let s ← deref m p; .ok (.string s)
  | .unsigned => do let n ← getUnsigned o; .ok (.unsigned n)
  | .boolean => do let b ← getBoolean o; .ok (.boolean b)
  | .default => .ok .default

/-- `LiteralValue::operator==`, literal_value.cpp:164-179. -/
def equal (m : Mem) (x y : Nat) : M Bool := do
  let ox ← getVar m x
  let oy ← getVar m y
  if ox.kind ≠ oy.kind then .ok false
  else match ox.kind with
  | .string => do
    let px ← stringMember ox
    let py ← stringMember oy
    let s ← deref m px
    let t ← deref m py
    .ok (s = t)
  | .unsigned => do let a ← getUnsigned ox; let b ← getUnsigned oy; .ok (a = b)
  | .boolean => do let a ← getBoolean ox; let b ← getBoolean oy; .ok (a = b)
  | .nothing => .ok true
  | .default => .ok true

/-- Operations of a client program. -/
inductive Op where
  | construct (x : Nat)
  | copyConstruct (x y : Nat)
  | moveConstruct (x y : Nat)
  | copyAssign (x y : Nat)
  | moveAssign (x y : Nat)
  | setNothing (x : Nat)
  | setString (x : Nat) (s : Str)
  | setStringFrom (x y : Nat)
  | setUnsigned (x n : Nat)
  | setBoolean (x : Nat) (b : Bool)
  | setDefault (x : Nat)
  | destroy (x : Nat)
  | read (x : Nat)
  | equal (x y : Nat)
  deriving DecidableEq, Repr

/-- What the client observes. -/
inductive Obs where
  | val (v : LiteralValue)
  | bool (b : Bool)
  deriving DecidableEq, Repr

/-- One operation. -/
def step (m : Mem) : Op → M (Mem × List Obs)
  | .construct x => (construct m x).map (·, [])
  | .copyConstruct x y => (copyConstruct m x y).map (·, [])
  | .moveConstruct x y => (moveConstruct m x y).map (·, [])
  | .copyAssign x y => (copyAssign m x y).map (·, [])
  | .moveAssign x y => (moveAssign m x y).map (·, [])
  | .setNothing x => (setNothing m x).map (·, [])
  | .setString x s => (setString m x s).map (·, [])
  | .setStringFrom x y => (setStringFrom m x y).map (·, [])
  | .setUnsigned x n => (setUnsigned m x n).map (·, [])
  | .setBoolean x b => (setBoolean m x b).map (·, [])
  | .setDefault x => (setDefault m x).map (·, [])
  | .destroy x => (destroy m x).map (·, [])
  | .read x => (read m x).map fun v => (m, [.val v])
  | .equal x y => (equal m x y).map fun b => (m, [.bool b])

/-- A history of operations. -/
def run (m : Mem) : List Op → M (Mem × List Obs)
  | [] => .ok (m, [])
  | op :: ops => do
    let r ← step m op
    let r' ← run r.1 ops
    .ok (r'.1, r.2 ++ r'.2)

/-- Before anything happens. -/
def init : Mem := { heap := fun _ => none, next := 0, vars := fun _ => none }

end Verif.LH
