import Verif.Basic.Text
/-!
# Adjusting the compilation command (src/tool.cpp:352-432)

Arguments are texts; the first one is the name of the program.
-/
namespace Verif

/-- `StringRef::consume_front`: what follows the prefix, if it is one. -/
def stripFront : Str → Str → Option Str
  | [], s => some s
  | _ :: _, [] => none
  | c :: p, d :: s => if c = d then stripFront p s else none

/-- `StringRef::split` at the first occurrence of `++`: what comes before and after
it.  Without such an occurrence this is the text itself and the empty text. -/
def splitPlusPlus : Str → Str × Str
  | [] => ([], [])
  | '+' :: '+' :: s => ([], s)
  | c :: s => let r := splitPlusPlus s; (c :: r.1, r.2)

/-- The test in the loop at src/tool.cpp:359-362. -/
def isResourceDirFlag (arg : Str) : Bool :=
  match stripFront t%"-resource-dir" arg with
  | none => false
  | some [] => true
  | some (c :: _) => c = '='

/-- Arguments before and from `--` on, by `llvm::find`, src/tool.cpp:365. -/
def splitPositional : List Str → List Str × List Str
  | [] => ([], [])
  | a :: l => if a = t%"--" then ([], a :: l) else let r := splitPositional l; (a :: r.1, r.2)

/-- `getDefaultResourceDirAdjuster`, src/tool.cpp:354-373.  `dir` is the result of
`findResourceDir`. -/
def adjustResourceDir (dir : Str) (args : List Str) : List Str :=
  if args.any isResourceDirFlag then args
  else
    let r := splitPositional args
    r.1 ++ (if dir.isEmpty then [] else [t%"-resource-dir=" ++ dir]) ++ r.2

/-- Local variables of `getCpp17OrLaterAdjuster`, src/tool.cpp:381-386. -/
structure Standard where
  usesLater : Bool := false
  pre : Str := t%"c"
  deriving DecidableEq, Repr

/-- The loop at src/tool.cpp:389-417: the arguments that are kept, the remaining
ones from `--` on, and the language standard. -/
def adjustLoop : List Str → Standard → List Str × List Str × Standard
  | [], s => ([], [], s)
  | arg :: rest, s =>
    if arg = t%"--" then ([], arg :: rest, s)
    else match stripFront t%"-x" arg with
    | some [] =>
      match rest with
      | [] => ([], [], s)
      | _ :: rest => adjustLoop rest s
    | some (_ :: _) => adjustLoop rest s
    | none =>
      match stripFront t%"-std=" arg with
      | some value =>
        let parts := splitPlusPlus value
        let later := (stripFront t%"2" parts.2).isSome
        let s := { usesLater := later, pre := parts.1 }
        let r := adjustLoop rest s
        if later then (arg :: r.1, r.2) else r
      | none =>
        let r := adjustLoop rest s
        (arg :: r.1, r.2)

/-- `getCpp17OrLaterAdjuster`, src/tool.cpp:377-432; `none` is the failed assertion. -/
def adjustStandard : List Str → Option (List Str)
  | [] => none
  | program :: args =>
    let r := adjustLoop args {}
    some (program :: t%"-xc++" :: r.1 ++
      (if r.2.2.usesLater then [] else [t%"-std=" ++ r.2.2.pre ++ t%"++17"]) ++ r.2.1)

end Verif
