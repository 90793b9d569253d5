import Verif.Basic.Text
/-!
# The GENPYBIND macro

public/genpybind/genpybind.h:11-19.  The macro is the only way in which users
write annotations; its argument is turned into a string literal by the
preprocessor.
-/
namespace Verif

/-- A preprocessing token of the macro argument, after macro expansion (the
argument of `GENPYBIND` is passed on to `GENPYBIND__PRIVATE_STRINGIZE__`,
genpybind.h:16-19, and is thus fully expanded before `#` applies).  `literal`:
it is a string or character literal; `spaced`: there is white space (blanks,
comments, line breaks) between the previous token and this one. -/
structure PPToken where
  spelling : Str
  literal : Bool := false
  spaced : Bool := false
  deriving DecidableEq, Repr

/-- How the operator `#` spells one token ([cpp.stringize], used in
genpybind.h:16): a backslash is inserted before each `"` and `\` of a string or
character literal, other tokens keep their spelling. -/
def stringizeToken (t : PPToken) : Str :=
  if t.literal then
    t.spelling.flatMap fun c => if c = '"' ∨ c = '\\' then ['\\', c] else [c]
  else t.spelling

/-- `#` for all tokens after the first one: white space becomes one blank. -/
def stringizeRest (ts : List PPToken) : Str :=
  ts.flatMap fun t => (if t.spaced then [' '] else []) ++ stringizeToken t

/-- `#__VA_ARGS__`, genpybind.h:16, without the enclosing quotes.  White space
before the first and after the last token is deleted. -/
def stringize : List PPToken → Str
  | [] => []
  | t :: ts => stringizeToken t ++ stringizeRest ts

/-- The second of the two adjacent string literals in the attribute
`annotate("◊" "...")`, genpybind.h:18-19. -/
def annotateLiteral (ts : List PPToken) : Str := '"' :: stringize ts ++ ['"']

end Verif
