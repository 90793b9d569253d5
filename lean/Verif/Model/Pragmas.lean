import Verif.Basic.Text
/-!
# Pragmas (src/pragmas.cpp)
-/
namespace Verif

/-- Tokens on the line of a pragma. -/
inductive PragmaToken where
  | identifier (name : Str)
  /-- a token given by `LexIncludeFilename`, with its quotes or brackets -/
  | filename (spelling : Str)
  | other (spelling : Str)
  deriving DecidableEq, Repr

/-- The line of a pragma. -/
structure PragmaLine where
  /-- the tokens after `#pragma genpybind` -/
  tokens : List PragmaToken
  /-- whether the file ends right after the last token, without a newline; `LexFromRawLexer`
  then returns `true` along with this token -/
  endsFile : Bool := false
  /-- whether `HandleDirective`, by which the line is handled as an ordinary directive
  first, has not reported an error -/
  accepted : Bool := true
  deriving DecidableEq, Repr

/-- Diagnostics reported by the handler. -/
inductive PragmaDiag where
  | invalidDirective | expectsFilename | emptyFilename | expectedEol
  deriving DecidableEq, Repr

/-- Members of `PragmaGenpybindHandler`, and the errors it reported. -/
structure PragmaState where
  includes : List Str := []
  diags : List PragmaDiag := []
  deriving DecidableEq, Repr

def PragmaState.report (s : PragmaState) (d : PragmaDiag) : PragmaState :=
  { s with diags := s.diags ++ [d] }

/-- `PragmaGenpybindHandler::HandlePragma`, src/pragmas.cpp:26-96. -/
def handlePragma (s : PragmaState) (l : PragmaLine) : PragmaState :=
  if !l.accepted then s
  else match l.tokens with
  | [] => s.report .invalidDirective
  | directive :: rest =>
    if l.endsFile && rest.isEmpty then s.report .invalidDirective
    else match directive with
    | .identifier name =>
      if name = t%"include" then
        match rest with
        | .filename spelling :: rest =>
          if spelling.isEmpty then s.report .emptyFilename
          else
            let s := { s with includes := s.includes ++ [spelling] }
            match rest with
            | [] => s
            | _ :: more => if l.endsFile && more.isEmpty then s else s.report .expectedEol
        | _ => s.report .expectsFilename
      else s.report .invalidDirective
    | _ => s.report .invalidDirective

/-- All pragmas of the translation unit, in order. -/
def handlePragmas (lines : List PragmaLine) : PragmaState := lines.foldl handlePragma {}

end Verif
