import Verif.Lexing.Lexer
/-!
Which message a syntax error gets.

Modelled: `/repo/parser_library/src/parsing/parser_error_listener.cpp` 26-247. What ANTLR reports (the kind of the exception, the token
its prediction started at, the tokens it expected) is a parameter; so are the places of the messages. The token types `OR`, `AND`, `EQ`,
`LE`, `LTx`, `GTx`, `GE` and `NE` of `lex.tokens` are left out: the lexer makes no such tokens.
-/
namespace Verif.Syntax

open Lexing (Ty)

/-- `is_comparative_sign` (26-30). -/
def isComparison (t : Ty) : Bool := t = .lt || t = .gt || t = .equals

/-- `is_sign` (32-35). -/
def isSign (t : Ty) : Bool := t = .asterisk || t = .minus || t = .plus || isComparison t || t = .slash

/-- `can_follow_sign` (49-53). -/
def canFollow (t : Ty) : Bool :=
  t = .identifier || t = .ordsymbol || t = .ampersand || t = .lpar || t = .continuation || t = .comment

/-- `can_be_before_sign` (55-59). -/
def canPrecede (t : Ty) : Bool :=
  t = .identifier || t = .ordsymbol || t = .ampersand || t = .rpar || t = .continuation || t = .comment

/-- The variables of `iterate_error_stream` (61-109). -/
structure Flags where
  par : Int := 0
  apos : Nat := 0
  rightPrec : Bool := false
  onlyPar : Bool := true
  leftPrec : Bool := false
  signFollowed : Bool := true
  signPreceding : Bool := true
  unexpected : Bool := false
  odd : Bool := false
  ampFollowed : Bool := true
deriving DecidableEq, Repr

/-- A token that is no parenthesis (85-101); `prev` and `next` are its neighbours inside of the range looked at. -/
def Flags.word (f : Flags) (prev next : Option Ty) (t : Ty) : Flags :=
  { f with
    onlyPar := false
    signFollowed := if isSign t && !(next.any canFollow) then false else f.signFollowed
    ampFollowed := if t = .ampersand && !(next.any canFollow) then false else f.ampFollowed
    signPreceding := if isSign t && t ≠ .plus && t ≠ .minus && !(prev.any canPrecede) then false else f.signPreceding
    unexpected := f.unexpected || isComparison t
    apos := if t = .apostrophe then f.apos + 1 else f.apos }

/-- One round of the loop (75-105). -/
def Flags.step (f : Flags) (prev next : Option Ty) (t : Ty) : Flags :=
  let g : Flags := if t = .lpar then { f with par := f.par - 1 } else if t = .rpar then { f with par := f.par + 1 } else f.word prev next t
  { g with rightPrec := g.rightPrec || decide (g.par > 0) }

/-- The loop (75-105). -/
def walk (prev : Option Ty) (f : Flags) : List Ty → Flags
  | [] => f
  | t :: ts => walk (some t) (f.step prev ts.head? t) ts

/-- `iterate_error_stream` (61-109) over the tokens from `start` to `end`. -/
def iterate (ts : List Ty) : Flags :=
  let f := walk none {} ts
  { f with odd := f.apos % 2 == 1, leftPrec := decide (f.par < 0) }

/-- The codes of the messages. -/
inductive Code where
  | S0001 | S0002 | S0003 | S0004 | S0005 | S0006 | S0007 | S0008 | S0009 | S0010 | S0011 | S0012
deriving DecidableEq, Repr

/-- The message chosen (171-226); `expected`: the parser expected an apostrophe, `column`: that of the token the prediction started at. -/
def choose (f : Flags) (expected : Bool) (column : Nat) : Code :=
  if f.rightPrec then .S0012
  else if f.leftPrec then .S0011
  else if f.onlyPar then .S0010
  else if !f.signFollowed then .S0009
  else if !f.ampFollowed then .S0008
  else if !f.signPreceding then .S0007
  else if f.unexpected then .S0006
  else if f.odd && expected then .S0005
  else if column = 0 then .S0004
  else .S0002

/-- Spaces at the beginning are skipped (137-144); the index of the first token that is none and the tokens from it on. `none`: the
stream ends, `get` throws. -/
def skip (start : Nat) : List Ty → Option (Nat × List Ty)
  | [] => none
  | t :: ts => if t = .space then skip (start + 1) ts else some (start, t :: ts)

/-- The tokens looked at: up to the first `EOLLN`, with `get_end_index` (37-47, 146-155). It returns -1 if there is none, but also if the
first token of the stream is one; then everything is looked at. -/
def range (start : Nat) (ts : List Ty) : List Ty :=
  if .eolln ∈ ts ∧ ¬ (start = 0 ∧ ts.head? = some .eolln) then ts.takeWhile (· ≠ .eolln) else ts

/-- The error ANTLR reports. `noViable`: the tokens before the one the prediction started at, how many there are, and the ones from it
on, all fetched so far. -/
inductive Cause where
  | noViable (before : Nat) (tokens : List Ty) (expected : Bool) (column : Nat)
  | mismatch (offender : Ty)
  | other
  | nothing

/-- What the listener does. -/
inductive Outcome where
  | message (c : Code)
  | silence
  | crash
deriving DecidableEq, Repr

/-- `syntaxError` (116-247). An exception inside of the handler is not caught by the handlers beside it. -/
def report : Cause → Outcome
  | .noViable before tokens expected column => match skip before tokens with
    | none => .crash
    | some (start, ts) => .message (choose (iterate (range start ts)) expected column)
  | .mismatch t => .message (if t = .eolln then .S0003 else .S0002)
  | .other => .message .S0001
  | .nothing => .silence

end Verif.Syntax
