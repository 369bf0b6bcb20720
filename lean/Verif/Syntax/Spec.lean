import Verif.Syntax.Model
/-!
What the messages about syntax errors claim.
-/
namespace Verif.Syntax

open Lexing (Ty)

/-- Every parenthesis has its partner. -/
inductive Balanced : List Ty → Prop where
  | nil : Balanced []
  | word (t : Ty) (ts : List Ty) (hl : t ≠ .lpar) (hr : t ≠ .rpar) (h : Balanced ts) : Balanced (t :: ts)
  | pair (a b : List Ty) (ha : Balanced a) (hb : Balanced b) : Balanced (.lpar :: (a ++ .rpar :: b))

/-- "Right parenthesis has no left match": there is a right parenthesis such that no left parenthesis before it is balanced up to it. -/
def RightAlone (ts : List Ty) : Prop := ∃ a b, ts = a ++ .rpar :: b ∧ ¬ ∃ c d, a = c ++ .lpar :: d ∧ Balanced d

/-- "Left parenthesis has no right match". -/
def LeftAlone (ts : List Ty) : Prop := ∃ a b, ts = a ++ .lpar :: b ∧ ¬ ∃ c d, b = c ++ .rpar :: d ∧ Balanced c

/-- "Only left and right parentheses present". -/
def OnlyParens (ts : List Ty) : Prop := ∀ t ∈ ts, t = .lpar ∨ t = .rpar

/-- Operators. -/
def signs : List Ty := [.plus, .minus, .asterisk, .slash, .lt, .gt, .equals]

/-- The tokens that count as the beginning of an expression. -/
def beginnings : List Ty := [.identifier, .ordsymbol, .ampersand, .lpar, .continuation, .comment]

/-- The tokens that count as the end of an expression. -/
def endings : List Ty := [.identifier, .ordsymbol, .ampersand, .rpar, .continuation, .comment]

/-- A token of these types is not followed by what counts as the beginning of an expression. -/
def Loose (types ts : List Ty) : Prop := ∃ a t b, ts = a ++ t :: b ∧ t ∈ types ∧ ∀ n, b.head? = some n → n ∉ beginnings

/-- A token of these types is not preceded by what counts as the end of an expression. -/
def Headless (types ts : List Ty) : Prop := ∃ a t b, ts = a ++ t :: b ∧ t ∈ types ∧ ∀ n, a.getLast? = some n → n ∉ endings

/-- The number of apostrophes is odd. -/
def OddQuotes (ts : List Ty) : Prop := ts.count .apostrophe % 2 = 1

/-- The statement: the tokens between the spaces the error begins with and the end of the logical line. -/
def IsStatement (tokens ts : List Ty) : Prop :=
  ∃ (spaces : Nat) (rest : List Ty), tokens = List.replicate spaces .space ++ (ts ++ .eolln :: rest) ∧ ts.head? ≠ some .space ∧ .eolln ∉ ts

/-- Operators that need something before them. -/
def binary : List Ty := [.asterisk, .slash, .lt, .gt, .equals]

/-- Comparison signs. -/
def comparisons : List Ty := [.lt, .gt, .equals]

/-- What a message says about the statement. -/
def Claim (ts : List Ty) (expected : Bool) (column : Nat) : Code → Prop
  | .S0012 => RightAlone ts
  | .S0011 => LeftAlone ts
  | .S0010 => OnlyParens ts
  | .S0009 => Loose signs ts
  | .S0008 => Loose [.ampersand] ts
  | .S0007 => Headless binary ts
  | .S0006 => ∃ t ∈ ts, t ∈ comparisons
  | .S0005 => OddQuotes ts ∧ expected = true
  | .S0004 => column = 0
  | .S0002 => True
  | _ => False

/-- The order in which the messages are considered. -/
def order : List Code := [.S0012, .S0011, .S0010, .S0009, .S0008, .S0007, .S0006, .S0005, .S0004, .S0002]

end Verif.Syntax
