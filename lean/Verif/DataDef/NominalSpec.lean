import Verif.DataDef.Nominal

/-
  What a well-formed nominal value is, as a grammar.  Nothing here refers to the scanners.
-/

namespace Verif.DataDef.Spec

open Verif.DataDef (Text)

/-- The values of a nominal value: what stands between its commas. -/
def values : Text → List Text
  | [] => [[]]
  | c :: r =>
    if c = ',' then [] :: values r
    else
      match values r with
      | v :: vs => (c :: v) :: vs
      | [] => [[c]]

/-- A decimal digit. -/
def Digit (c : Char) : Prop := '0' ≤ c ∧ c ≤ '9'

/-- A hexadecimal digit. -/
def HexDigit (c : Char) : Prop := Digit c ∨ ('a' ≤ c ∧ c ≤ 'f') ∨ ('A' ≤ c ∧ c ≤ 'F')

/-- A binary digit. -/
def BinDigit (c : Char) : Prop := c = '0' ∨ c = '1'

/-- A value of type B or X: digits, of which there is at least one, and blanks. -/
def BitString (digit : Char → Prop) (v : Text) : Prop :=
  (∃ c ∈ v, digit c) ∧ ∀ c ∈ v, c = ' ' ∨ digit c

/-- A number: an optional sign, then digits, of which there is at least one, at most one decimal point, and blanks. -/
def Number (signs v : Text) : Prop :=
  ∃ sign body, v = sign ++ body ∧ (sign = [] ∨ ∃ c ∈ signs, sign = [c])
    ∧ (∀ c ∈ body, Digit c ∨ c = '.' ∨ c = ' ') ∧ (∃ c ∈ body, Digit c) ∧ body.count '.' ≤ 1

/-- An exponent: `E`, an optional sign, and digits, of which there is at least one. -/
def Exponent (e : Text) : Prop :=
  ∃ sign digits, e = 'E' :: (sign ++ digits) ∧ (sign = [] ∨ sign = ['+'] ∨ sign = ['-'])
    ∧ digits ≠ [] ∧ ∀ c ∈ digits, Digit c

/-- A rounding mode: `R` and one of the numbers the type allows. -/
def Rounding (modes : List Text) (r : Text) : Prop := ∃ m ∈ modes, r = 'R' :: m

/-- A value of type P or Z. -/
def DecimalValue (v : Text) : Prop := Number ['+', '-'] v

/-- A value of type H, F or FD. -/
def FixedValue (v : Text) : Prop :=
  ∃ n e, v = n ++ e ∧ Number ['U', '+', '-'] n ∧ (e = [] ∨ Exponent e)

/-- The rounding modes of the floating-point types: 1, 4, 5, 6, 7 for binary and hexadecimal constants, 8 to 15 for
decimal ones, none for the old hexadecimal format. -/
def modes (ext : Char) : List Text :=
  if ext = 'B' ∨ ext = 'H' then ["1".toList, "4".toList, "5".toList, "6".toList, "7".toList]
  else if ext = 'D' then
    ["8".toList, "9".toList, "10".toList, "11".toList, "12".toList, "13".toList, "14".toList, "15".toList]
  else []

/-- A value of a floating-point type. -/
def FloatValue (ext : Char) (v : Text) : Prop :=
  ∃ n e r, v = n ++ e ++ r ∧ Number ['+', '-'] n ∧ (e = [] ∨ Exponent e) ∧ (r = [] ∨ Rounding (modes ext) r)

end Verif.DataDef.Spec
