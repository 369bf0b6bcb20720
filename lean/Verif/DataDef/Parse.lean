import Verif.DataDef.Nominal

/-
  How the parts of an operand of DC and DS are told apart (`expressions/data_definition.cpp`, class
  `data_definition::parser`).  The grammar (`parsing/grammar/data_def_rules.g4`) hands over the text of the operand in
  which every expression in parentheses is replaced by `&` and the nominal value by a blank, together with the expressions
  and the nominal value.  Expressions are values of an arbitrary type `α`.  Ranges and highlighting are left out.
-/

namespace Verif.DataDef.Parsing

open Verif.DataDef (Text isDigit)

/-- `expressions/nominal_value.h`: a text, or a list of expressions and addresses `displacement(base)`. -/
inductive Nom (α : Type)
  | str (s : Text)
  | exprs (l : List (α ⊕ α × α))
  deriving Repr, DecidableEq

/-- A `mach_expr_constant` made from a number in the format, or an expression that was handed over. -/
inductive Src (α : Type)
  | num (v : Int)
  | expr (e : α)
  deriving Repr, DecidableEq

/-- `expressions/data_definition.h:40-60` `data_definition`, and the codes of its diagnostics, the last one first.
`ext = '\0'` stands for none. -/
structure Result (α : Type) where
  dupl : Src α := .num 1
  type : Char := '\x00'
  ext : Char := '\x00'
  program : Option (Src α) := none
  length : Option (Src α) := none
  scale : Option (Src α) := none
  exponent : Option (Src α) := none
  bit : Bool := false
  nominal : Option (Nom α) := none
  diags : List Nat := []
  deriving Repr, DecidableEq

/-- The state of the parser, `data_definition.h:151-170`.  `rest` is what follows `p_` in `format_`, `exprs` what follows
`exprs_i_` in `exprs_`. -/
structure State (α : Type) where
  rest : Text
  exprs : List α
  nominal : Option (Nom α)
  remaining : Text := ['P', 'L', 'S', 'E']
  res : Result α := {}
  deriving Repr, DecidableEq

/-- Undefined behaviour: there is no expression for a `&` (`move_next_expression` reads behind the end of the vector), or
no nominal value for a blank (a null pointer is dereferenced). -/
inductive Crash
  | noExpression
  | noNominal
  deriving Repr, DecidableEq

variable {α : Type}

/-- Adding a diagnostic to the result. -/
def State.diag (s : State α) (code : Nat) : State α := { s with res := { s.res with diags := code :: s.res.diags } }

/-- `data_definition.cpp:385`. -/
def isNumberChar (c : Char) : Bool := isDigit c || c == '-'

/-- The value of a string of digits. -/
def digitsValue (ds : Text) : Nat := ds.foldl (fun n c => 10 * n + (c.toNat - '0'.toNat)) 0

/-- What `std::stoi` does: it converts a prefix, or throws `std::out_of_range` or `std::invalid_argument`. -/
inductive Stoi
  | ok (v : Int) (rest : Text)
  | outOfRange
  | invalid
  deriving Repr, DecidableEq

/-- `std::stoi` on a text that begins with a digit or `-`; leading blanks and `+` do not occur (the callers ask
`is_number_char` first). -/
def stoi (s : Text) : Stoi :=
  let neg := s.head? == some '-'
  let r := if neg then s.tail else s
  let ds := r.takeWhile isDigit
  if ds.isEmpty then .invalid
  else
    let v : Int := if neg then - (digitsValue ds : Int) else digitsValue ds
    if -2147483648 ≤ v ∧ v ≤ 2147483647 then .ok v (r.dropWhile isDigit) else .outOfRange

/-- `data_definition.cpp:387-430` `get_number_end`, `parse_number`. -/
def parseNumber (s : State α) : Option Int × State α :=
  match stoi s.rest with
  | .ok v r => (some v, { s with rest := r })
  | .outOfRange => (none, { s with rest := s.rest.dropWhile isNumberChar }.diag 1)
  | .invalid => (none, { s with rest := s.rest.dropWhile isNumberChar }.diag 2)

/-- `data_definition.cpp:469-478` `move_next_expression`. -/
def moveNext (s : State α) : Except Crash (α × State α) :=
  match s.exprs with
  | [] => .error .noExpression
  | e :: r => .ok (e, { s with exprs := r, rest := s.rest.tail })

/-- `data_definition.cpp:439-459` `parse_duplication_factor`.  Reading the character at the end of the format gives the
terminating zero. -/
def parseDupl (s : State α) : Except Crash (State α) :=
  match s.rest.headD '\x00' with
  | c =>
    if isNumberChar c then
      let (v, s) := parseNumber s
      .ok { s with res := { s.res with dupl := .num (v.getD 1) } }
    else if c == '&' then do
      let (e, s) ← moveNext s
      .ok { s with res := { s.res with dupl := .expr e } }
    else .ok { s with res := { s.res with dupl := .num 1 } }

/-- `data_definition.cpp:461-465`. -/
def isTypeExtension (c : Char) : Bool := ['A', 'E', 'U', 'H', 'B', 'D', 'Q', 'Y'].contains c

/-- `data_definition.cpp:467`. -/
def isModifierOrProg (c : Char) : Bool := c == 'P' || c == 'L' || c == 'S' || c == 'E'

/-- `data_definition.cpp:480-516` `parse_modifier_num_or_expr`; called with a non-empty rest. -/
def modifierValue (s : State α) : Except Crash (Option (Src α) × State α) :=
  match s.rest.headD '\x00' with
  | c =>
    if isNumberChar c then
      let (v, s) := parseNumber s
      .ok (v.map .num, s)
    else if c == '&' then do
      let (e, s) ← moveNext s
      .ok (some (.expr e), s)
    else if c == ' ' then
      match s.nominal with
      | none => .error .noNominal
      | some (.exprs [.inl e]) => .ok (some (.expr e), { s with rest := s.rest.tail })
      | some _ => .ok (none, { s with rest := s.rest.tail }.diag 3)
    else .ok (none, s)

/-- `data_definition.cpp:518-537` `assign_expr_to_modifier`. -/
def assign (r : Result α) (c : Char) (v : Option (Src α)) : Result α :=
  match c with
  | 'P' => { r with program := v }
  | 'L' => { r with length := v }
  | 'S' => { r with scale := v }
  | 'E' => { r with exponent := v }
  | _ => r

/-- `data_definition.cpp:576-583`: the modifiers that may still follow. -/
def afterModifier (remaining : Text) (c : Char) : Text := (remaining.dropWhile (· != c)).tail

/-- `data_definition.cpp:573-584`: the end of `parse_modifier`. -/
def finishModifier (c : Char) (s : State α) : Except Crash (State α) := do
  let (v, s) ← modifierValue s
  let s := if s.remaining.contains c then { s with remaining := afterModifier s.remaining c } else s.diag 4
  .ok { s with res := assign s.res c v }

/-- `data_definition.cpp:541-585` `parse_modifier`, the letter `c` in front of `s.rest`. -/
def parseModifier (c : Char) (s : State α) : Except Crash (State α) :=
  match s.rest with
  | [] => .ok (s.diag 3)
  | '.' :: r =>
    let s := { s with rest := r }
    let s := if c == 'L' then { s with res := { s.res with bit := true } } else s.diag 5
    if r.isEmpty then .ok (s.diag 3) else finishModifier c s
  | _ => finishModifier c s

/-- The characters the loop of `parse` skips, `data_definition.cpp:624-633`. -/
def isInvalid (c : Char) : Bool := !isModifierOrProg c && c != ' '

/-- The loop of `parse`, `data_definition.cpp:609-635`. -/
def parseLoop : Nat → State α → Except Crash (State α)
  | 0, s => .ok s
  | n + 1, s =>
    match s.rest with
    | [] => .ok s
    | c :: r =>
      if isModifierOrProg c then do
        let s ← parseModifier c { s with rest := r }
        parseLoop n s
      else if c == ' ' then .ok { s with rest := r, nominal := none, res := { s.res with nominal := s.nominal } }
      else parseLoop n ({ s with rest := s.rest.dropWhile isInvalid }.diag 6)

/-- `data_definition.cpp:600-608`: the type extension. -/
def parseExtension (s : State α) : State α :=
  match s.rest with
  | c :: r => if isTypeExtension c then { s with rest := r, res := { s.res with ext := c } } else s
  | [] => s

/-- `data_definition.cpp:590-596`: the type. -/
def parseType (s : State α) : State α :=
  { s with rest := s.rest.tail, res := { s.res with type := s.rest.headD '\x00' } }

/-- `data_definition.cpp:587-638` `parse`, with the constructor, `371-383`, which turns the format to upper case (ASCII;
the locale is "C"). -/
def parse (format : Text) (exprs : List α) (nominal : Option (Nom α)) : Except Crash (Result α) := do
  let s ← parseDupl { rest := format.map Char.toUpper, exprs, nominal }
  let s := parseType s
  let s ← parseLoop 5 (parseExtension s)
  .ok s.res

end Verif.DataDef.Parsing
