import Verif.DataDef.Parse

/-
  How an operand of DC and DS is written.  Nothing here refers to the parser.
-/

namespace Verif.DataDef.Parsing.Spec

open Verif.DataDef (Text)
open Verif.DataDef.Parsing (Nom Src Result)

/-- A duplication factor or the value of a modifier: a number, or an expression in parentheses. -/
inductive Val (α : Type)
  | num (t : Text)
  | expr (e : α)

/-- The value of a string of decimal digits. -/
def natural (ds : Text) : Nat := ds.foldl (fun n c => 10 * n + (c.toNat - 48)) 0

/-- `t` is a number of value `v`: digits, perhaps after a minus sign, that fit into 32 bits. -/
def Numeral (t : Text) (v : Int) : Prop :=
  ∃ ds : Text, ds ≠ [] ∧ (∀ c ∈ ds, '0' ≤ c ∧ c ≤ '9') ∧
    ((t = ds ∧ v = natural ds) ∨ (t = '-' :: ds ∧ v = - natural ds)) ∧ -2147483648 ≤ v ∧ v ≤ 2147483647

variable {α : Type}

/-- A modifier is read as this. -/
inductive Reads : Val α → Src α → Prop
  | num {t : Text} {v : Int} : Numeral t v → Reads (.num t) (.num v)
  | expr (e : α) : Reads (.expr e) (.expr e)

/-- A modifier: its letter, whether it is a bit length, its value. -/
structure Modifier (α : Type) where
  letter : Char
  bit : Bool
  value : Val α

/-- The text of a value, every expression replaced by `&`. -/
def Val.text : Val α → Text
  | .num t => t
  | .expr _ => ['&']

/-- The expressions in a value. -/
def Val.exprs : Val α → List α
  | .num _ => []
  | .expr e => [e]

/-- The letter of a modifier, with the point of a bit length. -/
def Modifier.head (m : Modifier α) : Text := m.letter :: if m.bit then ['.'] else []

/-- What the grammar hands over of modifiers and nominal value: the text, the expressions and the nominal value.  If
nothing follows a modifier in parentheses, the grammar takes its value for the nominal value. -/
def render : List (Modifier α) → Option (Nom α) → Text × List α × Option (Nom α)
  | [], none => ([], [], none)
  | [], some n => ([' '], [], some n)
  | m :: r, n =>
    match m.value, r, n with
    | .expr e, [], none => (m.head ++ [' '], [], some (.exprs [.inl e]))
    | v, r, n => (m.head ++ v.text ++ (render r n).1, v.exprs ++ (render r n).2.1, (render r n).2.2)

/-- An operand as it is written. -/
structure Written (α : Type) where
  dupl : Option (Val α)
  type : Char
  ext : Option Char
  program : Option (Val α)
  length : Option (Val α)
  bit : Bool
  scale : Option (Val α)
  exponent : Option (Val α)
  nominal : Option (Nom α)

/-- The modifiers, in the order in which they must stand. -/
def Written.modifiers (w : Written α) : List (Modifier α) :=
  (w.program.map fun v => ⟨'P', false, v⟩).toList ++ (w.length.map fun v => ⟨'L', w.bit, v⟩).toList
    ++ (w.scale.map fun v => ⟨'S', false, v⟩).toList ++ (w.exponent.map fun v => ⟨'E', false, v⟩).toList

/-- The text of the operand. -/
def Written.text (w : Written α) : Text :=
  (w.dupl.map Val.text).getD [] ++ w.type :: (w.ext.toList ++ (render w.modifiers w.nominal).1)

/-- The expressions in front of the nominal value. -/
def Written.exprs (w : Written α) : List α :=
  (w.dupl.map Val.exprs).getD [] ++ (render w.modifiers w.nominal).2.1

/-- What is handed over as the nominal value. -/
def Written.handed (w : Written α) : Option (Nom α) := (render w.modifiers w.nominal).2.2

/-- An optional part is read as this. -/
def ReadsOpt : Option (Val α) → Option (Src α) → Prop
  | none, none => True
  | some v, some s => Reads v s
  | _, _ => False

/-- The operand is read as exactly its parts, without a diagnostic. -/
structure ReadAs (w : Written α) (r : Result α) : Prop where
  dupl : ReadsOpt w.dupl (some r.dupl) ∨ (w.dupl = none ∧ r.dupl = .num 1)
  type : r.type = w.type
  ext : r.ext = w.ext.getD '\x00'
  program : ReadsOpt w.program r.program
  length : ReadsOpt w.length r.length
  bit : r.bit = (w.bit && w.length.isSome)
  scale : ReadsOpt w.scale r.scale
  exponent : ReadsOpt w.exponent r.exponent
  nominal : r.nominal = w.nominal
  diags : r.diags = []

/-- A value that can be read: a number that fits, or an expression. -/
def Readable (v : Val α) : Prop := ∃ s, Reads v s

/-- A well-formed operand: the type is an upper-case letter, the extension one of the letters there are, and the numbers
fit into 32 bits. -/
structure Written.Ok (w : Written α) : Prop where
  type : 'A' ≤ w.type ∧ w.type ≤ 'Z'
  ext : ∀ c, w.ext = some c → c ∈ ['A', 'E', 'U', 'H', 'B', 'D', 'Q', 'Y']
  dupl : ∀ v, w.dupl = some v → Readable v
  program : ∀ v, w.program = some v → Readable v
  length : ∀ v, w.length = some v → Readable v
  scale : ∀ v, w.scale = some v → Readable v
  exponent : ∀ v, w.exponent = some v → Readable v

end Verif.DataDef.Parsing.Spec

namespace Verif.DataDef.Parsing

open Verif.DataDef (Text)

variable {α : Type}

/-- What the grammar hands over: an expression for every `&`, a nominal value exactly if there is a blank, and the blank at
the end; no operand ends with `&`. -/
structure Fits (rest : Text) (exprs : List α) (nominal : Option (Nom α)) : Prop where
  count : rest.count '&' = exprs.length
  blank : ' ' ∈ rest ↔ nominal.isSome
  last : ' ' ∉ rest.dropLast
  amp : rest.getLast? ≠ some '&'

/-- A modifier without a value: its letter, perhaps with a point, stands directly before the letter of another one. -/
def Bare (t : Text) : Prop :=
  ∃ a c x d b, t = a ++ c :: (x ++ d :: b) ∧ c ∈ ['P', 'L', 'S', 'E'] ∧ d ∈ ['P', 'L', 'S', 'E'] ∧ (x = [] ∨ x = ['.'])

end Verif.DataDef.Parsing
