import Verif.DataDef.NominalSpec
import Verif.DataDef.Model

/-
  How many bits the operands of DC and DS occupy, where they are placed, and which modifiers are permitted, after the
  HLASM Language Reference.  Nothing here refers to the functions of the model, only to its data.
-/

namespace Verif.DataDef.Spec

open Verif.DataDef (Text Operand Nominal Instr Arg Definition)

/-- The implied length in bytes of the types for which it does not depend on the value. -/
def implied : Char → Char → Option Nat
  | 'H', '\x00' => some 2
  | 'F', '\x00' => some 4
  | 'F', 'D' => some 8
  | 'A', '\x00' => some 4
  | 'A', 'D' => some 8
  | 'Y', '\x00' => some 2
  | 'S', '\x00' => some 2
  | 'S', 'Y' => some 3
  | 'R', '\x00' | 'V', '\x00' | 'Q', '\x00' | 'J', '\x00' => some 4
  | 'R', 'D' | 'V', 'D' | 'Q', 'D' | 'J', 'D' => some 8
  | 'Q', 'Y' => some 3
  | 'E', _ => some 4
  | 'D', _ => some 8
  | 'L', _ => some 16
  | _, _ => none

/-- The boundary in bytes on which an operand without length modifier begins. -/
def boundary : Char → Char → Nat
  | 'H', _ | 'Y', _ | 'S', _ | 'Q', 'Y' => 2
  | 'F', 'D' | 'A', 'D' | 'R', 'D' | 'V', 'D' | 'J', 'D' => 8
  | 'L', 'Q' | 'Q', 'D' => 16
  | 'F', _ | 'A', _ | 'R', _ | 'V', _ | 'Q', _ | 'J', _ | 'E', _ => 4
  | 'D', _ | 'L', _ => 8
  | _, _ => 1

def nonBlanks (v : Text) : Nat := (v.filter fun c => c ≠ ' ').length
def digits (v : Text) : Nat := (v.filter fun c => decide ('0' ≤ c) && decide (c ≤ '9')).length

/-- The bytes a value of a type occupies when there is no length modifier: eight binary or two hexadecimal digits go
into a byte, two packed digits go into a byte together with a sign of half a byte, one zoned digit into a byte. -/
def valueBytes (type ext : Char) (v : Text) : Nat :=
  match implied type ext with
  | some n => n
  | none =>
    match type with
    | 'B' => (nonBlanks v + 7) / 8
    | 'X' => (nonBlanks v + 1) / 2
    | 'P' => digits v / 2 + 1
    | 'Z' => digits v
    | 'C' => if ext = 'U' then 2 * v.length else v.length
    | 'G' => (v.filter fun c => c ≠ '<' ∧ c ≠ '>').length
    | _ => 0

/-- The bytes an operand without value and without length modifier reserves. -/
def absentBytes (type ext : Char) : Nat :=
  match implied type ext with
  | some n => n
  | none => if type = 'G' ∨ (type = 'C' ∧ ext = 'U') then 2 else 1

/-- The values of a text; character constants have only one. -/
def textValues (type : Char) (s : Text) : List Text := if type = 'C' ∨ type = 'G' then [s] else values s

/-- The bytes each value of the operand occupies when there is no length modifier. -/
def impliedBytes (op : Operand) : List Nat :=
  if op.nominal.present then
    match op.nominal.value with
    | .str s => (textValues op.type s).map (valueBytes op.type op.ext)
    | .exprs l => l.map fun _ => valueBytes op.type op.ext []
  else [absentBytes op.type op.ext]

/-- The bits each value of the operand occupies. -/
def valueBits (op : Operand) : List Nat :=
  (impliedBytes op).map fun n =>
    if op.length.present then (if op.length.bit then op.length.value.toNat else 8 * op.length.value.toNat)
    else 8 * n

/-- How often the values are repeated. -/
def times (op : Operand) : Nat := if op.dupl.present then op.dupl.value.toNat else 1

/-- The bits the operand occupies. -/
def bits (op : Operand) : Nat := times op * (valueBits op).sum

/-- `q` is the first multiple of `m` that is not below `p`. -/
def IsNext (p m q : Nat) : Prop := m ∣ q ∧ p ≤ q ∧ q < p + m

/-- The boundary the operand must begin on, in bits. -/
def boundaryBits (op : Operand) : Nat :=
  if op.length.present then (if op.length.bit then 1 else 8) else 8 * boundary op.type op.ext

/-- The operands, placed one after another from the bit address `p` on, end at the bit address `q`. -/
inductive Placed : Nat → List Operand → Nat → Prop
  | nil (p : Nat) : Placed p [] p
  | cons {p q e : Nat} {op : Operand} {r : List Operand} :
      IsNext p (boundaryBits op) q → Placed (q + bits op) r e → Placed p (op :: r) e

/-- The bytes the first value of an operand occupies. -/
def firstBytes (op : Operand) : Nat := ((valueBits op).headD 0 + 7) / 8

/-! ### scale and integer attributes -/

/-- The digits of a value after its decimal point. -/
def fraction (v : Text) : Nat := digits (v.dropWhile (· ≠ '.'))

/-- The scale of an operand: its scale modifier; without one, the number of fraction digits of the first value of a
decimal constant. -/
def scale (d : Definition) : Int :=
  match d.scale with
  | .abs v => v
  | _ =>
    match d.type, d.nominal with
    | 'P', some (.str s) | 'Z', some (.str s) => fraction ((values s).headD [])
    | _, _ => 0

/-- The number of digits left of the assumed decimal point, for a constant of a given length and scale: bits for the
binary types, decimal digits for packed and zoned, hexadecimal digits for hexadecimal floating point, of which an
extended constant loses two to its second characteristic. -/
def integer (type ext : Char) (length : Nat) (scale : Int) : Int :=
  match type with
  | 'H' | 'F' => 8 * length - scale - 1
  | 'P' => 2 * length - scale - 1
  | 'Z' => length - scale
  | 'E' | 'D' | 'L' =>
    if ext = 'D' ∨ ext = 'B' then 0
    else 2 * (length - 1) - scale - (if length > 8 then 2 else 0)
  | _ => 0

/-! ### permitted modifiers -/

/-- The lengths a modifier may give to an operand of a type: for bytes and for bits, in DC and in DS.  `rel` says
whether some value is relocatable. -/
def LengthOk (i : Instr) (type ext : Char) (bit rel : Bool) (l : Int) : Prop :=
  match type, ext, bit with
  | 'B', _, false => 1 ≤ l ∧ l ≤ 256
  | 'B', _, true => 1 ≤ l ∧ l ≤ 2048
  | 'C', 'U', false => 1 ≤ l ∧ l ≤ 256 ∧ l % 2 = 0
  | 'C', 'U', true => False
  | 'C', _, false => 1 ≤ l ∧ l ≤ (if i = .DS then 65535 else 256)
  | 'C', _, true => 1 ≤ l ∧ l ≤ (if i = .DS then 524280 else 2048)
  | 'X', _, false => 1 ≤ l ∧ l ≤ (if i = .DS then 65535 else 256)
  | 'X', _, true => 1 ≤ l ∧ l ≤ (if i = .DS then 524280 else 2048)
  | 'G', _, false => 1 ≤ l ∧ l ≤ (if i = .DS then 65534 else 256) ∧ l % 2 = 0
  | 'G', _, true => False
  | 'H', _, false | 'F', _, false => 1 ≤ l ∧ l ≤ 8
  | 'H', _, true | 'F', _, true => 1 ≤ l ∧ l ≤ 64
  | 'P', _, false | 'Z', _, false => 1 ≤ l ∧ l ≤ 16
  | 'P', _, true | 'Z', _, true => 1 ≤ l ∧ l ≤ 128
  | 'A', 'D', false => if rel then 2 ≤ l ∧ l ≤ 8 else 1 ≤ l ∧ l ≤ 8
  | 'A', _, false => if rel then 2 ≤ l ∧ l ≤ 4 else 1 ≤ l ∧ l ≤ 8
  | 'A', _, true => rel = false ∧ 1 ≤ l ∧ l ≤ 128
  | 'Y', _, false => if rel then l = 2 else 1 ≤ l ∧ l ≤ 2
  | 'Y', _, true => rel = false ∧ 1 ≤ l ∧ l ≤ 16
  | 'S', 'Y', false => l = 3
  | 'S', _, false => l = 2
  | 'R', 'D', false | 'V', 'D', false => l = 3 ∨ l = 4 ∨ l = 8
  | 'R', _, false | 'V', _, false => l = 3 ∨ l = 4
  | 'Q', 'D', false => 1 ≤ l ∧ l ≤ 8
  | 'Q', 'Y', false => l = 3
  | 'Q', _, false => 1 ≤ l ∧ l ≤ 4
  | 'J', _, false => 2 ≤ l ∧ l ≤ 4 ∨ l = 8
  | 'E', 'D', false | 'E', 'B', false => l = 4
  | 'E', 'D', true | 'E', 'B', true => l = 32
  | 'D', 'D', false | 'D', 'B', false => l = 8
  | 'D', 'D', true | 'D', 'B', true => l = 64
  | 'L', 'D', false | 'L', 'B', false => l = 16
  | 'L', 'D', true | 'L', 'B', true => l = 128
  | 'E', _, false | 'D', _, false => 1 ≤ l ∧ l ≤ 8
  | 'E', 'H', true | 'D', 'H', true => 12 ≤ l ∧ l ≤ 64
  | 'E', _, true | 'D', _, true => 1 ≤ l ∧ l ≤ 64
  | 'L', _, false => 1 ≤ l ∧ l ≤ 16
  | 'L', 'H', true | 'L', 'Q', true => 12 ≤ l ∧ l ≤ 128
  | 'L', _, true => 1 ≤ l ∧ l ≤ 128
  | _, _, _ => False

/-- The scale modifiers of a type; the binary and decimal floating-point types ignore them. -/
def ScaleOk (type ext : Char) (s : Int) : Prop :=
  match type, ext with
  | 'H', _ | 'F', _ => -187 ≤ s ∧ s ≤ 346
  | _, 'D' | _, 'B' => type = 'E' ∨ type = 'D' ∨ type = 'L'
  | 'E', _ => 0 ≤ s ∧ s ≤ 5
  | 'D', _ => 0 ≤ s ∧ s ≤ 13
  | 'L', _ => 0 ≤ s ∧ s ≤ 27
  | _, _ => False

/-- The exponent modifiers of a type. -/
def ExponentOk (type : Char) (e : Int) : Prop :=
  type ∈ ['H', 'F', 'E', 'D', 'L'] ∧ -85 ≤ e ∧ e ≤ 75

/-- Whether a value given in parentheses is relocatable. -/
def relocatable (d : Definition) : Bool :=
  match d.nominal with
  | some (.exprs l) => l.any fun v => match v with
    | .expr _ kind ignored => !ignored && kind != .abs
    | .address .. => false
  | _ => false

/-- An absent modifier, or one with an absolute value that is permitted. -/
def Permitted (a : Arg) (P : Int → Prop) : Prop := a = .none ∨ ∃ v, a = .abs v ∧ P v

/-- All modifiers of an operand are permitted. -/
structure ModifiersOk (i : Instr) (d : Definition) : Prop where
  dupl : Permitted d.dupl fun v => 0 ≤ v
  length : Permitted d.length (LengthOk i d.type d.ext d.bit (relocatable d))
  scale : Permitted d.scale (ScaleOk d.type d.ext)
  exponent : Permitted d.exponent (ExponentOk d.type)

/-! ### permitted types and values -/

/-- The types, each with the extensions it has (`'\x00'`: none). -/
def extensions : Char → List Char
  | 'B' | 'G' | 'X' | 'H' | 'P' | 'Z' | 'Y' => ['\x00']
  | 'C' => ['\x00', 'A', 'E', 'U']
  | 'F' | 'A' | 'R' | 'V' | 'J' => ['\x00', 'D']
  | 'S' => ['\x00', 'Y']
  | 'Q' => ['\x00', 'D', 'Y']
  | 'E' | 'D' => ['\x00', 'H', 'D', 'B']
  | 'L' => ['\x00', 'H', 'Q', 'D', 'B']
  | _ => []

/-- What may stand between apostrophes. -/
def TextOk (type ext : Char) (s : Text) : Prop :=
  match type with
  | 'B' => ∀ v ∈ values s, BitString BinDigit v
  | 'X' => ∀ v ∈ values s, BitString HexDigit v
  | 'H' | 'F' => ∀ v ∈ values s, FixedValue v
  | 'P' | 'Z' => ∀ v ∈ values s, DecimalValue v
  | 'E' | 'D' | 'L' => ∀ v ∈ values s, FloatValue ext v
  | 'C' | 'G' => True
  | _ => False

/-- A displacement or a value of type S, and of type SY. -/
def Displacement (ext : Char) (v : Int) : Prop :=
  if ext = 'Y' then -524288 ≤ v ∧ v ≤ 524287 else 0 ≤ v ∧ v ≤ 4095

/-- A value in parentheses of type S or SY: a displacement with a base register, or an expression; an ignored value
is one that was diagnosed before. -/
def AddressOk (ext : Char) : Verif.DataDef.Value → Prop
  | .address base displacement ignored =>
    ignored = true ∨ (Displacement ext displacement.value ∧ 0 ≤ base.value ∧ base.value ≤ 15)
  | .expr v _ ignored => ignored = true ∨ Displacement ext v

/-- What may stand in parentheses. -/
def ExprsOk (type ext : Char) (l : List Verif.DataDef.Value) : Prop :=
  match type with
  | 'S' => ∀ v ∈ l, AddressOk ext v
  | 'A' | 'Y' | 'R' | 'V' | 'Q' | 'J' => ∀ v ∈ l, ∃ x kind ignored, v = .expr x kind ignored
  | _ => False

/-- The nominal value is permitted.  It may be left out in DS, and in DC with a duplication factor of zero. -/
def NominalOk (i : Instr) (d : Definition) : Prop :=
  match d.nominal with
  | none => i = .DS ∨ d.dupl = .abs 0
  | some (.str s) => TextOk d.type d.ext s
  | some (.exprs l) => ExprsOk d.type d.ext l

/-- An operand of DC or DS that is permitted. -/
structure WellFormed (i : Instr) (d : Definition) : Prop where
  known : d.ext ∈ extensions d.type
  modifiers : ModifiersOk i d
  nominal : NominalOk i d
  size : bits d.operand < 2147483648 * 8

/-- An operand the checks of which do what they should: no expression waits for a symbol; duplication factor, scale and
exponent have absolute values of 32, 16 and 32 bits; a bit length has a value; an address constant with a length modifier
has a nominal value; and 64 bits suffice to count the bits of its values and of the whole operand. -/
structure Ordinary (d : Definition) : Prop where
  settled : d.dupl ≠ .pending ∧ d.length ≠ .pending ∧ d.scale ≠ .pending ∧ d.exponent ≠ .pending
  absolute : d.dupl ≠ .other ∧ d.scale ≠ .other ∧ d.exponent ≠ .other
  dupl : ∀ v, d.dupl = .abs v → v < 2147483648
  scale : ∀ v, d.scale = .abs v → -32768 ≤ v ∧ v ≤ 32767
  bit : d.bit = true → d.length ≠ .none
  address : d.type = 'A' ∨ d.type = 'Y' → d.length ≠ .none → d.nominal ≠ none
  size : (valueBits d.operand).sum < 2 ^ 64 ∧ bits d.operand < 2 ^ 64

/-- The operands that are written; an operand that is left empty is `none`. -/
def written (ops : List (Option Definition)) : List Definition := ops.filterMap id

end Verif.DataDef.Spec
