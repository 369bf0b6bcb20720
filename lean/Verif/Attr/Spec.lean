import Verif.Attr.Model
/-!
What attribute references mean, independently of the functions of the model: which symbol the value of a variable names, which
variables can be read with which subscripts, what an operation code is.
-/
namespace Verif.Attr.Spec

open Context (Val Data)

/-- The characters of symbols. -/
def symChars : Bytes := "ABCDEFGHIJKLMNOPQRSTUVWXYZabcdefghijklmnopqrstuvwxyz0123456789_@$#".toUTF8.toList

/-- The decimal digits. -/
def digits : Bytes := "0123456789".toUTF8.toList

/-- The characters that end a symbol in an expression. -/
def operators : Bytes := "+-*/()".toUTF8.toList

/-- A symbol (of any length): its characters are those of symbols and the first one is no digit. -/
def IsSymbol (s : Bytes) : Prop := ∃ c t, s = c :: t ∧ c ∉ digits ∧ ∀ x ∈ s, x ∈ symChars

/-- Qualifiers, each followed by a period. -/
def IsQualifiers (p : Bytes) : Prop := ∃ qs : List Bytes, p = qs.flatMap (· ++ [46]) ∧ ∀ q ∈ qs, ∀ x ∈ q, x ∈ symChars

/-- A text names a symbol: it is an expression, possibly in parentheses, that starts with the symbol, possibly qualified. -/
def Names (text sym : Bytes) : Prop :=
  ∃ (n : Nat) (q rest : Bytes), text = List.replicate n 40 ++ (q ++ sym ++ rest) ++ List.replicate n 41 ∧ IsQualifiers q ∧ IsSymbol sym ∧
    (rest = [] ∨ ∃ d r, rest = d :: r ∧ d ∈ operators)

/-- Nothing but parentheses around nothing. -/
def Hollow (text : Bytes) : Prop := ∃ n : Nat, text = List.replicate n 40 ++ List.replicate n 41

/-- A variable can be read with these subscripts. -/
def Readable (v : Var) (sub : List Int) : Prop :=
  match v with
  | .set s => (s.scalar = true ∧ sub = []) ∨ (s.scalar = false ∧ ∃ i, sub = [i] ∧ 1 ≤ i)
  | .param (.param _) => ∀ i ∈ sub, 1 ≤ i
  | .param (.sys _) => sub = [] ∨ ∃ i rest, sub = i :: rest ∧ 0 ≤ i ∧ ∀ j ∈ rest, 1 ≤ j

/-- What a name means as operation code: OPSYN comes first, then macros, then instructions. -/
def operation (E : Env) (name : Bytes) : Option Meaning :=
  match E.mnemo name with
  | some m => m
  | none => if E.macros name then some .macro else (E.instrs name).map .instr

/-- A text of one character. -/
def ch (c : Char) : Bytes := [UInt8.ofNat c.toNat]

/-- The letter of the attribute O' for an operation code: `M`acro, `A`ssembler instruction, `E`xtended mnemonic, `O` machine
instruction, `U`ndefined. -/
def opLetter : Option Meaning → Bytes
  | some .macro => ch 'M'
  | some (.instr .assembler) => ch 'A'
  | some (.instr .ca) => ch 'A'
  | some (.instr .mnemonic) => ch 'E'
  | some (.instr .machine) => ch 'O'
  | none => ch 'U'

/-- What a reference is worth when there is nothing it could refer to: type and operation code `U`, length 1, everything else 0. -/
def nothing : Kind → Val
  | .T => .c (ch 'U')
  | .O => .c (ch 'U')
  | .L => .a 1
  | .D | .N | .S | .K | .I => .a 0

/-- The first value of a list, or of its first value if that is a list in turn, and so on: what is written before the first comma, without
the parentheses that open there. A list of no values has none. -/
inductive First : Data → Data → Prop where
  | here (d : Data) (h : ∀ l, d ≠ .comp l) : First d d
  | inside (d x : Data) (rest : List Data) (h : First d x) : First (.comp (d :: rest)) x

/-- The characters a value consists of. -/
def chars : Val → Bytes
  | .a n => Ca.intToString n
  | .b true => ch '1'
  | .b false => ch '0'
  | .c t => t

/-- The number a text of decimal digits stands for. -/
def decimal (t : Bytes) : Nat := t.foldl (fun a c => a * 10 + (c.toNat - 48)) 0

/-- Self-defining terms: a decimal number of at most ten digits below 2^31, up to eight hexadecimal digits, up to 32 binary digits or up
to four characters. -/
inductive Term : Bytes → Prop where
  | dec (t : Bytes) (h0 : t ≠ []) (hd : ∀ c ∈ t, c ∈ digits) (hl : t.length ≤ 10) (hv : decimal t ≤ 2147483647) : Term t
  | hex (c : UInt8) (t : Bytes) (hc : c = 88 ∨ c = 120) (h0 : t ≠ []) (hd : ∀ x ∈ t, x ∈ "0123456789ABCDEFabcdef".toUTF8.toList)
      (hl : t.length ≤ 8) : Term (c :: 39 :: (t ++ [39]))
  | bin (c : UInt8) (t : Bytes) (hc : c = 66 ∨ c = 98) (h0 : t ≠ []) (hd : ∀ x ∈ t, x ∈ "01".toUTF8.toList)
      (hl : t.length ≤ 32) : Term (c :: 39 :: (t ++ [39]))
  | chr (c : UInt8) (t : Bytes) (hc : c = 67 ∨ c = 99) (h0 : t ≠ []) (hl : t.length ≤ 4) : Term (c :: 39 :: (t ++ [39]))

/-- The text is a self-defining term, possibly in parentheses. -/
def IsTerm (text : Bytes) : Prop := ∃ (n : Nat) (t : Bytes), text = List.replicate n 40 ++ t ++ List.replicate n 41 ∧ Term t

/-- The variable is an element of an array of SETC symbols. -/
def IsArray : Var → Prop
  | .set s => s.scalar = false
  | .param _ => False

/-- The value is a list of values. -/
def IsList (v : Var) (sub : List Int) : Prop :=
  match v with
  | .set _ => False
  | .param p => ∃ l, p.data (sub.map toSize) = .comp l

end Verif.Attr.Spec
