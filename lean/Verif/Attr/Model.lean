import Verif.Context.Vars
import Verif.Context.MacroCall
import Verif.Ord.Symbol
import Verif.Ca.Func
/-!
Attribute references in conditional assembly: `L'SYM`, `T'&VAR(2)` and so on.

Modelled: `/repo/parser_library/src/expressions/conditional_assembly/terms/ca_symbol_attribute.cpp` (all but the resolution of the
tree), `ca_constant::self_defining_term` (`ca_constant.cpp` 46-88), `hlasm_context.cpp` 537-663 (`get_attribute_value_ca`,
`get_type_attr`, `get_opcode_attr`), `context_manager.cpp` 34-158 (reading variable symbols), `count` and `number` of
`set_symbol.h`, `macro_param.cpp` and `system_variable.cpp`. The name of the variable and its subscripts are evaluated already.
-/
namespace Verif.Attr

open Context (SetSym Val Data)
open Context.Mac (Inst)
open Ord (Sym)

/-- `data_attr_kind` without `UNKNOWN` (`symbol_attributes.h` 25-36). -/
inductive Kind where
  | D | O | N | S | K | I | L | T
deriving DecidableEq, Repr

/-- `symbol_attributes::requires_ordinary_symbol` (`symbol_attributes.cpp` 74-78). -/
def Kind.requiresOrdinary (k : Kind) : Bool := k == .D || k == .L || k == .O || k == .S || k == .I

/-- `symbol_attributes::is_ordinary_attribute` (`symbol_attributes.cpp` 80-84). -/
def Kind.isOrdinary (k : Kind) : Bool := k == .L || k == .I || k == .S || k == .T

/-- `symbol_attributes::default_ca_value` (`symbol_attributes.cpp` 99-111). -/
def Kind.default : Kind → Val
  | .T => .c [85]
  | .O => .c [85]
  | .L => .a 1
  | _ => .a 0

/-- The attributes of `Ord.Sym`. -/
def Kind.ord : Kind → Ord.AttrKind
  | .T => .T
  | .L => .L
  | .S => .S
  | .I => .I
  | _ => .other

/-- The diagnostics these functions add. -/
inductive Diag where
  | W013 | E066 | E065 | E010 | E020 | E013 | E012
deriving DecidableEq, Repr

/-- How a call ends: undefined behaviour, or a value and the diagnostics added. -/
inductive Out (α : Type) where
  | ub
  | val (v : α) (diags : List Diag)
deriving DecidableEq, Repr

/-- The kinds of instructions in `instruction_map_` (`hlasm_context.h`). -/
inductive InstrKind where
  | assembler | ca | mnemonic | machine
deriving DecidableEq, Repr

/-- What OPSYN makes of a name: a macro or an instruction (`opcode_t`). -/
inductive Meaning where
  | macro
  | instr (k : InstrKind)
deriving DecidableEq, Repr

/-- A variable symbol (`variable.h`): a SET symbol or a parameter (system variables among them). -/
inductive Var where
  | set (s : SetSym)
  | param (p : Inst)

/-- What attribute references read: the ordinary symbols defined (`get_symbol`) and those found by looking ahead
(`get_symbol_reference`), the macros, the instructions, the members of the libraries and the variable symbols in scope. The names of
ordinary symbols are in upper case (`id_storage::add`). `mnemo` is what OPSYN has made of names (`opcode_mnemo_`, `some none` for a
deleted one; `Context/Opsyn.lean`): attribute references do not read it. -/
structure Env where
  symbols : Bytes → Option Sym
  refs : Bytes → Option Sym
  macros : Bytes → Bool
  instrs : Bytes → Option InstrKind
  library : Bytes → Bool
  vars : Bytes → Option Var
  mnemo : Bytes → Option (Option Meaning) := fun _ => none

/-- `lexer::ord_char` (`lexer.cpp` 602-605): letters, digits, `_`, `@`, `$`, `#`. -/
def ordChar (c : UInt8) : Bool :=
  (65 ≤ c && c ≤ 90) || (97 ≤ c && c ≤ 122) || (48 ≤ c && c ≤ 57) || c == 95 || c == 64 || c == 36 || c == 35

/-- `isdigit`. -/
def isDigit (c : UInt8) : Bool := 48 ≤ c && c ≤ 57

/-- `to_upper` in `id_storage::add`. -/
def upper (s : Bytes) : Bytes := s.map fun c => if 97 ≤ c && c ≤ 122 then c - 32 else c

/-- `delims` (`ca_symbol_attribute.cpp` 146): `+-*/()`. -/
def delims : Bytes := [43, 45, 42, 47, 40, 41]

/-- The loop over parentheses (`ca_symbol_attribute.cpp` 149-150). -/
def parens (e : Bytes) (start : Nat) : Nat → Nat
  | 0 => start
  | fuel + 1 => if e[start]? = some 40 ∧ e[e.length - 1 - start]? = some 41 then parens e (start + 1) fuel else start

/-- The loop over prefixes (`ca_symbol_attribute.cpp` 154-160): `rest` is the text from index `i` on. -/
def prefixes (start i : Nat) : Bytes → Nat
  | [] => start
  | c :: rest =>
    if c = 46 ∧ rest ≠ [] then prefixes (i + 1) (i + 1) rest
    else if ordChar c then prefixes start (i + 1) rest
    else start

/-- The loop that looks for the symbol (`ca_symbol_attribute.cpp` 166-172), from an index on. -/
def cutSymbol : Bytes → Bytes
  | [] => []
  | c :: rest => if delims.contains c then [] else if ordChar c then c :: cutSymbol rest else c :: rest

/-- `try_extract_leading_symbol` (`ca_symbol_attribute.cpp` 144-173). `none`: `front()` of an empty string. -/
def extract (expr : Bytes) : Option Bytes :=
  let start := parens expr 0 expr.length
  let expr := expr.take (expr.length - start)
  let start := prefixes start start (expr.drop start)
  match expr.drop start with
  | [] => none
  | c :: rest => some (if isDigit c then c :: rest else cutSymbol (c :: rest))

/-- `self_defining_term` with a type (`ca_constant.cpp` 46-69), for values that are not empty; none for a diagnostic. -/
def typedTerm (type : UInt8) (value : Bytes) : Option Ca.A :=
  if value = [] then none
  else if type = 66 ∨ type = 98 then Ca.B2A value
  else if type = 67 ∨ type = 99 then Ca.C2A value
  else if type = 68 ∨ type = 100 then Ca.D2A value
  else if type = 88 ∨ type = 120 then Ca.X2A value
  else none

/-- `try_self_defining_term` (`ca_constant.cpp` 71-88). -/
def selfDefining (value : Bytes) : Option Ca.A :=
  if value.length ≥ 3 ∧ value[1]? = some 39 ∧ value.getLast? = some 39 then
    typedTerm (value.headD 0) ((value.drop 2).dropLast)
  else typedTerm 68 value

/-- Bytes above 127 are no digits; `isdigit` of a negative `char` is not modelled. `try_get_symbol_name` (`context_manager.cpp` 99-109). -/
def symbolName (s : Bytes) : Option Bytes :=
  match s with
  | [] => none
  | c :: rest => if (c :: rest).length > 63 || isDigit c then none else if (c :: rest).all ordChar then some (upper (c :: rest)) else none

/-- The type attribute of a symbol as a character (`hlasm_context.cpp` 573-574, 629). -/
def typeChar (s : Sym) : Bytes := [Ca.e2a (UInt8.ofNat s.type.toNat)]

/-- `get_opcode_attr` (`hlasm_context.cpp` 634-663). -/
def opcodeAttr (E : Env) (name : Bytes) : Bytes :=
  if E.macros name then [77]
  else match E.instrs name with
    | some .assembler => [65]
    | some .ca => [65]
    | some .mnemonic => [69]
    | some .machine => [79]
    | none => [85]

/-- `get_ordsym_attr_value` and `retrieve_value` (`ca_symbol_attribute.cpp` 175-212, `hlasm_context.cpp` 562-586), for the attributes
L, I, S and T. -/
def ordAttr (E : Env) (k : Kind) (name : Bytes) : Out Val :=
  let sym := (E.symbols name).or (E.refs name)
  match k, sym with
  | .T, some s => .val (.c (typeChar s)) []
  | .T, none => .val (.c [85]) []
  | k, none => .val (.a k.ord.dflt) [.W013]
  | k, some s =>
    if (k = .S ∨ k = .I) ∧ s.si = false then .val (.a k.ord.dflt) [.E066]
    else if s.hasAttr k.ord = false then .val (.a k.ord.dflt) [.W013]
    else .val (.a (s.attr k.ord)) []

/-- `evaluate_ordsym` (`ca_symbol_attribute.cpp` 214-236). -/
def evalOrd (E : Env) (k : Kind) (name : Bytes) : Out Val :=
  if k.isOrdinary then ordAttr E k name
  else match k with
    | .D => .val (.a (if (E.symbols name).isSome then 1 else 0)) []
    | .O => .val (.c (if opcodeAttr E name = [85] ∧ E.library name then [83] else opcodeAttr E name)) []
    | k => .val k.default [.E066]

/-- `test_symbol_for_read` (`context_manager.cpp` 111-158): the diagnostic if it fails. -/
def testRead (v : Var) (sub : List Int) : Option Diag :=
  match v with
  | .set s =>
    if sub.length > 1 then some .E020
    else if (s.scalar ∧ sub.length = 1) ∨ (¬ s.scalar ∧ sub.length = 0) then some .E013
    else if ¬ s.scalar ∧ sub.headD 1 < 1 then some .E012
    else none
  | .param p =>
    match p, sub with
    | .sys _, 0 :: rest => if rest.any (· < 1) then some .E012 else none
    | _, sub => if sub.any (· < 1) then some .E012 else none

/-- `(size_t)` of a subscript. -/
def toSize (i : Int) : Nat := (i % 18446744073709551616).toNat

/-- `get_var_sym_value` (`context_manager.cpp` 34-89) of a variable that can be read. -/
def readVar (v : Var) (sub : List Int) : Val :=
  match v with
  | .set s => match sub with
    | [] => s.get
    | i :: _ => s.getAt (toSize (i - 1))
  | .param p => .c (p.data (sub.map toSize)).value

/-- The first component of a list, of its first component and so on (`hlasm_context.cpp` 610-611). -/
def firstOf : Data → Data
  | .comp (d :: _) => firstOf d
  | .comp [] => .dummy
  | d => d

/-- The text of a value that is a character value. -/
def textOf : Val → Bytes
  | .c v => v
  | _ => []

/-- The value `get_type_attr` looks at (`hlasm_context.cpp` 593-614); none for a SETA or SETB symbol. The subscript is used as the
index of the element, unlike in `readVar`. -/
def typeText (v : Var) (sub : List Int) : Option Bytes :=
  match v with
  | .set s =>
    if s.ty ≠ .C then none
    else match sub with
      | [] => some (textOf s.get)
      | i :: _ => some (textOf (s.getAt (toSize i)))
  | .param p => some (firstOf (p.data (sub.map toSize))).value

/-- `get_type_attr` (`hlasm_context.cpp` 588-632); none for undefined behaviour. -/
def typeAttr (E : Env) (v : Var) (sub : List Int) : Option Bytes :=
  match typeText v sub with
  | none => some [78]
  | some [] => some [79]
  | some value => (extract value).map fun s =>
    if (selfDefining s).isSome then [78]
    else match E.symbols (upper s) with
      | some y => typeChar y
      | none => [85]

/-- `evaluate_substituted` (`ca_symbol_attribute.cpp` 289-316), the variable being there. -/
def evalSubst (E : Env) (k : Kind) (v : Var) (sub : List Int) : Out Val :=
  match testRead v sub with
  | some d => .val k.default (d :: if k = .O ∨ k = .T then [] else [.E066])
  | none => match readVar v sub with
    | .c text => match extract text with
      | none => .ub
      | some s => match symbolName s with
        | none => .val k.default (if k = .O ∨ k = .T then [] else [.E065])
        | some name => evalOrd E k name
    | _ => .val k.default (if k = .O ∨ k = .T then [] else [.E066])

/-- `number` (`set_symbol.h` 114-117, `macro_param.cpp` 66-75, `system_variable.cpp` 43-52) as an `A_t`. -/
def Var.number (v : Var) (sub : List Int) : Int :=
  match v with
  | .set s => s.number
  | .param (.param d) => Context.toA ((Inst.param d).data (sub.map toSize)).number
  | .param (.sys d) => match sub with
    | [] => Context.toA d.number - 1
    | _ => Context.toA ((Inst.sys d).data (sub.map toSize)).number

/-- `get_data` of a SET symbol (`set_symbol.h` 137-149). -/
def setData (s : SetSym) (sub : List Int) : Option Val :=
  if (s.scalar ∧ sub ≠ []) ∨ (¬ s.scalar ∧ sub.length ≠ 1) then none
  else Context.dataFind s.data (if s.scalar then 0 else toSize (sub.headD 1 - 1))

/-- `count` (`set_symbol.h` 152-173, `macro_param.cpp` 77-86, `system_variable.cpp` 54-66). -/
def Var.count (v : Var) (sub : List Int) : Int :=
  match v with
  | .set s => match s.ty, setData s sub with
    | .A, some (.a n) => (Ca.intToString n).length
    | .A, _ => 1
    | .B, _ => 1
    | .C, some (.c t) => Context.toA t.length
    | .C, _ => 0
  | .param (.param d) => Context.toA ((Inst.param d).data (sub.map toSize)).value.length
  | .param (.sys d) => match sub with
    | [] => Context.toA (d.ith 1).value.length
    | _ => Context.toA ((Inst.sys d).data (sub.map toSize)).value.length

/-- `evaluate_varsym` (`ca_symbol_attribute.cpp` 246-287). -/
def evalVar (E : Env) (k : Kind) (name : Bytes) (sub : List Int) : Out Val :=
  match E.vars name with
  | none => .val k.default [.E010]
  | some v =>
    if k.requiresOrdinary then evalSubst E k v sub
    else if k = .T then
      match testRead v sub with
      | some d => .val (.c [85]) [d]
      | none => match typeAttr E v sub with
        | none => .ub
        | some t => if t ≠ [85] then .val (.c t) [] else evalSubst E .T v sub
    else if k = .K then
      match testRead v sub with
      | some d => .val k.default [d]
      | none => .val (.a (v.count sub)) []
    else .val (.a (v.number sub)) []

/-- `get_undefined_attributed_symbols` for an ordinary symbol (`ca_symbol_attribute.cpp` 63-70): the symbols to look ahead for. -/
def lookOrd (E : Env) (k : Kind) (name : Bytes) : List Bytes :=
  if k.isOrdinary ∧ (E.symbols name).isNone ∧ (E.refs name).isNone then [name] else []

/-- `get_undefined_attributed_symbols` for a variable symbol whose subscripts need none (`ca_symbol_attribute.cpp` 71-96); a variable
that is not there evaluates to an undefined value (`get_var_sym_value`). -/
def lookVar (E : Env) (k : Kind) (name : Bytes) (sub : List Int) : List Bytes :=
  if k.isOrdinary = false then []
  else match E.vars name with
    | none => []
    | some v => if (testRead v sub).isSome then [] else match readVar v sub with
      | .c text => match symbolName text with
        | none => []
        | some n => lookOrd E k n
      | _ => []

end Verif.Attr
