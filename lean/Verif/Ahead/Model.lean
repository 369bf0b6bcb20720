import Verif.Ord.Deps
import Verif.DataDef.Model
/-!
The attributes a symbol is given when its definition is found by looking ahead, and those it is given when its definition is processed
(processing/statement_processors/lookahead_processor.cpp, processing/instruction_sets/asm_processor.cpp, mach_processor.cpp,
context/ordinary_assembly/symbol_attributes.cpp).

Left out: the values of the symbols (`Ord/Deps.lean`), diagnostics of the definitions, sequence symbols, macro definitions and copy members
met while looking ahead.
-/
namespace Verif.Ahead
open Verif.Ord

/-- `symbol_origin` (symbol_attributes.h 38-46). -/
inductive Origin where
  | dat | equ | sect | mach | unknown
  deriving DecidableEq, Repr

/-- EBCDIC codes of the type attributes for which `S'` and `I'` exist: D, E, F, G, H, K, L, P, Z (symbol_attributes.cpp 166-174). -/
def scaledTypes : List Int := [0xC4, 0xC5, 0xC6, 0xC7, 0xC8, 0xD2, 0xD3, 0xD7, 0xE9]

/-- The constructors of `symbol_attributes` (symbol_attributes.h 77-82, symbol_attributes.cpp 114-129) with `can_have_SI_attr`
(166-174); the integer attribute is `undef_length`, that is -1, unless it is given. -/
def attrs (o : Origin) (type : Int) (len scale : Option Int := none) (integer : Int := -1) : Sym :=
  ⟨.undef, type, len, scale, integer, o == .dat && type ∈ scaledTypes⟩

/-- `make_section_attrs` (symbol_attributes.cpp 31-34): `J`. -/
def sectionAttrs : Sym := attrs .sect 0xD1 (some 1)
/-- `make_machine_attrs` (symbol_attributes.cpp 35-38): `I`. -/
def machineAttrs (bytes : Nat) : Sym := attrs .mach 0xC9 (some bytes)
/-- `make_org_attrs` (symbol_attributes.cpp 43-46): `U`. -/
def orgAttrs : Sym := attrs .sect 0xE4

/-- One operand of `EQU`: left empty, written with variable symbols (seen by looking ahead only), an expression or something else. -/
inductive EquOp where
  | empty
  | model
  | expr (e : MExpr)
  | other
  deriving DecidableEq, Repr

/-- The first operand of `DC` or `DS`, with the expressions of its length and scale modifiers (expressions/data_definition.h 60-95). The
values of nominal expressions do not matter for the attributes; neither do the duplication factor and the exponent. -/
structure DataOp where
  type : Char
  ext : Char
  length : Option MExpr
  bit : Bool
  scale : Option MExpr
  nominal : Option DataDef.Nominal

/-- A statement with a label, by what its operation is. `plain` is any other assembler instruction, `macr` a macro. -/
inductive Stmt where
  | equ (ops : List EquOp)
  | data (ops : List (Option DataOp))
  | sect
  | machine (bits : Nat)
  | org
  | plain
  | ca
  | macr
  | unknown

/-- `leftmost_term` (mach_expr_term.cpp 52, 87, 106, 132, 149, 199, mach_operator.h 59, 100): the symbol if it is one. -/
def leftmost : MExpr → Option SymId
  | .sym n => some n
  | .par e => leftmost e
  | .neg e => leftmost e
  | .add l _ => leftmost l
  | .sub l _ => leftmost l
  | .mul l _ => leftmost l
  | .div l _ => leftmost l
  | _ => none

/-- `fill_location_counter` (mach_expr_term.cpp 130, mach_operator.h 47-51, 88). -/
def fill (a : Addr) : MExpr → MExpr
  | .loc _ => .loc (some a)
  | .par e => .par (fill a e)
  | .neg e => .neg (fill a e)
  | .add l r => .add (fill a l) (fill a r)
  | .sub l r => .sub (fill a l) (fill a r)
  | .mul l r => .mul (fill a l) (fill a r)
  | .div l r => .div (fill a l) (fill a r)
  | e => e

/-- `fill_location_counter` for an operand of `EQU` (low_language_processor.cpp 114-129). -/
def EquOp.fill (a : Addr) : EquOp → EquOp
  | .expr e => .expr (Ahead.fill a e)
  | o => o

/-- `assign_location_counter` (data_definition.cpp 229-254) for the modifiers. -/
def DataOp.fill (a : Addr) (d : DataOp) : DataOp := { d with length := d.length.map (Ahead.fill a), scale := d.scale.map (Ahead.fill a) }

/-- An absolute value between 0 and a bound (lookahead_processor.cpp 120-123, 139-142, asm_processor.cpp 90-94, 111-115). -/
def bounded (max : Int) : SVal → Option Int
  | .abs v => if 0 ≤ v ∧ v ≤ max then some v else none
  | _ => none

/-- The second or third operand of `EQU` seen by looking ahead (lookahead_processor.cpp 110-124, 129-143). -/
def lookOperand (E : Env) (T : Table) (max : Int) : Option EquOp → Option Int
  | some (.expr e) =>
    if (e.collect E T).err = false ∧ (e.collect E T).contains E = false then bounded max (e.resolve E.heap T) else none
  | _ => none

/-- The second or third operand of `EQU` when it is processed (asm_processor.cpp 83-99, 104-120). -/
def procOperand (E : Env) (T : Table) (max : Int) : Option EquOp → Option Int
  | some (.expr e) => if (e.collect E T).contains E = false then bounded max (e.resolve E.heap T) else none
  | _ => none

/-- The length attribute of a symbol that has a value (lookahead_processor.cpp 157-160, asm_processor.cpp 137-140): `none` if there is
no such symbol, `some none` if its length is not known. -/
def symLength (T : Table) (n : SymId) : Option (Option Int) := match T n with
  | some s => if s.val = .undef then none else some s.len
  | none => none

/-- `assign_EQU_attributes` (lookahead_processor.cpp 107-169): `none` if nothing is registered. -/
def lookEqu (E : Env) (T : Table) (ops : List EquOp) : Option Sym :=
  let type := (lookOperand E T 255 ops[2]?).getD 0xE4
  match lookOperand E T 65535 ops[1]? with
  | some l => some (attrs .dat type (some l))
  | none => match ops.head? with
    | some (.expr e) => match leftmost e with
      | some n => some (attrs .dat type ((symLength T n).getD none))
      | none => some (attrs .dat type (some 1))
    | some .other => none
    | _ => some (attrs .dat type)

/-- The attributes `process_EQU` gives to the symbol (asm_processor.cpp 81-147), `none` if it defines nothing. -/
def procEqu (E : Env) (T : Table) (ops : List EquOp) : Option Sym :=
  let type := (procOperand E T 255 ops[2]?).getD 0xE4
  match ops.head? with
  | some (.expr e) => match procOperand E T 65535 ops[1]? with
    | some l => some (attrs .equ type (some l))
    | none => match leftmost e with
      | some n => some (attrs .equ type ((symLength T n).getD (some 1)))
      | none => some (attrs .equ type (some 1))
  | _ => none

/-- What an expression of a modifier comes to (`set_data_def_field`, data_definition.cpp 258-274). -/
def argOf (E : Env) (T : Table) : Option MExpr → DataDef.Arg
  | none => .none
  | some e => if (e.collect E T).contains E then .pending else match e.eval E.heap T with
    | .abs v => .abs v
    | _ => .other

/-- The operand with its modifiers evaluated (operand_impls.cpp 544-560); duplication factor and exponent left out. -/
def DataOp.value (E : Env) (T : Table) (d : DataOp) : DataDef.Operand :=
  ({ dupl := .none, type := d.type, ext := d.ext, length := argOf E T d.length, bit := d.bit, scale := argOf E T d.scale, exponent := .none,
     nominal := d.nominal } : DataDef.Definition).operand

/-- `get_type_attribute` (data_definition.cpp 82-146). -/
def typeLetter (type : Char) (length : Bool) : Char :=
  if type ∈ ['B', 'C', 'P', 'X', 'Z'] then type
  else if type = 'G' then '@'
  else if length = false then
    if type ∈ ['A', 'J'] then 'A' else if type ∈ ['D', 'E', 'F', 'H', 'L', 'Q', 'S', 'V', 'Y'] then type else if type = 'R' then 'V' else 'U'
  else
    if type ∈ ['F', 'H'] then 'G' else if type ∈ ['E', 'D', 'L'] then 'K' else if type ∈ ['A', 'S', 'Q', 'J', 'R', 'V', 'Y'] then 'R' else 'U'

/-- `a2e` of a type letter (ebcdic_encoding.cpp). -/
def ebcdic (c : Char) : Int :=
  if 'A' ≤ c ∧ c ≤ 'I' then 0xC1 + (c.toNat - 'A'.toNat)
  else if 'J' ≤ c ∧ c ≤ 'R' then 0xD1 + (c.toNat - 'J'.toNat)
  else if 'S' ≤ c ∧ c ≤ 'Z' then 0xE2 + (c.toNat - 'S'.toNat)
  else 0x7C

/-- The type attribute of a data definition. -/
def DataOp.typeAttr (d : DataOp) : Int := ebcdic (typeLetter d.type d.length.isSome)

/-- `data_definition_operand::get_length_attribute` (data_definition_operand.cpp 74-81). -/
def opLength (o : DataDef.Operand) : Except DataDef.Crash Nat := match DataDef.accessType o.type o.ext with
  | none => .ok 0
  | some td => DataDef.lengthAttr td o.length o.nominal

/-- `data_definition_operand::get_scale_attribute` (data_definition_operand.cpp 65-72). -/
def opScale (o : DataDef.Operand) : Int := match DataDef.accessType o.type o.ext with
  | none => 0
  | some td => DataDef.scaleAttr td o.scale o.nominal

/-- `data_definition_operand::get_integer_attribute` (data_definition_operand.cpp 83-90). -/
def opInteger (o : DataDef.Operand) : Except DataDef.Crash Int := match DataDef.accessType o.type o.ext with
  | none => .ok 0
  | some td => do .ok (DataDef.integerImpl td (← DataDef.lengthAttr td o.length o.nominal) (DataDef.scaleAttr td o.scale o.nominal))

/-- The length of the label (lookahead_processor.cpp 189-192, asm_processor.cpp 225-229); an `uint32_t` read as an `int32_t`. -/
def DataOp.len (E : Env) (T : Table) (d : DataOp) : Except DataDef.Crash (Option Int) :=
  if argOf E T d.length = .pending then .ok none
  else do .ok (toLen (((← opLength (d.value E T)) : Int).bmod 4294967296))

/-- The scale of the label (lookahead_processor.cpp 193-196, asm_processor.cpp 230-234). -/
def DataOp.scl (E : Env) (T : Table) (d : DataOp) : Option Int :=
  if argOf E T d.scale = .none ∨ argOf E T d.scale = .pending then none else toScale (opScale (d.value E T))

/-- `assign_data_def_attributes` (lookahead_processor.cpp 171-199). -/
def lookData (E : Env) (T : Table) : List (Option DataOp) → Except DataDef.Crash (Option Sym)
  | some d :: _ => do .ok (some (attrs .dat d.typeAttr (← d.len E T) (d.scl E T)))
  | _ => .ok none

/-- The attributes `process_data_instruction` gives to the label (asm_processor.cpp 209-240). -/
def procData (E : Env) (T : Table) : List (Option DataOp) → Except DataDef.Crash (Option Sym)
  | some d :: _ => do
    let l ← d.len E T
    let i ← opInteger (d.value E T)
    .ok (some (attrs .dat d.typeAttr l (d.scl E T) i))
  | _ => .ok none

/-- `find_ord` for a statement with a valid label (lookahead_processor.cpp 286-313): the attributes registered, if any. -/
def look (E : Env) (T : Table) : Stmt → Except DataDef.Crash (Option Sym)
  | .equ ops => .ok (lookEqu E T ops)
  | .data ops => lookData E T ops
  | .sect => .ok (some sectionAttrs)
  | .machine bits => .ok (some (machineAttrs (bits / 8)))
  | .ca => .ok (some (attrs .mach 0xE4))
  | _ => .ok (some (attrs .mach 0xD4))

/-- The attributes of the symbol the label of the statement becomes when the statement is processed at the location `a`, if it does
(asm_processor.cpp 27-173, 207-240, 356-371, mach_processor.cpp 46-62). What a macro defines is not looked at. -/
def define (E : Env) (T : Table) (a : Addr) : Stmt → Except DataDef.Crash (Option Sym)
  | .equ ops => .ok (procEqu E T (ops.map (EquOp.fill a)))
  | .data ops => procData E T (ops.map fun o => o.map (DataOp.fill a))
  | .sect => .ok (some sectionAttrs)
  | .machine bits => .ok (some (machineAttrs (bits / 8)))
  | .org => .ok (some orgAttrs)
  | _ => .ok none

/-- The symbols registered as references (ordinary_assembly_context.cpp `add_symbol_reference`): the first one stays. -/
def register (refs : Table) (n : SymId) (s : Sym) : Table := fun m => if m = n then some ((refs n).getD s) else refs m

/-- One statement with its label seen by looking ahead (lookahead_processor.cpp 275-316): the references and the symbols still wanted. -/
def lookStep (E : Env) (T : Table) (st : Table × List SymId) (line : SymId × Stmt) : Except DataDef.Crash (Table × List SymId) := do
  match ← look E T line.2 with
  | some s => .ok (register st.1 line.1 s, st.2.filter (· ≠ line.1))
  | none => .ok (st.1, st.2.filter (· ≠ line.1))

/-- Looking ahead for symbols through the labelled statements that follow, until all are found (`finished_flag_`). -/
def scan (E : Env) (T : Table) : Table × List SymId → List (SymId × Stmt) → Except DataDef.Crash (Table × List SymId)
  | st, [] => .ok st
  | st, l :: ls => if st.2 = [] then .ok st else do scan E T (← lookStep E T st l) ls

/-- `end_processing` (lookahead_processor.cpp 66-77): symbols that were not found. -/
def finish (st : Table × List SymId) : Table := st.2.foldl (fun r n => register r n (attrs .unknown 0xE4)) st.1

/-- A whole search. -/
def lookahead (E : Env) (T refs : Table) (targets : List SymId) (ls : List (SymId × Stmt)) : Except DataDef.Crash Table := do
  .ok (finish (← scan E T (refs, targets) ls))

end Verif.Ahead
