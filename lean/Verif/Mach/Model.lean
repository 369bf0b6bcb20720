/-!
Model of machine instructions: the formats of operands, the checks of operands, the checks of statements.

The text of diagnostics is reduced to their number and the limits the text names. Evaluation of expressions is not part of
this model: an operand carries the values of its expressions (`Value`).
-/
namespace Verif.Mach

/-! ## Formats -/

/-- `machine_operand_type` (parser_library/src/checking/instr_operand.h:66-78). -/
inductive Ty where
  | mask | reg | regImm | imm | none | displc | base | length | vecReg | disReg
deriving DecidableEq, Repr

/-- `parameter` (instr_operand.h:81-90). -/
structure Param where
  signed : Bool
  size : Nat
  ty : Ty
deriving DecidableEq, Repr

/-- `machine_operand_format` (instr_operand.h:95-111): `identifier(first,second)`. -/
structure Fmt where
  id : Param
  first : Param
  second : Param
deriving DecidableEq, Repr

/-- `parameter::is_empty` (instr_operand.cpp:342). -/
def Param.isEmpty (p : Param) : Bool := !p.signed && p.ty == .none && p.size == 0

/-- `machine_operand::is_simple_operand` (instr_operand.cpp:54-59). -/
def Fmt.isSimple (f : Fmt) : Bool :=
  f.first.signed == false && f.first.size == 0 && f.second.signed == false && f.second.size == 0
    && f.first.ty == .none && f.second.ty == .none

/-! The constants of parser_library/src/context/instruction.h:119-142. -/
def pEmpty : Param := ⟨false, 0, .none⟩
def pReg : Param := ⟨false, 4, .reg⟩
def pDisReg : Param := ⟨false, 4, .disReg⟩
def pDisRegR : Param := ⟨false, 4, .reg⟩
def pMask : Param := ⟨false, 4, .mask⟩
def pDis12u : Param := ⟨false, 12, .displc⟩
def pDis20s : Param := ⟨true, 20, .displc⟩
def pBase : Param := ⟨false, 4, .base⟩
def pLength8 : Param := ⟨false, 8, .length⟩
def pLength4 : Param := ⟨false, 4, .length⟩
def pImm4u : Param := ⟨false, 4, .imm⟩
def pImm8s : Param := ⟨true, 8, .imm⟩
def pImm8u : Param := ⟨false, 8, .imm⟩
def pImm12s : Param := ⟨true, 12, .imm⟩
def pImm16s : Param := ⟨true, 16, .imm⟩
def pImm16u : Param := ⟨false, 16, .imm⟩
def pImm32s : Param := ⟨true, 32, .imm⟩
def pImm32u : Param := ⟨false, 32, .imm⟩
def pVecReg : Param := ⟨false, 4, .vecReg⟩
def pRegImm12s : Param := ⟨true, 12, .regImm⟩
def pRegImm16s : Param := ⟨true, 16, .regImm⟩
def pRegImm24s : Param := ⟨true, 24, .regImm⟩
def pRegImm32s : Param := ⟨true, 32, .regImm⟩

/-! The operand formats of instruction.h:153-175, under their names in the code. -/
def db_12_4_U : Fmt := ⟨pDis12u, pEmpty, pBase⟩
def db_20_4_S : Fmt := ⟨pDis20s, pEmpty, pBase⟩
def drb_12_4x4_U : Fmt := ⟨pDis12u, pDisRegR, pBase⟩
def dxb_12_4x4_U : Fmt := ⟨pDis12u, pDisReg, pBase⟩
def dxb_20_4x4_S : Fmt := ⟨pDis20s, pDisReg, pBase⟩
def dvb_12_4x4_U : Fmt := ⟨pDis12u, pVecReg, pBase⟩
def reg_4_U : Fmt := ⟨pReg, pEmpty, pEmpty⟩
def mask_4_U : Fmt := ⟨pMask, pEmpty, pEmpty⟩
def imm_4_U : Fmt := ⟨pImm4u, pEmpty, pEmpty⟩
def imm_8_S : Fmt := ⟨pImm8s, pEmpty, pEmpty⟩
def imm_8_U : Fmt := ⟨pImm8u, pEmpty, pEmpty⟩
def imm_16_U : Fmt := ⟨pImm16u, pEmpty, pEmpty⟩
def imm_12_S : Fmt := ⟨pImm12s, pEmpty, pEmpty⟩
def imm_16_S : Fmt := ⟨pImm16s, pEmpty, pEmpty⟩
def imm_32_S : Fmt := ⟨pImm32s, pEmpty, pEmpty⟩
def imm_32_U : Fmt := ⟨pImm32u, pEmpty, pEmpty⟩
def vec_reg_4_U : Fmt := ⟨pVecReg, pEmpty, pEmpty⟩
def db_12_8x4L_U : Fmt := ⟨pDis12u, pLength8, pBase⟩
def db_12_4x4L_U : Fmt := ⟨pDis12u, pLength4, pBase⟩
def reg_imm_12_S : Fmt := ⟨pRegImm12s, pEmpty, pEmpty⟩
def reg_imm_16_S : Fmt := ⟨pRegImm16s, pEmpty, pEmpty⟩
def reg_imm_24_S : Fmt := ⟨pRegImm24s, pEmpty, pEmpty⟩
def reg_imm_32_S : Fmt := ⟨pRegImm32s, pEmpty, pEmpty⟩

/-- `mach_format` (instruction.h:32-117), in the order of the enumeration. -/
inductive MF where
  | E | I | RR
  | IE | RRD | RRE | RRF_a | RRF_b | RRF_c | RRF_d | RRF_e | RI_a | RI_b | RI_c | RS_a | RS_b | RSI | RX_a | RX_b | S | SI
  | MII | RIE_a | RIE_b | RIE_c | RIE_d | RIE_e | RIE_f | RIE_g | RIL_a | RIL_b | RIL_c | RIS | RRS | RSL_a | RSL_b | RSY_a
  | RSY_b | RXE | RXF | RXY_a | RXY_b | SIL | SIY | SMI | SS_a | SS_b | SS_c | SS_d | SS_e | SS_f | SSE | SSF
  | VRI_a | VRI_b | VRI_c | VRI_d | VRI_e | VRI_f | VRR_a | VRR_b | VRR_c | VRR_d | VRR_e | VRR_f | VRS_a | VRS_b | VRS_c
  | VRV | VRX | VRI_g | VRI_h | VRI_i | VRR_g | VRR_h | VRR_i | VRS_d | VSI
deriving DecidableEq, Repr

/-- `machine_instruction::get_length_by_format` (instruction.h:209-219), in bits. -/
def MF.bits (f : MF) : Nat :=
  if f.ctorIdx ≥ MF.MII.ctorIdx then 48
  else if f.ctorIdx ≥ MF.IE.ctorIdx then 32
  else if f.ctorIdx ≥ MF.E.ctorIdx then 16
  else 0

/-- The names of instructions. The code has strings; the model has the number whose digits to the base 256 are the
characters, so that the kernel compares names quickly. -/
abbrev OpName := Nat

/-- The number of a name. -/
def encodeName (s : String) : OpName := s.toList.foldl (fun a c => a * 256 + c.toNat) 0

/-- `n!"AR"` is the number of the name `AR`, computed when the file is elaborated. -/
macro:max "n!" s:str : term => `(nat_lit $(Lean.Syntax.mkNumLit (toString (encodeName s.getString))))

/-- `machine_instruction` (instruction.h:178-224) without the page number. -/
structure Instr where
  name : OpName
  fmt : MF
  ops : List Fmt
  opt : Nat
deriving DecidableEq, Repr

/-- `mnemonic_code` (instruction.h:233-246); the pointer to the instruction is the name given to `at`. -/
structure Mnem where
  name : OpName
  base : OpName
  /-- place and value -/
  replaced : List (Nat × Nat)
deriving DecidableEq, Repr

/-! ## Checks of one operand -/

/-- `address_state` (instr_operand.h:33-38). -/
inductive AddrState where
  | valid | invalid | unres
deriving DecidableEq, Repr

/-- `operand_state` (instr_operand.h:46-52). -/
inductive OpState where
  | firstOmitted | secondOmitted | present | oneOp
deriving DecidableEq, Repr

/-- `checking::machine_operand` and its three classes (instr_operand.h:135-199). -/
inductive CheckOp where
  | one (v : Int)
  | addr (state : AddrState) (disp first second : Int) (st : OpState)
  | empty
deriving DecidableEq, Repr

/-- A diagnostic: number and, if the text names limits, the limits (diagnostic.cpp:1166-1332, 1510-1575). `unset` is the
default-constructed object left by a `switch` without a case for the type (instr_operand.cpp:303-304, 325-326). -/
inductive Diag where
  | plain (code : Nat)
  | limits (code : Nat) (lo hi : Int)
  | count (lo hi : Int)
  | unset
deriving DecidableEq, Repr

/-- `is_size_corresponding_signed` (instr_operand.cpp:43-47). -/
def sizeSigned (v : Int) (size : Nat) : Bool := decide (v < 2 ^ (size - 1)) && decide (v ≥ -2 ^ (size - 1))

/-- `is_size_corresponding_unsigned` (instr_operand.cpp:49-52). -/
def sizeUnsigned (v : Int) (size : Nat) : Bool := decide (v ≥ 0) && decide (v ≤ 2 ^ size - 1)

/-- `is_operand_corresponding` (instr_operand.cpp:34-41). -/
def corresponds (v : Int) (p : Param) : Bool :=
  if p.signed && sizeSigned v p.size then true
  else if !p.signed && sizeUnsigned v p.size then true
  else false

/-- `is_length_corresponding` (instr_operand.cpp:195-202). -/
def lengthCorresponds (v : Int) (size : Nat) : Bool := if v > 2 ^ size || v < 0 then false else true

/-- `get_simple_operand_expected` (instr_operand.cpp:204-222); 999 is `error_I999` after the failing assertion. -/
def simpleExpected (f : Fmt) : Diag :=
  match f.id.ty with
  | .reg => .plain 110
  | .mask => .plain 111
  | .imm => .plain 112
  | .regImm => .plain 113
  | .vecReg => .plain 114
  | _ => .plain 999

/-- `get_first_parameter_error` (instr_operand.cpp:75-95). -/
def firstError (t : Ty) (lo hi : Int) : Diag :=
  match t with
  | .length => .limits 132 lo hi
  | .disReg => .limits 135 lo hi
  | .reg => .limits 133 lo hi
  | .vecReg => .limits 134 lo hi
  | _ => .plain 999

/-- The diagnostic of a displacement out of range (instr_operand.cpp:125-131, 279-285). -/
def dispError (p : Param) : Diag :=
  if p.signed then .limits 130 (-2 ^ (p.size - 1)) (2 ^ (p.size - 1) - 1) else .limits 130 0 (2 ^ p.size - 1)

/-- The check of the first parameter of `D(X,B)` (instr_operand.cpp:163-189). The variable `actual_val` of the code is
computed and not used; the value checked is `first_op`. -/
def checkFirst (f : Fmt) (first : Int) (st : OpState) : Option Diag :=
  if st ≠ .firstOmitted then
    if f.first.ty = .length ∧ lengthCorresponds first f.first.size = false then some (firstError f.first.ty 0 (2 ^ f.first.size))
    else if f.first.ty ≠ .length ∧ corresponds first f.first = false then some (firstError f.first.ty 0 (2 ^ f.first.size - 1))
    else none
  else none

/-- `address_operand::check` after the displacement (instr_operand.cpp:134-191). -/
def checkParts (f : Fmt) (first second : Int) (st : OpState) : Option Diag :=
  if f.first.isEmpty then
    if st ≠ .oneOp then some (.plain 104)
    else if corresponds second f.second = false then some (.limits 131 0 15)
    else none
  else
    if (st = .firstOmitted ∨ st = .present) ∧ corresponds second f.second = false then some (.limits 131 0 15)
    else checkFirst f first st

/-- `address_operand::check` (instr_operand.cpp:97-193). `none` is acceptance. -/
def checkAddr (f : Fmt) (state : AddrState) (disp first second : Int) (st : OpState) : Option Diag :=
  if f.isSimple then some (simpleExpected f)
  else if st = .secondOmitted then some (.plain 4)
  else match state with
    | .valid => none
    | .invalid => some (.plain 10)
    | .unres => if corresponds disp f.id = false then some (dispError f.id) else checkParts f first second st

/-- `one_operand::check` (instr_operand.cpp:269-331). -/
def checkOne (f : Fmt) (v : Int) : Option Diag :=
  if !f.isSimple then
    if corresponds v f.id = false then some (dispError f.id) else none
  else if f.id.signed && !sizeSigned v f.id.size then
    some (match f.id.ty with
      | .imm => .limits 122 (-2 ^ (f.id.size - 1)) (2 ^ (f.id.size - 1) - 1)
      | .regImm => .limits 123 (-2 ^ (f.id.size - 1)) (2 ^ (f.id.size - 1) - 1)
      | _ => .unset)
  else if !f.id.signed && !sizeUnsigned v f.id.size then
    some (match f.id.ty with
      | .reg => .limits 120 0 15
      | .mask => .limits 121 0 15
      | .imm => .limits 122 0 (2 ^ f.id.size - 1)
      | .vecReg => .limits 124 0 15
      | _ => .unset)
  else none

/-- `machine_operand::check`: `empty_operand::check` is instr_operand.cpp:335-340. -/
def CheckOp.check (f : Fmt) : CheckOp → Option Diag
  | .one v => checkOne f v
  | .addr s d a b st => checkAddr f s d a b st
  | .empty => some (.plain 3)

/-! ## Operands as parsed -/

/-- The value of an expression: absolute, relocatable, undefined after an error, or depending on a symbol not yet defined.
Absolute values are `int` in the code; only comparisons are made, so the model takes all integers. -/
inductive Value where
  | abs (v : Int)
  | reloc
  | undef
  | pending
deriving DecidableEq, Repr

/-- Operands of a machine statement (parser_library/src/semantics/operand_impls.h: `empty_operand`, `expr_machine_operand`,
`address_machine_operand`). -/
inductive Src where
  | empty
  | expr (v : Value)
  | addr (disp : Value) (first second : Option Value) (st : OpState)
deriving DecidableEq, Repr

/-- `has_dependencies` (operand_impls.cpp:127-130, 157-172). -/
def Src.hasDeps : Src → Bool
  | .empty => false
  | .expr v => v == .pending
  | .addr d f s _ => d == .pending || f == some .pending || s == some .pending

/-- Absolute value or 0 (operand_impls.cpp:196, 200, 205). -/
def Value.orZero : Value → Int
  | .abs v => v
  | _ => 0

/-- `get_operand_value` (operand_impls.cpp:84-124, 189-224); `hint` is the type of the field, if there is one. -/
def Src.value (hint : Option Ty) : Src → CheckOp
  | .empty => .empty
  | .expr (.abs v) => .one v
  | .expr _ => if hint = some .regImm then .one 0 else .addr .unres 0 0 0 .oneOp
  | .addr d (some f) (some s) _ => .addr .unres d.orZero f.orZero s.orZero .present
  | .addr d (some f) none st => .addr .unres d.orZero f.orZero 0 st
  | .addr d none (some s) st => .addr .unres d.orZero 0 s.orZero st
  | .addr d none none st => .addr .unres d.orZero 0 0 st

/-! ## Checks of a statement -/

/-- Ways in which the code leaves its defined behaviour: index outside a vector, null operand, unknown name given to `at`. -/
inductive Fault where
  | outOfRange | nullOperand | noInstr
deriving DecidableEq, Repr

/-- `low_language_processor::get_check_op` (parser_library/src/processing/instruction_sets/low_language_processor.cpp:282-330)
for machine operands: `none` for an operand with dependencies (E010). -/
def getCheckOp (ins : Instr) (pos : Nat) (op : Src) : Option CheckOp :=
  if op.hasDeps then none else some (op.value (ins.ops[pos]?.map (·.id.ty)))

/-- One turn of the loops of `transform_default` (262-278) and `transform_mnemonic` (232-253). -/
def convert (ins : Instr) (pos : Nat) (op : Src) : Option CheckOp :=
  if op = .empty then some .empty else getCheckOp ins pos op

/-- `transform_default` (low_language_processor.cpp:257-280). -/
def transformDefault (ins : Instr) : Nat → List Src → Option (List (Option CheckOp))
  | _, [] => some []
  | pos, op :: r => match convert ins pos op with
    | none => none
    | some c => (transformDefault ins (pos + 1) r).map (some c :: ·)

/-- The substitution of the fixed operands (low_language_processor.cpp:229-230): writing outside the vector is undefined. -/
def substitute : List (Nat × Nat) → List (Option CheckOp) → Except Fault (List (Option CheckOp))
  | [], v => .ok v
  | (p, x) :: r, v => if p < v.length then substitute r (v.set p (some (.one x))) else .error .outOfRange

/-- The loop filling the free places (low_language_processor.cpp:232-253). -/
def fillFree (ins : Instr) : Nat → List (Option CheckOp) → List Src → Option (List (Option CheckOp))
  | _, [], _ => some []
  | _, v, [] => some v
  | pos, some c :: v, ops => (fillFree ins (pos + 1) v ops).map (some c :: ·)
  | pos, none :: v, op :: r => match convert ins pos op with
    | none => none
    | some c => (fillFree ins (pos + 1) v r).map (some c :: ·)

/-- The number of operands in `error_optional_number_of_operands` (diagnostic.cpp:1520-1529). -/
def countDiag (opt n : Int) : Diag :=
  if opt = 0 then .count n n else if opt = 1 then .count (n - 1) n else .count (n - opt) n

/-- Outcome of a transformation: the operands, or the diagnostics that stop it. `E010` is the number 1010. -/
inductive Trans where
  | stop (d : Diag)
  | ops (v : List (Option CheckOp))
deriving DecidableEq, Repr

/-- `transform_mnemonic` (low_language_processor.cpp:192-255). -/
def transformMnemonic (m : Mnem) (ins : Instr) (ops : List Src) : Except Fault Trans :=
  let diff : Int := ins.ops.length - ops.length - m.replaced.length
  if (diff.natAbs : Int) > ins.opt then .ok (.stop (countDiag ins.opt (ins.ops.length - m.replaced.length)))
  else match substitute m.replaced (List.replicate (ins.ops.length + ins.opt) none) with
    | .error e => .error e
    | .ok v => match fillFree ins 0 v ops with
      | none => .ok (.stop (.plain 1010))
      | some v => .ok (.ops v)

/-- The loop of `machine_instruction::check` (parser_library/src/context/instruction.cpp:203-213). -/
def checkLoop : List Fmt → List (Option CheckOp) → Except Fault (List Diag)
  | _, [] => .ok []
  | [], _ :: _ => .error .outOfRange
  | _ :: _, none :: _ => .error .nullOperand
  | f :: fs, some c :: r => match checkLoop fs r with
    | .error e => .error e
    | .ok ds => .ok ((c.check f).toList ++ ds)

/-- `machine_instruction::check` (instruction.cpp:190-215): the diagnostics; the statement is accepted if there are none. -/
def Instr.check (ins : Instr) (v : List (Option CheckOp)) : Except Fault (List Diag) :=
  let diff : Int := ins.ops.length - v.length
  if diff > ins.opt ∨ diff < 0 then .ok [countDiag ins.opt ins.ops.length] else checkLoop ins.ops v

/-- The tables of instructions and mnemonics. -/
structure Tables where
  instrs : List Instr
  mnems : List Mnem

/-- `machine_instructions.find`: the table is filled by `std::map::insert`, so the first entry of a name counts. -/
def Tables.instr (T : Tables) (n : OpName) : Option Instr := T.instrs.find? (·.name == n)

/-- `mnemonic_codes.find`. -/
def Tables.mnem (T : Tables) (n : OpName) : Option Mnem := T.mnems.find? (·.name == n)

/-- `machine_checker::check` and `low_language_processor::check` (instruction_checker.cpp:420-442,
low_language_processor.cpp:332-366): the diagnostics of a statement; without one it is accepted. -/
def Tables.check (T : Tables) (n : OpName) (ops : List Src) : Except Fault (List Diag) :=
  match T.mnem n with
  | some m => match T.instr m.base with
    | none => .error .noInstr
    | some ins => match transformMnemonic m ins ops with
      | .error e => .error e
      | .ok (.stop d) => .ok [d]
      | .ok (.ops v) => ins.check v
  | none => match T.instr n with
    | none => .error .noInstr
    | some ins => match transformDefault ins 0 ops with
      | none => .ok [.plain 1010]
      | some v => ins.check v

end Verif.Mach
