import Verif.DataDef.Nominal

/-
  Operands of DC and DS: the table of types, the checks, the length, the attributes, and what the statement does with
  the location counter (`checking/data_definition/*`, `expressions/data_definition.cpp`,
  `processing/instruction_sets/data_def_postponed_statement.h`, `asm_processor.cpp: process_data_instruction`).

  Diagnostics are not part of the model, only whether an operand is accepted.  Numbers are unbounded integers except
  where the code narrows them: the scale modifier is an `int16_t`, a length an `uint64_t`.
-/

namespace Verif.DataDef

/-- What an expression in the place of a modifier, of the duplication factor, of a base or of a displacement turns
out to be: it is not written, it has an absolute 32-bit value, it has another value (relocatable, undefined), or it
depends on symbols that are not defined. -/
inductive Arg
  | none
  | abs (v : Int)
  | other
  | pending
  deriving Repr, DecidableEq

/-- `checking/data_definition/data_def_fields.h:29-50` `data_def_field`, without its range. -/
structure Field (α : Type) where
  present : Bool
  value : α
  deriving Repr, DecidableEq

/-- `expressions/data_definition.cpp:258-274` `set_data_def_field`: an expression that cannot be evaluated yet counts as not
written; one whose value is not absolute is present with the value 0 its field was made with. -/
def setField : Arg → Field Int
  | .none => ⟨false, 0⟩
  | .abs v => ⟨true, v⟩
  | .other => ⟨true, 0⟩
  | .pending => ⟨false, 0⟩

/-- The conversion to `int16_t` in `data_definition::evaluate_scale`, `expressions/data_definition.cpp:289-293`. -/
def narrow16 (v : Int) : Int := (v + 32768) % 65536 - 32768

/-- `data_def_fields.h:52-57` `expr_type`. -/
inductive ExprType
  | abs | reloc | complex
  deriving Repr, DecidableEq

/-- `data_def_fields.h:59-66, 87-94` `data_def_expr`, `data_def_address`: one parenthesised value. -/
inductive Value
  | expr (value : Int) (kind : ExprType) (ignored : Bool)
  | address (base displacement : Field Int) (ignored : Bool)
  deriving Repr, DecidableEq

/-- `data_def_fields.h:95-96`: the nominal value is a text between apostrophes or a list of expressions in
parentheses. -/
inductive Nominal
  | str (s : Text)
  | exprs (l : List Value)
  deriving Repr, DecidableEq

/-- A nominal value that is perhaps not there; the variant of a field that was not set holds an empty text
(`data_def_fields.h:32-36`). -/
abbrev NominalField := Field Nominal

def noNominal : NominalField := ⟨false, .str []⟩

/-- `data_def_fields.h:68-85` `data_def_length_t`. -/
structure Length where
  present : Bool
  value : Int
  bit : Bool
  deriving Repr, DecidableEq

/-- `data_definition_operand.h:25-38`.  `ext = '\0'` stands for no type extension. -/
structure Operand where
  dupl : Field Int
  type : Char
  ext : Char
  length : Length
  exponent : Field Int
  scale : Field Int
  nominal : NominalField
  deriving Repr, DecidableEq

/-! ### the table of types -/

/-- `data_def_type_base.h:38-54` `modifier_spec`. -/
inductive ModSpec
  | bound (min max : Int)
  | na
  | noCheck
  | ignored
  deriving Repr, DecidableEq

/-- `data_def_type_base.h:64-69` `nominal_value_type`. -/
inductive NomType
  | string | expressions | addressOrExpression
  deriving Repr, DecidableEq

/-- The data members of `data_def_type`, `data_def_type_base.h:131-194`; `implicit = none` is `as_needed`. -/
structure TypeDef where
  type : Char
  ext : Char
  bitLength : ModSpec
  length : ModSpec
  dsLength : ModSpec
  dsBitLength : ModSpec
  scale : ModSpec
  exponent : ModSpec
  nominal : NomType
  align : Nat
  implicit : Option Nat
  deriving Repr, DecidableEq

/-- `data_def_type_base.cpp:33-55`: the constructor for types with the same checks in DS and DC. -/
def mkType (type ext : Char) (bitLength length scale exponent : ModSpec) (nominal : NomType) (align : Nat)
    (implicit : Option Nat) : TypeDef :=
  ⟨type, ext, bitLength, length, length, bitLength, scale, exponent, nominal, align, implicit⟩

/-- `data_def_type_base.cpp:58-81`: the constructor for types with other lengths in DS than in DC. -/
def mkTypeDS (type ext : Char) (bitLength length : ModSpec) (maxDs : Int) (scale exponent : ModSpec)
    (nominal : NomType) (align : Nat) (implicit : Option Nat) : TypeDef :=
  ⟨type, ext, bitLength, length, .bound 1 maxDs, .bound 1 (maxDs * 8), scale, exponent, nominal, align, implicit⟩

/-- `data_def_types_string.cpp:127-139`. -/
def typeCA_CE (ext : Char) : TypeDef :=
  mkTypeDS 'C' ext (.bound 1 2048) (.bound 1 256) 65535 .na .na .string 1 none

/-- `data_def_types_fixed_point.cpp:27-37`. -/
def typeHF (type ext : Char) (word : Nat) : TypeDef :=
  mkType type ext (.bound 1 64) (.bound 1 8) (.bound (-187) 346) (.bound (-85) 75) .string word (some word)

/-- `data_def_types_fixed_point.cpp:125-135`. -/
def typePZ (type : Char) : TypeDef :=
  mkType type '\x00' (.bound 1 128) (.bound 1 16) .na .na .string 1 none

/-- `data_def_types_address.cpp:27-30`. -/
def typeA (type ext : Char) (align : Nat) (implicit : Nat) : TypeDef :=
  mkType type ext .noCheck .noCheck .na .na .expressions align (some implicit)

/-- `data_def_types_address.cpp:128-138`. -/
def typeS (ext : Char) (size : Nat) : TypeDef :=
  mkType 'S' ext .na (.bound size size) .na .na .addressOrExpression 2 (some size)

/-- `data_def_types_address.cpp:227-231`. -/
def typeSingle (type ext : Char) (length : ModSpec) (align implicit : Nat) : TypeDef :=
  mkType type ext .na length .na .na .expressions align (some implicit)

/-- `data_def_types_floating_point.cpp:25-41`. -/
def typeEDL (type ext : Char) (bit len scale : ModSpec) (align implicit : Nat) : TypeDef :=
  mkType type ext bit len scale (.bound (-85) 75) .string align (some implicit)

/-- `data_def_type_base.cpp:415-457` `types_and_extensions`, with the constructors of the types:
`data_def_types_string.cpp:78-88, 162-177, 212-223, 266-277`, `data_def_types_fixed_point.cpp:103-113, 190-249`,
`data_def_types_address.cpp:32-34, 102-116, 140-142, 213-215, 235-241, 255-261, 275-292, 306-308`,
`data_def_types_floating_point.cpp:135-192`. -/
def types : List TypeDef :=
  [ mkType 'B' '\x00' (.bound 1 2048) (.bound 1 256) .na .na .string 1 none,
    typeCA_CE '\x00',
    typeCA_CE 'A',
    typeCA_CE 'E',
    mkType 'C' 'U' .na (.bound 1 256) .na .na .string 1 none,
    mkTypeDS 'G' '\x00' .na (.bound 1 256) 65534 .na .na .string 1 none,
    mkTypeDS 'X' '\x00' (.bound 1 2048) (.bound 1 256) 65535 .na .na .string 1 none,
    typeHF 'H' '\x00' 2,
    typeHF 'F' '\x00' 4,
    typeHF 'F' 'D' 8,
    typePZ 'P',
    typePZ 'Z',
    typeA 'A' '\x00' 4 4,
    typeA 'A' 'D' 8 8,
    typeA 'Y' '\x00' 2 2,
    typeSingle 'R' '\x00' (.bound 3 4) 4 4,
    typeSingle 'R' 'D' .noCheck 8 8,
    typeS '\x00' 2,
    typeS 'Y' 3,
    typeSingle 'V' '\x00' (.bound 3 4) 4 4,
    typeSingle 'V' 'D' .noCheck 8 8,
    typeSingle 'Q' '\x00' (.bound 1 4) 4 4,
    typeSingle 'Q' 'D' (.bound 1 8) 16 8,
    typeSingle 'Q' 'Y' (.bound 3 3) 2 3,
    typeSingle 'J' '\x00' .noCheck 4 4,
    typeSingle 'J' 'D' .noCheck 8 8,
    typeEDL 'E' '\x00' (.bound 1 64) (.bound 1 8) (.bound 0 5) 4 4,
    typeEDL 'E' 'H' (.bound 12 64) (.bound 1 8) (.bound 0 5) 4 4,
    typeEDL 'E' 'D' (.bound 32 32) (.bound 4 4) .ignored 4 4,
    typeEDL 'E' 'B' (.bound 32 32) (.bound 4 4) .ignored 4 4,
    typeEDL 'D' '\x00' (.bound 1 64) (.bound 1 8) (.bound 0 13) 8 8,
    typeEDL 'D' 'H' (.bound 12 64) (.bound 1 8) (.bound 0 13) 8 8,
    typeEDL 'D' 'D' (.bound 64 64) (.bound 8 8) .ignored 8 8,
    typeEDL 'D' 'B' (.bound 64 64) (.bound 8 8) .ignored 8 8,
    typeEDL 'L' '\x00' (.bound 1 128) (.bound 1 16) (.bound 0 27) 8 16,
    typeEDL 'L' 'H' (.bound 12 128) (.bound 1 16) (.bound 0 27) 8 16,
    typeEDL 'L' 'Q' (.bound 12 128) (.bound 1 16) (.bound 0 27) 16 16,
    typeEDL 'L' 'D' (.bound 128 128) (.bound 16 16) .ignored 8 16,
    typeEDL 'L' 'B' (.bound 128 128) (.bound 16 16) .ignored 8 16 ]

/-- `data_def_type_base.cpp:459-463` `access_data_def_type`. -/
def accessType (type ext : Char) : Option TypeDef := types.find? fun t => t.type == type && t.ext == ext

/-! ### checks -/

/-- DC or DS (`data_def_type_base.h:32-36`). -/
inductive Instr
  | DC | DS
  deriving Repr, DecidableEq

/-- `std::get` on a variant that holds the other alternative throws `std::bad_variant_access`. -/
inductive Crash
  | badVariant
  deriving Repr, DecidableEq

/-- `std::get<std::string>(nominal.value)`. -/
def getText : Nominal → Except Crash Text
  | .str s => .ok s
  | .exprs _ => .error .badVariant

/-- `std::get<nominal_value_expressions>(nominal.value)`. -/
def getExprs : Nominal → Except Crash (List Value)
  | .exprs l => .ok l
  | .str _ => .error .badVariant

/-- `data_def_type_base.cpp:120-151` `check_modifier`. -/
def checkModifier (present : Bool) (value : Int) : ModSpec → Bool
  | .noCheck => true
  | .ignored => true
  | .na => !present
  | .bound lo hi => !present || (decide (lo ≤ value) && decide (value ≤ hi))

/-- `data_def_type_base.cpp:230-241` `check_dupl_factor`. -/
def checkDupl (op : Operand) : Bool := !(op.dupl.present && decide (op.dupl.value < 0))

/-- `data_def_type_base.cpp:212-228` `get_length_spec`, `get_bit_length_spec`. -/
def lengthSpec (td : TypeDef) : Instr → Bool → ModSpec
  | .DC, false => td.length
  | .DC, true => td.bitLength
  | .DS, false => td.dsLength
  | .DS, true => td.dsBitLength

/-- `data_def_type_base.cpp:243-259` `check_length`. -/
def checkLength (td : TypeDef) (i : Instr) (op : Operand) : Bool :=
  if td.bitLength == .na && op.length.bit then false
  else checkModifier op.length.present op.length.value (lengthSpec td i op.length.bit)

/-- `data_def_type_base.cpp:179-211` `check_nominal_present`: whether it is ok, whether to check the nominal value. -/
def checkNominalPresent (i : Instr) (op : Operand) : Bool × Bool :=
  match i with
  | .DC =>
    let checkNom := !(decide (op.dupl.value = 0) && op.dupl.present)
    if !op.nominal.present && checkNom then (false, false)
    else if op.nominal.present then (true, true)
    else (true, checkNom)
  | .DS => if op.nominal.present then (true, true) else (true, false)

def Value.isAddress : Value → Bool
  | .address .. => true
  | .expr .. => false

/-- `data_def_type_base.cpp:261-303` `check_nominal_type`. -/
def checkNominalType (td : TypeDef) (op : Operand) : Bool :=
  match td.nominal, op.nominal.value with
  | .string, .str _ => true
  | .string, .exprs _ => false
  | .expressions, .str _ => false
  | .expressions, .exprs l => !l.any Value.isAddress
  | .addressOrExpression, .str _ => false
  | .addressOrExpression, .exprs _ => true

/-- `data_def_type_base.cpp:306-327` `check_base`. -/
def checkBase (td : TypeDef) (i : Instr) (op : Operand) : Bool × Bool :=
  let ret := checkDupl op && checkLength td i op && checkModifier op.scale.present op.scale.value td.scale
    && checkModifier op.exponent.present op.exponent.value td.exponent
  let (presentOk, checkNom) := checkNominalPresent i op
  let ret := ret && presentOk
  if checkNom then
    let typeOk := checkNominalType td op
    (ret && typeOk, typeOk)
  else (ret, false)

/-- The first loop of `check_A_AD_Y_length`, `data_def_types_address.cpp:50-58`: whether all values are absolute or
ignored.  `std::get<data_def_expr>` throws on an address. -/
def allAbsolute : List Value → Except Crash Bool
  | [] => .ok true
  | .address .. :: _ => .error .badVariant
  | .expr _ kind ignored :: r => if !ignored && kind != .abs then .ok false else allAbsolute r

/-- `data_def_types_address.cpp:36-92` `check_A_AD_Y_length`. -/
def checkALength (op : Operand) (minAbs maxAbs minSym maxSym minBit maxBit : Int) : Except Crash Bool :=
  if !op.length.present then .ok true
  else do
    let l ← getExprs op.nominal.value
    let abs ← allAbsolute l
    let inside (lo hi : Int) : Bool := decide (lo ≤ op.length.value) && decide (op.length.value ≤ hi)
    if abs then
      .ok (if op.length.bit then inside minBit maxBit else inside minAbs maxAbs)
    else
      .ok (if op.length.bit then false else inside minSym maxSym)

/-- `machine_operand::is_size_corresponding_signed` (`checking/instr_operand.cpp:43-47`). -/
def sizeSigned (v : Int) (size : Nat) : Bool :=
  decide (-((2 : Int) ^ (size - 1)) ≤ v) && decide (v ≤ (2 : Int) ^ (size - 1) - 1)

/-- `machine_operand::is_size_corresponding_unsigned` (`checking/instr_operand.cpp:49-52`). -/
def sizeUnsigned (v : Int) (size : Nat) : Bool := decide (0 ≤ v) && decide (v ≤ (2 : Int) ^ size - 1)

/-- One turn of the loop of `check_S_SY_operand`, `data_def_types_address.cpp:149-201`. -/
def checkSValue (size : Nat) (signed : Bool) : Value → Bool
  | .address base disp ignored =>
    ignored || ((if signed then sizeSigned disp.value size else sizeUnsigned disp.value size)
      && sizeUnsigned base.value 4)
  | .expr v _ ignored => ignored || (if signed then sizeSigned v size else sizeUnsigned v size)

/-- `data_def_types_address.cpp:143-203` `check_S_SY_operand`. -/
def checkS (size : Nat) (signed : Bool) (op : Operand) : Except Crash Bool := do
  let l ← getExprs op.nominal.value
  .ok (l.all (checkSValue size signed))

/-- The check of a length that must be one of a few, `data_def_types_address.cpp:243-251, 263-271, 294-303, 310-319`. -/
def lengthIn (op : Operand) (l : List Int) : Bool := !op.length.present || l.contains op.length.value

/-- The virtual function `data_def_type::check` of every type: `data_def_types_string.cpp:90-104, 200-208, 225-234,
279-291`, `data_def_types_fixed_point.cpp:47-96, 137-167`, `data_def_types_address.cpp:94-124, 205-223, 243-319`,
`data_def_types_floating_point.cpp:57-122`; the other types do not override it (`data_def_type_base.cpp:329`).
The remainder of a negative odd length is -1 in C++, which `% 2 == 1` does not notice. -/
def checkOwn (td : TypeDef) (op : Operand) (checkNom : Bool) : Except Crash Bool :=
  match td.type, td.ext with
  | 'B', _ => if !checkNom then .ok true else do .ok (checkCommaSeparated isBinary (← getText op.nominal.value))
  | 'X', _ => if !checkNom then .ok true else do .ok (checkCommaSeparated isHex (← getText op.nominal.value))
  | 'C', 'U' => .ok !(op.length.present && decide (Int.tmod op.length.value 2 = 1))
  | 'C', _ => .ok true
  | 'G', _ => .ok !(op.length.present && decide (Int.tmod op.length.value 2 = 1))
  | 'H', _ => if !checkNom then .ok true else do .ok (checkHF (← getText op.nominal.value))
  | 'F', _ => if !checkNom then .ok true else do .ok (checkHF (← getText op.nominal.value))
  | 'P', _ => if !checkNom then .ok true else do .ok (checkPZ (← getText op.nominal.value))
  | 'Z', _ => if !checkNom then .ok true else do .ok (checkPZ (← getText op.nominal.value))
  | 'A', 'D' => if !checkNom then .ok true else checkALength op 1 8 2 8 1 128
  | 'A', _ => if !checkNom then .ok true else checkALength op 1 8 2 4 1 128
  | 'Y', _ => if !checkNom then .ok true else checkALength op 1 2 2 2 1 16
  | 'S', 'Y' => if !checkNom then .ok true else checkS 20 true op
  | 'S', _ => if !checkNom then .ok true else checkS 12 false op
  | 'R', 'D' => .ok (lengthIn op [3, 4, 8])
  | 'V', 'D' => .ok (lengthIn op [3, 4, 8])
  | 'J', _ => .ok (lengthIn op [2, 3, 4, 8])
  | 'E', e => if !checkNom then .ok true else do .ok (checkEDL e (← getText op.nominal.value))
  | 'D', e => if !checkNom then .ok true else do .ok (checkEDL e (← getText op.nominal.value))
  | 'L', e => if !checkNom then .ok true else do .ok (checkEDL e (← getText op.nominal.value))
  | _, _ => .ok true

/-! ### length -/

/-- The range of `uint64_t`. -/
def two64 : Nat := 2 ^ 64

/-- The conversion of an `int32_t` to `uint64_t`. -/
def toU64 (v : Int) : Nat := (v % (two64 : Int)).toNat

/-- `data_def_type_base.cpp:339-350` `get_number_of_values_in_nominal`. -/
def numberOfValues (td : TypeDef) (nom : NominalField) : Nat :=
  if td.type == 'C' || td.type == 'G' then 1
  else
    match nom.value with
    | .str s => s.count ',' + 1
    | .exprs l => l.length

/-- The virtual function `get_nominal_length`: `data_def_types_string.cpp:106-112, 141-147, 179-185, 236-245, 293-299`,
`data_def_types_fixed_point.cpp:194-218, 251-261`.  Only the types whose implicit length is `as_needed` override it;
the others `assert(false)` and return 0, which is not reached. -/
def nominalLength (td : TypeDef) (nom : NominalField) : Except Crash Nat :=
  match td.type, td.ext with
  | 'B', _ => if !nom.present then .ok 1 else do .ok (xbLength (← getText nom.value) 8)
  | 'C', 'U' => if !nom.present then .ok 2 else do .ok (2 * (← getText nom.value).length)
  | 'C', _ => if !nom.present then .ok 1 else do .ok (← getText nom.value).length
  | 'G', _ => if !nom.present then .ok 2 else do .ok (gLength (← getText nom.value))
  | 'X', _ => if !nom.present then .ok 1 else do .ok (xbLength (← getText nom.value) 2)
  | 'P', _ => if !nom.present then .ok 1 else do .ok (pLength (← getText nom.value))
  | 'Z', _ => if !nom.present then .ok 1 else do .ok (zLength (← getText nom.value))
  | _, _ => .ok 0

/-- `data_def_type_base.cpp:352-376` `get_length`: the length in bits, an `uint64_t`. -/
def getLength (td : TypeDef) (op : Operand) : Except Crash Nat := do
  let bits ←
    if op.length.present then
      let n := numberOfValues td op.nominal * toU64 op.length.value % two64
      .ok (if op.length.bit then n else n * 8 % two64)
    else
      match td.implicit with
      | none => do .ok ((← nominalLength td op.nominal) * 8 % two64)
      | some l =>
        if !op.nominal.present then .ok (l * 8)
        else .ok (numberOfValues td op.nominal * l * 8 % two64)
  .ok (if op.dupl.present then bits * toU64 op.dupl.value % two64 else bits)

/-- `data_def_type_base.cpp:90-105` `data_def_type::check`. -/
def checkType (td : TypeDef) (i : Instr) (op : Operand) : Except Crash Bool := do
  let (ret, checkNom) := checkBase td i op
  let own ← checkOwn td op checkNom
  if !(ret && own) then .ok false
  else
    let len ← getLength td op
    .ok (decide (len < 2 ^ 31 * 8))

/-- `data_definition_operand.h:91-100` `check` with `check_type_and_extension`, `data_definition_operand.cpp:25-45`. -/
def Operand.check (i : Instr) (op : Operand) : Except Crash Bool :=
  match accessType op.type op.ext with
  | none => .ok false
  | some td => checkType td i op

/-- `data_definition_operand.cpp:47-54` `get_length`. -/
def Operand.getLength (op : Operand) : Except Crash Nat :=
  match accessType op.type op.ext with
  | none => .ok 0
  | some td => DataDef.getLength td op

/-- `data_def_type_base.cpp:331-337` `get_alignment`, the boundary. -/
def TypeDef.getAlignment (td : TypeDef) (lengthPresent : Bool) : Nat := if lengthPresent then 1 else td.align

/-- `data_definition_operand.cpp:56-63` `get_alignment`. -/
def Operand.alignment (op : Operand) : Nat :=
  match accessType op.type op.ext with
  | none => 1
  | some td => td.getAlignment op.length.present

/-- `data_def_fields.h:101-105` `round_up`. -/
def roundUp (n m : Nat) : Nat := (n + m - 1) / m * m

/-- The loop of `get_operands_length`, `data_definition_operand.h:64-84`; `none` is `return 0`.  The sum is kept
without a limit: every operand has fewer than 2^34 bits, it would need 2^30 of them. -/
def operandsLoop (i : Instr) : List Operand → Nat → Except Crash (Option Nat)
  | [], bits => .ok (some bits)
  | op :: r, bits => do
    if !(← op.check i) then .ok none
    else
      let bits := if op.length.bit then bits else roundUp (roundUp bits 8) (op.alignment * 8)
      operandsLoop i r (bits + (← op.getLength))

/-- `data_definition_operand.h:61-89` `get_operands_length`: the length in bytes. -/
def operandsLength (i : Instr) (ops : List Operand) : Except Crash Nat := do
  match ← operandsLoop i ops 0 with
  | none => .ok 0
  | some bits => .ok (roundUp bits 8 / 8)

/-- `data_def_postponed_statement.h:46-64` `get_operands_length`: 0 if the length does not fit into 31 bits. -/
def statementLength (i : Instr) (ops : List Operand) : Except Crash Nat := do
  let len ← operandsLength i ops
  .ok (if len > 2147483647 then 0 else len)

/-! ### attributes -/

/-- The virtual function `get_nominal_length_attribute`: `data_def_types_string.cpp:114-125, 149-160, 187-198, 247-261,
301-312`, `data_def_types_fixed_point.cpp:220-240, 263-280`.  Types P and Z do not ask which alternative the variant
holds.  Not overridden: as for `nominalLength`. -/
def nominalLengthAttr (td : TypeDef) (nom : NominalField) : Except Crash Nat :=
  let guarded (absent : Nat) (f : Text → Nat) : Except Crash Nat :=
    if !nom.present then .ok absent
    else match nom.value with
      | .str s => .ok (f s)
      | .exprs _ => .ok 0
  match td.type, td.ext with
  | 'B', _ => guarded 1 (xbLengthAttr · 8)
  | 'C', 'U' => guarded 2 fun s => 2 * s.length
  | 'C', _ => guarded 1 fun s => s.length
  | 'G', _ => guarded 2 gLength
  | 'X', _ => guarded 1 (xbLengthAttr · 2)
  | 'P', _ => if !nom.present then .ok 1 else do .ok (pLengthAttr (← getText nom.value))
  | 'Z', _ => if !nom.present then .ok 1 else do .ok (zLengthAttr (← getText nom.value))
  | _, _ => .ok 0

/-- `data_def_type_base.cpp:378-395` `get_length_attribute`.  The value is an `uint32_t`; a negative length modifier
becomes a large number. -/
def lengthAttr (td : TypeDef) (length : Length) (nom : NominalField) : Except Crash Nat :=
  if length.present then
    .ok (if length.bit then (((length.value + 8 - 1).tdiv 8 * 8) % 4294967296).toNat / 8
      else (length.value % 4294967296).toNat)
  else
    match td.implicit with
    | none => nominalLengthAttr td nom
    | some l => .ok l

/-- `data_def_type_base.cpp:167-171`, `data_def_types_fixed_point.cpp:169-188` `get_implicit_scale`. -/
def implicitScale (td : TypeDef) (nom : NominalField) : Int :=
  if td.type == 'P' || td.type == 'Z' then
    if !nom.present then 0
    else match nom.value with
      | .str s => narrow16 (pzScaleLoop s 0 false)
      | .exprs _ => 0
  else 0

/-- `data_def_type_base.cpp:397-403` `get_scale_attribute`. -/
def scaleAttr (td : TypeDef) (scale : Field Int) (nom : NominalField) : Int :=
  if scale.present then scale.value else implicitScale td nom

/-- The virtual function `get_integer_attribute_impl`: `data_def_type_base.cpp:173-177`,
`data_def_types_fixed_point.cpp:98-101, 242-245, 282`, `data_def_types_floating_point.cpp:124-133`.  The arithmetic
on `uint32_t` converted to `int32_t` is done on integers; it agrees as long as the result fits. -/
def integerImpl (td : TypeDef) (length : Nat) (scale : Int) : Int :=
  match td.type, td.ext with
  | 'H', _ | 'F', _ => 8 * length - scale - 1
  | 'P', _ => 2 * length - scale - 1
  | 'Z', _ => length - scale
  | 'E', e | 'D', e | 'L', e =>
    if e == 'D' || e == 'B' then 0
    else if length > 8 then 2 * (length - 1) - scale - 2
    else 2 * (length - 1) - scale
  | _, _ => 0

/-- `data_definition_operand.cpp:74-90` and `data_def_type_base.cpp:405-413`: the length, scale and integer attributes
of an operand. -/
def Operand.attributes (op : Operand) : Except Crash (Nat × Int × Int) :=
  match accessType op.type op.ext with
  | none => .ok (0, 0, 0)
  | some td => do
    let l ← lengthAttr td op.length op.nominal
    let s := scaleAttr td op.scale op.nominal
    .ok (l, s, integerImpl td l s)

/-! ### the statement -/

/-- An operand as the parser hands it over (`expressions/data_definition.h`), its expressions replaced by what they
turn out to be. -/
structure Definition where
  dupl : Arg
  type : Char
  ext : Char
  length : Arg
  bit : Bool
  scale : Arg
  exponent : Arg
  nominal : Option Nominal
  deriving Repr, DecidableEq

/-- `semantics/operand_impls.cpp:544-560` `get_operand_value` with the `evaluate_*` functions of
`expressions/data_definition.cpp:276-377`. -/
def Definition.operand (d : Definition) : Operand where
  dupl := setField d.dupl
  type := d.type
  ext := d.ext
  length := ⟨(setField d.length).present, (setField d.length).value, d.bit⟩
  exponent := setField d.exponent
  scale := ⟨(setField d.scale).present, narrow16 (setField d.scale).value⟩
  nominal := match d.nominal with
    | none => noNominal
    | some n => ⟨true, n⟩

/-- `expressions/data_definition.cpp:73-80` `data_definition::get_alignment`: whether a length modifier is written decides,
not whether it can be evaluated. -/
def Definition.alignment (d : Definition) : Nat :=
  match accessType d.type d.ext with
  | none => 1
  | some td => td.getAlignment (d.length != .none)

/-- The attributes of a label as L', S' and I' show them. -/
structure Attributes where
  length : Nat
  scale : Int
  integer : Int
  deriving Repr, DecidableEq

/-- `asm_processor.cpp:219-239`: the attributes the label of a statement gets from the first operand.  The scale is
left undefined unless a scale modifier is written; S' of an undefined scale is 0
(`context/ordinary_assembly/symbol_attributes.cpp:176-190`). -/
def Definition.label (d : Definition) : Except Crash Attributes := do
  let (l, s, i) ← d.operand.attributes
  .ok ⟨l, if d.scale != .none && d.scale != .pending then s else 0, i⟩

/-- What a statement does: where its storage begins, where the location counter is afterwards, and the attributes of
the label. -/
structure Outcome where
  start : Nat
  next : Nat
  label : Option Attributes
  deriving Repr, DecidableEq

/-- `asm_processor.cpp:175-218`: the alignment of the statement is that of its first operand. -/
def firstAlignment : List (Option Definition) → Nat
  | some d :: _ => d.alignment
  | _ => 1

/-- `asm_processor.cpp:219-246`: only a label asks for the attributes of the first operand. -/
def labelAttributes (label : Bool) : List (Option Definition) → Except Crash (Option Attributes)
  | some d :: _ => if label then d.label.map some else .ok none
  | _ => .ok none

/-- `asm_processor.cpp:175-298` `process_data_instruction`, for a statement none of whose expressions depends on
undefined symbols, with a label or without.  An operand that is left empty is `none`.  The location counter is an
address; `align` rounds it up, `reserve_storage_area` adds the length.  The label's attributes are computed before the
operands are checked. -/
def process (i : Instr) (label : Bool) (loc : Nat) (ops : List (Option Definition)) : Except Crash Outcome := do
  let start := roundUp loc (firstAlignment ops)
  let attributes ← labelAttributes label ops
  let len ← statementLength i ((ops.filterMap id).map Definition.operand)
  .ok ⟨start, start + len, attributes⟩

end Verif.DataDef
