import Verif.Mach.Tables

/-!
The help for instructions: what hovering over an operation code shows and what completion inserts.

Modelled: `/repo/parser_library/src/lsp/completion_item.cpp` 35-226 (`instruction_completion_items_`), `parameter::to_string` and
`machine_operand_format::to_string` (`/repo/parser_library/src/checking/instr_operand.cpp` 344-395), the tables of formats, of
conditional assembly and of assembler instructions (`/repo/parser_library/src/context/instruction.cpp` 21-173) and the built-in
instructions in `lsp_context::find_hover` (`/repo/parser_library/src/lsp/lsp_context.cpp` 458-467). The tables of machine
instructions and mnemonics are those of `Verif.Mach.Tables`. Not modelled: the order of the items in the list completion offers.
-/
namespace Verif.Help
open Verif.Mach

/-- Texts. -/
abbrev Text := List Char

/-- `t!"text"` is the list of the characters of the text. -/
macro:max "t!" s:str : term => do
  let cs : Lean.TSyntaxArray `term := (s.getString.toList.map fun c => (Lean.Syntax.mkCharLit c : Lean.TSyntax `term)).toArray
  `([$cs,*])

/-- The characters of a name, from the number the model has for it (`OpName`); `fuel` bounds their number. -/
def nameChars : Nat → OpName → Text → Text
  | 0, _, acc => acc
  | fuel + 1, n, acc => if n = 0 then acc else nameChars fuel (n / 256) (Char.ofNat (n % 256) :: acc)

/-- The text of a name. -/
def nameText (n : OpName) : Text := nameChars 16 n []

/-- `std::to_string` of a number. -/
def numText (n : Nat) : Text := Nat.toDigits 10 n

/-- What a `std::stringstream` made from a text holds after something has been written: writing begins at the first
character of the text. -/
def stream (initial written : Text) : Text := written ++ initial.drop written.length

/-- `parameter::to_string` (`instr_operand.cpp` 344-384). -/
def _root_.Verif.Mach.Param.text (p : Param) : Text :=
  let sized (letters : Text) : Text := letters ++ numText p.size ++ (if p.signed then t!"S" else t!"U")
  match p.ty with
  | .mask => t!"M"
  | .reg => t!"R"
  | .regImm => sized t!"RI"
  | .imm => sized t!"I"
  | .none => []
  | .displc => sized t!"D"
  | .base => t!"B"
  | .length => sized t!"L"
  | .vecReg => t!"V"
  | .disReg => t!"X"

/-- `machine_operand_format::to_string` (`instr_operand.cpp` 386-395). -/
def _root_.Verif.Mach.Fmt.text (f : Fmt) : Text :=
  if f.first.isEmpty && f.second.isEmpty then f.id.text
  else if f.first.isEmpty then f.id.text ++ t!"(" ++ f.second.text ++ t!")"
  else f.id.text ++ t!"(" ++ f.first.text ++ t!"," ++ f.second.text ++ t!")"

/-- `mach_format_to_string` (`instruction.cpp` 21-100). -/
def formatText : MF → Text
  | .E => t!"E"
  | .I => t!"I"
  | .IE => t!"IE"
  | .MII => t!"MII"
  | .RI_a => t!"RI-a"
  | .RI_b => t!"RI-b"
  | .RI_c => t!"RI-c"
  | .RIE_a => t!"RIE-a"
  | .RIE_b => t!"RIE-b"
  | .RIE_c => t!"RIE-c"
  | .RIE_d => t!"RIE-d"
  | .RIE_e => t!"RIE-e"
  | .RIE_f => t!"RIE-f"
  | .RIE_g => t!"RIE-g"
  | .RIL_a => t!"RIL-a"
  | .RIL_b => t!"RIL-b"
  | .RIL_c => t!"RIL-c"
  | .RIS => t!"RIS"
  | .RR => t!"RR"
  | .RRD => t!"RRD"
  | .RRE => t!"RRE"
  | .RRF_a => t!"RRF-a"
  | .RRF_b => t!"RRF-b"
  | .RRF_c => t!"RRF-c"
  | .RRF_d => t!"RRF-d"
  | .RRF_e => t!"RRF-e"
  | .RRS => t!"RRS"
  | .RS_a => t!"RS-a"
  | .RS_b => t!"RS-b"
  | .RSI => t!"RSI"
  | .RSL_a => t!"RSL-a"
  | .RSL_b => t!"RSL-b"
  | .RSY_a => t!"RSY-a"
  | .RSY_b => t!"RSY-b"
  | .RX_a => t!"RX-a"
  | .RX_b => t!"RX-b"
  | .RXE => t!"RXE"
  | .RXF => t!"RXF"
  | .RXY_a => t!"RXY-a"
  | .RXY_b => t!"RXY-b"
  | .S => t!"S"
  | .SI => t!"SI"
  | .SIL => t!"SIL"
  | .SIY => t!"SIY"
  | .SMI => t!"SMI"
  | .SS_a => t!"SS-a"
  | .SS_b => t!"SS-b"
  | .SS_c => t!"SS-c"
  | .SS_d => t!"SS-d"
  | .SS_e => t!"SS-e"
  | .SS_f => t!"SS-f"
  | .SSE => t!"SSE"
  | .SSF => t!"SSF"
  | .VRI_a => t!"VRI-a"
  | .VRI_b => t!"VRI-b"
  | .VRI_c => t!"VRI-c"
  | .VRI_d => t!"VRI-d"
  | .VRI_e => t!"VRI-e"
  | .VRI_f => t!"VRI-f"
  | .VRI_g => t!"VRI-g"
  | .VRI_h => t!"VRI-h"
  | .VRI_i => t!"VRI-i"
  | .VRR_a => t!"VRR-a"
  | .VRR_b => t!"VRR-b"
  | .VRR_c => t!"VRR-c"
  | .VRR_d => t!"VRR-d"
  | .VRR_e => t!"VRR-e"
  | .VRR_f => t!"VRR-f"
  | .VRR_g => t!"VRR-g"
  | .VRR_h => t!"VRR-h"
  | .VRR_i => t!"VRR-i"
  | .VRS_a => t!"VRS-a"
  | .VRS_b => t!"VRS-b"
  | .VRS_c => t!"VRS-c"
  | .VRS_d => t!"VRS-d"
  | .VSI => t!"VSI"
  | .VRV => t!"VRV"
  | .VRX => t!"VRX"

/-! ## Machine instructions -/

/-- The comma written if the operand is not the first one. -/
def comma (i : Nat) : Text := if i ≠ 0 then t!"," else []

/-- What the body of the loop over the operands adds to `detail_ss` (`completion_item.cpp` 46-84); `i` is the number of the operand, `n`
the number of operands, `opt` is `no_optional`. -/
def detailPart (opt n i : Nat) (op : Fmt) : Text :=
  if opt = 1 ∧ n - i = 1 then t!"[" ++ comma i ++ op.text ++ t!"]"
  else if opt = 2 ∧ n - i = 2 then t!"[" ++ comma i ++ op.text ++ t!"]"
  else if opt = 2 ∧ n - i = 1 then op.text ++ t!"]]"
  else comma i ++ op.text

/-- What it adds to `autocomplete`. -/
def insertPart (opt n i : Nat) (op : Fmt) : Text :=
  if opt = 1 ∧ n - i = 1 then t!" [" ++ comma i ++ op.text ++ t!"]"
  else if opt = 2 ∧ n - i = 2 then t!" [" ++ comma i ++ op.text ++ t!"[,"
  else if opt = 2 ∧ n - i = 1 then op.text ++ t!"]]"
  else comma i ++ op.text

/-- The loop (`completion_item.cpp` 46). -/
def parts (part : Nat → Fmt → Text) : Nat → List Fmt → Text
  | _, [] => []
  | i, op :: ops => part i op ++ parts part (i + 1) ops

/-- `completion_item_kind` (`completion_item.h`), as far as it is used here. -/
inductive Kind where
  | mach | asm | ca
deriving DecidableEq, Repr

/-- `completion_item_s` (`completion_item.h`). -/
structure Item where
  label : OpName
  detail : Text
  insert : Text
  doc : Text
  kind : Kind
deriving DecidableEq, Repr

/-- The item of a machine instruction (`completion_item.cpp` 41-93). -/
def machItem (ins : Instr) : Item where
  label := ins.name
  detail := t!"Operands: " ++ stream [] (parts (detailPart ins.opt ins.ops.length) 0 ins.ops)
  insert := nameText ins.name ++ t!"   " ++ stream [] (parts (insertPart ins.opt ins.ops.length) 0 ins.ops)
  doc := stream t!" " (t!"Machine instruction \nInstruction format: " ++ formatText ins.fmt)
  kind := .mach

/-! ## Assembler instructions -/

/-- The assembler instructions and their descriptions (`instruction.cpp` 124-173). -/
def asmInstrs : List (OpName × Text) := [
  (n!"*PROCESS", t!""),
  (n!"ACONTROL", t!"<selection>+"),
  (n!"ADATA", t!"value1,value2,value3,value4,character_string"),
  (n!"AINSERT", t!"'record',BACK|FRONT"),
  (n!"ALIAS", t!"alias_string"),
  (n!"AMODE", t!"amode_option"),
  (n!"CATTR", t!"attribute+"),
  (n!"CCW", t!"command_code,data_address,flags,data_count"),
  (n!"CCW0", t!"command_code,data_address,flags,data_count"),
  (n!"CCW1", t!"command_code,data_address,flags,data_count"),
  (n!"CEJECT", t!"?number_of_lines"),
  (n!"CNOP", t!"byte,boundary"),
  (n!"COM", t!""),
  (n!"COPY", t!"member"),
  (n!"CSECT", t!""),
  (n!"CXD", t!""),
  (n!"DC", t!"<operand>+"),
  (n!"DROP", t!"?<<base_register|label>+>"),
  (n!"DS", t!"<operand>+"),
  (n!"DSECT", t!""),
  (n!"DXD", t!"<operand>+"),
  (n!"EJECT", t!""),
  (n!"END", t!"?expression,?language"),
  (n!"ENTRY", t!"entry_point+"),
  (n!"EQU", t!"value,?<length_attribute_value>,?<type_attribute_value>,?<program_type_value>,?<assembler_type_value>"),
  (n!"EXITCTL", t!"exit_type,control_value+"),
  (n!"EXTRN", t!"<external_symbol>+|PART(<external_symbol>+)"),
  (n!"ICTL", t!"begin,?<end>,?<continue>"),
  (n!"ISEQ", t!"?<left,right>"),
  (n!"LOCTR", t!""),
  (n!"LTORG", t!""),
  (n!"MNOTE", t!"?<<severity|*|>,>message"),
  (n!"OPSYN", t!"?operation_code_2"),
  (n!"ORG", t!"expression?<,boundary?<,offset>>"),
  (n!"POP", t!"<PRINT|USING|ACONTROL>+,?NOPRINT"),
  (n!"PRINT", t!"operand+"),
  (n!"PUNCH", t!"string"),
  (n!"PUSH", t!"<PRINT|USING|ACONTROL>+,?NOPRINT"),
  (n!"REPRO", t!""),
  (n!"RMODE", t!"rmode_option"),
  (n!"RSECT", t!""),
  (n!"SPACE", t!"?number_of_lines"),
  (n!"START", t!"?expression"),
  (n!"TITLE", t!"title_string"),
  (n!"USING", t!"operand+"),
  (n!"WXTRN", t!"<external_symbol>+|PART(<external_symbol>+)"),
  (n!"XATTR", t!"attribute+")]

/-- The item of an assembler instruction (`completion_item.cpp` 95-112). -/
def asmItem (e : OpName × Text) : Item where
  label := e.1
  detail := stream [] (nameText e.1 ++ t!"   " ++ e.2)
  insert := nameText e.1 ++ t!"   "
  doc := stream t!" " t!"Assembler instruction"
  kind := .asm

/-! ## Mnemonics -/

/-- `mnemonic_with_operand_ommited` (`completion_item.cpp` 128). -/
def repeating : List OpName := [n!"VNOT", n!"NOTR", n!"NOTGR"]

/-- The two texts of a mnemonic, with the fixed operands and without them, and the variables of the loop (`completion_item.cpp`
119-133). -/
structure MnemSt where
  next : Nat := 0
  first : Bool := true
  withFixed : Text := []
  without : Text := []
deriving DecidableEq, Repr

/-- The part for an operand that is not fixed (`completion_item.cpp` 167-205). -/
def freePart (opt n i : Nat) (first : Bool) (op : Fmt) : Text × Text :=
  let c : Text := if first then [] else t!","
  if opt = 0 then (comma i ++ op.text, c ++ op.text)
  else if opt = 1 ∧ n - i = 1 then (t!"[" ++ comma i ++ op.text ++ t!"]", t!"[" ++ c ++ op.text ++ t!"]")
  else if opt = 2 ∧ n - i = 1 then (op.text ++ t!"]]", op.text ++ t!"]]")
  else if opt = 2 ∧ n - i = 2 then (t!"[" ++ comma i ++ op.text ++ t!"[,", t!"[" ++ c ++ op.text ++ t!"[,")
  else ([], [])

/-- An operand that is not fixed. -/
def MnemSt.free (ins : Instr) (s : MnemSt) (i : Nat) (op : Fmt) : MnemSt :=
  let p := freePart ins.opt ins.ops.length i s.first op
  { s with withFixed := s.withFixed ++ p.1, without := s.without ++ p.2, first := false }

/-- The body of the loop over the operands of the instruction (`completion_item.cpp` 133-209). `none` is the operand before the first
one. -/
def MnemSt.step (m : Mnem) (ins : Instr) (s : MnemSt) (i : Nat) (op : Fmt) : Option MnemSt :=
  match m.replaced[s.next]? with
  | some (place, value) =>
    if place = i then
      if ins.opt = 1 ∧ ins.ops.length - i = 1 then
        some { s with withFixed := s.withFixed ++ t!"[" ++ comma i ++ numText value ++ t!"]" }
      else if repeating.contains m.name then
        match i with
        | 0 => none
        | k + 1 => (ins.ops[k]?).map fun before =>
          { s with withFixed := s.withFixed ++ comma i ++ before.text, next := s.next + 1 }
      else some { s with withFixed := s.withFixed ++ comma i ++ numText value, next := s.next + 1 }
    else some (s.free ins i op)
  | none => some (s.free ins i op)

/-- The loop. -/
def MnemSt.loop (m : Mnem) (ins : Instr) : Nat → List Fmt → MnemSt → Option MnemSt
  | _, [], s => some s
  | i, op :: ops, s => (s.step m ins i op).bind fun s => MnemSt.loop m ins (i + 1) ops s

/-- The item of a mnemonic (`completion_item.cpp` 114-219). -/
def mnemItem (m : Mnem) (ins : Instr) : Option Item :=
  (MnemSt.loop m ins 0 ins.ops {}).map fun s => {
    label := m.name
    detail := stream [] (t!"Operands: " ++ stream t!" " s.without)
    insert := nameText m.name ++ t!"   " ++ stream t!" " s.without
    doc := stream t!" " (t!"Mnemonic code for " ++ nameText ins.name ++ t!" instruction\nSubstituted operands: " ++ stream t!" " s.withFixed ++
      t!"\nInstruction format: " ++ formatText ins.fmt)
    kind := .mach }

/-! ## Conditional assembly -/

/-- The conditional assembly instructions (`instruction.cpp` 102-122). -/
def caInstrs : List OpName := [
  n!"AIF", n!"AGO", n!"ACTR", n!"SETA", n!"SETB", n!"SETC", n!"ANOP", n!"LCLA", n!"LCLB", n!"LCLC", n!"GBLA", n!"GBLB", n!"GBLC", n!"MACRO", n!"MEND", n!"MEXIT", n!"AEJECT", n!"AREAD", n!"ASPACE"]

/-- The item of a conditional assembly instruction (`completion_item.cpp` 221-224). -/
def caItem (n : OpName) : Item := ⟨n, [], nameText n, t!"Conditional Assembly", .ca⟩

/-! ## Hovering -/

/-- The item with the label looked for (`lsp_context.cpp` 460-462), `instruction_completion_items_` being the machine instructions, the
assembler instructions, the mnemonics and the conditional assembly instructions. The maps hold one entry of a name, the first
one. `none` is an access outside of a vector or a mnemonic without an instruction while the list is made. -/
def findItem (T : Tables) (n : OpName) : Option (Option Item) :=
  match T.instr n with
  | some ins => some (some (machItem ins))
  | none => match asmInstrs.find? (·.1 == n) with
    | some e => some (some (asmItem e))
    | none => match T.mnem n with
      | some m => ((T.instr m.base).bind (mnemItem m)).map some
      | none => some ((caInstrs.find? (· == n)).map caItem)

/-- `find_hover` for an operation code that is not a macro (`lsp_context.cpp` 458-467). -/
def hover (T : Tables) (n : OpName) : Option Text :=
  (findItem T n).map fun
    | none => []
    | some it => it.detail ++ t!"  \n" ++ it.doc

end Verif.Help
