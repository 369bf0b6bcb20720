import Verif.DataDef.Model

/-
  The messages about the operands of DC and DS: the checks of `Model.lean` together with what they report
  (`checking/data_definition/*`, `data_instruction.cpp`).

  A check is modelled with both of its effects, the value it returns and the list of messages it adds.  Texts of
  messages are their codes with the parameters; the name of the type in them is left out, it is that of the operand.
-/

namespace Verif.DataDef

/-- The modifiers as the messages name them (`data_def_type_base.cpp:255, 257, 314, 315`). -/
inductive Mod
  | length | bitLength | scale | exponent
  deriving Repr, DecidableEq

/-- The messages D007 to D028 about one operand (`diagnostic.cpp:1366-1496`).  `rel` tells whether the text says "with
relocatable symbols"; numbers `k` count the values in the parentheses from 0. -/
inductive Msg
  /-- Bit length not allowed with type -/
  | D007 (rel : Bool)
  /-- The modifier must be between `lo` and `hi` -/
  | D008 (m : Mod) (lo hi : Int) (rel : Bool)
  /-- The modifier not allowed with type -/
  | D009 (m : Mod)
  /-- Wrong format of nominal value -/
  | D010
  /-- Duplication factor must be non-negative -/
  | D011
  /-- Unknown type of data definition -/
  | D012
  /-- Invalid type extension -/
  | D013
  /-- The length modifier must be even -/
  | D014
  /-- Nominal value expected -/
  | D016
  /-- Nominal value enclosed in parentheses expected -/
  | D017
  /-- Nominal value enclosed in apostrophes expected -/
  | D018
  /-- Address in form D(B) is not allowed with type -/
  | D020 (k : Nat)
  /-- Only lengths 3, 4 or 8 are allowed -/
  | D021
  /-- Displacement out of range -/
  | D022 (k : Nat)
  /-- Base register must be between 0 and 15 -/
  | D023 (k : Nat)
  /-- Only lengths 2 to 4 and 8 are allowed -/
  | D024
  /-- The modifier is ignored with type (a warning) -/
  | D025 (m : Mod)
  /-- Invalid round mode -/
  | D026
  /-- Data definition operand is longer than 2^31 bytes -/
  | D028
  deriving Repr, DecidableEq

/-- The severity (`diagnostic.cpp:1366-1496`): D025 is a warning, all others are errors. -/
def Msg.error : Msg → Bool
  | .D025 _ => false
  | _ => true

/-- A part of an operand that has a range of its own (`data_def_fields.h:29-96`, `data_definition_operand.h:25-38`). -/
inductive Part
  | dupl | type | ext | length | scale | exponent | nominal | operand
  | value (k : Nat) | displacement (k : Nat) | base (k : Nat)
  deriving Repr, DecidableEq

/-- The range of a modifier: the field `check_modifier` is called with, `data_def_type_base.cpp:255-257, 314-315`. -/
def Mod.part : Mod → Part
  | .length => .length
  | .bitLength => .length
  | .scale => .scale
  | .exponent => .exponent

/-- The range each message is given: the first argument of the calls of `diagnostic_op::error_D0xx` in
`data_def_type_base.cpp`, `data_def_types_*.cpp`, `data_definition_operand.cpp`. -/
def Msg.place : Msg → Part
  | .D007 _ => .length
  | .D008 m _ _ _ => m.part
  | .D009 m => m.part
  | .D010 => .nominal
  | .D011 => .dupl
  | .D012 => .type
  | .D013 => .ext
  | .D014 => .length
  | .D016 => .operand
  | .D017 => .operand
  | .D018 => .operand
  | .D020 k => .value k
  | .D021 => .length
  | .D022 k => .displacement k
  | .D023 k => .base k
  | .D024 => .length
  | .D025 m => m.part
  | .D026 => .nominal
  | .D028 => .operand

/-- What a check returns and what it adds. -/
abbrev Rep := Bool × List Msg

/-- `ret &= check(...)`: both are done, whatever the first returns. -/
def Rep.and (a b : Rep) : Rep := (a.1 && b.1, a.2 ++ b.2)

/-- A check that fails with one message: `add_diagnostic(...); return false;`, as in `data_def_type_base.cpp:234-237`. -/
def Rep.fail (m : Msg) : Rep := (false, [m])

/-- A check that passes: `return true`. -/
def Rep.fine : Rep := (true, [])

/-- `data_def_type_base.cpp:120-151` `check_modifier`. -/
def reportModifier (m : Mod) (present : Bool) (value : Int) (spec : ModSpec) : Rep :=
  if !present || spec == .noCheck then Rep.fine
  else
    match spec with
    | .noCheck => Rep.fine
    | .ignored => (true, [.D025 m])
    | .na => Rep.fail (.D009 m)
    | .bound lo hi => if value < lo ∨ value > hi then Rep.fail (.D008 m lo hi false) else Rep.fine

/-- `data_def_type_base.cpp:230-241` `check_dupl_factor`. -/
def reportDupl (op : Operand) : Rep :=
  if op.dupl.present then
    if op.dupl.value < 0 then Rep.fail .D011 else Rep.fine
  else Rep.fine

/-- `data_def_type_base.cpp:243-259` `check_length`. -/
def reportLength (td : TypeDef) (i : Instr) (op : Operand) : Rep :=
  if td.bitLength == .na && op.length.bit then Rep.fail (.D007 false)
  else if op.length.bit then reportModifier .bitLength op.length.present op.length.value (lengthSpec td i true)
  else reportModifier .length op.length.present op.length.value (lengthSpec td i false)

/-- `data_def_type_base.cpp:179-211` `check_nominal_present`: what it returns first and adds, and whether to check the
nominal value. -/
def reportPresent (i : Instr) (op : Operand) : Rep × Bool :=
  match i with
  | .DC =>
    let checkNom := !(decide (op.dupl.value = 0) && op.dupl.present)
    if !op.nominal.present && checkNom then (Rep.fail .D016, false)
    else if op.nominal.present then (Rep.fine, true)
    else (Rep.fine, checkNom)
  | .DS => if op.nominal.present then (Rep.fine, true) else (Rep.fine, false)

/-- The loop of `check_nominal_type`, `data_def_type_base.cpp:280-288`, from the value number `k` on. -/
def reportAddresses (k : Nat) : List Value → List Msg
  | [] => []
  | v :: l => (if v.isAddress then [.D020 k] else []) ++ reportAddresses (k + 1) l

/-- `data_def_type_base.cpp:261-303` `check_nominal_type`. -/
def reportNominalType (td : TypeDef) (op : Operand) : Rep :=
  match td.nominal, op.nominal.value with
  | .string, .str _ => Rep.fine
  | .string, .exprs _ => Rep.fail .D018
  | .expressions, .str _ => Rep.fail .D017
  | .expressions, .exprs l => (!l.any Value.isAddress, reportAddresses 0 l)
  | .addressOrExpression, .str _ => Rep.fail .D017
  | .addressOrExpression, .exprs _ => Rep.fine

/-- The part of `check_base`, `data_def_type_base.cpp:306-327`, about the modifiers. -/
def reportModifiers (td : TypeDef) (i : Instr) (op : Operand) : Rep :=
  (((reportDupl op).and (reportLength td i op)).and
    (reportModifier .scale op.scale.present op.scale.value td.scale)).and
    (reportModifier .exponent op.exponent.present op.exponent.value td.exponent)

/-- `data_def_type_base.cpp:306-327` `check_base`: what it returns first and adds, and whether to check the nominal
value. -/
def reportBase (td : TypeDef) (i : Instr) (op : Operand) : Rep × Bool :=
  let ret := (reportModifiers td i op).and (reportPresent i op).1
  if (reportPresent i op).2 then (ret.and (reportNominalType td op), (reportNominalType td op).1)
  else (ret, false)

/-- `data_def_types_address.cpp:36-92` `check_A_AD_Y_length`. -/
def reportALength (op : Operand) (minAbs maxAbs minSym maxSym minBit maxBit : Int) : Except Crash Rep :=
  if !op.length.present then .ok Rep.fine
  else do
    let l ← getExprs op.nominal.value
    let abs ← allAbsolute l
    let v := op.length.value
    if abs then
      if op.length.bit = true ∧ (v < minBit ∨ v > maxBit) then .ok (Rep.fail (.D008 .bitLength minBit maxBit false))
      else if op.length.bit = false ∧ (v < minAbs ∨ v > maxAbs) then .ok (Rep.fail (.D008 .length minAbs maxAbs false))
      else .ok Rep.fine
    else
      if op.length.bit = true then .ok (Rep.fail (.D007 true))
      else if v < minSym ∨ v > maxSym then .ok (Rep.fail (.D008 .length minSym maxSym true))
      else .ok Rep.fine

/-- One turn of the loop of `check_S_SY_operand`, `data_def_types_address.cpp:149-201`, for the value number `k`. -/
def reportSValue (size : Nat) (signed : Bool) (k : Nat) : Value → Rep
  | .address base disp ignored =>
    if ignored then Rep.fine
    else
      (if signed then (if !sizeSigned disp.value size then Rep.fail (.D022 k) else Rep.fine)
        else (if !sizeUnsigned disp.value size then Rep.fail (.D022 k) else Rep.fine)).and
      (if !sizeUnsigned base.value 4 then Rep.fail (.D023 k) else Rep.fine)
  | .expr v _ ignored =>
    if ignored then Rep.fine
    else if signed then (if !sizeSigned v size then Rep.fail (.D022 k) else Rep.fine)
    else (if !sizeUnsigned v size then Rep.fail (.D022 k) else Rep.fine)

/-- The loop of `check_S_SY_operand`, `data_def_types_address.cpp:147-202`, from the value number `k` on. -/
def reportSLoop (size : Nat) (signed : Bool) (k : Nat) : List Value → Rep
  | [] => Rep.fine
  | v :: l => (reportSValue size signed k v).and (reportSLoop size signed (k + 1) l)

/-- `data_def_types_address.cpp:143-203` `check_S_SY_operand`. -/
def reportS (size : Nat) (signed : Bool) (op : Operand) : Except Crash Rep := do
  let l ← getExprs op.nominal.value
  .ok (reportSLoop size signed 0 l)

/-- The check of a length that must be one of a few, with its message,
`data_def_types_address.cpp:243-251, 263-271, 294-303, 310-319`. -/
def reportLengthIn (op : Operand) (l : List Int) (m : Msg) : Rep :=
  if op.length.present && !l.contains op.length.value then Rep.fail m else Rep.fine

/-- The check of a length that must be even, `data_def_types_string.cpp:200-208, 225-234`. -/
def reportEven (op : Operand) : Rep :=
  if op.length.present = true ∧ Int.tmod op.length.value 2 = 1 then Rep.fail .D014 else Rep.fine

/-- The end of one turn of the loop of `data_def_type_E_D_L::check`, `data_def_types_floating_point.cpp:96-119`. `inl`
is the message with which it returns. -/
def edlNextMsg (ext : Char) (s : Text) : Msg ⊕ Text :=
  match roundMode ext s with
  | none => .inl .D026
  | some q =>
    if !q.isEmpty && at0 q != ',' then .inl .D010
    else .inr q.tail

theorem edlNextMsg_le {ext : Char} {s r : Text} (h : edlNextMsg ext s = .inr r) : r.length ≤ s.length - 1 := by
  unfold edlNextMsg at h
  split at h
  · cases h
  · rename_i q hq
    split at h
    · cases h
    · injection h with h
      subst h
      have := roundMode_le hq
      simp only [List.length_tail]
      omega

/-- The loop of `data_def_type_E_D_L::check`, `data_def_types_floating_point.cpp:75-121`, from the position `s` on:
the message with which it returns `false`. -/
def edlMsg (ext : Char) (s : Text) : Option Msg :=
  if s.isEmpty then none
  else
    match h : checkNumber edlSpec s with
    | none => some .D010
    | some r =>
      if at0 r == 'E' then
        match h' : checkExponent r with
        | none => some .D010
        | some q =>
          if q.isEmpty then none
          else
            match h'' : edlNextMsg ext q with
            | .inl m => some m
            | .inr t => edlMsg ext t
      else
        match h'' : edlNextMsg ext r with
        | .inl m => some m
        | .inr t => edlMsg ext t
termination_by s.length
decreasing_by
  · have h1 := checkNumber_le h
    have h2 := checkExponent_le h'
    have h3 := edlNextMsg_le h''
    have : s.length ≠ 0 := by intro h0; simp_all
    omega
  · have h1 := checkNumber_le h
    have h3 := edlNextMsg_le h''
    have : s.length ≠ 0 := by intro h0; simp_all
    omega

/-- `data_def_types_floating_point.cpp:57-122` `data_def_type_E_D_L::check` on the text of the nominal value. -/
def reportEDL (ext : Char) (nom : Text) : Rep :=
  if nom.isEmpty then Rep.fail .D010
  else if back0 nom == ',' then Rep.fail .D010
  else
    match edlMsg ext nom with
    | none => Rep.fine
    | some m => Rep.fail m

/-- A check of a text every `return false` of which is preceded by D010: `data_def_types_string.cpp:90-104, 279-291`,
`data_def_types_fixed_point.cpp:47-96, 137-167`. -/
def reportText (ok : Bool) : Rep := if ok then Rep.fine else Rep.fail .D010

/-- The virtual function `data_def_type::check` of every type, cited at `checkOwn`. -/
def reportOwn (td : TypeDef) (op : Operand) (checkNom : Bool) : Except Crash Rep :=
  match td.type, td.ext with
  | 'B', _ => if !checkNom then .ok Rep.fine else do .ok (reportText (checkCommaSeparated isBinary (← getText op.nominal.value)))
  | 'X', _ => if !checkNom then .ok Rep.fine else do .ok (reportText (checkCommaSeparated isHex (← getText op.nominal.value)))
  | 'C', 'U' => .ok (reportEven op)
  | 'C', _ => .ok Rep.fine
  | 'G', _ => .ok (reportEven op)
  | 'H', _ => if !checkNom then .ok Rep.fine else do .ok (reportText (checkHF (← getText op.nominal.value)))
  | 'F', _ => if !checkNom then .ok Rep.fine else do .ok (reportText (checkHF (← getText op.nominal.value)))
  | 'P', _ => if !checkNom then .ok Rep.fine else do .ok (reportText (checkPZ (← getText op.nominal.value)))
  | 'Z', _ => if !checkNom then .ok Rep.fine else do .ok (reportText (checkPZ (← getText op.nominal.value)))
  | 'A', 'D' => if !checkNom then .ok Rep.fine else reportALength op 1 8 2 8 1 128
  | 'A', _ => if !checkNom then .ok Rep.fine else reportALength op 1 8 2 4 1 128
  | 'Y', _ => if !checkNom then .ok Rep.fine else reportALength op 1 2 2 2 1 16
  | 'S', 'Y' => if !checkNom then .ok Rep.fine else reportS 20 true op
  | 'S', _ => if !checkNom then .ok Rep.fine else reportS 12 false op
  | 'R', 'D' => .ok (reportLengthIn op [3, 4, 8] .D021)
  | 'V', 'D' => .ok (reportLengthIn op [3, 4, 8] .D021)
  | 'J', _ => .ok (reportLengthIn op [2, 3, 4, 8] .D024)
  | 'E', e => if !checkNom then .ok Rep.fine else do .ok (reportEDL e (← getText op.nominal.value))
  | 'D', e => if !checkNom then .ok Rep.fine else do .ok (reportEDL e (← getText op.nominal.value))
  | 'L', e => if !checkNom then .ok Rep.fine else do .ok (reportEDL e (← getText op.nominal.value))
  | _, _ => .ok Rep.fine

/-- `data_def_type_base.cpp:90-105` `data_def_type::check`. -/
def reportType (td : TypeDef) (i : Instr) (op : Operand) : Except Crash Rep := do
  let base := reportBase td i op
  let own ← reportOwn td op base.2
  let ret := base.1.and own
  if !ret.1 then .ok ret
  else
    let len ← getLength td op
    if len ≥ 2 ^ 31 * 8 then .ok (false, ret.2 ++ [.D028]) else .ok ret

/-- `data_definition_operand.h:91-100` `check` with `check_type_and_extension`, `data_definition_operand.cpp:25-45`. -/
def Operand.report (i : Instr) (op : Operand) : Except Crash Rep :=
  match accessType op.type op.ext with
  | some td => reportType td i op
  | none =>
    if op.ext ≠ '\x00' then
      match accessType op.type '\x00' with
      | some _ => .ok (Rep.fail .D013)
      | none => .ok (Rep.fail .D012)
    else .ok (Rep.fail .D012)

/-! ### the statement -/

/-- The messages about a statement: those about the operand number `j`, and those of the statement itself.  A004 is
made without a range (`diagnostic.cpp:41-44`), the others have the range of the statement. -/
inductive StMsg
  /-- number of operands has to be at least 1 -/
  | A010
  /-- Data definition operand expected -/
  | A004
  | op (j : Nat) (m : Msg)
  /-- Data definition operands are longer than 2^31 bytes -/
  | D029
  deriving Repr, DecidableEq

/-- The severity (`diagnostic.cpp:41-52, 1498-1502`): those of the statement are all errors. -/
def StMsg.error : StMsg → Bool
  | .op _ m => m.error
  | _ => true

/-- The loop of `check_data`, `data_instruction.cpp:44-58`, from the operand number `j` on.  `none` is an operand that
is left empty, a `checking::empty_operand` (`low_language_processor.cpp:264-269`). -/
def reportOperands (i : Instr) : Nat → List (Option Operand) → Except Crash (Bool × List StMsg)
  | _, [] => .ok (true, [])
  | j, none :: r => do
    let (_, ms) ← reportOperands i (j + 1) r
    .ok (false, .A004 :: ms)
  | j, some op :: r => do
    let (b, ms) ← op.report i
    let (b', ms') ← reportOperands i (j + 1) r
    .ok (b && b', ms.map (.op j) ++ ms')

/-- `data_instruction.cpp:32-71` `check_data` with `operands_size_corresponding` (`asm_instr_class.cpp:28-43`) for at
least one operand. -/
def reportStatement (i : Instr) (ops : List (Option Operand)) : Except Crash (Bool × List StMsg) :=
  if ops.length < 1 then .ok (false, [.A010])
  else do
    let (ret, ms) ← reportOperands i 0 ops
    if !ret then .ok (false, ms)
    else
      let len ← operandsLength i (ops.filterMap id)
      if len > 2147483647 then .ok (false, ms ++ [.D029]) else .ok (true, ms)

end Verif.DataDef
