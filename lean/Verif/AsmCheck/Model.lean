/-!
What is checked of the operands of assembler instructions (checking/asm_instr_check.cpp, checking/asm_instr_class.cpp).

Left out: ORG (C100), DC, DS and DXD (data definitions), COPY, USING and EQU (their checks are made elsewhere or not at all) and
`*PROCESS` (C116). Texts are of characters of one byte.
-/
namespace Verif.AsmCheck

/-- `one_operand`, `complex_operand` and `empty_operand` (checking/instr_operand.h). The value of a simple operand is there when
`is_default` is false. -/
inductive AOp where
  | simple (text : String) (value : Option Int)
  | complex (id : String) (params : List AOp)
  | empty

/-- Where a message is put: the statement, an operand, a parameter of an operand. -/
inductive Where where
  | stmt
  | op (i : Nat)
  | param (i j : Nat)
  deriving DecidableEq, Repr

/-- A message: its number (`A110` is 110, diagnostic.cpp), as in the name of the function that makes it (`shown` in Message.lean), and its
place. -/
structure Diag where
  code : Nat
  place : Where
  deriving DecidableEq, Repr

/-- What `check` returns and the messages it has added. -/
structure Out where
  ok : Bool
  diags : List Diag
  deriving DecidableEq, Repr

def accept : Out := ⟨true, []⟩
def refuse (code : Nat) (place : Where) : Out := ⟨false, [⟨code, place⟩]⟩

/-- The classes of instructions that are modelled (instruction_checker.cpp 41-420): `noOperands` is COM, CSECT, CXD, DSECT, EJECT,
LOCTR, LTORG, REPRO and RSECT; `expression` is CEJECT, SPACE and START; `external` is EXTRN and WXTRN; `stack` is POP and PUSH. -/
inductive Instr where
  | noOperands | expression | cnop | ictl | iseq | entry | external | end_ | mnote | opsyn | stack | print | punch | rmode | amode
  | title | drop | ccw | alias | ainsert | adata | cattr | exitctl | xattr | acontrol
  deriving DecidableEq, Repr

/-! ## Helpers (checker_helper.h) -/

/-- `has_all_digits` (checker_helper.h 63). -/
def allDigits (s : String) : Bool := s.toList.all Char.isDigit

/-- `is_power_of_two` (checker_helper.h 88-93). -/
def powerOfTwo (n : Int) : Bool := if 0 ≤ n then n.toNat &&& (n.toNat - 1) == 0 else false

/-- `is_byte_value` (checker_helper.h 86). -/
def byteValue (n : Int) : Bool := n ≤ 255 && 0 ≤ n

/-- `is_ord_symbol` (checker_helper.h 95-100). The assertion on the empty text is left out. -/
def ordSymbol (l : List Char) : Bool :=
  match l with
  | [] => false
  | c :: r => (c :: r).length ≤ 63 && c.isAlpha && (c :: r).all Char.isAlphanum

/-- `is_var_symbol` (checker_helper.h 102-106). -/
def varSymbol (l : List Char) : Bool :=
  match l with
  | [] => false
  | c :: r => c == '&' && ordSymbol r

/-- The text begins and ends with an apostrophe (`front()` and `back()`); asked of texts of two characters or more only. -/
def quoted (l : List Char) : Bool := l.head? == some '\'' && l.getLast? == some '\''

/-- `is_character_string` (checker_helper.h 108-111). -/
def charString (l : List Char) : Bool := l.isEmpty || !(l.length == 1 || decide (255 < l.length))

/-- `is_operand_empty` (checker_helper.h 53-56). -/
def AOp.isEmpty : AOp → Bool
  | .empty => true
  | _ => false

/-- `is_operand_complex` (checker_helper.h 43-46). -/
def AOp.isComplex : AOp → Bool
  | .complex .. => true
  | _ => false

/-- The text of a simple operand, if it is one (`get_simple_operand`, checker_helper.h 33-36). -/
def AOp.text? : AOp → Option String
  | .simple t _ => some t
  | _ => none

/-- The value of a simple operand that is not `is_default`. -/
def AOp.value? : AOp → Option Int
  | .simple _ v => v
  | _ => none

/-- A simple operand with its text among those given: `simple != nullptr && is_param_in_vector(…)` (asm_instr_class.cpp 22-26). -/
def AOp.among (o : AOp) (l : List String) : Bool := o.text?.any (l.contains ·)

/-- `operands_size_corresponding` (asm_instr_class.cpp 28-43), then the rest of the check. -/
def sized (lo : Nat) (hi : Option Nat) (ops : List AOp) (k : Out) : Out :=
  if lo ≤ ops.length && hi.all (fun h => decide (ops.length ≤ h)) then k
  else match hi with
    | none => refuse 10 .stmt
    | some h => if lo = h then refuse 11 .stmt else if h - lo = 1 then refuse 13 .stmt else refuse 12 .stmt

/-- A loop over operands that returns false with a message at the first that is wrong. -/
def firstWrong (f : Nat → AOp → Option Diag) : Nat → List AOp → Option Diag
  | _, [] => none
  | i, o :: r => (f i o).or (firstWrong f (i + 1) r)

def outOf : Option Diag → Out
  | none => accept
  | some d => ⟨false, [d]⟩

/-! ## The checks (asm_instr_check.cpp) -/

/-- 1326-1331 -/
def checkNoOperands (ops : List AOp) : Out := sized 0 (some 0) ops accept

/-- 1026-1037 -/
def checkExpression1 : AOp → Out
  | .simple _ (some v) => if 0 < v then accept else refuse 148 (.op 0)
  | .simple _ none => refuse 148 (.op 0)
  | _ => refuse 240 (.op 0)

/-- 1015-1038 -/
def checkExpression (ops : List AOp) : Out :=
  match ops with
  | [] => accept
  | [.empty, .empty] => accept
  | o :: r => sized 0 (some 1) (o :: r) (checkExpression1 o)

/-- 958-975; `byte % 2 == 1` is asked when `byte` is not negative. -/
def checkCnop2 (byte boundary : Int) : Out :=
  if byte < 0 ∨ byte % 2 = 1 then refuse 144 (.op 0)
  else if boundary < 0 ∨ boundary > 4096 ∨ powerOfTwo boundary = false then refuse 145 (.op 1)
  else if byte > boundary - 2 then refuse 146 (.op 0)
  else accept

/-- 938-976 -/
def checkCnop (ops : List AOp) : Out :=
  sized 2 (some 2) ops (match ops with
    | a :: b :: _ => match a.value?, b.value? with
      | none, _ => refuse 143 (.op 0)
      | some _, none => refuse 143 (.op 1)
      | some x, some y => checkCnop2 x y
    | _ => accept)

/-- The body of the loop 629-640. -/
def ictlForm (i : Nat) : AOp → Option Diag
  | .simple t (some _) => if allDigits t then none else some ⟨if i = 0 then 122 else 242, .op i⟩
  | _ => some ⟨if i = 0 then 122 else 242, .op i⟩

/-- 649-679; `count` is the number of operands, `continuation` is none for -1. -/
def checkIctl2 (begin end_ : Int) (continuation : Option Int) : Out :=
  if begin < 1 ∨ begin > 40 then refuse 123 (.op 0)
  else if end_ < 41 ∨ end_ > 80 then refuse 124 (.op 1)
  else if end_ < begin + 5 then refuse 125 (.op 1)
  else match continuation with
    | none => accept
    | some c => if c < 2 ∨ c > 40 then refuse 126 (.op 2) else if c ≤ begin then refuse 127 .stmt else accept

/-- 642-650: the values, with 72 and 16 for operands that are not there. -/
def ictlValues (ops : List AOp) : Int × Int × Option Int :=
  let value (o : AOp) : Int := o.value?.getD 0
  match ops with
  | [a] => (value a, 72, some 16)
  | [a, b] => (value a, value b, none)
  | a :: b :: c :: _ => (value a, value b, if value b = 80 then none else some (value c))
  | [] => (1, 72, some 16)

/-- 624-679 -/
def checkIctl3 (ops : List AOp) : Out :=
  match ops with
  | .empty :: _ => refuse 21 (.op 0)
  | _ => match firstWrong ictlForm 0 ops with
    | some d => ⟨false, [d]⟩
    | none => checkIctl2 (ictlValues ops).1 (ictlValues ops).2.1 (ictlValues ops).2.2

/-- 615-680 -/
def checkIctl (ops : List AOp) : Out := sized 1 (some 3) ops (checkIctl3 ops)

/-- 595-606 -/
def checkIseq2 (left right : Int) : Out :=
  if left ≥ 1 ∧ left ≤ 80 ∧ right ≥ 1 ∧ right ≤ 80 ∧ right ≥ left then accept
  else if right < left then refuse 121 .stmt
  else refuse 120 .stmt

/-- 580-610 -/
def checkIseq (ops : List AOp) : Out :=
  match ops with
  | [] => accept
  | [a, b] => match a.value?, b.value? with
    | some l, some r => checkIseq2 l r
    | _, _ => refuse 120 .stmt
  | _ => refuse 13 .stmt

/-- The body of the loop 791-799. -/
def entryOperand (i : Nat) (o : AOp) : Option Diag :=
  if o.text?.any (· ≠ "") then none else some ⟨136, .op i⟩

/-- 780-801 -/
def checkEntry (ops : List AOp) : Out :=
  sized 1 none ops (if ops.length > 65535 then refuse 14 .stmt else outOf (firstWrong entryOperand 0 ops))

/-- The body of the loop 691-725. -/
def externalOperand (i : Nat) : AOp → Option Diag
  | .complex id ps =>
    if id ≠ "PART" then some ⟨129, .op i⟩
    else if ps.all (fun p => p.text?.any (· ≠ "")) then none else some ⟨129, .op i⟩
  | .simple t _ => if t = "" then some ⟨129, .op i⟩ else none
  | .empty => some ⟨21, .op i⟩

/-- 685-727 -/
def checkExternal (ops : List AOp) : Out := sized 1 none ops (outOf (firstWrong externalOperand 0 ops))

/-- The body of the loop 844-852; here the place is a parameter of the second operand. -/
def endParam (j : Nat) (p : AOp) : Option Diag := if p.text?.isSome then none else some ⟨248, .param 1 j⟩

/-- 853-875 -/
def endTexts (a b c : String) : Out :=
  if a.length = 0 ∨ a.length > 10 then refuse 138 (.param 1 0)
  else if b.length ≠ 4 then refuse 139 (.param 1 1)
  else if c.length ≠ 5 ∨ allDigits c = false then refuse 140 (.param 1 2)
  else accept

/-- 825-876 -/
def endLanguage : AOp → Out
  | .empty => accept
  | .simple .. => refuse 1 (.op 1)
  | .complex id ps =>
    if ps.length ≠ 3 then refuse 16 .stmt
    else if id ≠ "" then refuse 137 (.op 1)
    else match firstWrong endParam 0 ps with
      | some d => ⟨false, [d]⟩
      | none => match ps.filterMap AOp.text? with
        | [a, b, c] => endTexts a b c
        | _ => accept

/-- 806-878 -/
def checkEnd (ops : List AOp) : Out :=
  sized 0 (some 2) ops (match ops with
    | [] => accept
    | o :: r => if o.isComplex then refuse 243 (.op 0) else match r with
      | [l] => endLanguage l
      | _ => accept)

/-- 542-574, `last` and `first` are the operands with their places; `first` is none when it is empty or not there. -/
def mnoteTexts (last : String) (at_ : Nat) (first : Option (String × Option Int)) : Out :=
  if last.length < 2 ∨ quoted last.toList = false then refuse 300 (.op at_)
  else if last.length > 1020 then refuse 117 (.op at_)
  else match first with
    | none => accept
    | some (t, v) =>
      if t.length + last.length > 1024 then refuse 118 .stmt
      else if t = "*" then accept
      else if allDigits t = false then refuse 119 (.op 0)
      else if v.any byteValue then accept
      else refuse 119 (.op 0)

/-- 517-575 -/
def checkMnote (ops : List AOp) : Out :=
  sized 1 (some 2) ops (match ops with
    | [.simple t _] => mnoteTexts t 0 none
    | [_] => refuse 117 (.op 0)
    | [.simple s v, .simple t _] => mnoteTexts t 1 (some (s, v))
    | [.empty, .simple t _] => mnoteTexts t 1 none
    | [_, .simple _ _] => refuse 119 (.op 0)
    | [_, _] => refuse 117 (.op 1)
    | _ => accept)

/-- 495-512 -/
def checkOpsyn (ops : List AOp) : Out :=
  sized 0 (some 1) ops (match ops with
    | [o] => if o.isComplex then refuse 246 (.op 0) else accept
    | _ => accept)

/-- The loop 357-431; `seen` are the options met so far, `n` the number of operands. -/
def stackLoop (n : Nat) (seen : List String) (i : Nat) : List AOp → Out
  | [] => accept
  | .simple t _ :: r =>
    if t = "ACONTROL" ∨ t = "PRINT" ∨ t = "USING" then
      (if t ∈ seen then refuse 112 .stmt else stackLoop n (t :: seen) (i + 1) r)
    else if t = "NOPRINT" then
      (if i ≠ n - 1 then refuse 113 (.op i) else if n = 1 then refuse 114 .stmt else stackLoop n seen (i + 1) r)
    else refuse (if i = n - 1 then 110 else 111) (.op i)
  | _ :: _ => refuse (if i = n - 1 then 110 else 111) (.op i)

/-- 348-433 -/
def checkStack (ops : List AOp) : Out := sized 1 (some 4) ops (stackLoop ops.length [] 0 ops)

/-- 327-330 -/
def printOptions : List String :=
  ["GEN", "DATA", "MCALL", "MSOURCE", "UHEAD", "NOGEN", "NODATA", "NOMCALL", "NOMSOURCE", "NOUHEAD", "ON", "OFF", "NOPRINT"]

def printOperand (i : Nat) (o : AOp) : Option Diag := if o.among printOptions then none else some ⟨109, .op i⟩

/-- 321-343 -/
def checkPrint (ops : List AOp) : Out := sized 1 none ops (outOf (firstWrong printOperand 0 ops))

/-- The loop 301-311 from a position on; the characters from there to the end are given. -/
def punchSize : List Char → Nat
  | a :: b :: r => if (a = '&' ∧ b = '&') ∨ (a = '\'' ∧ b = '\'') then 1 + punchSize r else 1 + punchSize (b :: r)
  | _ => 0

/-- 283-316 -/
def checkPunch (ops : List AOp) : Out :=
  sized 1 (some 1) ops (match ops with
    | .simple t _ :: _ =>
      if t.length < 2 ∨ quoted t.toList = false then refuse 300 (.op 0)
      else if punchSize t.toList ≤ 80 then accept else refuse 108 (.op 0)
    | _ => refuse 244 (.op 0))

/-- 21 -/
def rmodeOptions : List String := ["24", "31", "64", "ANY"]
/-- 1157 -/
def amodeOptions : List String := ["24", "31", "64", "ANY", "ANY31", "ANY64"]

/-- 265-278 -/
def checkRmode (ops : List AOp) : Out :=
  sized 1 (some 1) ops (if ops.head?.any (·.among rmodeOptions) then accept else refuse 107 (.op 0))

/-- 1150-1164 -/
def checkAmode (ops : List AOp) : Out :=
  sized 1 (some 1) ops (if ops.head?.any (·.among amodeOptions) then accept else refuse 150 (.op 0))

/-- 235-260 -/
def checkTitle (ops : List AOp) : Out :=
  sized 1 (some 1) ops (match ops with
    | .simple t _ :: _ =>
      if t.length > 102 ∨ t.length < 3 then refuse 106 (.op 0)
      else if quoted t.toList = false then refuse 300 (.op 0)
      else accept
    | _ => refuse 106 (.op 0))

/-- The body of the loop 888-910. -/
def dropOperand (i : Nat) : AOp → Option Diag
  | .simple _ (some v) => if byteValue v then none else some ⟨141, .op i⟩
  | .simple t none => if ordSymbol t.toList || varSymbol t.toList then none else some ⟨141, .op i⟩
  | _ => some ⟨141, .op i⟩

/-- 883-912 -/
def checkDrop (ops : List AOp) : Out :=
  match ops with
  | [.empty, .empty] => accept
  | _ => outOf (firstWrong dropOperand 0 ops)

/-- The body of the loop 987-1005. -/
def ccwOperand (i : Nat) : AOp → Option Diag
  | .empty => some ⟨147, .op i⟩
  | .simple .. => none
  | .complex .. => some ⟨if i = 1 then 247 else 143, .op i⟩

/-- 981-1007 -/
def checkCcw (ops : List AOp) : Out := sized 4 (some 4) ops (outOf (firstWrong ccwOperand 0 ops))

/-- The characters of the regular expression 1187 that are of one byte. -/
def aliasChar (c : Char) : Bool :=
  c.isAlphanum || ".<(+|&!$*);-/,%_>?`,:#@=\"~[]{}^\\".toList.contains c

/-- The value of a hexadecimal digit. -/
def hexDigit (c : Char) : Option Nat :=
  if '0' ≤ c ∧ c ≤ '9' then some (c.toNat - 48)
  else if 'a' ≤ c ∧ c ≤ 'f' then some (c.toNat - 87)
  else if 'A' ≤ c ∧ c ≤ 'F' then some (c.toNat - 55)
  else none

/-- `isspace`, the characters `stoul` skips at the start. -/
def isSpaceChar (c : Char) : Bool := c = ' ' ∨ (9 ≤ c.toNat ∧ c.toNat ≤ 13)

/-- `std::stoul` to base 16 of two characters, converted to `int` (1216-1224): none for an exception. Blanks are skipped, a sign may
come first, and the number ends at the first character that is no digit. `0x` and `0X` are dealt with before. -/
def stoul2 (a b : Char) : Option Int :=
  match hexDigit a with
  | some x => match hexDigit b with
    | some y => some (16 * x + y : Nat)
    | none => some (x : Nat)
  | none =>
    if a = '-' then (hexDigit b).map (fun y => -(y : Nat) : Nat → Int)
    else if a = '+' || isSpaceChar a then (hexDigit b).map (fun y => (y : Nat) : Nat → Int)
    else none

/-- The loop 1205-1230 from a position on: the characters from there to the end, the last being the apostrophe. -/
def aliasPairs : List Char → Out
  | a :: b :: r =>
    if a = '0' ∧ (b = 'x' ∨ b = 'X') then refuse 153 (.op 0)
    else match stoul2 a b with
      | none => refuse 153 (.op 0)
      | some v => if v < 0x42 ∨ v > 0xFE then refuse 155 (.op 0) else aliasPairs r
  | _ => accept

/-- 1181-1239 -/
def aliasText (l : List Char) : Out :=
  match l with
  | p :: '\'' :: r =>
    if r.getLast? = some '\'' then
      if p = 'C' then (if r.dropLast.all aliasChar then accept else refuse 152 (.op 0))
      else if p = 'X' then (if l.length % 2 = 1 then refuse 154 (.op 0) else aliasPairs r)
      else ⟨false, []⟩
    else refuse 151 (.op 0)
  | _ => refuse 151 (.op 0)

/-- 1169-1240 -/
def checkAlias (ops : List AOp) : Out :=
  sized 1 (some 1) ops (match ops with
    | .simple t _ :: _ => if t.length < 3 then refuse 151 (.op 0) else aliasText t.toList
    | _ => refuse 151 (.op 0))

/-- 1253-1277 -/
def checkAinsert2 (a b : AOp) : Out :=
  match a with
  | .simple t _ =>
    if t.length < 2 ∨ t.length > 80 then refuse 157 (.op 0)
    else if quoted t.toList = false then refuse 301 (.op 0)
    else if t.length = 2 then refuse 21 (.op 0)
    else if b.among ["BACK", "FRONT"] then accept else refuse 156 (.op 1)
  | _ => refuse 157 (.op 0)

/-- 1245-1278 -/
def checkAinsert (ops : List AOp) : Out :=
  sized 2 (some 2) ops (match ops with
    | a :: b :: _ => checkAinsert2 a b
    | _ => accept)

/-- The body of the loop 1290-1301. -/
def adataValue (i : Nat) : AOp → Option Diag
  | .empty => none
  | .simple _ (some _) => none
  | _ => some ⟨158, .op i⟩

/-- 1303-1320 -/
def adataString : AOp → Out
  | .empty => accept
  | .complex .. => refuse 239 (.op 4)
  | .simple t _ =>
    let warn : List Diag := if t.length = 1 ∨ (t.length > 1 ∧ quoted t.toList = false) then [⟨300, .op 4⟩] else []
    if charString t.toList then ⟨true, warn⟩ else ⟨false, warn ++ [⟨160, .op 4⟩]⟩

/-- 1283-1321 -/
def checkAdata (ops : List AOp) : Out :=
  sized 5 (some 5) ops (match firstWrong adataValue 0 ops.dropLast, ops.getLast? with
    | some d, _ => ⟨false, [d]⟩
    | none, some o => adataString o
    | none, none => accept)

/-- 1049-1059 -/
def cattrSimple : List String :=
  ["DEFLOAD", "EXECUTABLE", "MOVABLE", "NOLOAD", "NOTEXECUTABLE", "NOTREUS", "READONLY", "REFR", "REMOVABLE", "RENT", "REUS"]

/-- A parameter of digits with a value that `f` allows. -/
def AOp.digits (f : Int → Bool) : AOp → Bool
  | .simple t (some v) => allDigits t && f v
  | _ => false

/-- 1086-1136, the identifier being one of the five. -/
def cattrParam (i : Nat) (id : String) (p : AOp) : Option Diag :=
  if id = "RMODE" then (if p.among rmodeOptions then none else some ⟨204, .param i 0⟩)
  else if id = "ALIGN" then (if p.among ["0", "1", "2", "3", "4", "12"] then none else some ⟨205, .param i 0⟩)
  else if id = "FILL" then (if p.digits byteValue then none else some ⟨206, .param i 0⟩)
  else if id = "PART" then (if p.text?.any (fun t => t ≠ "" ∧ t.length ≤ 63) then none else some ⟨207, .param i 0⟩)
  else if p.digits (fun v => decide (0 < v)) then none else some ⟨208, .param i 0⟩

/-- The body of the loop 1060-1143. -/
def cattrOperand (i : Nat) : AOp → Option Diag
  | .simple t v => if (AOp.simple t v).among cattrSimple then none else some ⟨149, .op i⟩
  | .complex id ps =>
    if ["RMODE", "ALIGN", "FILL", "PART", "PRIORITY"].contains id = false then some ⟨149, .op i⟩
    else match ps with
      | [p] => cattrParam i id p
      | _ => some ⟨16, .stmt⟩
  | .empty => some ⟨21, .op i⟩

/-- 1043-1145 -/
def checkCattr (ops : List AOp) : Out := sized 1 none ops (outOf (firstWrong cattrOperand 0 ops))

/-- 739-741 -/
def exitTypes : List String := ["SOURCE", "LIBRARY", "LISTING", "PUNCH", "ADATA", "TERM", "OBJECT"]

/-- The body of the loop 749-765. -/
def exitctlValue (i : Nat) : AOp → Option Diag
  | .empty => none
  | .complex .. => some ⟨20, .op i⟩
  | .simple _ none => some ⟨131, .op i⟩
  | .simple _ (some _) => none

/-- 732-767 -/
def checkExitctl (ops : List AOp) : Out :=
  sized 2 (some 5) ops (match ops with
    | o :: r => if o.among exitTypes then outOf (firstWrong exitctlValue 1 r) else refuse 130 (.op 0)
    | [] => accept)

/-- The loop 96-132 over the parameters of REFERENCE. -/
def xattrRefs (i : Nat) (direct code : Bool) (j : Nat) : List AOp → Option Diag
  | [] => none
  | .simple t _ :: r =>
    if t = "DIRECT" ∨ t = "INDIRECT" then (if direct then some ⟨202, .param i j⟩ else xattrRefs i true code (j + 1) r)
    else if t = "DATA" ∨ t = "CODE" then (if code then some ⟨203, .param i j⟩ else xattrRefs i direct true (j + 1) r)
    else some ⟨238, .param i j⟩
  | _ :: _ => some ⟨238, .param i j⟩

/-- 62-84, of an option with one parameter. -/
def xattrParam (i : Nat) (id : String) (p : AOp) : Option Diag :=
  if id = "SCOPE" then
    (if p.among ["SECTION", "MODULE", "LIBRARY", "IMPORT", "EXPORT", "S", "M", "L", "X"] then none else some ⟨200, .param i 0⟩)
  else if id = "LINKAGE" ∨ id = "LINK" then (if p.among ["OS", "XPLINK"] then none else some ⟨201, .param i 0⟩)
  else none

/-- The body of the loop 35-140. -/
def xattrOperand (i : Nat) : AOp → Option Diag
  | .complex id ps =>
    if ["ATTRIBUTES", "ATTR", "LINK", "LINKAGE", "SCOPE", "PSECT"].contains id then
      match ps with
      | [p] => xattrParam i id p
      | _ => some ⟨16, .stmt⟩
    else if id = "REFERENCE" ∨ id = "REF" then
      (if ps.length = 0 ∨ ps.length > 2 then some ⟨18, .stmt⟩ else xattrRefs i false false 0 ps)
    else some ⟨100, .op i⟩
  | _ => some ⟨1, .op i⟩

/-- 29-142 -/
def checkXattr (ops : List AOp) : Out := sized 1 none ops (outOf (firstWrong xattrOperand 0 ops))

/-- asm_instr_class.cpp 51-68 -/
def compatKeywords : List String :=
  ["NOCASE", "NOLITTYPE", "NOMACROCASE", "NOSYSLIST", "NOTRANSDT", "NOLIT", "NOMC", "NOSYSL", "NOTRS", "CASE", "LITTYPE",
    "MACROCASE", "SYSLIST", "TRANSDT", "LIT", "MC", "SYSL", "TRS"]

/-- asm_instr_class.cpp 85-104 -/
def flagKeywords : List String :=
  ["NOALIGN", "NOCONT", "NOEXLITW", "NOIMPLEN", "NOPAGE0", "NOSUBSTR", "NOUSING0", "NOAL", "NOSUB", "NOUS0", "ALIGN", "CONT",
    "EXLITW", "IMPLEN", "PAGE0", "SUBSTR", "USING0", "AL", "SUB", "US0"]

/-- asm_instr_class.cpp 149-151; the array has room for thirteen texts and is given twelve, the last is empty. -/
def optableNames : List String :=
  ["DOS", "ESA", "XA", "370", "YOP", "ZOP", "ZS3", "ZS4", "ZS5", "ZS6", "ZS7", "ZS8", ""]

/-- asm_instr_class.cpp 179-181 -/
def typecheckKeywords : List String :=
  ["MAGNITUDE", "REGISTER", "MAG", "REG", "NOMAGNITUDE", "NOREGISTER", "NOMAG", "NOREG"]

/-- `check_flag_operand` (asm_instr_class.cpp 81-119) in the loop asm_instr_check.cpp 1407-1418. -/
def flagParam (i j : Nat) : AOp → Option Diag
  | .simple t v =>
    if flagKeywords.contains t then none
    else match v with
      | some n => if allDigits t then (if n < 0 ∨ n > 255 then some ⟨210, .param i j⟩ else none) else some ⟨211, .param i j⟩
      | none => some ⟨211, .param i j⟩
  | _ => some ⟨211, .param i j⟩

/-- asm_instr_check.cpp 1420-1430 with `check_optable_operands` (asm_instr_class.cpp 143-172). -/
def optableParams (i : Nat) : List AOp → Option Diag
  | [a] => if a.among optableNames then none else some ⟨212, .param i 0⟩
  | [a, b] =>
    if a.among optableNames then (if b.among ["LIST", "NOLIST"] then none else some ⟨213, .param i 1⟩)
    else some ⟨212, .param i 0⟩
  | _ => some ⟨18, .stmt⟩

/-- asm_instr_check.cpp 1374-1380 -/
def acontrolSimple : List String :=
  ["AFPR", "LIBMAC", "RA2", "LMAC", "NOAFPR", "NOLIBMAC", "NORA2", "NOLMAC", "NOCOMPAT", "NOTYPECHECK", "NOCPAT", "NOTC"]

/-- asm_instr_check.cpp 1394-1444 -/
def acontrolParams (i : Nat) (id : String) (ps : List AOp) : Option Diag :=
  if id = "COMPAT" ∨ id = "CPAT" then
    firstWrong (fun j p => if p.among compatKeywords then none else some ⟨209, .param i j⟩) 0 ps
  else if id = "FLAG" then firstWrong (flagParam i) 0 ps
  else if id = "OPTABLE" then optableParams i ps
  else firstWrong (fun j p => if p.among typecheckKeywords then none else some ⟨214, .param i j⟩) 0 ps

/-- The body of the loop asm_instr_check.cpp 1367-1451. -/
def acontrolOperand (i : Nat) : AOp → Option Diag
  | .simple t _ => if acontrolSimple.contains t then none else some ⟨161, .op i⟩
  | .complex id ps =>
    if ["CPAT", "COMPAT", "FLAG", "TC", "TYPECHECK", "OPTABLE"].contains id = false then some ⟨161, .op i⟩
    else if ps.isEmpty then some ⟨15, .stmt⟩
    else acontrolParams i id ps
  | .empty => some ⟨21, .op i⟩

/-- 1361-1453 -/
def checkAcontrol (ops : List AOp) : Out := sized 1 none ops (outOf (firstWrong acontrolOperand 0 ops))

/-- `assembler_checker::check` (instruction_checker.cpp 22-38) for the classes of instructions modelled. -/
def check : Instr → List AOp → Out
  | .noOperands => checkNoOperands
  | .expression => checkExpression
  | .cnop => checkCnop
  | .ictl => checkIctl
  | .iseq => checkIseq
  | .entry => checkEntry
  | .external => checkExternal
  | .end_ => checkEnd
  | .mnote => checkMnote
  | .opsyn => checkOpsyn
  | .stack => checkStack
  | .print => checkPrint
  | .punch => checkPunch
  | .rmode => checkRmode
  | .amode => checkAmode
  | .title => checkTitle
  | .drop => checkDrop
  | .ccw => checkCcw
  | .alias => checkAlias
  | .ainsert => checkAinsert
  | .adata => checkAdata
  | .cattr => checkCattr
  | .exitctl => checkExitctl
  | .xattr => checkXattr
  | .acontrol => checkAcontrol

end Verif.AsmCheck
