import Verif.AsmCheck.Model

/-!
What is checked of the operands of `*PROCESS` (checking/asm_instr_check.cpp 1333-1358, checking/asm_instr_class.cpp 46-860). Operands are
those of C102 (`AsmCheck.AOp`). Texts are of characters of one byte; assertions do nothing, as in a release.
-/
namespace Verif.ProcOpt

open AsmCheck (AOp allDigits powerOfTwo byteValue hexDigit isSpaceChar compatKeywords flagKeywords optableNames typecheckKeywords)

/-- Where a message is put: at the statement, at an operand, at a parameter of an operand (the numbers lead from the statement down to
it), or at the first character of the document (a default `range`). -/
inductive Place where
  | stmt
  | at (path : List Nat)
  | lost
  deriving DecidableEq, Repr

/-- A message: its number (`A110` is 110) and its place. -/
structure Msg where
  code : Nat
  place : Place
  deriving DecidableEq, Repr

/-- What a check returns and the messages it has added. -/
structure Out where
  ok : Bool
  msgs : List Msg
  deriving DecidableEq, Repr

/-- How a check ends that does not return: an exception that nothing catches, or undefined behaviour. -/
inductive Bad where
  | throws
  | ub
  deriving DecidableEq, Repr

abbrev R := Except Bad Out

instance (a b : R) : Decidable (a = b) :=
  match a, b with
  | .ok x, .ok y => if h : x = y then .isTrue (h ▸ rfl) else .isFalse (fun e => h (Except.ok.inj e))
  | .error x, .error y => if h : x = y then .isTrue (h ▸ rfl) else .isFalse (fun e => h (Except.error.inj e))
  | .ok _, .error _ => .isFalse (fun e => nomatch e)
  | .error _, .ok _ => .isFalse (fun e => nomatch e)

def fine : R := .ok ⟨true, []⟩
def stop (code : Nat) (p : Place) : R := .ok ⟨false, [⟨code, p⟩]⟩

/-- `std::all_of`, or a loop that returns false at the first element refused; messages are added as they come. -/
def each (f : Nat → AOp → R) : Nat → List AOp → R
  | _, [] => fine
  | i, o :: r => match f i o with
    | .error b => .error b
    | .ok ⟨false, m⟩ => .ok ⟨false, m⟩
    | .ok ⟨true, m⟩ => match each f (i + 1) r with
      | .error b => .error b
      | .ok a => .ok ⟨a.ok, m ++ a.msgs⟩

/-! ## Numbers -/

/-- The number a text of digits writes. -/
def number (base : Nat) (l : List Char) : Nat := l.foldl (fun n c => base * n + (hexDigit c).getD 0) 0

/-- The sign `strtol` reads, and the rest. -/
def signed : List Char → Bool × List Char
  | '-' :: r => (true, r)
  | '+' :: r => (false, r)
  | r => (false, r)

/-- The largest `int` and the smallest. -/
def fitsInt (v : Int) : Bool := -2147483648 ≤ v && v ≤ 2147483647

/-- `std::stoi`: blanks, a sign, digits; what follows is not looked at. None for an exception (no digit, or too large a number). -/
def stoi (l : List Char) : Option Int :=
  let s := signed (l.dropWhile isSpaceChar)
  let d := s.2.takeWhile Char.isDigit
  if d.isEmpty then none
  else
    let v : Int := if s.1 then -(number 10 d : Int) else number 10 d
    if fitsInt v then some v else none

/-- `std::stoul(…, 16)` of a text of hexadecimal digits: none for an exception (no digit, or a number above 64 bits). -/
def stoulHex (l : List Char) : Option Nat :=
  if l.isEmpty then none else if number 16 l < 2 ^ 64 then some (number 16 l) else none

/-- The conversion of an `unsigned long` to `int`. -/
def toInt (n : Nat) : Int := if n % 2 ^ 32 < 2 ^ 31 then (n % 2 ^ 32 : Nat) else (n % 2 ^ 32 : Nat) - (2 ^ 32 : Int)

/-- `isxdigit` -/
def hexChar (c : Char) : Bool := (hexDigit c).isSome

/-- checker_helper.h 115 -/
def daysInMonth : List Nat := [31, 28, 31, 30, 31, 30, 31, 31, 30, 31, 30, 31]

/-- checker_helper.h 128-137 -/
def dateValues (year month day : Nat) : Bool :=
  if month < 1 ∨ month > 12 ∨ day > 31 ∨ day < 1 then false
  else decide (day ≤ daysInMonth.getD (month - 1) 0) ||
    (month == 2 && (year % 4 == 0 && (year % 100 != 0 || year % 400 == 0)) && day == 29)

/-- `is_date` (checker_helper.h 113-138). The texts given to `stoi` are of digits and short, it does not throw. -/
def isDate (t : String) : Bool :=
  if t.toList.length ≠ 8 ∨ allDigits t = false then false
  else dateValues (number 10 (t.toList.take 4)) (number 10 ((t.toList.drop 4).take 2)) (number 10 ((t.toList.drop 6).take 2))

/-! ## Parameters (asm_instr_class.cpp); the path leads to the operand whose parameters they are -/

/-- A loop that asks of each parameter to be simple and one of the texts given: `check_compat_operands` (46-79),
`check_typecheck_operands` (174-193), `check_pcontrol_parameters` (362-395). -/
def keywords (code : Nat) (texts : List String) (p : List Nat) (ps : List AOp) : R :=
  each (fun j o => if o.among texts then fine else stop code (.at (p ++ [j]))) 0 ps

/-- `check_flag_operand` (81-119) -/
def flagOperand (t : String) (v : Option Int) (p : Place) : Out :=
  if flagKeywords.contains t then ⟨true, []⟩
  else match v with
    | some n => if allDigits t then (if n < 0 ∨ n > 255 then ⟨false, [⟨210, p⟩]⟩ else ⟨true, []⟩) else ⟨false, [⟨211, p⟩]⟩
    | none => ⟨false, [⟨211, p⟩]⟩

/-- 125-127 -/
def flagPairs : List String := ["NOPUSH", "NORECORD", "NOPU", "NORC", "PUSH", "RECORD", "PU", "RC"]

/-- The body of the loop 128-139: the message of `check_flag_operand` stays when the text is one of the pairs. -/
def processFlag (p : Place) : AOp → R
  | .simple t v =>
    let a := flagOperand t v p
    .ok ⟨a.ok || flagPairs.contains t, a.msgs⟩
  | _ => stop 211 p

/-- `check_process_flag_parameters` (121-141) -/
def flagParams (p : List Nat) (ps : List AOp) : R := each (fun j o => processFlag (.at (p ++ [j])) o) 0 ps

/-- `check_optable_operands` (143-172), called with one parameter or two. -/
def optableParams (p : List Nat) (a : AOp) (b : Option AOp) : R :=
  if a.among optableNames = false then stop 212 (.at (p ++ [0]))
  else match b with
    | none => fine
    | some b => if b.among ["LIST", "NOLIST"] then fine else stop 213 (.at (p ++ [1]))

/-- 202-232: the text begins with X. -/
def codepageHex (l : List Char) : R :=
  if l.length < 3 ∨ l[1]? ≠ some '\'' ∨ l.getLast? ≠ some '\'' then stop 215 .lost
  else
    let v := (l.drop 2).dropLast
    if v.all hexChar = false then stop 215 .lost
    else match stoulHex v with
      | none => fine
      | some n => if toInt n < 0x474 ∨ toInt n > 0x47C then stop 216 .lost else fine

/-- `check_codepage_parameter` (196-249): `front()` of an empty text is undefined, `stoi` throws on too large a number. The parameter is
made anew from its text (called at 698), so it has no place. -/
def codepage (t : String) : R :=
  match t.toList with
  | [] => .error .ub
  | 'X' :: r => codepageHex ('X' :: r)
  | l =>
    if l.all Char.isDigit = false then stop 215 .lost
    else match stoi l with
      | none => .error .throws
      | some v => if v < 1140 ∨ v > 1148 then stop 216 .lost else fine

/-- 281-321: a parameter of FAIL with one simple parameter. -/
def failNumber (p : List Nat) (id : String) (t : String) : R :=
  match stoi t.toList with
  | none => stop 235 (.at (p ++ [0]))
  | some v =>
    if id = "MNOTE" ∨ id = "MSG" then (if v < 0 ∨ v > 7 then stop 237 (.at (p ++ [0])) else fine)
    else if id = "MAXERRS" ∨ id = "NOMAXERRS" then (if v < 32 ∨ v > 65535 then stop 236 (.at (p ++ [0])) else fine)
    else stop 233 (.at p)

/-- The body of the loop 255-333. -/
def failParam (p : List Nat) : AOp → R
  | .simple t _ => if t = "NOMSG" ∨ t = "NOMNOTE" then fine else stop 233 (.at p)
  | .complex id ps =>
    if (id ≠ "MNOTE" ∧ id ≠ "MSG") ∨ (id ≠ "MAXERRS" ∧ id ≠ "NOMAXERRS") then stop 233 (.at p)
    else match ps with
      | [.simple t _] => failNumber p id t
      | [_] => stop 234 (.at p)
      | _ => stop 16 (.at p)
  | .empty => stop 21 (.at p)

/-- `check_fail_parameters` (251-335) -/
def failParams (p : List Nat) (ps : List AOp) : R := each (fun j o => failParam (p ++ [j]) o) 0 ps

/-- 339-359 -/
def machineNames : List String :=
  ["S370", "S370XA", "S370ESA", "S390", "S390E", "ZSERIES", "ZS", "ZSERIES-2", "ZS-2", "ZSERIES-3", "ZS-3", "ZSERIES-4", "ZS-4",
    "ZSERIES-5", "ZS-5", "ZSERIES-6", "ZS-6", "ZSERIES-7", "ZS-7", "ZSERIES-8", "ZS-8"]

/-- 366-381, 387 -/
def pcontrolTexts : List String :=
  ["DATA", "GEN", "MCALL", "MSOURCE", "UHEAD", "MC", "MS", "UHD", "NODATA", "NOGEN", "NOMCALL", "NOMSOURCE", "NOUHEAD", "NOMC",
    "NOMS", "NOUHD", "ON", "OFF"]

/-- 428-448 -/
def usingWarn (p : List Nat) (t : String) : R :=
  match stoi t.toList with
  | none => stop 228 (.at (p ++ [0]))
  | some v => if byteValue v then fine else stop 229 (.at (p ++ [0]))

/-- `ident.size() >= 3 && ident.front() == 'X' && …` (452-453): the digits between the apostrophes. -/
def hexBody (l : List Char) : Option (List Char) :=
  if l.length ≥ 3 ∧ l.head? = some 'X' ∧ l[1]? = some '\'' ∧ l.getLast? = some '\'' ∧ (l.drop 2).dropLast ≠ [] ∧
    (l.drop 2).dropLast.all hexChar = true then some (l.drop 2).dropLast
  else none

/-- 449-486: `stoul` throws on too large a number. -/
def usingLimit (p : List Nat) (t : String) : R :=
  match hexBody t.toList with
  | some d => match stoulHex d with
    | none => .error .throws
    | some n => if n > 0xFFF then stop 232 (.at p) else fine
  | none => match stoi t.toList with
    | none => stop 230 (.at p)
    | some v => if v > 4095 then stop 231 (.at p) else fine

/-- The body of the loop 401-493. -/
def usingParam (p : List Nat) : AOp → R
  | .simple t _ => if t ≠ "MAP" ∧ t ≠ "NOMAP" ∧ t ≠ "NOWARN" ∧ t ≠ "NOLIMIT" then stop 227 (.at p) else fine
  | .complex id ps =>
    if id ≠ "WARN" ∧ id ≠ "LIMIT" then stop 227 (.at p)
    else match ps with
      | [.simple t _] => if id = "WARN" then usingWarn p t else usingLimit p t
      | _ => stop 228 (.at p)
  | .empty => stop 21 (.at p)

/-- `check_using_parameters` (397-495) -/
def usingParams (p : List Nat) (ps : List AOp) : R := each (fun j o => usingParam (p ++ [j]) o) 0 ps

/-- `check_xref_parameters` (497-522), called with one parameter or more. -/
def xrefParams (p : List Nat) : List AOp → R
  | [] => .error .ub
  | a :: r => match a with
    | .simple t _ =>
      if r.isEmpty ∧ t = "FULL" then fine
      else each (fun j o => if o.among ["SHORT", "UNREFS"] then fine else stop 224 (.at (p ++ [j]))) 0 (a :: r)
    | _ => stop 224 (.at (p ++ [0]))

/-- The body of the loop 536-549. -/
def suprwarnParam (p : List Nat) : AOp → R
  | .simple t _ =>
    if allDigits t = false then stop 225 (.at p)
    else if t.toList.length > 4 ∨ t.toList.isEmpty then stop 226 (.at p)
    else fine
  | _ => stop 225 (.at p)

/-- `check_suprwarn_parameters` (524-551) -/
def suprwarnParams (p : List Nat) (ps : List AOp) : R := each (fun j o => suprwarnParam (p ++ [j]) o) 0 ps

/-- 690-745: the parameter of an option with one parameter; that of PROFILE is not looked at. -/
def oneParam (p : List Nat) (id : String) (a : AOp) : R :=
  if id = "CODEPAGE" ∨ id = "CP" then
    match a with
    | .simple t _ => codepage t
    | _ => stop 215 (.at (p ++ [0]))
  else if id = "INFO" then
    match a with
    | .simple t (some _) => if isDate t then fine else stop 217 (.at (p ++ [0]))
    | _ => stop 217 (.at (p ++ [0]))
  else if id = "MXREF" ∨ id = "MX" then (if a.among ["FULL", "SOURCE", "XREF"] then fine else stop 218 (.at (p ++ [0])))
  else if id = "SECTALGN" then
    match a with
    | .simple t (some v) =>
      if allDigits t = false then stop 219 (.at (p ++ [0]))
      else if powerOfTwo v = false ∨ v < 8 ∨ v > 4096 then stop 220 (.at (p ++ [0]))
      else fine
    | _ => stop 219 (.at (p ++ [0]))
  else fine

/-- 754-778: MACHINE. -/
def machineParams (p : List Nat) (a : AOp) (b : Option AOp) : R :=
  if a.among machineNames = false then stop 222 (.at (p ++ [0]))
  else match b with
    | none => fine
    | some b => if b.among ["LIST", "NOLIST"] then fine else stop 221 (.at (p ++ [1]))

/-- 801-849: the options with one parameter or more. -/
def manyParams (p : List Nat) (id : String) (ps : List AOp) : R :=
  if id = "COMPAT" ∨ id = "CPAT" then keywords 209 compatKeywords p ps
  else if id = "TYPECHECK" ∨ id = "TC" then keywords 214 typecheckKeywords p ps
  else if id = "PCONTROL" ∨ id = "PC" then keywords 223 pcontrolTexts p ps
  else if id = "XREF" then xrefParams p ps
  else if id = "SUPRWARN" ∨ id = "SUP" ∨ id = "NOSUPRWARN" ∨ id = "NOSUP" then suprwarnParams p ps
  else flagParams p ps

/-- 559-614 -/
def pairOptions : List String :=
  ["ALIGN", "BATCH", "DBCS", "DXREF", "DX", "ERASE", "ESD", "FOLD", "ILMA", "PROFILE", "PROF", "INFO", "LIBMAC", "LMAC", "PRINT",
    "PR", "RA2", "RENT", "RLD", "RXREF", "RX", "SEG", "TEST", "THREAD", "THR", "WORKFILE", "MXREF", "MX", "NOALIGN", "NOBATCH",
    "NODBCS", "NODXREF", "NODX", "NOERASE", "NOESD", "NOFOLD", "NOILMA", "NOPROFILE", "NOPROF", "NOINFO", "NOLIBMAC", "NOLMAC",
    "NOPRINT", "NOPR", "NORA2", "NORENT", "NORLD", "NORXREF", "NORX", "NOSEG", "NOTEST", "NOTHREAD", "NOTHR", "NOWORKFILE",
    "NOMXREF", "NOMX"]

/-- 615-630 -/
def otherOptions : List String :=
  ["NOCOMPAT", "NOCPAT", "DISK", "DI", "NOFAIL", "NOPCONTROL", "NOPC", "NOTYPECHECK", "NOTC", "NOUSING", "NOUS", "NOXREF",
    "PESTOP=YES", "PESTOP=NO", "NOSUPRWARN", "NOSUP"]

/-- 642-644 -/
def oneNames : List String := ["CODEPAGE", "CP", "INFO", "MXREF", "MX", "SECTALGN", "PROFILE", "PROF"]

/-- 645 -/
def twoNames : List String := ["MACHINE", "MAC", "OPTABLE", "OP"]

/-- 646-657 -/
def manyNames : List String :=
  ["COMPAT", "CPAT", "FLAG", "PCONTROL", "PC", "XREF", "SUPRWARN", "SUP", "NOSUPRWARN", "NOSUP", "TYPECHECK", "TC"]

/-- 658 -/
def complexNames : List String := ["US", "FAIL", "USING"]

/-- 746-791 -/
def twoParams (p : List Nat) (id : String) (a : AOp) (b : Option AOp) : R :=
  if id = "MACHINE" ∨ id = "MAC" then machineParams p a b else optableParams p a b

/-- 639-850 -/
def complexOption (p : List Nat) (id : String) (ps : List AOp) : R :=
  if oneNames.contains id = false ∧ manyNames.contains id = false ∧ twoNames.contains id = false ∧ complexNames.contains id = false
  then stop 162 (.at p)
  else if id = "FAIL" then failParams p ps
  else if id = "USING" ∨ id = "US" then usingParams p ps
  else if oneNames.contains id then
    match ps with
    | [a] => oneParam p id a
    | _ => stop (if id = "INFO" then 18 else 16) (.at p)
  else if twoNames.contains id then
    match ps with
    | [a] => twoParams p id a none
    | [a, b] => twoParams p id a (some b)
    | _ => stop 18 (.at p)
  else if ps.isEmpty then stop 15 (.at p)
  else manyParams p id ps

/-- `check_assembler_process_operand` (553-858) -/
def option (p : List Nat) : AOp → R
  | .simple t _ => if pairOptions.contains t = false ∧ otherOptions.contains t = false then stop 162 (.at p) else fine
  | .complex id ps => complexOption p id ps
  | .empty => stop 21 (.at p)

/-- `process::check` (asm_instr_check.cpp 1336-1358) with `operands_size_corresponding` (asm_instr_class.cpp 28-43) -/
def check (ops : List AOp) : R :=
  match ops with
  | [] => stop 10 .stmt
  | [.complex "OVERRIDE" ps] => each (fun i o => option [0, i] o) 0 ps
  | ops => each (fun i o => option [i] o) 0 ops

end Verif.ProcOpt
