import Verif.Attr.Model
import Verif.Sect.Model
/-!
System variables: what they are set to when an analysis starts and when a macro is called, and what a statement sees when it asks for
them (`/repo/parser_library/src/context/hlasm_context.cpp` 57-246, 253-265, 424-442, 705-720, `context/variables/system_variable.cpp`,
`processing/context_manager.cpp` 34-97). C141. &SYSNDX is C33, what &SYSLIST is made of is C34, the current section is C123.
-/
namespace Verif.SysVar
open Verif.Context

/-- `std::tm` as `std::localtime` fills it (hlasm_context.cpp 172-173). Simplified: `year` is `tm_year + 1900`, and not negative. -/
structure Tm where
  year : Nat
  mon : Nat
  mday : Nat
  hour : Nat
  min : Nat
deriving DecidableEq, Repr

def cZero : UInt8 := 48
def cSlash : UInt8 := 47
def cColon : UInt8 := 58

/-- A zero is put in front of a number below ten (hlasm_context.cpp 182-186, 193-197, 215-216, 219-220). -/
def padded (n : Nat) : Bytes := if n < 10 then cZero :: toDec n else toDec n

/-- The value of &SYSDATC (hlasm_context.cpp 179-202). -/
def datc (t : Tm) : Bytes := toDec t.year ++ (padded (t.mon + 1) ++ padded t.mday)

/-- The value of &SYSDATE (hlasm_context.cpp 182-208). `year.c_str() + 2`: for a year of one digit this reads behind the string, which
is undefined; here nothing is left then. -/
def date (t : Tm) : Bytes := padded (t.mon + 1) ++ (cSlash :: (padded t.mday ++ (cSlash :: (toDec t.year).drop 2)))

/-- The value of &SYSTIME (hlasm_context.cpp 214-223). -/
def time (t : Tm) : Bytes := padded t.hour ++ (cColon :: padded t.min)

def SYSDATC : Name := "SYSDATC".toUTF8.toList
def SYSDATE : Name := "SYSDATE".toUTF8.toList
def SYSTIME : Name := "SYSTIME".toUTF8.toList
def SYSPARM : Name := "SYSPARM".toUTF8.toList
def SYSOPT_RENT : Name := "SYSOPT_RENT".toUTF8.toList
def SYSECT : Name := "SYSECT".toUTF8.toList
def SYSSTYP : Name := "SYSSTYP".toUTF8.toList
def SYSLOC : Name := "SYSLOC".toUTF8.toList
def SYSNEST : Name := "SYSNEST".toUTF8.toList
def SYSMAC : Name := "SYSMAC".toUTF8.toList
def sOpenCode : Bytes := "OPEN CODE".toUTF8.toList

/-- The variables `add_global_system_vars` makes (hlasm_context.cpp 160-235), with their values; &SYSOPT_RENT has none, which is false. -/
def globalVars (t : Tm) (parm : Bytes) : List (Name × Ty × Option Val) :=
  [(SYSDATC, .C, some (.c (datc t))), (SYSDATE, .C, some (.c (date t))), (SYSTIME, .C, some (.c (time t))),
   (SYSPARM, .C, some (.c parm)), (SYSOPT_RENT, .B, none)]

/-- The names made visible in each scope (hlasm_context.cpp 237-246). -/
def globalNames : List Name := [SYSDATC, SYSDATE, SYSTIME, SYSPARM, SYSOPT_RENT]

/-- A global variable is made with its value and put into the scope (hlasm_context.cpp 168-246, outside macros). -/
def addGlobal (s : St) (p : Name × Ty × Option Val) : St := (s.newGlobal p.1 p.2.1 true).assign s.heap.length 0 p.2.2.toList

/-- A macro scope: the macro and its &SYSMAC (`code_scope`, code_scope.h 26-57: `this_macro`, `system_variables`). -/
structure Frame where
  mac : Bytes
  sysmac : Data

/-- The state: SET symbols and scopes, and the macro scopes, innermost first. -/
structure State where
  st : St
  frames : List Frame := []

/-- The constructor of `hlasm_context` (hlasm_context.cpp 253-265). -/
def start (t : Tm) (parm : Bytes) : State := { st := (globalVars t parm).foldl addGlobal {} }

/-- The section at the call: name, kind and current location counter (C123); none before the first. -/
abbrev Here := Option (Bytes × Sect.Kind × Bytes)

/-- The variables of a macro scope (hlasm_context.cpp 61-119); a variable without value is an empty string. `depth` is
`scope_stack_.size() - 1`, the new scope being on the stack already. -/
def localVars (here : Here) (depth : Nat) : List (Name × Val) :=
  [(SYSECT, .c ((here.map (·.1)).getD [])), (SYSSTYP, .c ((here.map fun h => Sect.kindName h.2.1).getD [])),
   (SYSLOC, .c ((here.map (·.2.2)).getD [])), (SYSNEST, .a (toA depth))]

/-- &SYSMAC (hlasm_context.cpp 121-152): the names of the macros of all scopes, the innermost first, open code being the last. -/
def sysmac (mac : Bytes) (frames : List Frame) : Data :=
  .comp (.single mac :: (frames.map fun f => Data.single f.mac) ++ [.single sOpenCode])

/-- What happens. The names of the parameters of a called macro are those for which `params` is true. -/
inductive Ev where
  | lcl (ty : Ty) (n : Name) (scalar : Bool)
  | gbl (ty : Ty) (n : Name) (scalar : Bool)
  | set (ty : Ty) (n : Name) (sub : Option Int) (vals : List Val)
  | call (mac : Bytes) (params : Name → Bool) (here : Here)
  | ret

/-- `enter_macro` (hlasm_context.cpp 705-718) and `leave_macro` (720); the other statements as in `Verif/Context/Vars.lean`. -/
def step (s : State) : Ev → State
  | .lcl ty n sc => { s with st := s.st.step (.lcl ty n sc) }
  | .gbl ty n sc => { s with st := s.st.step (.gbl ty n sc) }
  | .set ty n sub vals => { s with st := s.st.step (.set ty n sub vals) }
  | .call mac params here =>
    { st := s.st.step (.enter (fun n => params n || n = SYSMAC) (localVars here (s.frames.length + 1)) globalNames),
      frames := ⟨mac, sysmac mac s.frames⟩ :: s.frames }
  | .ret => { st := s.st.step .leave, frames := s.frames.tail }

def run (s : State) (evs : List Ev) : State := evs.foldl step s

/-- `get_var_sym` (hlasm_context.cpp 424-442) for variables that are not parameters of the macro: SET symbols first, then the system
variables of the scope. -/
def find (s : State) (n : Name) : Option Attr.Var :=
  match s.st.top.vars n with
  | some a => (s.st.heap[a]?).map .set
  | none => if n = SYSMAC then s.frames.head?.map fun f => .param (.sys f.sysmac) else none

/-- `get_var_sym_value` (context_manager.cpp 34-97): the value, or none if it is refused with a diagnostic. -/
def ask (s : State) (n : Name) (sub : List Int) : Option Val :=
  (find s n).bind fun v => if (Attr.testRead v sub).isSome then none else some (Attr.readVar v sub)

/-- N' of a variable without subscripts (hlasm_context.cpp 525-543, system_variable.cpp 43-52). -/
def number (s : State) (n : Name) : Option Int := (find s n).map fun v => v.number []

/-- K' of a variable (hlasm_context.cpp 525-543, system_variable.cpp 54-66), none if it is refused. -/
def count (s : State) (n : Name) (sub : List Int) : Option Int :=
  (find s n).bind fun v => if (Attr.testRead v sub).isSome then none else some (v.count sub)

end Verif.SysVar
