import Verif.Basic
/-!
Model of SET symbols and their scopes: `/repo/parser_library/src/context/variables/set_symbol.h`,
`/repo/parser_library/src/context/hlasm_context.{h,cpp}` (scopes, `&SYSNDX`),
`/repo/parser_library/src/processing/context_manager.cpp` (reading),
`/repo/parser_library/src/processing/instruction_sets/ca_processor.{h,cpp}` (SETx, LCLx, GBLx). C31, C32, C33.

Values are kept as mathematical integers, booleans and byte strings; the 32-bit range of `A_t` matters only for the N'
attribute and is modelled there.
-/
namespace Verif.Context

abbrev Name := Bytes

/-- `SET_t_enum` -/
inductive Ty | A | B | C
deriving DecidableEq, Repr

inductive Val
  | a (v : Int)
  | b (v : Bool)
  | c (v : Bytes)
deriving DecidableEq, Repr

/-- `object_traits<T>::default_v()` (common_types.h) -/
def Ty.default : Ty → Val
  | .A => .a 0
  | .B => .b false
  | .C => .c []

/-- `set_symbol<T>` (set_symbol.h:61-146). `owner` records where the object was created: `some (scope, name)` for local
symbols (`is_global == false`), `none` for global ones; the scope number is bookkeeping of the model only. -/
structure SetSym where
  scalar : Bool
  ty : Ty
  owner : Option (Nat × Name)
  data : List (Nat × Val) := []
deriving Repr

/-- `std::map::find` and `insert_or_assign`. -/
def dataFind (d : List (Nat × Val)) (i : Nat) : Option Val := (d.find? (·.1 = i)).map (·.2)
def dataSet (d : List (Nat × Val)) (i : Nat) (v : Val) : List (Nat × Val) := (i, v) :: d.filter (·.1 ≠ i)

/-- `get_value(idx)` (set_symbol.h:77-86) -/
def SetSym.getAt (s : SetSym) (i : Nat) : Val := if s.scalar then s.ty.default else (dataFind s.data i).getD s.ty.default
/-- `get_value()` (set_symbol.h:89-98) -/
def SetSym.get (s : SetSym) : Val := if s.scalar then (dataFind s.data 0).getD s.ty.default else s.ty.default
/-- `set_value(value, idx)` (set_symbol.h:105-111) -/
def SetSym.setAt (s : SetSym) (v : Val) (i : Nat) : SetSym := { s with data := dataSet s.data (if s.scalar then 0 else i) v }

/-- Conversion of a `size_t` to the 32-bit `A_t`. -/
def toA (n : Nat) : Int := (BitVec.ofNat 32 n).toInt

/-- `number` (set_symbol.h:114-117): `data.rbegin()->first` is the greatest key. -/
def SetSym.number (s : SetSym) : Int :=
  if s.scalar || s.data.isEmpty then 0 else toA ((s.data.map (·.1)).foldl max 0 + 1)

/-- A `code_scope` (code_scope.h:26-57): its variables, and the names of the parameters of the macro it belongs to
(`named_params` together with the `system_variables`, all of which are macro parameters, not SET symbols). -/
structure Scope where
  id : Nat := 0
  vars : Name → Option Nat := fun _ => none
  params : Name → Bool := fun _ => false

/-- The relevant part of `hlasm_context`. `heap` holds the SET symbol objects, `ndx` is `SYSNDX_`. -/
structure St where
  heap : List SetSym := []
  globals : Name → Option Nat := fun _ => none
  top : Scope := {}
  rest : List Scope := []
  ndx : Nat := 0

def upd {β} (f : Name → β) (a : Name) (b : β) : Name → β := fun x => if x = a then b else f x

inductive Res
  | sym (addr : Nat)
  | param
  | undef
deriving DecidableEq, Repr

/-- `get_var_sym` (hlasm_context.cpp:424-442) -/
def St.resolve (s : St) (n : Name) : Res :=
  match s.top.vars n with
  | some a => .sym a
  | none => if s.top.params n then .param else .undef

/-- `create_local_variable` (hlasm_context.h:311-323) for a name that is not a variable of the scope. -/
def St.newLocal (s : St) (n : Name) (ty : Ty) (scalar : Bool) : St :=
  { s with
    heap := s.heap ++ [{ scalar := scalar, ty := ty, owner := some (s.top.id, n) }]
    top := { s.top with vars := upd s.top.vars n (some s.heap.length) } }

/-- `create_global_variable` (hlasm_context.h:286-307) for a name that is not a variable of the scope. -/
def St.newGlobal (s : St) (n : Name) (ty : Ty) (scalar : Bool) : St :=
  match s.globals n with
  | some a => { s with top := { s.top with vars := upd s.top.vars n (some a) } }
  | none =>
    { s with
      heap := s.heap ++ [{ scalar := scalar, ty := ty, owner := none }]
      globals := upd s.globals n (some s.heap.length)
      top := { s.top with vars := upd s.top.vars n (some s.heap.length) } }

/-- The assignment loop of `process_SET` (ca_processor.h:120-121): `idx - 1 + i` for the i-th value. The values are taken as
already evaluated. -/
def SetSym.assign (sym : SetSym) (base : Nat) : List Val → SetSym
  | [] => sym
  | v :: vs => (sym.setAt v base).assign (base + 1) vs

def St.assign (s : St) (a : Nat) (base : Nat) (vs : List Val) : St :=
  { s with heap := s.heap.modify a fun sym => sym.assign base vs }

/-- The type tag of a value. -/
def Val.ty : Val → Ty
  | .a _ => .A
  | .b _ => .B
  | .c _ => .C

/-- Statements. `sys` of `enter` are the values of the other system variables of a macro scope. -/
inductive Op
  | lcl (ty : Ty) (n : Name) (scalar : Bool)
  | gbl (ty : Ty) (n : Name) (scalar : Bool)
  | set (ty : Ty) (n : Name) (sub : Option Int) (vals : List Val)
  | enter (params : Name → Bool) (sys : List (Name × Val)) (sysGlobals : List Name)
  | leave

/-- `index - 1` of `process_SET`, and the test of the subscript (ca_processor.cpp:121). -/
def subBase : Option Int → Nat
  | some i => (i - 1).toNat
  | none => 0
def subBad : Option Int → Bool
  | some i => decide (i < 1)
  | none => false

/-- `process_SET` with `test_symbol_for_assignment` (ca_processor.cpp:92-147, ca_processor.h:100-122). Refused assignments
leave the state unchanged; a missing operand still creates the variable. For scalars the base index is irrelevant. -/
def St.setStmt (s : St) (ty : Ty) (n : Name) (sub : Option Int) (vals : List Val) : St :=
  match s.resolve n with
  | .param => s
  | .undef =>
    if subBad sub then s
    else (s.newLocal n ty sub.isNone).assign s.heap.length (subBase sub) vals
  | .sym a =>
    if subBad sub then s
    else
      match s.heap[a]? with
      | none => s
      | some sym => if sym.ty ≠ ty then s else if sym.scalar ≠ sub.isNone then s else s.assign a (subBase sub) vals

/-- Decimal digits of a number, most significant first (`std::to_string`). -/
def toDec (n : Nat) : Bytes := if n < 10 then [48 + UInt8.ofNat n] else toDec (n / 10) ++ [48 + UInt8.ofNat (n % 10)]

/-- The value of `&SYSNDX` (hlasm_context.cpp:75-78): padded with zeros to four digits. -/
def sysndxValue (n : Nat) : Bytes := List.replicate (4 - (toDec n).length) 48 ++ toDec n

def SYSNDX : Name := "SYSNDX".toUTF8.toList

/-- `curr_scope()->variables.insert` of a fresh scalar: an existing entry is kept. -/
def St.insertSys (s : St) (p : Name × Val) : St :=
  match s.top.vars p.1 with
  | some _ => s
  | none => (s.newLocal p.1 p.2.ty true).assign s.heap.length 0 [p.2]

/-- A global system variable is made visible in the scope (hlasm_context.cpp:237-246). -/
def St.insertGlob (s : St) (n : Name) : St :=
  match s.top.vars n, s.globals n with
  | none, some a => { s with top := { s.top with vars := upd s.top.vars n (some a) } }
  | _, _ => s

/-- `enter_macro` (hlasm_context.cpp:705-718) with `add_system_vars_to_scope` (hlasm_context.cpp:57-156). -/
def St.enterMacro (s : St) (params : Name → Bool) (sys : List (Name × Val)) (sysGlobals : List Name) : St :=
  let s1 : St := { s with top := { id := s.ndx + 1, params := params }, rest := s.top :: s.rest }
  let s2 := s1.insertSys (SYSNDX, .c (sysndxValue s.ndx))
  let s3 := sys.foldl St.insertSys s2
  let s4 := sysGlobals.foldl St.insertGlob s3
  { s4 with ndx := s.ndx + 1 }

/-- Processing of one statement. `prepare_GBL_LCL` (ca_processor.cpp:199-254) skips names already known in the scope. -/
def St.step (s : St) : Op → St
  | .lcl ty n scalar => match s.resolve n with | .undef => s.newLocal n ty scalar | _ => s
  | .gbl ty n scalar => match s.resolve n with | .undef => s.newGlobal n ty scalar | _ => s
  | .set ty n sub vals => s.setStmt ty n sub vals
  | .enter params sys sysGlobals => s.enterMacro params sys sysGlobals
  | .leave => match s.rest with | [] => s | sc :: r => { s with top := sc, rest := r }

def St.run (s : St) (ops : List Op) : St := ops.foldl St.step s

/-- Reading an element or a scalar through a name: `get_var_sym_value` with `test_symbol_for_read`
(context_manager.cpp:34-78, 111-142). `none`: refused with a diagnostic. Parameters are not read here. -/
def St.read (s : St) (n : Name) (sub : Option Int) : Option Val :=
  match s.resolve n with
  | .sym a =>
    match s.heap[a]? with
    | none => none
    | some sym =>
      match sub with
      | none => if sym.scalar then some sym.get else none
      | some i => if sym.scalar then none else if i < 1 then none else some (sym.getAt (i - 1).toNat)
  | _ => none

end Verif.Context
