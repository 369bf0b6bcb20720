import Verif.Context.VarsProps
/-!
Statements of conditional assembly that work on variables: SETx, GBLx, LCLx and AREAD
(`/repo/parser_library/src/processing/instruction_sets/ca_processor.{h,cpp}`, `/repo/parser_library/src/aread_time.cpp`). The variables are those
of `Verif.Context.Vars`. C122.

An expression is a function of the variables that can be seen; what else it depends on is part of the function. Its value always has the kind
asked for. What it means is C121. The flag next to a value says that a diagnostic was reported. Of the diagnostics of a statement only whether there are
any is kept.
-/
namespace Verif.CaStmt
open Verif.Context

/-- A variable as it can be seen. A scalar has its value at 0, an array at the subscripts from 1; none where nothing was assigned. -/
structure Var where
  ty : Ty
  scalar : Bool
  elem : Nat → Option Val

/-- What a name stands for. -/
inductive Look where
  | undef
  | param
  | var (v : Var)

abbrev View := Name → Look

/-- `data` of a `set_symbol` (set_symbol.h 64-66): keys are 0 for scalars, otherwise subscripts less 1. -/
def seen (x : SetSym) : Var where
  ty := x.ty
  scalar := x.scalar
  elem := fun i => match x.scalar, i with
    | true, 0 => dataFind x.data 0
    | true, _ + 1 => none
    | false, 0 => none
    | false, i + 1 => dataFind x.data i

/-- `get_var_sym` (hlasm_context.cpp 424-442). -/
def view (s : St) : View := fun n =>
  match s.resolve n with
  | .undef => .undef
  | .param => .param
  | .sym a => match s.heap[a]? with
    | none => .undef
    | some x => .var (seen x)

/-- `variable_symbol` (semantics/variable_symbol.cpp): the name, none if a created name is not a name (then `get_symbol_name` reports it and
returns the empty one, context_manager.cpp 93-111), and the subscripts. -/
structure Target where
  name : View → Option Name
  subs : List (View → Int × Bool)

/-- The name field (`label_si`). -/
inductive Label where
  | empty
  | seq
  | var (t : Target)
  | other

/-- An operand of SETx. Variable definitions are only made for the operands of LCLx and GBLx (`is_var_def`, parser_impl.cpp 228-234), where
there are no expressions. `other`: a sequence symbol, with or without an expression. -/
inductive SetOp where
  | empty
  | expr (e : View → Val × Bool)
  | other

/-- An operand of LCLx and GBLx. -/
inductive DeclOp where
  | empty
  | var (t : Target)
  | other

/-- An operand of AREAD: an expression that is one symbol, or something else. -/
inductive ReadOp where
  | empty
  | sym (n : Name)
  | other
  deriving DecidableEq

inductive Stmt where
  | set (ty : Ty) (label : Label) (ops : List SetOp)
  | decl (glob : Bool) (ty : Ty) (label : Label) (ops : List DeclOp)
  /-- `now`: nanoseconds since midnight. -/
  | aread (label : Label) (ops : List ReadOp) (now : Nat)
  /-- A macro call: its parameters, its system variables and the global ones. -/
  | enter (params : Name → Bool) (sys : List (Name × Val)) (globs : List Name)
  | leave

/-- The variables, the records AREAD reads, and whether a diagnostic was reported. -/
structure State where
  st : St := {}
  recs : List Bytes := []
  rep : Bool := false

/-- `evaluate_name`: `empty_id` for an invalid one, with a diagnostic. -/
def Target.eval (t : Target) (v : View) : Name × List Int × Bool :=
  (((t.name v).getD []), t.subs.map (fun e => (e v).1), (t.name v).isNone || t.subs.any fun e => (e v).2)

/-- `test_symbol_for_assignment` (ca_processor.cpp 92-147): none after a diagnostic; otherwise the symbol, if it exists, its name and the
subscript. `idx` is -1 without subscript. -/
def testSymbol (s : St) (t : Target) (ty : Ty) : Option (Option Nat × Name × Int) :=
  let (name, subs, _) := t.eval (view s)
  let idx : Int := subs.head?.getD (-1)
  if s.resolve name = .param then none
  else if subs.length > 1 then none
  else if subs.length = 1 ∧ idx < 1 then none
  else match s.resolve name with
    | .sym a => match s.heap[a]? with
      | none => none
      | some x =>
        if x.ty ≠ ty then none
        else if (x.scalar ∧ subs.length = 1) ∨ (¬ x.scalar ∧ subs.length = 0) then none
        else some (some a, name, idx)
    | _ => some (none, name, idx)

/-- The symbol to assign to, created if it does not exist (ca_processor.h 113-114). -/
def getSymbol (s : St) (ty : Ty) : Option Nat × Name × Int → Nat × St
  | (some a, _, _) => (a, s)
  | (none, name, idx) => (s.heap.length, s.newLocal name ty (idx == -1))

def SetOp.isOther : SetOp → Bool
  | .other => true
  | _ => false

def SetOp.expr? : SetOp → Option (View → Val × Bool)
  | .expr e => some e
  | _ => none

def DeclOp.isEmpty : DeclOp → Bool
  | .empty => true
  | _ => false

/-- `prepare_SET_operands` (ca_processor.cpp 168-197): none after a diagnostic; empty operands are left out. -/
def setOperands (ops : List SetOp) : Option (List (View → Val × Bool)) :=
  if ops.any SetOp.isOther then none
  else
    let es := ops.filterMap SetOp.expr?
    if es.isEmpty then none else some es

/-- The loop of `process_SET` (ca_processor.h 121-122). The index is `index - 1 + i`; a scalar ignores it. -/
def assignAll (a : Nat) (idx : Int) : Nat → List (View → Val × Bool) → St × Bool → St × Bool
  | _, [], r => r
  | i, e :: es, (s, rep) =>
    let (v, d) := e (view s)
    assignAll a idx (i + 1) es (s.assign a (idx - 1 + i).toNat [v], rep || d)

/-- `process_SET` (ca_processor.h 100-122) with `prepare_SET_symbol` (ca_processor.cpp 149-166). -/
def processSet (s : St) (ty : Ty) (label : Label) (ops : List SetOp) : St × Bool :=
  match label with
  | .var t =>
    let d := (t.eval (view s)).2.2
    match testSymbol s t ty with
    | none => (s, true)
    | some r =>
      let (a, s') := getSymbol s ty r
      match setOperands ops with
      | none => (s', true)
      | some es => assignAll a r.2.2 0 es (s', d)
  | _ => (s, true)

/-- The loop of `prepare_GBL_LCL` (ca_processor.cpp 199-246): the names with their shapes, and whether a diagnostic was reported; none if it
is given up. -/
def declLoop (s : St) : List DeclOp → List (Name × Bool) × Bool → Option (List (Name × Bool) × Bool)
  | [], r => some r
  | .empty :: ops, r => declLoop s ops r
  | .other :: _, _ => none
  | .var t :: ops, (ids, rep) =>
    let (name, subs, d) := t.eval (view s)
    if (t.name (view s)).isNone then declLoop s ops (ids, true)
    else if s.resolve name ≠ .undef then declLoop s ops (ids, true)
    else if ids.any (·.1 = name) then declLoop s ops (ids, true)
    else declLoop s ops (ids ++ [(name, subs.isEmpty)], rep || d)

/-- `create_global_variable` and `create_local_variable` (hlasm_context.h 208-243). -/
def create (glob : Bool) (ty : Ty) (s : St) (p : Name × Bool) : St :=
  match s.top.vars p.1 with
  | some _ => s
  | none => if glob then s.newGlobal p.1 ty p.2 else s.newLocal p.1 ty p.2

/-- `register_seq_sym` (ca_processor.cpp 79-90): a name field that is not a sequence symbol is reported. -/
def labelReported : Label → Bool
  | .empty => false
  | .seq => false
  | _ => true

/-- `process_GBL_LCL` (ca_processor.h 124-145) with `prepare_GBL_LCL` (ca_processor.cpp 199-254). -/
def processDecl (s : St) (glob : Bool) (ty : Ty) (label : Label) (ops : List DeclOp) : St × Bool :=
  match declLoop s ops ([], labelReported label) with
  | none => (s, true)
  | some (ids, rep) =>
    if ops.all DeclOp.isEmpty then (s, true)
    else (ids.foldl (create glob ty) s, rep)

inductive Variant where
  | reader | clockb | clockd
  deriving DecidableEq, Repr

def NOSTMT : Name := "NOSTMT".toUTF8.toList
def NOPRINT : Name := "NOPRINT".toUTF8.toList
def CLOCKB : Name := "CLOCKB".toUTF8.toList
def CLOCKD : Name := "CLOCKD".toUTF8.toList

/-- The choice of the variant of AREAD (ca_processor.cpp 521-560); none is `invalid`. -/
def variant : List ReadOp → Option Variant
  | [] => some .reader
  | [.empty, .empty] => some .reader
  | .sym n :: _ => if n = NOSTMT ∨ n = NOPRINT then some .reader else if n = CLOCKB then some .clockb else if n = CLOCKD then some .clockd else none
  | _ :: _ => none

/-- `zero_left_pad` (aread_time.cpp 18-25). -/
def zeroPad (s : Bytes) (len : Nat) : Bytes := List.replicate (len - s.length) 48 ++ s

/-- `time_to_clockb` (aread_time.cpp 29-33). -/
def clockb (ns : Nat) : Bytes := zeroPad (toDec (ns / 1000000 / 10)) 8

/-- `time_to_clockd` (aread_time.cpp 35-44). -/
def clockd (ns : Nat) : Bytes :=
  zeroPad (toDec (ns / 3600000000000)) 2 ++ zeroPad (toDec (ns / 60000000000 % 60)) 2 ++ zeroPad (toDec (ns / 1000000000 % 60)) 2 ++
    zeroPad (toDec (ns / 1000000 % 1000 / 10)) 2

/-- `parser_impl::aread` and `lexer::aread` (lexer.cpp 786-827): the next record, nothing at the end. An empty record gives a blank; here records
are never empty. -/
def nextRecord : List Bytes → Bytes × List Bytes
  | [] => ([], [])
  | r :: rs => (r, rs)

/-- `process_AREAD` (ca_processor.cpp 505-602). -/
def processAread (s : State) (label : Label) (ops : List ReadOp) (now : Nat) : State :=
  match label with
  | .var t =>
    if s.st.rest.isEmpty then { s with rep := true }
    else match variant ops with
      | none => { s with rep := true }
      | some w =>
        let d := (t.eval (view s.st)).2.2
        match testSymbol s.st t .C with
        | none => { s with rep := true }
        | some r =>
          let (a, st) := getSymbol s.st .C r
          let (v, recs) := match w with
            | .reader => nextRecord s.recs
            | .clockb => (clockb now, s.recs)
            | .clockd => (clockd now, s.recs)
          { st := st.assign a (r.2.2 - 1).toNat [.c v], recs := recs, rep := s.rep || d }
  | _ => { s with rep := true }

/-- The processing of a statement. -/
def step (s : State) : Stmt → State
  | .set ty label ops => let r := processSet s.st ty label ops; { s with st := r.1, rep := s.rep || r.2 }
  | .decl glob ty label ops => let r := processDecl s.st glob ty label ops; { s with st := r.1, rep := s.rep || r.2 }
  | .aread label ops now => processAread s label ops now
  | .enter params sys globs => { s with st := s.st.enterMacro params sys globs }
  | .leave => { s with st := s.st.step .leave }

def run (s : State) (p : List Stmt) : State := p.foldl step s

end Verif.CaStmt
