import Verif.Gen.Lang

/-!
The processing of a program of conditional assembly: the loop that takes statements, the stack of scopes, variables, branches and their limits.

Modelled: `/repo/parser_library/src/processing/processing_manager.cpp` 97-125, 139-157, 180-215, 250-300, `statement_providers/macro_statement_provider.cpp`
28-43, `statement_processors/ordinary_processor.cpp` 73-105, 227-257, `lookahead_processor` as far as it searches for a sequence symbol,
`instruction_sets/ca_processor.cpp` 79-90, 199-254, 256-463, `ca_processor.h` 87-145, `instruction_sets/macro_processor.cpp` 31-37,
`/repo/parser_library/src/context/hlasm_context.h` 210-249, `hlasm_context.cpp` 424-487, 703-720, `code_scope.h` 40-54.

Simplified: a position in the open code is the index of a statement (source positions and snapshots: C40); maps are functions.
-/
namespace Verif.Gen

variable {S : Sem}

/-- One more pair in a map (`insert`, `insert_or_assign`, `set_value`). -/
def upd {α : Type} (m : Name → Option α) (x : Name) (v : α) : Name → Option α := fun y => if y = x then some v else m y

/-- An entry of `code_scope::variables`: a set symbol of its own or the one shared with `globals_` under the same name
(`/repo/parser_library/src/context/hlasm_context.h` 210-249; that sharing is by name: C32). -/
inductive Var (V : Type) where
  | own (v : V)
  | shared

/-- `code_scope` (`/repo/parser_library/src/context/code_scope.h` 33-56): variables, `branch_counter`, `branch_counter_change`. -/
structure Scope (V : Type) where
  vars : Name → Option (Var V)
  ctr : Int
  changes : Nat

/-- `/repo/parser_library/src/context/code_scope.h` 46-54: a new scope. -/
def Scope.new (V : Type) : Scope V := ⟨fun _ => none, 4096, 0⟩

/-- A macro invocation on the scope stack (`context/macro.h`, `macro_invocation`): scope, parameters, value of &SYSNDX, definition and the statement
taken next (`current_statement + 1`). -/
structure Call (S : Sem) where
  scope : Scope S.Val
  params : Name → Option S.Val
  ndx : Nat
  body : List (Stmt S)
  next : Nat

/-- The processing: `macros_` (those in libraries are there from the beginning; C80 for when they are fetched), `globals_`, `SYSNDX_`, scope of the open code, the statement of the open code taken next, sequence symbols of the open code,
`lookahead_stop_`, the macro invocations (innermost first), `finished_flag_` and what came out. -/
structure State (S : Sem) where
  macros : Name → Option (Macro S)
  globals : Name → Option S.Val
  ndx : Nat
  main : Scope S.Val
  pos : Nat
  syms : Lab → Option Nat
  stop : Nat
  calls : List (Call S)
  finished : Bool
  log : List (Event S.Out)

/-- The processing before the first statement (`hlasm_context.cpp` 255-262). -/
def State.start (P : Prog S) : State S := ⟨P.macros, fun _ => none, 0, Scope.new _, 0, fun _ => none, 0, [], false, []⟩

/-- `add_diagnostic`, and statements handed on. -/
def State.tell (s : State S) (e : Event S.Out) : State S := { s with log := s.log ++ [e] }

/-- `curr_scope()` (`hlasm_context.cpp` 36-37). -/
def State.scope (s : State S) : Scope S.Val :=
  match s.calls with
  | [] => s.main
  | c :: _ => c.scope

/-- A change of `*curr_scope()`. -/
def State.onScope (s : State S) (f : Scope S.Val → Scope S.Val) : State S :=
  match s.calls with
  | [] => { s with main := f s.main }
  | c :: cs => { s with calls := { c with scope := f c.scope } :: cs }

/-- What `get_var_sym` finds: a set symbol or a macro parameter. -/
inductive Found (V : Type) where
  | var (v : Var V)
  | param (v : V)

/-- `hlasm_context::get_var_sym` (`hlasm_context.cpp` 424-442); system variables are kept apart in `Env`. -/
def State.look (s : State S) (x : Name) : Option (Found S.Val) :=
  match s.scope.vars x with
  | some v => some (.var v)
  | none =>
    match s.calls with
    | [] => none
    | c :: _ => (c.params x).map .param

/-- The value read from what was found (`set_symbol::get_value`, `macro_param_base::get_value`). -/
def State.read (s : State S) (x : Name) : Option S.Val :=
  match s.look x with
  | none => none
  | some (.param v) => some v
  | some (.var (.own v)) => some v
  | some (.var .shared) => some ((s.globals x).getD S.dflt)

/-- What an evaluated expression sees; &SYSNDX and &SYSNEST as in `hlasm_context.cpp` 71-81, 111-119. -/
def State.env (s : State S) : Env S.Val :=
  ⟨s.read, match s.calls with | [] => none | c :: _ => some c.ndx, s.calls.length⟩

/-- `create_local_variable` (`hlasm_context.h` 233-246). -/
def State.newLocal (s : State S) (x : Name) : State S :=
  match s.scope.vars x with
  | some _ => s
  | none => s.onScope fun c => { c with vars := upd c.vars x (.own S.dflt) }

/-- `create_global_variable` (`hlasm_context.h` 210-231). -/
def State.newGlobal (s : State S) (x : Name) : State S :=
  match s.scope.vars x with
  | some _ => s
  | none =>
    match s.globals x with
    | some _ => s.onScope fun c => { c with vars := upd c.vars x .shared }
    | none => { s with globals := upd s.globals x S.dflt }.onScope fun c => { c with vars := upd c.vars x .shared }

/-- `set_symbol::set_value`: the object may be shared with `globals_`. -/
def State.store (s : State S) (x : Name) (v : S.Val) : State S :=
  match s.scope.vars x with
  | some (.own _) => s.onScope fun c => { c with vars := upd c.vars x (.own v) }
  | some .shared => { s with globals := upd s.globals x v }
  | none => s

/-- `ca_processor::process_SET` with `prepare_SET` and `test_symbol_for_assignment` (`ca_processor.h` 100-123, `ca_processor.cpp` 92-197): the variable is
created before the expression is evaluated. -/
def State.assign (s : State S) (x : Name) (e : S.Exp) : State S :=
  match s.look x with
  | some (.param _) => s.tell (.err .E030)
  | _ =>
    let s := s.newLocal x
    s.store x (S.value e s.env)

/-- `prepare_GBL_LCL` (`ca_processor.cpp` 199-254): what is visible cannot be declared. -/
def State.declared (s : State S) (x : Name) (make : State S → State S) : State S :=
  match s.look x with
  | some (.var _) => s.tell (.err .E051)
  | some (.param _) => s.tell (.err .E052)
  | none => make s

/-- `processing_manager::register_sequence_symbol` (281-300), called for the statement with index `i` of the open code. -/
def State.register (s : State S) (l : Option Lab) (i : Nat) : State S :=
  match l with
  | none => s
  | some l =>
    match s.syms l with
    | none => { s with syms := fun k => if k = l then some i else s.syms k }
    | some j => if j = i then s else s.tell (.err .E045)

/-- `ca_processor::register_seq_sym` (`ca_processor.cpp` 79-84), `low_language_processor.cpp` 100-110: nothing in macros. The current statement of the open
code is the one before `pos`. -/
def State.registerHere (s : State S) (l : Option Lab) : State S :=
  match s.calls with
  | [] => s.register l (s.pos - 1)
  | _ => s

/-- The lookahead for a sequence symbol (`lookahead_processor::process_statement`, `find_seq`; loop `processing_manager.cpp` 97-125): the statements from
index `i` on are registered until the symbol is found. Gives the index behind the last statement looked at and whether the symbol was found. -/
def State.seek (l : Lab) : List (Stmt S) → Nat → State S → State S × Nat × Bool
  | [], i, s => (s, i, false)
  | st :: sts, i, s =>
    let s := s.register st.lab i
    if st.lab = some l then (s, i + 1, true) else seek l sts (i + 1) s

/-- The table of the sequence symbols of a macro (`macrodef_processor.cpp`, C99): offset of the first statement with the symbol. -/
def offsets (sts : List (Stmt S)) (i : Nat) (t : Lab → Option Nat) : Lab → Option Nat :=
  match sts with
  | [] => t
  | st :: sts =>
    offsets sts (i + 1) fun l => match t l with
      | some j => some j
      | none => if st.lab = some l then some i else none

/-- `processing_manager::jump_in_statements` (250-279) with `start_lookahead` and `finish_lookahead` (180-207). -/
def State.jump (P : Prog S) (s : State S) (l : Lab) : State S :=
  let dec : Scope S.Val → Scope S.Val := fun c => { c with ctr := c.ctr - 1 }
  match s.calls with
  | c :: cs =>
    match offsets c.body 0 (fun _ => none) l with
    | none => s.tell (.err .E047)
    | some i => { s with calls := { c with next := i } :: cs }.onScope dec
  | [] =>
    match s.syms l with
    | some i => { s with pos := i }.onScope dec
    | none =>
      let from' := if s.pos < s.stop then s.stop else s.pos
      let (s', j, ok) := s.seek l (P.code.drop from') from'
      let s' := { s' with stop := j }
      if ok then
        match s'.syms l with
        | some i => { s' with pos := i }.onScope dec
        | none => s'
      else s'.tell (.err .E047)

/-- `prepare_AIF` (`ca_processor.cpp` 373-427): the target of the first condition that holds. -/
def aifTarget (v : Env S.Val) : List (S.Cnd × Lab) → Option Lab
  | [] => none
  | (c, l) :: bs => if S.holds c v then some l else aifTarget v bs

/-- `process_AGO` (`ca_processor.cpp` 359-371). -/
def agoTarget (n : Int) (ls : List Lab) : Option Lab :=
  if 0 < n ∧ n ≤ ls.length then ls[(n - 1).toNat]? else none

/-- The branch, if there is one to take. -/
def State.branch (P : Prog S) (s : State S) : Option Lab → State S
  | none => s
  | some l => s.jump P l

/-- `macro_definition::call` (`context/macro.cpp`; C34): the arguments by the names of the parameters. -/
def bind (d : S.Val) : List Name → List S.Val → Name → Option S.Val
  | [], _, _ => none
  | p :: ps, vs, x => if x = p then some (vs.headD d) else bind d ps vs.tail x

/-- `hlasm_context::enter_macro` (`hlasm_context.cpp` 705-718), `macro_processor::process` (`macro_processor.cpp` 31-37). -/
def State.enter (s : State S) (m : Macro S) (args : List S.Exp) : State S :=
  let vs := args.map fun e => S.value e s.env
  { s with calls := ⟨Scope.new _, bind S.dflt m.params vs, s.ndx, m.body, 0⟩ :: s.calls, ndx := s.ndx + 1 }

/-- `hlasm_context::leave_macro` (`hlasm_context.cpp` 720). -/
def State.leave (s : State S) : State S := { s with calls := s.calls.tail }

/-- `ordinary_processor::check_fatals` (`ordinary_processor.cpp` 227-257): the state afterwards if a limit was passed. -/
def State.fatal (s : State S) : Option (State S) :=
  if s.calls.length + 1 > 100 then some ({ s with calls := [] }.tell (.err .E055))
  else if s.scope.ctr < 0 then
    let s := s.tell (.err .E056)
    some (match s.calls with | [] => { s with finished := true } | _ => s.leave)
  else if s.scope.changes > 100 then some { s.tell (.err .E063) with finished := true }
  else none

/-- The processing of a statement (`ordinary_processor.cpp` 86-105, `ca_processor.cpp` 256-463). Macro calls, undefined operations, MEXIT and MEND do not
register their sequence symbol. A definition (`process_MACRO`, `ca_processor.cpp` 445-449, `processing_manager::finish_macro_definition` 168-181,
`hlasm_context::add_macro`) replaces the macro with the same name; calls that are being processed keep the definition they were made with. -/
def State.perform (P : Prog S) (s : State S) (st : Stmt S) : State S :=
  match st.op with
  | .set x e => (s.registerHere st.lab).assign x e
  | .gbl x => (s.registerHere st.lab).declared x fun s => s.newGlobal x
  | .lcl x => (s.registerHere st.lab).declared x fun s => s.newLocal x
  | .aif bs => (s.registerHere st.lab).branch P (aifTarget (s.registerHere st.lab).env bs)
  | .ago l => (s.registerHere st.lab).branch P (agoTarget 1 [l])
  | .agoNth e ls => (s.registerHere st.lab).branch P (agoTarget (S.number e (s.registerHere st.lab).env) ls)
  | .actr e =>
    let s := s.registerHere st.lab
    let n := S.number e s.env
    s.onScope fun c => { c with ctr := n, changes := c.changes + 1 }
  | .anop => s.registerHere st.lab
  | .call m args =>
    match s.macros m with
    | none => s.tell (.err .E049)
    | some m => s.enter m args
  | .mexit => match s.calls with | [] => s.tell (.err .E054) | _ => s.leave
  | .mend => match s.calls with | [] => s.tell (.err .E054) | _ => s
  | .gen t =>
    let s := s.registerHere st.lab
    s.tell (.out (S.text t s.env))
  | .define m ps body =>
    let s := s.registerHere st.lab
    { s with macros := upd s.macros m ⟨ps, body⟩ }

/-- `ordinary_processor::process_statement` (`ordinary_processor.cpp` 73-105). -/
def State.process (P : Prog S) (s : State S) (st : Stmt S) : State S :=
  match s.fatal with
  | some s => s
  | none => s.perform P st

/-- One turn of the loop. `broken`: the access behind the end of a macro definition, which is undefined behaviour. -/
inductive Turn (S : Sem) where
  | next (s : State S)
  | done
  | broken

/-- The loop (`processing_manager.cpp` 97-125) with `find_provider` (139-157) and the providers (`macro_statement_provider.cpp` 28-43). -/
def State.turn (P : Prog S) (s : State S) : Turn S :=
  if s.finished then .done
  else
    match s.calls with
    | [] =>
      match P.code[s.pos]? with
      | none => .done
      | some st => .next ({ s with pos := s.pos + 1 }.process P st)
    | c :: cs =>
      if c.next = c.body.length then .next s.leave
      else
        match c.body[c.next]? with
        | none => .broken
        | some st => .next ({ s with calls := { c with next := c.next + 1 } :: cs }.process P st)

/-- How a processing ends: with what came out and the global variables, or in undefined behaviour. -/
inductive Ended (S : Sem) where
  | done (s : State S)
  | broken

/-- At most `n` turns. -/
def State.run (P : Prog S) : Nat → State S → Option (Ended S)
  | 0, _ => none
  | n + 1, s =>
    match s.turn P with
    | .done => some (.done s)
    | .broken => some .broken
    | .next s => run P n s

end Verif.Gen
