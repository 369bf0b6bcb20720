import Verif.Basic
/-!
Conditional assembly branching: AIF, AGO (processing/instruction_sets/ca_processor.cpp 296-443), the branch counter
(context/hlasm_context.cpp 479-487) and the limits of `ordinary_processor::check_fatals`.
-/
namespace Verif.Context.Flow

abbrev Target := Nat

/-- An operand of AGO or AIF: empty, a sequence symbol, an expression with a sequence symbol, or anything else. `v` is the value of
the expression (of arithmetic type for AGO, truth value for AIF); its evaluation is the subject of C41-C47. -/
inductive Operand (α : Type) where
  | empty
  | seq (t : Target)
  | branch (v : α) (t : Target)
  | other
  deriving DecidableEq, Repr

/-- The loop over the further operands of a computed AGO (ca_processor.cpp 338-353). -/
def agoTargets : List (Operand Int) → Option (List Target)
  | [] => some []
  | .seq t :: ops => (agoTargets ops).map (t :: ·)
  | _ :: _ => none

/-- `prepare_AGO` (ca_processor.cpp 296-357): the branch number and the targets; `none` after a diagnostic. -/
def prepareAGO (ops : List (Operand Int)) : Option (Int × List Target) :=
  if ops.isEmpty then none
  else if ops.contains .empty then none
  else
    match ops with
    | [.seq t] => some (1, [t])
    | .branch v t :: ops => (agoTargets ops).map fun ts => (v, t :: ts)
    | _ => none

/-- `process_AGO` (ca_processor.cpp 359-371): the target of the branch, if any. -/
def processAGO (ops : List (Operand Int)) : Option Target :=
  match prepareAGO ops with
  | none => none
  | some (branch, targets) => if branch > 0 ∧ branch ≤ targets.length then targets[(branch - 1).toNat]? else none

/-- The loop of `prepare_AIF` (ca_processor.cpp 385-418). `found` is `condition`/`target`; `none` after a diagnostic. -/
def aifLoop (found : Option Target) (has : Bool) : List (Operand Bool) → Option (Option Target × Bool)
  | [] => some (found, has)
  | .empty :: ops => if ops.isEmpty then aifLoop found has ops else none
  | .branch v t :: ops => aifLoop (if found.isSome then found else if v then some t else none) true ops
  | _ :: _ => none

/-- `process_AIF` (ca_processor.cpp 373-443): the target of the branch, if any. -/
def processAIF (ops : List (Operand Bool)) : Option Target :=
  if ops.isEmpty then none
  else
    match aifLoop none false ops with
    | none => none
    | some (found, has) => if has then found else none

/-- A scope (context/code_scope.h 26-59) reduced to what controls the flow: the number of statements of the body, the next
statement, `branch_counter` and `branch_counter_change`. `start` and `taken` are ghost data: the last value set and the number
of branches since. Open code is taken with its COPY members expanded. -/
structure Scope where
  len : Nat
  pc : Nat := 0
  counter : Int := 4096
  changes : Nat := 0
  start : Int := 4096
  taken : Nat := 0
  deriving DecidableEq, Repr

/-- What the processed statement does, chosen by the environment: the values of conditions, the called macros and their
lengths are arbitrary. AINSERT, which adds statements to open code, is not modelled. -/
inductive Effect where
  /-- any statement that does not influence the flow, or a branch not taken, or to an undefined symbol -/
  | plain
  /-- a branch taken to a statement of the same scope -/
  | branch (t : Nat)
  /-- ACTR -/
  | actr (v : Int)
  /-- a macro call; `len` statements in the definition -/
  | call (len : Nat)
  /-- MEXIT -/
  | mexit
  deriving DecidableEq, Repr

def NEST_LIMIT : Nat := 100
def ACTR_LIMIT : Nat := 100

/-- `check_fatals` (ordinary_processor.cpp 227-257): the stack of scopes the processing continues with instead of processing the
statement. `some none`: the assembly ends. -/
def checkFatals (sc : Scope) (rest : List Scope) : Option (Option (List Scope)) :=
  if (sc :: rest).length > NEST_LIMIT then some (some [(sc :: rest).getLast (by simp)])
  else if sc.counter < 0 then (if rest.isEmpty then some none else some (some rest))
  else if sc.changes > ACTR_LIMIT then some none
  else none

/-- `set_branch_counter` (hlasm_context.cpp 479-483). -/
def Scope.setCounter (sc : Scope) (v : Int) : Scope := { sc with counter := v, changes := sc.changes + 1, start := v, taken := 0 }

/-- A branch within the scope with `decrement_branch_counter` (processing_manager.cpp 264-277). -/
def Scope.jump (sc : Scope) (t : Nat) : Scope := { sc with pc := t, counter := sc.counter - 1, taken := sc.taken + 1 }

/-- The effect of the statement on the stack. MEXIT in open code is an error without effect (ca_processor.cpp 451-457). -/
def apply (sc : Scope) (rest : List Scope) : Effect → List Scope
  | .plain => sc :: rest
  | .branch t => sc.jump t :: rest
  | .actr v => sc.setCounter v :: rest
  | .call len => { len := len } :: sc :: rest
  | .mexit => if rest.isEmpty then [sc] else rest

/-- One iteration of `processing_manager::start_processing` (processing_manager.cpp 97-124) with the ordinary processor; the top
of the stack is the head of the list. `none`: the assembly is over. -/
def step (stack : List Scope) (e : Effect) : Option (List Scope) :=
  match stack with
  | [] => none
  | sc :: rest =>
    if sc.pc ≥ sc.len then (if rest.isEmpty then none else some rest)
    else
      let sc1 := { sc with pc := sc.pc + 1 }
      match checkFatals sc1 rest with
      | some r => r
      | none => some (apply sc1 rest e)

/-- A run with the effects `es`. -/
def run (stack : List Scope) : List Effect → Option (List Scope)
  | [] => some stack
  | e :: es => (step stack e).bind fun s => run s es

end Verif.Context.Flow
