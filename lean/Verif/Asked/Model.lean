import Verif.Attr.Model

/-!
Model of how the attributes a statement refers to are looked up before it is processed (C127):
`/repo/parser_library/src/processing/statement_providers/statement_provider.cpp` and `get_undefined_attributed_symbols` of all
expressions (`expressions/conditional_assembly`), variable symbols, chains and operands (`semantics`). What operators and
functions compute is left open (`Opr`), so that everything proved holds for whatever they compute. What attribute references
read is that of `Verif/Attr`.
-/
namespace Verif.Asked
open Attr (Env Kind Diag Out evalOrd evalVar lookOrd lookVar testRead readVar)
open Context (Val)

mutual
/-- `ca_expression` and its subclasses. `op` stands for operators, functions with their duplication factor and lists
(ca_operator_unary.h, ca_operator_binary.h, ca_function.h, ca_expr_list.h), `parts` for the duplication factor, start and length
of a substring that are written. -/
inductive Expr
  | const (v : Val)
  | op (n : Nat) (args : Exprs)
  | var (v : VarSym)
  | attr (k : Kind) (name : Bytes)
  | attrVar (k : Kind) (v : VarSym)
  | str (value : Chain) (parts : Exprs)
inductive Exprs
  | nil
  | cons (e : Expr) (es : Exprs)
/-- `variable_symbol` (semantics/variable_symbol.h): `&NAME(…)` and `&(…)(…)`. -/
inductive VarSym
  | named (name : Bytes) (subs : Exprs)
  | created (name : Chain) (subs : Exprs)
/-- `concat_chain` (semantics/concatenation.h): texts (dots and equal signs among them), variable symbols, sublists. -/
inductive Chain
  | nil
  | text (t : Bytes) (rest : Chain)
  | var (v : VarSym) (rest : Chain)
  | sub (l : Chains) (rest : Chain)
inductive Chains
  | nil
  | cons (c : Chain) (cs : Chains)
end

/-- A value (`SET_t`): one that has a type, the undefined one, or nothing the language defines. -/
inductive Cell
  | known (v : Val)
  | undef
  | ub

/-- What operators, functions and conversions compute from the values of their parts, with the diagnostics they add: anything. -/
structure Opr where
  op : Nat → List Cell → Cell × List Diag
  int : Cell → Int
  text : Cell → Bytes
  join : List Bytes → Bytes
  str : Bytes → List Cell → Cell × List Diag
  name : Bytes → Bytes

def Cell.ofOut : Out Val → Cell × List Diag
  | .ub => (.ub, [])
  | .val v ds => (.known v, ds)

/-- `get_var_sym_value` (context_manager.cpp:34-97). -/
def getVar (E : Env) (name : Bytes) (sub : List Int) : Cell × List Diag :=
  match E.vars name with
  | none => (.undef, [.E010])
  | some v => match testRead v sub with
    | some d => (.undef, [d])
    | none => (.known (readVar v sub), [])

mutual
/-- `evaluate` of expressions. Simplified: all parts are evaluated, also where the code stops after an error. -/
def evalE (O : Opr) (E : Env) : Expr → Cell × List Diag
  | .const v => (.known v, [])
  | .op n args =>
    let a := evalEs O E args
    let r := O.op n a.1
    (r.1, a.2 ++ r.2)
  | .var v =>
    let x := evalV O E v
    let r := getVar E x.1.1 x.1.2
    (r.1, x.2 ++ r.2)
  | .attr k n => Cell.ofOut (evalOrd E k n)
  | .attrVar k v =>
    let x := evalV O E v
    let r := Cell.ofOut (evalVar E k x.1.1 x.1.2)
    (r.1, x.2 ++ r.2)
  | .str value parts =>
    let c := evalC O E value
    let a := evalEs O E parts
    let r := O.str (O.join c.1) a.1
    (r.1, c.2 ++ a.2 ++ r.2)
def evalEs (O : Opr) (E : Env) : Exprs → List Cell × List Diag
  | .nil => ([], [])
  | .cons e es =>
    let x := evalE O E e
    let y := evalEs O E es
    (x.1 :: y.1, x.2 ++ y.2)
/-- `variable_symbol::evaluate_symbol` (variable_symbol.cpp:64-75): the name and the subscripts. -/
def evalV (O : Opr) (E : Env) : VarSym → (Bytes × List Int) × List Diag
  | .named n subs =>
    let a := evalEs O E subs
    ((n, a.1.map O.int), a.2)
  | .created n subs =>
    let c := evalC O E n
    let a := evalEs O E subs
    ((O.name (O.join c.1), a.1.map O.int), c.2 ++ a.2)
/-- `concatenation_point::evaluate` (concatenation.cpp:28-50): the texts of the points. -/
def evalC (O : Opr) (E : Env) : Chain → List Bytes × List Diag
  | .nil => ([], [])
  | .text t rest =>
    let y := evalC O E rest
    (t :: y.1, y.2)
  | .var v rest =>
    let x := evalV O E v
    let r := getVar E x.1.1 x.1.2
    let y := evalC O E rest
    (O.text r.1 :: y.1, x.2 ++ r.2 ++ y.2)
  | .sub l rest =>
    let x := evalCs O E l
    let y := evalC O E rest
    (O.join x.1 :: y.1, x.2 ++ y.2)
def evalCs (O : Opr) (E : Env) : Chains → List Bytes × List Diag
  | .nil => ([], [])
  | .cons c cs =>
    let x := evalC O E c
    let y := evalCs O E cs
    (O.join x.1 :: y.1, x.2 ++ y.2)
end

mutual
/-- `get_undefined_attributed_symbols` of expressions: ca_operator_unary.cpp:30-33, ca_operator_binary.cpp:33-38,
ca_function.cpp:49-57, ca_expr_list.cpp:32-38, ca_var_sym.cpp:51-54, ca_symbol_attribute.cpp:61-103; a string looks at its
duplication factor and its substring only (ca_string.cpp:36-46). -/
def lookE (O : Opr) (E : Env) : Expr → List Bytes
  | .const _ => []
  | .op _ args => lookEs O E args
  | .var v => lookV O E v
  | .attr k n => lookOrd E k n
  | .attrVar k v =>
    let u := lookV O E v
    if u.isEmpty then lookVar E k (evalV O E v).1.1 (evalV O E v).1.2 else u
  | .str _ parts => lookEs O E parts
def lookEs (O : Opr) (E : Env) : Exprs → List Bytes
  | .nil => []
  | .cons e es => lookE O E e ++ lookEs O E es
/-- `get_undefined_attributed_symbols_vs` (ca_var_sym.cpp:29-44). -/
def lookV (O : Opr) (E : Env) : VarSym → List Bytes
  | .named _ subs => lookEs O E subs
  | .created n subs => lookEs O E subs ++ lookN O E n
/-- The loop over a created name (ca_var_sym.cpp:39-41): variable symbols only. -/
def lookN (O : Opr) (E : Env) : Chain → List Bytes
  | .nil => []
  | .text _ rest => lookN O E rest
  | .var v rest => lookV O E v ++ lookN O E rest
  | .sub _ rest => lookN O E rest
end

mutual
/-- `concatenation_point::get_undefined_attributed_symbols` (concatenation.cpp:175-197). -/
def lookC (O : Opr) (E : Env) : Chain → List Bytes
  | .nil => []
  | .text _ rest => lookC O E rest
  | .var v rest => lookV O E v ++ lookC O E rest
  | .sub l rest => lookCs O E l ++ lookC O E rest
def lookCs (O : Opr) (E : Env) : Chains → List Bytes
  | .nil => []
  | .cons c cs => lookC O E c ++ lookCs O E cs
end

/-- The name field (`label_si`): nothing to substitute, a variable symbol, a chain. -/
inductive Label
  | plain
  | var (v : VarSym)
  | conc (c : Chain)

/-- The operands (`operand_type`, `ca_kind`, `mac_kind`): those of macros, of conditional assembly, texts with variable symbols,
and those without anything to substitute (a sequence symbol, a text, an operand of a machine or assembler instruction). -/
inductive Operand
  | model (c : Chain)
  | mac (c : Chain)
  | caVar (v : VarSym)
  | caExpr (e : Expr)
  | branch (e : Expr)
  | plain

/-- A statement: what is to be substituted in its instruction field, its name field, and its operands unless they are
deferred. -/
structure Stmt where
  instr : Option Chain
  label : Label
  operands : Option (List Operand)

/-- `process_label` (statement_provider.cpp:79-93). -/
def lookLabel (O : Opr) (E : Env) : Label → List Bytes
  | .plain => []
  | .var v => lookV O E v
  | .conc c => lookC O E c

/-- One operand of `process_operands` (statement_provider.cpp:106-131; operand_impls.cpp:447-490). -/
def lookOperand (O : Opr) (E : Env) : Operand → List Bytes
  | .model c => lookC O E c
  | .mac c => lookC O E c
  | .caVar v => lookV O E v
  | .caExpr e => lookE O E e
  | .branch e => lookE O E e
  | .plain => []

/-- The first `try_trigger_attribute_lookahead` (statement_provider.cpp:26-38), `process_instruction`
(statement_provider.cpp:95-104): what to look for before the instruction is known. -/
def lookInstr (O : Opr) (E : Env) (s : Stmt) : List Bytes :=
  match s.instr with
  | some c => lookC O E c
  | none => []

/-- The second one (statement_provider.cpp:40-67): before the statement is processed. -/
def lookStmt (O : Opr) (E : Env) (s : Stmt) : List Bytes :=
  (match s.operands with
    | some l => l.flatMap (lookOperand O E)
    | none => []) ++ lookLabel O E s.label

/-- What is substituted and evaluated when the name field is processed. -/
def evalLabel (O : Opr) (E : Env) : Label → List Bytes × List Diag
  | .plain => ([], [])
  | .var v =>
    let x := evalV O E v
    let r := getVar E x.1.1 x.1.2
    ([O.text r.1], x.2 ++ r.2)
  | .conc c => evalC O E c

/-- A value of an operand: a text, a value, or a variable with subscripts. -/
inductive Result
  | none
  | text (l : List Bytes)
  | value (c : Cell)
  | symbol (n : Bytes) (sub : List Int)

def evalOperand (O : Opr) (E : Env) : Operand → Result × List Diag
  | .model c => (.text (evalC O E c).1, (evalC O E c).2)
  | .mac c => (.text (evalC O E c).1, (evalC O E c).2)
  | .caVar v => (.symbol (evalV O E v).1.1 (evalV O E v).1.2, (evalV O E v).2)
  | .caExpr e => (.value (evalE O E e).1, (evalE O E e).2)
  | .branch e => (.value (evalE O E e).1, (evalE O E e).2)
  | .plain => (.none, [])

/-- All a statement reads: instruction, name field and operands, with the diagnostics. -/
def evalStmt (O : Opr) (E : Env) (s : Stmt) :
    Option (List Bytes × List Diag) × (List Bytes × List Diag) × Option (List (Result × List Diag)) :=
  (s.instr.map (evalC O E), evalLabel O E s.label, s.operands.map fun l => l.map (evalOperand O E))

/-- One statement (parser_impl.cpp:334-362, members_statement_provider.cpp:32-68): the names to look for, or none if the statement
is processed. -/
def asks (O : Opr) (E : Env) (s : Stmt) : List Bytes :=
  if (lookInstr O E s).isEmpty then lookStmt O E s else lookInstr O E s

end Verif.Asked
