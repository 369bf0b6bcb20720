/-!
Model for C136: how messages about the expressions of statements get from the nodes of the expressions to the processor, and from there to
the list that is published.

Messages about constants are made by the parser (parser_impl.cpp 236-244) and are not part of this model. Numbers, addresses and the table of
symbols are a parameter (`World`); C57 and C132 model them.
-/
namespace Verif.Report

/-- The messages: those about expressions (mach_operator.h 151, 167; mach_expr_term.cpp 186), the one about an undefined symbol
(low_language_processor.cpp 296), the ones about the operands of EQU (asm_processor.cpp 92-118), those about the number of operands
(low_language_processor.cpp 209-217) and all others by a number. -/
inductive Code where
  | ME002
  | W011
  | E010
  | A133
  | A134
  | count
  | other (n : Nat)
deriving DecidableEq, Repr

/-- `diagnostic_op`: the text follows from the code; ranges by a number. -/
structure Msg where
  code : Code
  rng : Nat
deriving DecidableEq, Repr

/-- `symbol_value_kind`. -/
inductive Kind where
  | undef
  | abs
  | reloc
deriving DecidableEq, Repr

inductive Op where
  | add
  | sub
  | mul
  | div
deriving DecidableEq, Repr

inductive Sign where
  | plus
  | minus
  | par
deriving DecidableEq, Repr

/-- The leaves (mach_expr_term.h): constants and literals, the location counter with the address it was filled with, symbols, attribute
references and the placeholder for what could not be parsed. -/
inductive Term (V : Type) where
  | const (v : V)
  | loctr (v : V)
  | sym (n : Nat)
  | attr (kind : Nat) (n : Nat)
  | none
deriving DecidableEq, Repr

/-- An expression with the container of messages of every node (`collectable_impl::container`, diagnosable_impl.h 59). -/
inductive Expr (V : Type) where
  | leaf (own : List Msg) (rng : Nat) (t : Term V)
  | bin (own : List Msg) (rng : Nat) (op : Op) (l r : Expr V)
  | un (own : List Msg) (rng : Nat) (s : Sign) (e : Expr V)
deriving DecidableEq, Repr

/-- What evaluation depends on at one moment: the arithmetic of values, the table of symbols, and which symbols and attributes are still
unknown (`get_dependencies(...).contains_dependencies()`, by the leaves of the expression). `attr`: the value, and whether it is the scale or
integer attribute of a symbol that cannot have one (mach_expr_term.cpp 183-184). -/
structure World (V : Type) where
  kind : V → Kind
  add : V → V → V
  sub : V → V → V
  mul : V → V → V
  div : V → V → V
  neg : V → V
  undef : V
  sym : Nat → V
  attr : Nat → Nat → V × Bool
  unknown : Term V → Bool

/-- mach_operator.h 147-150, 163-166 -/
def misuse (w : World V) (a b : V) : Bool :=
  !(w.kind a = .abs && w.kind b = .abs) && w.kind a ≠ .undef && w.kind b ≠ .undef

/-- `evaluate`: mach_expr_term.cpp 45, 68-76, 127-133, 149, 173-197, mach_operator.h 129-189. The value, and the expression with the messages
that were added to its nodes. -/
def evaluate (w : World V) : Expr V → V × Expr V
  | .leaf own r (.const v) => (v, .leaf own r (.const v))
  | .leaf own r (.loctr v) => (v, .leaf own r (.loctr v))
  | .leaf own r .none => (w.undef, .leaf own r .none)
  | .leaf own r (.sym n) => (w.sym n, .leaf own r (.sym n))
  | .leaf own r (.attr k n) => ((w.attr k n).1, .leaf (if (w.attr k n).2 then own ++ [⟨.W011, r⟩] else own) r (.attr k n))
  | .bin own r op a b =>
    let x := evaluate w a
    let y := evaluate w b
    match op with
    | .add => (w.add x.1 y.1, .bin own r op x.2 y.2)
    | .sub => (w.sub x.1 y.1, .bin own r op x.2 y.2)
    | .mul => (w.mul x.1 y.1, .bin (if misuse w x.1 y.1 then own ++ [⟨.ME002, r⟩] else own) r op x.2 y.2)
    | .div => (w.div x.1 y.1, .bin (if misuse w x.1 y.1 then own ++ [⟨.ME002, r⟩] else own) r op x.2 y.2)
  | .un own r s a =>
    let x := evaluate w a
    match s with
    | .minus => (w.neg x.1, .un own r s x.2)
    | .plus => (x.1, .un own r s x.2)
    | .par => (x.1, .un own r s x.2)

/-- `collect_diags_from_child` (diagnosable_impl.h 33-48) for an expression: its `collect_diags` (mach_expr_term.h 42, 65, 87, 108, 129, 149,
mach_operator.h 61-65, 94), then its container is moved. All nodes are `is_once_only` (diagnosable_impl.h 53). What the parent gets, and what is
left of the expression. -/
def take : Expr V → List Msg × Expr V
  | .leaf own r t => (own, .leaf [] r t)
  | .bin own r op a b => (own ++ (take a).1 ++ (take b).1, .bin [] r op (take a).2 (take b).2)
  | .un own r s a => (own ++ (take a).1, .un [] r s (take a).2)

/-- `get_dependencies(...).contains_dependencies()` -/
def waits (w : World V) : Expr V → Bool
  | .leaf _ _ t => w.unknown t
  | .bin _ _ _ a b => waits w a || waits w b
  | .un _ _ _ a => waits w a

/-- A nominal value in parentheses: an expression or `D(B)`. -/
inductive Nominal (V : Type) where
  | expr (e : Expr V)
  | addr (d b : Expr V)

/-- Operands of machine, assembler and data instructions (operand_impls.h) with their own containers. `data`: the container of the
`data_definition` with what its parser has found (`own`), duplication factor, length, scale, exponent (data_definition.h 50-80). The program type
is left out: it is only asked for its dependencies. `other`: strings and `KEY(...)`. -/
inductive Operand (V : Type) where
  | empty
  | mach (own : List Msg) (e : Expr V)
  | addr (own : List Msg) (d : Expr V) (x b : Option (Expr V))
  | asm (own : List Msg) (e : Expr V)
  | base (own : List Msg) (a b : Expr V)
  | data (own : List Msg) (fields : List (Expr V)) (values : List (Nominal V))
  | other (own : List Msg)

/-- `set_data_def_field` (data_definition.cpp 258-273): evaluates nothing, once or twice. -/
def field (w : World V) (e : Expr V) : Expr V :=
  if waits w e then e
  else
    let x := evaluate w e
    if w.kind x.1 = .abs then (evaluate w x.2).2 else x.2

/-- `data_definition::evaluate_nominal_value` (data_definition.cpp 300-370). -/
def Nominal.value (w : World V) : Nominal V → Nominal V
  | .expr e => .expr (evaluate w e).2
  | .addr d b => .addr (field w d) (field w b)

def Expr.isSym : Expr V → Bool
  | .leaf _ _ (.sym _) => true
  | _ => false

/-- `get_operand_value` (operand_impls.cpp 83-106, 118-127, 187-224, 292-313, 337-347, 541-559, 575-578) as far as containers are concerned.
`syms`: `can_have_ordsym`. -/
def Operand.value (w : World V) (syms : Bool) : Operand V → Operand V
  | .empty => .empty
  | .mach own e => .mach own (evaluate w e).2
  | .addr own d x b => .addr own (evaluate w d).2 (x.map fun e => (evaluate w e).2) (b.map fun e => (evaluate w e).2)
  | .asm own e => if !syms && e.isSym then .asm own e else .asm own (evaluate w e).2
  | .base own a b => .base own a b
  | .data own fs vs => .data own (fs.map (field w)) (vs.map (Nominal.value w))
  | .other own => .other own

def takeOpt : Option (Expr V) → List Msg × Option (Expr V)
  | none => ([], none)
  | some e => ((take e).1, some (take e).2)

/-- `collect_diags` of the operand and moving its container away (operand_impls.cpp 138, 226-233, 315, 349-353, 374, 562, 581,
data_definition.cpp 256, low_language_processor.cpp 324-327). -/
def Operand.take : Operand V → List Msg × Operand V
  | .empty => ([], .empty)
  | .mach own e => (own ++ (Report.take e).1, .mach [] (Report.take e).2)
  | .addr own d x b => (own ++ (Report.take d).1 ++ (takeOpt x).1 ++ (takeOpt b).1, .addr [] (Report.take d).2 (takeOpt x).2 (takeOpt b).2)
  | .asm own e => (own ++ (Report.take e).1, .asm [] (Report.take e).2)
  | .base own a b => (own ++ (Report.take a).1 ++ (Report.take b).1, .base [] (Report.take a).2 (Report.take b).2)
  | .data own fs vs => (own, .data [] fs vs)
  | .other own => (own, .other [])

def Nominal.waits (w : World V) : Nominal V → Bool
  | .expr e => Report.waits w e
  | .addr d b => Report.waits w d || Report.waits w b

def waitsOpt (w : World V) : Option (Expr V) → Bool
  | none => false
  | some e => waits w e

/-- `has_dependencies` (operand_impls.cpp 130-133, 154-171, 320-323, 335-338, 367, 520-523, 569). -/
def Operand.waits (w : World V) : Operand V → Bool
  | .empty => false
  | .mach _ e => Report.waits w e
  | .addr _ d x b => Report.waits w d || waitsOpt w x || waitsOpt w b
  | .asm _ e => Report.waits w e
  | .base _ a b => Report.waits w a || Report.waits w b
  | .data _ fs vs => fs.any (Report.waits w) || vs.any (Nominal.waits w)
  | .other _ => false

/-- The loop over the operands in `transform_default` and `transform_mnemonic` with `get_check_op` (low_language_processor.cpp 233-329): the
messages, whether all operands were taken, and the operands afterwards. Ranges of operands as numbers are those in the list `rs`. -/
def loop (w : World V) (syms : Bool) : List (Nat × Operand V) → List Msg × Bool × List (Nat × Operand V)
  | [] => ([], true, [])
  | (r, .empty) :: ops =>
    let x := loop w syms ops
    (x.1, x.2.1, (r, .empty) :: x.2.2)
  | (r, op) :: ops =>
    if syms && op.waits w then ([⟨.E010, r⟩], false, (r, op) :: ops)
    else
      let t := (op.value w syms).take
      let x := loop w syms ops
      (t.1 ++ x.1, x.2.1, (r, t.2) :: x.2.2)

/-- A statement: its range, whether ordinary symbols can stand in its operands (`has_ord_symbols`), whether the number of operands fits an
extended mnemonic (true for all other instructions), and what the checker says about the operands (C92, C102; a parameter). -/
structure Stmt (V : Type) where
  rng : Nat
  syms : Bool
  fits : Bool
  ops : List (Nat × Operand V)
  checker : World V → List Msg

/-- `low_language_processor::check` (low_language_processor.cpp 332-366). -/
def check (w : World V) (s : Stmt V) : List Msg × Stmt V :=
  if s.fits then
    let x := loop w s.syms s.ops
    (x.1 ++ (if x.2.1 then s.checker w else []), { s with ops := x.2.2 })
  else ([⟨.count, s.rng⟩], s)

/-- `mach_processor::process` (mach_processor.cpp 65-87) and `ordinary_processor::check_postponed_statements` (ordinary_processor.cpp 206-225):
`now` is the world when the statement is processed, `later` the one at the end. -/
def machine (now later : World V) (s : Stmt V) : List Msg × Stmt V :=
  if s.ops.any fun o => o.2.waits now then check later s else check now s

/-- `asm_processor::process` of an instruction without its own function (asm_processor.cpp 516-530). -/
def assembler (now : World V) (s : Stmt V) : List Msg × Stmt V :=
  if s.syms && s.ops.any fun o => o.2.waits now then ([], s) else check now s

/-- The operand of EQU with the type or the length (asm_processor.cpp 79-118): `ok`: the value is in range. -/
def part (w : World V) (code : Code) (ok : V → Bool) : Nat × Operand V → List Msg × (Nat × Operand V)
  | (r, .empty) => ([], (r, .empty))
  | (r, .asm own e) =>
    if waits w e then ([⟨code, r⟩], (r, .asm own e))
    else
      let x := evaluate w e
      (if ok x.1 then [] else [⟨code, r⟩], (r, .asm own x.2))
  | (r, o) => ([⟨code, r⟩], (r, o))

/-- What `process_EQU` does with the operands (asm_processor.cpp 76-167), for a label that is given and not yet defined. `len`, `typ`: second and
third operand. `addr`: the value is an address already, with lengths that wait (`holder.is_address()`). `fit133`, `fit134`: length or type in
range. `resolved`: the world in which the dependency tables compute the value, if they do so before the end: the statement is then taken off the
list of those to be checked, as this is the only thing that waited for it (symbol_dependency_tables.cpp 105-111, 141-173, 222-240, 508-528), and what
the evaluation has found is never asked for. `cycle`: the definition depends on itself. The messages, and whether `check` is called at the end. -/
def equ (now later : World V) (resolved : Option (World V)) (addr cycle : Bool) (fit133 fit134 : V → Bool) (s : Stmt V)
    (val : Nat × Operand V) (len typ : Nat × Operand V) : List Msg × Bool :=
  let t := part now .A134 fit134 typ
  let l := part now .A133 fit133 len
  match val.2 with
  | .asm own e =>
    if !waits now e then (t.1 ++ l.1, false)
    else if addr || cycle || resolved.isSome then (t.1 ++ l.1, false)
    else (t.1 ++ l.1 ++ (check later { s with ops := [(val.1, .asm own e), l.2, t.2] }).1, true)
  | _ => (t.1 ++ l.1, false)

/-- DC and DS (asm_processor.cpp 173-302): `evals`: the worlds in which values of operands are asked for before the check, for the label and for
the length, in whatever order and however often (data_def_postponed_statement.h 46-69). -/
def dataDef (evals : List (World V)) (now later : World V) (s : Stmt V) : List Msg × Stmt V :=
  let ops := evals.foldl (fun ops w => ops.map fun o => (o.1, o.2.value w true)) s.ops
  if s.ops.any fun o => o.2.waits now then check later { s with ops } else check now { s with ops }

/-! ### From the processors to the list that is published -/

/-- Objects with containers: whether their messages are moved or copied (`is_once_only`: library_local.h 59, processor_file_impl.cpp 41 say
no), the container, the children that `collect_diags` goes through, and the messages that it adds itself every time
(workspace.cpp 72-73: `config_diags_`). -/
inductive Tree where
  | node (once : Bool) (own : List Msg) (kids : List Tree) (every : List Msg)

mutual
/-- `collect_diags` of an object: the messages it has afterwards, and its children afterwards (workspace.cpp 65-74, file_manager_impl.cpp 25-31,
processor_group.h 33-39, library_local.cpp 78-81, file_impl.cpp 33, analyzer.cpp 73-77, processing_manager.cpp 318-324). -/
def Tree.collect : Tree → List Msg × List Tree
  | .node _ own kids every => (own ++ (gather kids).1 ++ every, (gather kids).2)
/-- `collect_diags_from_child` (diagnosable_impl.h 33-48) for all children: what the parent gets, and the children afterwards. -/
def gather : List Tree → List Msg × List Tree
  | [] => ([], [])
  | .node once own kids every :: ts =>
    let c := Tree.collect (.node once own kids every)
    let g := gather ts
    (c.1 ++ g.1, .node once (if once then [] else c.1) c.2 every :: g.2)
end

/-- What the server has: per analysed file the messages of its last analysis, per workspace the messages of the libraries of its groups and those
about its configuration. -/
structure Server where
  files : List (List Msg)
  spaces : List (List (List (List Msg)) × List Msg)

/-- The objects below the workspace manager (workspace_manager_impl.h 202-208, file_manager_impl.cpp 25-31, workspace.cpp 65-74,
processor_group.h 33-39). -/
def Server.trees (s : Server) : List Tree :=
  .node true [] (s.files.map fun f => .node false f [] []) [] ::
    s.spaces.map fun p => .node true [] (p.1.map fun g => .node true [] (g.map fun l => .node false l [] []) []) p.2

/-- `notify_diagnostics_consumers` (workspace_manager_impl.h 230-239): the container of the manager is emptied first. -/
def publish (kids : List Tree) : List Msg × List Tree := gather kids

/-- `processor_file_impl::parse_inner` (processor_file_impl.cpp 109-124): the container of the file after an analysis whose objects are `a`. -/
def parsed (_old : List Msg) (a : Tree) : List Msg := [] ++ (gather [a]).1

end Verif.Report
