import Verif.Attr.Model
import Verif.Lexing.Range
/-!
Which mentions of symbols the analysis records for navigation.

Modelled: `/repo/parser_library/src/processing/statement_analyzers/occurence_collector.cpp` (all),
`/repo/parser_library/src/processing/statement_analyzers/lsp_analyzer.cpp` (all but the handing over to `lsp_context`, which is the
subject of C81), the traversal of expressions (`mach_operator.h` 53-57, 90, `ca_operator_binary.cpp` 59-63, `ca_operator_unary.cpp`
47) and the parts of statements they run over (`operand_impls.h`, `variable_symbol.h`, `concatenation_term.h`, `statement_fields.h`,
the expression classes). Names are in upper case, as `id_storage` keeps them. How statements are parsed is not modelled.
-/
namespace Verif.Mention

open Lexing (Pos Rng)

/-- `occurence_kind` (`symbol_occurence.h` 25-32). -/
inductive Kind where
  | ord | var | seq | instr | copyOp
deriving DecidableEq, Repr

/-- `symbol_occurence` (`symbol_occurence.h` 34-63). -/
structure Occ where
  kind : Kind
  name : Bytes
  range : Rng
  opcode : Option Nat := none
deriving DecidableEq, Repr

/-- Machine expressions (`mach_expr_term.h`, `mach_operator.h`); `un` stands for signs and parentheses. -/
inductive Mach where
  | const
  | selfDef
  | loc
  | dflt
  | sym (name : Bytes) (r : Rng)
  | attr (name : Bytes) (symbolRange : Rng)
  | un (e : Mach)
  | bin (l r : Mach)
deriving DecidableEq, Repr

mutual
/-- `basic_variable_symbol`, `created_variable_symbol` (`variable_symbol.h` 37-82). -/
inductive Var where
  | basic (name : Bytes) (sub : Exprs) (r : Rng)
  | created (name : Chain) (sub : Exprs) (r : Rng)
/-- `concat_chain` (`concatenation.h`, `concatenation_term.h`): a list of texts, variable symbols, dots or equals signs, and sublists. -/
inductive Chain where
  | nil
  | str (value : Bytes) (r : Rng) (rest : Chain)
  | var (v : Var) (rest : Chain)
  | dot (rest : Chain)
  | sub (l : Chains) (rest : Chain)
/-- The elements of a sublist. -/
inductive Chains where
  | nil
  | cons (c : Chain) (rest : Chains)
/-- Conditional assembly expressions (`expressions/conditional_assembly`). -/
inductive Expr where
  | const
  | list (es : Exprs)
  | func (params : Exprs) (dupl : OptExpr)
  | string (value : Chain) (dupl start count : OptExpr)
  | sym (name : Bytes) (r : Rng)
  | attrOrd (name : Bytes) (symbolRange : Rng)
  | attrVar (v : Var)
  | var (v : Var)
  | un (e : Expr)
  | bin (l r : Expr)
/-- Lists of expressions. -/
inductive Exprs where
  | nil
  | cons (e : Expr) (rest : Exprs)
/-- An expression that may be left out. -/
inductive OptExpr where
  | none
  | some (e : Expr)
end

/-- `get_occurence(id_index, range)` and `get_occurence(seq_sym)` (`occurence_collector.cpp` 120-130): recorded if it is of the kind
looked for. -/
def record (k kind : Kind) (name : Bytes) (r : Rng) : List Occ := if k = kind then [⟨kind, name, r, none⟩] else []

/-- Machine expressions (`occurence_collector.cpp` 164-182). -/
def Mach.coll (k : Kind) : Mach → List Occ
  | .sym n r => record k .ord n r
  | .attr n r => record k .ord n r
  | .un e => e.coll k
  | .bin l r => l.coll k ++ r.coll k
  | _ => []

/-- The text of a chain (`occurence_collector.cpp` 138-146). -/
def textColl (k : Kind) (value : Bytes) (r : Rng) : List Occ :=
  if k = .ord then (Attr.symbolName value).elim [] fun n => [⟨.ord, n, r, none⟩] else []

mutual
/-- `get_occurence(variable_symbol)` (`occurence_collector.cpp` 109-118). -/
def Var.coll (k : Kind) : Var → List Occ
  | .basic n _ r => if k = .var then [⟨.var, n, r, none⟩] else []
  | .created c _ _ => if k = .var then c.coll k else []
/-- `get_occurence(concat_chain)` (`occurence_collector.cpp` 132-162). -/
def Chain.coll (k : Kind) : Chain → List Occ
  | .nil => []
  | .str v r rest => textColl k v r ++ rest.coll k
  | .var v rest => (if k = .var then v.coll k else []) ++ rest.coll k
  | .dot rest => rest.coll k
  | .sub l rest => l.coll k ++ rest.coll k
/-- The loop over a sublist (`occurence_collector.cpp` 152-155). -/
def Chains.coll (k : Kind) : Chains → List Occ
  | .nil => []
  | .cons c rest => c.coll k ++ rest.coll k
/-- Conditional assembly expressions (`occurence_collector.cpp` 184-217). -/
def Expr.coll (k : Kind) : Expr → List Occ
  | .const => []
  | .list es => es.coll k
  | .func ps d => d.coll k ++ ps.coll k
  | .string _ d _ _ => d.coll k
  | .sym n r => record k .ord n r
  | .attrOrd n r => record k .ord n r
  | .attrVar v => v.coll k
  | .var v => v.coll k
  | .un e => e.coll k
  | .bin l r => l.coll k ++ r.coll k
/-- A list of expressions. -/
def Exprs.coll (k : Kind) : Exprs → List Occ
  | .nil => []
  | .cons e rest => e.coll k ++ rest.coll k
/-- An expression if there is one. -/
def OptExpr.coll (k : Kind) : OptExpr → List Occ
  | .none => []
  | .some e => e.coll k
end

/-- An element of a nominal value that consists of expressions (`nominal_value.h`): an expression or an address `D(B)`. -/
inductive Nominal where
  | expr (e : Mach)
  | addr (displacement base : Mach)
deriving DecidableEq, Repr

/-- Operands (`operand_impls.h`). -/
inductive Operand where
  | empty
  | model (c : Chain)
  | machExpr (e : Option Mach)
  | machAddr (displacement first second : Option Mach)
  | asmExpr (e : Option Mach)
  | asmUsing (base stop : Option Mach)
  | asmComplex
  | asmString
  | data (dupl programType length scale exponent : Option Mach) (nominal : List Nominal)
  | caVar (v : Var)
  | caExpr (e : OptExpr)
  | caSeq (name : Bytes) (r : Rng)
  | caBranch (e : Expr) (name : Bytes) (r : Rng)
  | macChain (c : Chain)
  | macString

/-- A machine expression if there is one. -/
def optMach (k : Kind) (e : Option Mach) : List Occ := e.elim [] (·.coll k)

/-- An element of a nominal value (`occurence_collector.cpp` 80-90). -/
def Nominal.coll (k : Kind) : Nominal → List Occ
  | .expr e => e.coll k
  | .addr d b => b.coll k ++ d.coll k

/-- `visit` of the operands (`occurence_collector.cpp` 28-107). -/
def Operand.coll (k : Kind) : Operand → List Occ
  | .model c => c.coll k
  | .machExpr e => optMach k e
  | .machAddr d f s => optMach k d ++ optMach k f ++ optMach k s
  | .asmExpr e => optMach k e
  | .asmUsing b s => optMach k b ++ optMach k s
  | .data d p l s e n => optMach k d ++ optMach k p ++ optMach k l ++ optMach k s ++ optMach k e ++ n.flatMap (·.coll k)
  | .caVar v => v.coll k
  | .caExpr e => e.coll k
  | .caSeq n r => record k .seq n r
  | .caBranch e n r => e.coll k ++ record k .seq n r
  | .macChain c => c.coll k
  | _ => []

/-- `label_si` (`statement_fields.h` 27-84). -/
inductive Label where
  | empty
  | ord (name : Bytes) (r : Rng)
  | mac
  | seq (name : Bytes) (r : Rng)
  | var (v : Var)
  | conc (c : Chain)

/-- `instruction_si` (`statement_fields.h` 86-123). -/
inductive Instr where
  | empty
  | ord (name : Bytes) (r : Rng)
  | conc (c : Chain)

/-- The operand field: operands of a resolved statement, or the variable symbols of a deferred one (`statement.h`). -/
inductive Field where
  | operands (l : List Operand)
  | deferred (vars : List Var)

/-- A statement; `opcode` is the operation code of a resolved statement (`opcode_ref().value`). -/
structure Stmt where
  label : Label
  instr : Instr
  field : Field
  opcode : Bytes

/-- `access_resolved` (`hlasm_statement.h`). -/
def Stmt.resolved (s : Stmt) : Bool := match s.field with
  | .operands _ => true
  | .deferred _ => false

/-- `get_operation_code` (`hlasm_context.cpp`): the operation code behind a name and its macro, if it is one; none for unknown ones. -/
abbrev Codes := Bytes → Option (Bytes × Option Nat)

/-- The name field (`lsp_analyzer.cpp` 157-176). -/
def Label.coll (k : Kind) : Label → List Occ
  | .conc c => c.coll k
  | .ord n r => record k .ord n r
  | .seq n r => record k .seq n r
  | .var v => v.coll k
  | _ => []

/-- The operation field (`lsp_analyzer.cpp` 178-191). -/
def Instr.coll (C : Codes) (k : Kind) : Instr → List Occ
  | .conc c => c.coll k
  | .ord n r => if k = .instr then (C n).elim [] fun o => [⟨.instr, o.1, r, o.2⟩] else []
  | .empty => []

/-- The operand field (`lsp_analyzer.cpp` 193-201). -/
def Field.coll (k : Kind) : Field → List Occ
  | .operands l => l.flatMap (·.coll k)
  | .deferred vs => vs.flatMap (·.coll k)

/-- `collect_occurences` (`lsp_analyzer.cpp` 134-155). -/
def Stmt.coll (C : Codes) (k : Kind) (s : Stmt) : List Occ := s.label.coll k ++ s.instr.coll C k ++ s.field.coll k

/-- The id of `COPY`. -/
def COPY : Bytes := "COPY".toUTF8.toList
/-- The id of `MACRO`. -/
def MACRO : Bytes := "MACRO".toUTF8.toList
/-- The id of `MEND`. -/
def MEND : Bytes := "MEND".toUTF8.toList

/-- The member a COPY statement names (`lsp_analyzer.cpp` 252-267): its operand if it is the only one and a symbol. An operand of an
assembler instruction that is no expression makes the program dereference a null pointer; the grammar gives COPY none (not modelled:
taken as no operand). -/
def Stmt.member (s : Stmt) : Option (Bytes × Rng) :=
  if s.opcode = COPY then
    match s.field with
    | .operands [.asmExpr (some (.sym n r))] => some (n, r)
    | _ => none
  else none

/-- `add_copy_operand` (`lsp_analyzer.cpp` 321-331): the first ordinary symbol of that name and place becomes a member. -/
def addCopy (n : Bytes) (r : Rng) : List Occ → List Occ
  | [] => [⟨.copyOp, n, r, none⟩]
  | o :: os => if o = ⟨.ord, n, r, none⟩ then { o with kind := .copyOp } :: os else o :: addCopy n r os

/-- `collect_copy_operands` (`lsp_analyzer.cpp` 252-267). -/
def Stmt.withCopy (s : Stmt) (os : List Occ) : List Occ := s.member.elim os fun m => addCopy m.1 m.2 os

/-- `statement_provider_kind`. -/
inductive Prov where
  | macr | copy | opencode
deriving DecidableEq, Repr

/-- `processing_kind`. -/
inductive Proc where
  | ordinary | copy | macr | lookahead
deriving DecidableEq, Repr

/-- The types of SET symbols. -/
inductive SetTy where
  | A | B | C
deriving DecidableEq, Repr

/-- `variable_symbol_definition` (`macro_info.h`) of open code: name, type, whether it is global, file and position. -/
structure VarDef where
  name : Bytes
  type : SetTy
  isGlobal : Bool
  file : String
  pos : Pos
deriving DecidableEq, Repr

/-- `is_SET` (`lsp_analyzer.cpp` 225-238). -/
def setInstr (op : Bytes) : Option SetTy :=
  if op = "SETA".toUTF8.toList then some .A else if op = "SETB".toUTF8.toList then some .B
  else if op = "SETC".toUTF8.toList then some .C else none

/-- `is_LCL_GBL` (`lsp_analyzer.cpp` 205-221). -/
def lclInstr (op : Bytes) : Option (SetTy × Bool) :=
  if op = "LCLA".toUTF8.toList then some (.A, false) else if op = "LCLB".toUTF8.toList then some (.B, false)
  else if op = "LCLC".toUTF8.toList then some (.C, false) else if op = "GBLA".toUTF8.toList then some (.A, true)
  else if op = "GBLB".toUTF8.toList then some (.B, true) else if op = "GBLC".toUTF8.toList then some (.C, true) else none

/-- `add_var_def` (`lsp_analyzer.cpp` 305-319). -/
def addVarDef (file : String) (ty : SetTy) (glob : Bool) (defs : List VarDef) : Var → List VarDef
  | .created _ _ _ => defs
  | .basic n _ r => if defs.any (·.name = n) then defs else defs ++ [⟨n, ty, glob, file, r.start⟩]

/-- The variable symbols that are operands of LCL or GBL (`lsp_analyzer.cpp` 286-301). -/
def Operand.caVar? : Operand → Option Var
  | .caVar v => some v
  | _ => none

/-- `collect_var_definition` (`lsp_analyzer.cpp` 240-250, 269-303). -/
def Stmt.varDefs (file : String) (s : Stmt) (defs : List VarDef) : List VarDef :=
  match s.field with
  | .deferred _ => defs
  | .operands l =>
    match setInstr s.opcode with
    | some ty => match s.label with
      | .var v => addVarDef file ty false defs v
      | _ => defs
    | none => match lclInstr s.opcode with
      | some (ty, glob) => (l.filterMap Operand.caVar?).foldl (addVarDef file ty glob) defs
      | none => defs

/-- Occurrences by file. -/
abbrev FileOccs := String → List Occ

/-- The state of `lsp_analyzer` (`lsp_analyzer.h`). -/
structure State where
  inMacro : Bool := false
  nest : Nat := 1
  macroOccs : FileOccs := fun _ => []
  openOccs : FileOccs := fun _ => []
  varDefs : List VarDef := []

/-- `update_macro_nest` (`lsp_analyzer.cpp` 333-343). `macro_nest_` is a `size_t`: it wraps round below 0; it cannot get too large. -/
def Stmt.nesting (s : Stmt) (nest : Nat) : Nat :=
  if s.resolved then
    (if s.opcode = MACRO then nest + 1
     else if s.opcode = MEND then (if nest = 0 then 18446744073709551615 else nest - 1)
     else nest)
  else nest

/-- Appending the occurrences of a statement to those of a file. -/
def FileOccs.add (f : FileOccs) (file : String) (os : List Occ) : FileOccs := fun g => if g = file then f g ++ os else f g

/-- `assign_statement_occurences` (`lsp_analyzer.cpp` 117-132). -/
def State.assign (st : State) (file : String) (os : List Occ) : State :=
  if st.inMacro then { st with macroOccs := st.macroOccs.add file os } else { st with openOccs := st.openOccs.add file os }

/-- What `analyze` collects while processing a statement (`lsp_analyzer.cpp` 49-59). -/
def Stmt.ordinary (C : Codes) (prov : Prov) (s : Stmt) : List Occ :=
  if prov = .macr then s.coll C .ord ++ s.coll C .instr
  else s.withCopy (s.coll C .ord ++ s.coll C .instr ++ s.coll C .var ++ s.coll C .seq)

/-- What `analyze` collects while defining a macro (`lsp_analyzer.cpp` 64-66). -/
def Stmt.inMacro (C : Codes) (s : Stmt) : List Occ := s.withCopy (s.coll C .var ++ s.coll C .seq)

/-- `analyze` (`lsp_analyzer.cpp` 40-73); `file` is the file of the statement (`current_statement_location`). -/
def State.analyze (C : Codes) (st : State) (s : Stmt) (prov : Prov) (proc : Proc) (file : String) : State :=
  match proc with
  | .ordinary =>
    let st := if prov = .macr then st else { st with varDefs := s.varDefs file st.varDefs }
    st.assign file (s.ordinary C prov)
  | .macr =>
    let st : State := { st with nest := s.nesting st.nest }
    if st.nest > 1 then st.assign file [] else st.assign file (s.inMacro C)
  | _ => st.assign file []

/-- `macrodef_started` (`lsp_analyzer.cpp` 75-83). -/
def State.started (st : State) (isExternal : Bool) : State := { st with inMacro := true, nest := if isExternal then 0 else 1 }

/-- `macrodef_finished` (`lsp_analyzer.cpp` 85-108) of a valid macro: its occurrences with its name, and the state behind. -/
def State.finished (st : State) (name : Bytes) (id : Nat) (file : String) (r : Rng) : FileOccs × State :=
  (st.macroOccs.add file [⟨.instr, name, r, some id⟩], { st with inMacro := false, macroOccs := fun _ => [] })

end Verif.Mention
