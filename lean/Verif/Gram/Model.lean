import Verif.Basic
import Verif.Lexing.Range
import Verif.Lexing.Lexer
/-!
The grammar of operands of machine and assembler instructions and of data definitions.

Modelled: `/repo/parser_library/src/parsing/grammar/machine_expr_rules.g4`, `machine_operand_rules.g4`, `assembler_operand_rules.g4`,
`data_def_rules.g4`, the lists of operands in `operand_field_rules.g4` 37-141 and the rules of `hlasmparser.g4` and
`label_field_rules.g4` they use. A parse tree is a value of the type of its rule: each rule is a type, each alternative a constructor,
`yield` is its text as a list of tokens. The actions that build expressions are `ast`. That the parser ANTLR generates finds a parse
tree of the text if there is one is trusted; which one it takes if there are several is not modelled (hence the theorems on
unambiguity), nor is its recovery from syntax errors. Highlighting actions are left out.
-/
namespace Verif.Gram

open Lexing (Pos Rng Ty)

/-- A token: type, text and range. -/
structure Tok where
  ty : Ty
  text : Bytes
  rng : Rng
deriving DecidableEq, Repr

/-- A token with a fixed text of one character. -/
def sym (ty : Ty) (c : Char) (r : Rng) : Tok := ⟨ty, [UInt8.ofNat c.toNat], r⟩

/-- `provider.get_range(first, last)` (`range_provider.cpp`): from the start of the first to the end of the last token; the
transformation of ranges of substituted texts is the subject of C75. -/
def span (ts : List Tok) : Rng :=
  match ts with
  | [] => ⟨⟨0, 0⟩, ⟨0, 0⟩⟩
  | t :: ts => ⟨t.rng.start, (ts.getLastD t).rng.stop⟩

/-- The alternatives of `id_ch` (`hlasmparser.g4` 180-183). -/
inductive Word where
  | identifier | num | ordsymbol
deriving DecidableEq, Repr

/-- Their token types. -/
def Word.ty : Word → Ty
  | .identifier => .identifier
  | .num => .num
  | .ordsymbol => .ordsymbol

/-- `id_ch` (`hlasmparser.g4` 180-183). -/
structure IdCh where
  kind : Word
  text : Bytes
  rng : Rng
deriving DecidableEq, Repr

/-- Its token. -/
def IdCh.tok (c : IdCh) : Tok := ⟨c.kind.ty, c.text, c.rng⟩

/-- `id_no_dot` (`hlasmparser.g4` 194-201). -/
structure Id where
  text : Bytes
  rng : Rng
  rest : List IdCh
deriving DecidableEq, Repr

/-- Its tokens. -/
def Id.yield (i : Id) : List Tok := ⟨.ordsymbol, i.text, i.rng⟩ :: i.rest.map IdCh.tok

/-- The name (`hlasmparser.g4` 194-201): the texts of the tokens; `ids().add` makes it upper case (C30). -/
def Id.name (i : Id) : Bytes := i.text ++ i.rest.flatMap (·.text)

/-- `id` (`hlasmparser.g4` 190-192). -/
inductive QId where
  | plain (i : Id)
  | qualified (q : Id) (dot : Rng) (n : Id)
deriving DecidableEq, Repr

/-- Its tokens. -/
def QId.yield : QId → List Tok
  | .plain i => i.yield
  | .qualified q d n => q.yield ++ sym .dot '.' d :: n.yield

/-- `num_ch`, `num` (`hlasmparser.g4` 164-168). -/
structure Num where
  text : Bytes
  rng : Rng
  rest : List (Bytes × Rng)
deriving DecidableEq, Repr

/-- A token of a number. -/
def numTok (p : Bytes × Rng) : Tok := ⟨.num, p.1, p.2⟩

/-- Its tokens. -/
def Num.yield (n : Num) : List Tok := numTok (n.text, n.rng) :: n.rest.map numTok

/-- `(APOSTROPHE|ATTR)`. -/
structure Quote where
  attr : Bool
  rng : Rng
deriving DecidableEq, Repr

/-- Its token. -/
def Quote.tok (q : Quote) : Tok := sym (if q.attr then .attr else .apostrophe) '\'' q.rng

/-- The types of tokens that stand for themselves in a string (`common_ch` but `&&`, `l_ch`, `l_sp_ch` in `label_field_rules.g4`
123-144, 254-256). -/
def isStrCh : Ty → Bool
  | .asterisk | .minus | .plus | .lt | .gt | .slash | .equals | .vertical | .identifier | .num | .ordsymbol | .dot | .comma | .lpar
  | .rpar | .space => true
  | _ => false

/-- `string_ch` (`machine_expr_rules.g4` 126-135). -/
inductive StrCh where
  | one (ty : Ty) (h : isStrCh ty = true) (text : Bytes) (r : Rng)
  | amp (a b : Rng)
  | apo (a b : Quote)

/-- Its tokens. -/
def StrCh.yield : StrCh → List Tok
  | .one ty _ t r => [⟨ty, t, r⟩]
  | .amp a b => [sym .ampersand '&' a, sym .ampersand '&' b]
  | .apo a b => [a.tok, b.tok]

/-- The value of `string_ch` (`machine_expr_rules.g4` 126-135). -/
def StrCh.value : StrCh → Bytes
  | .one _ _ t _ => t
  | .amp _ _ => [38]
  | .apo _ _ => [39]

/-- `string` (`machine_expr_rules.g4` 141-146). -/
structure Str where
  open' : Rng
  chs : List StrCh
  close : Quote

/-- Its tokens. -/
def Str.yield (s : Str) : List Tok := sym .apostrophe '\'' s.open' :: (s.chs.flatMap (·.yield) ++ [s.close.tok])

/-- Its value. -/
def Str.value (s : Str) : Bytes := s.chs.flatMap (·.value)

/-- `is_data_attr` (`parser_impl.cpp` 221-226). -/
def isDataAttr (t : Bytes) : Bool :=
  match t with
  | [c] => [68, 79, 78, 83, 75, 73, 76, 84].contains (if 97 ≤ c && c ≤ 122 then c - 32 else c)
  | _ => false

/-- `(plus|minus)`. -/
inductive AddOp where
  | add | sub
deriving DecidableEq, Repr

/-- Its token. -/
def AddOp.tok (o : AddOp) (r : Rng) : Tok := match o with
  | .add => sym .plus '+' r
  | .sub => sym .minus '-' r

/-- `(slash|asterisk)`. -/
inductive MulOp where
  | div | mul
deriving DecidableEq, Repr

/-- Its token. -/
def MulOp.tok (o : MulOp) (r : Rng) : Tok := match o with
  | .div => sym .slash '/' r
  | .mul => sym .asterisk '*' r

/-- `data_def_ch` (`data_def_rules.g4` 131-136). -/
inductive DCh where
  | word (k : Word) (text : Bytes) (r : Rng)
  | minus (r : Rng)
  | dot (r : Rng)
deriving DecidableEq, Repr

/-- Its token. -/
def DCh.tok : DCh → Tok
  | .word k t r => ⟨k.ty, t, r⟩
  | .minus r => sym .minus '-' r
  | .dot r => sym .dot '.' r

/-- `data_def_id` (`data_def_rules.g4` 138-140). -/
structure DId where
  first : DCh
  rest : List DCh
deriving DecidableEq, Repr

/-- Its tokens. -/
def DId.yield (d : DId) : List Tok := d.first.tok :: d.rest.map DCh.tok

mutual
/-- `mach_expr` (`machine_expr_rules.g4` 18-32). -/
inductive Expr where
  | mk (head : Product) (tail : ETail)
/-- The loop of `mach_expr`. -/
inductive ETail where
  | nil
  | cons (op : AddOp) (r : Rng) (s : Product) (rest : ETail)
/-- `mach_expr_s` (`machine_expr_rules.g4` 34-47). -/
inductive Product where
  | mk (head : Signed) (tail : PTail)
/-- The loop of `mach_expr_s`. -/
inductive PTail where
  | nil
  | cons (op : MulOp) (r : Rng) (c : Signed) (rest : PTail)
/-- `mach_term_c` (`machine_expr_rules.g4` 49-61). -/
inductive Signed where
  | term (t : Term)
  | sign (op : AddOp) (r : Rng) (c : Signed)
/-- `mach_term` (`machine_expr_rules.g4` 63-100) with `literal` (103-104) and `mach_data_attribute` (106-113). -/
inductive Term where
  | par (l : Rng) (e : Expr) (r : Rng)
  | loc (r : Rng)
  | attr (text : Bytes) (h : isDataAttr text = true) (r : Rng) (q : Rng) (v : AttrVal)
  | id (i : QId)
  | num (n : Num)
  | selfDef (text : Bytes) (r : Rng) (s : Str)
  | literal (eq : Rng) (d : DataDef)
/-- `mach_data_attribute_value` (`machine_expr_rules.g4` 115-122). -/
inductive AttrVal where
  | literal (eq : Rng) (d : DataDef)
  | loc (r : Rng)
  | id (i : QId)
/-- `data_def` (`data_def_rules.g4` 107-129); the duplication factor may be left out. -/
inductive DataDef where
  | mk (dupl : Dupl) (id : DId) (mods : Mods) (nom : NomO)
/-- `mach_expr_pars` (`data_def_rules.g4` 21-25). -/
inductive Pars where
  | mk (l : Rng) (e : Expr) (r : Rng)
/-- `dupl_factor_expr_o` (`data_def_rules.g4` 27-32). -/
inductive Dupl where
  | none
  | some (p : Pars)
/-- `prog_type_and_modifier_p` (`data_def_rules.g4` 35-58). -/
inductive Mods where
  | zero
  | one (p1 : Pars) (d1 : DId)
  | two (p1 : Pars) (d1 : DId) (p2 : Pars) (d2 : DId)
  | three (p1 : Pars) (d1 : DId) (p2 : Pars) (d2 : DId) (p3 : Pars) (d3 : DId)
/-- `nominal_value_o` (`data_def_rules.g4` 70-80). -/
inductive NomO where
  | none
  | nom (n : Nominal)
  | exprNom (p : Pars) (n : Nominal)
/-- `nominal_value` (`data_def_rules.g4` 60-68) with `data_def_string` (143-148). -/
inductive Nominal where
  | str (q1 : Quote) (chs : List StrCh) (q2 : Quote)
  | exprs (l : Rng) (first : EA) (rest : EATail) (r : Rng)
/-- An element of `mach_expr_or_address_comma_c` (`data_def_rules.g4` 82-105), with `data_def_address` (82-87). -/
inductive EA where
  | expr (e : Expr)
  | addr (d : Expr) (l : Rng) (b : Expr) (r : Rng)
/-- The list `mach_expr_or_address_comma_c` behind its first element. -/
inductive EATail where
  | nil
  | cons (comma : Rng) (e : EA) (rest : EATail)
end

mutual
/-- Tokens of `mach_expr`. -/
def Expr.yield : Expr → List Tok
  | .mk h t => h.yield ++ t.yield
/-- Tokens of its loop. -/
def ETail.yield : ETail → List Tok
  | .nil => []
  | .cons op r s rest => op.tok r :: (s.yield ++ rest.yield)
/-- Tokens of `mach_expr_s`. -/
def Product.yield : Product → List Tok
  | .mk h t => h.yield ++ t.yield
/-- Tokens of its loop. -/
def PTail.yield : PTail → List Tok
  | .nil => []
  | .cons op r c rest => op.tok r :: (c.yield ++ rest.yield)
/-- Tokens of `mach_term_c`. -/
def Signed.yield : Signed → List Tok
  | .term t => t.yield
  | .sign op r c => op.tok r :: c.yield
/-- Tokens of `mach_term`. -/
def Term.yield : Term → List Tok
  | .par l e r => sym .lpar '(' l :: (e.yield ++ [sym .rpar ')' r])
  | .loc r => [sym .asterisk '*' r]
  | .attr t _ r q v => ⟨.ordsymbol, t, r⟩ :: sym .attr '\'' q :: v.yield
  | .id i => i.yield
  | .num n => n.yield
  | .selfDef t r s => ⟨.ordsymbol, t, r⟩ :: s.yield
  | .literal eq d => sym .equals '=' eq :: d.yield
/-- Tokens of `mach_data_attribute_value`. -/
def AttrVal.yield : AttrVal → List Tok
  | .literal eq d => sym .equals '=' eq :: d.yield
  | .loc r => [sym .asterisk '*' r]
  | .id i => i.yield
/-- Tokens of `data_def`. -/
def DataDef.yield : DataDef → List Tok
  | .mk d i m n => d.yield ++ (i.yield ++ (m.yield ++ n.yield))
/-- Tokens of `mach_expr_pars`. -/
def Pars.yield : Pars → List Tok
  | .mk l e r => sym .lpar '(' l :: (e.yield ++ [sym .rpar ')' r])
/-- Tokens of `dupl_factor_expr_o`. -/
def Dupl.yield : Dupl → List Tok
  | .none => []
  | .some p => p.yield
/-- Tokens of `prog_type_and_modifier_p`. -/
def Mods.yield : Mods → List Tok
  | .zero => []
  | .one p1 d1 => p1.yield ++ d1.yield
  | .two p1 d1 p2 d2 => p1.yield ++ (d1.yield ++ (p2.yield ++ d2.yield))
  | .three p1 d1 p2 d2 p3 d3 => p1.yield ++ (d1.yield ++ (p2.yield ++ (d2.yield ++ (p3.yield ++ d3.yield))))
/-- Tokens of `nominal_value_o`. -/
def NomO.yield : NomO → List Tok
  | .none => []
  | .nom n => n.yield
  | .exprNom p n => p.yield ++ n.yield
/-- Tokens of `nominal_value`. -/
def Nominal.yield : Nominal → List Tok
  | .str q1 chs q2 => q1.tok :: (chs.flatMap (·.yield) ++ [q2.tok])
  | .exprs l f rest r => sym .lpar '(' l :: (f.yield ++ (rest.yield ++ [sym .rpar ')' r]))
/-- Tokens of an element of the list. -/
def EA.yield : EA → List Tok
  | .expr e => e.yield
  | .addr d l b r => d.yield ++ sym .lpar '(' l :: (b.yield ++ [sym .rpar ')' r])
/-- Tokens of the rest of the list. -/
def EATail.yield : EATail → List Tok
  | .nil => []
  | .cons c e rest => sym .comma ',' c :: (e.yield ++ rest.yield)
end

/-! ### expressions (the actions) -/

/-- The terms of machine expressions (`mach_expr_term.h`). Values of numbers and self-defining terms are computed by
`self_defining_term` (`Attr.Model`); here their texts are kept. -/
inductive Leaf where
  | loc
  | attr (letter name : Bytes) (symbolRange : Rng)
  | dflt
  | symbol (name : Bytes)
  | number (text : Bytes)
  | selfDef (letter value : Bytes)
  | literal
deriving DecidableEq, Repr

/-- `mach_expr_unary<T>`. -/
inductive UnOp where
  | add | sub | par
deriving DecidableEq, Repr

/-- `mach_expr_binary<T>`. -/
inductive BinOp where
  | add | sub | mul | div
deriving DecidableEq, Repr

/-- `mach_expression` (`mach_expression.h`, `mach_operator.h`, `mach_expr_term.h`), each with its range. -/
inductive Tree where
  | leaf (k : Leaf) (r : Rng)
  | un (op : UnOp) (e : Tree) (r : Rng)
  | bin (op : BinOp) (l r : Tree) (rng : Rng)
deriving DecidableEq, Repr

/-- The operator of the action of `mach_expr` (`machine_expr_rules.g4` 25-28). -/
def AddOp.bin : AddOp → BinOp
  | .add => .add
  | .sub => .sub

/-- The operator of the actions of `mach_term_c` (`machine_expr_rules.g4` 54-61). -/
def AddOp.un : AddOp → UnOp
  | .add => .add
  | .sub => .sub

/-- The operator of the action of `mach_expr_s` (`machine_expr_rules.g4` 40-43). -/
def MulOp.bin : MulOp → BinOp
  | .div => .div
  | .mul => .mul

/-- The name of `id` (`hlasmparser.g4` 190-192); `mach_term` does not look at `using_qualifier`. -/
def QId.name : QId → Bytes
  | .plain i => i.name
  | .qualified _ _ n => n.name

/-- The attribute reference (`machine_expr_rules.g4` 72-80, 106-122): a default expression if there is no symbol. `get_attribute`
(`parser_impl.cpp` 246-258) knows all letters `is_data_attr` lets through. -/
def AttrVal.leaf (letter : Bytes) : AttrVal → Leaf
  | .id i => .attr letter i.name (span i.yield)
  | _ => .dflt

mutual
/-- The action of `mach_expr`: `begin` has been read as `ts` giving `e`; the loop goes on. -/
def ETail.ast (ts : List Tok) (e : Tree) : ETail → Tree
  | .nil => e
  | .cons op r s rest =>
    let ts' := ts ++ op.tok r :: s.yield
    rest.ast ts' (.bin op.bin e s.ast (span ts'))
/-- The action of `mach_expr_s`. -/
def Product.ast : Product → Tree
  | .mk h t => t.ast h.yield h.ast
/-- The action of the loop of `mach_expr_s`. -/
def PTail.ast (ts : List Tok) (e : Tree) : PTail → Tree
  | .nil => e
  | .cons op r c rest =>
    let ts' := ts ++ op.tok r :: c.yield
    rest.ast ts' (.bin op.bin e c.ast (span ts'))
/-- The actions of `mach_term_c`. -/
def Signed.ast : Signed → Tree
  | .term t => t.ast
  | .sign op r c => .un op.un c.ast (span (op.tok r :: c.yield))
/-- The actions of `mach_term`. -/
def Term.ast : Term → Tree
  | .par l e r => .un .par e.ast (span (sym .lpar '(' l :: (e.yield ++ [sym .rpar ')' r])))
  | .loc r => .leaf .loc (span [sym .asterisk '*' r])
  | .attr t _ r q v => .leaf (v.leaf t) (span (⟨.ordsymbol, t, r⟩ :: sym .attr '\'' q :: v.yield))
  | .id i => .leaf (.symbol i.name) (span i.yield)
  | .num n => .leaf (.number (n.text ++ n.rest.flatMap (·.1))) (span n.yield)
  | .selfDef t r s => .leaf (.selfDef t s.value) (span (⟨.ordsymbol, t, r⟩ :: s.yield))
  | .literal eq d => .leaf .literal (span (sym .equals '=' eq :: d.yield))
/-- The actions of `mach_expr`. -/
def Expr.ast : Expr → Tree
  | .mk h t => t.ast h.yield h.ast
end

/-! ### operands -/

/-- `mach_op` (`machine_operand_rules.g4` 19-38). -/
inductive MachOp where
  | expr (e : Expr)
  | base (d : Expr) (l : Rng) (b : Expr) (r : Rng)
  | both (d : Expr) (l : Rng) (x : Expr) (comma : Rng) (b : Expr) (r : Rng)
  | noIndex (d : Expr) (l : Rng) (comma : Rng) (b : Expr) (r : Rng)
  | noBase (d : Expr) (l : Rng) (x : Expr) (comma : Rng) (r : Rng)

/-- Its tokens. -/
def MachOp.yield : MachOp → List Tok
  | .expr e => e.yield
  | .base d l b r => d.yield ++ sym .lpar '(' l :: (b.yield ++ [sym .rpar ')' r])
  | .both d l x c b r => d.yield ++ sym .lpar '(' l :: (x.yield ++ sym .comma ',' c :: (b.yield ++ [sym .rpar ')' r]))
  | .noIndex d l c b r => d.yield ++ sym .lpar '(' l :: sym .comma ',' c :: (b.yield ++ [sym .rpar ')' r])
  | .noBase d l x c r => d.yield ++ sym .lpar '(' l :: (x.yield ++ [sym .comma ',' c, sym .rpar ')' r])

/-- `checking::operand_state`. -/
inductive State where
  | oneOp | present | firstOmitted | secondOmitted
deriving DecidableEq, Repr

/-- `expr_machine_operand` and `address_machine_operand` (`semantics/operand_impls.h`). -/
inductive Operand where
  | empty (r : Rng)
  | expr (e : Tree) (r : Rng)
  | address (disp : Tree) (index base : Option Tree) (r : Rng) (st : State)
deriving DecidableEq, Repr

/-- The actions of `mach_op` (`machine_operand_rules.g4` 19-38). -/
def MachOp.operand (o : MachOp) : Operand :=
  match o with
  | .expr e => .expr e.ast (span o.yield)
  | .base d _ b _ => .address d.ast none (some b.ast) (span o.yield) .oneOp
  | .both d _ x _ b _ => .address d.ast (some x.ast) (some b.ast) (span o.yield) .present
  | .noIndex d _ _ b _ => .address d.ast none (some b.ast) (span o.yield) .firstOmitted
  | .noBase d _ x _ _ => .address d.ast (some x.ast) none (span o.yield) .secondOmitted

/-- A word of the operand of END (`end_instr_word`, `assembler_operand_rules.g4` 106-117). -/
abbrev EndWord := IdCh

mutual
/-- `asm_op_inner` (`assembler_operand_rules.g4` 66-100). -/
inductive Inner where
  | str (s : Str)
  | id (i : QId)
  | num (n : Num)
  | empty
  | call (i : QId) (l : Rng) (first : Inner) (rest : Inners) (r : Rng)
/-- `asm_op_comma_c` (`assembler_operand_rules.g4` 102-104) behind its first element. -/
inductive Inners where
  | nil
  | cons (comma : Rng) (o : Inner) (rest : Inners)
end

mutual
/-- Tokens of `asm_op_inner`. -/
def Inner.yield : Inner → List Tok
  | .str s => s.yield
  | .id i => i.yield
  | .num n => n.yield
  | .empty => []
  | .call i l f rest r => i.yield ++ sym .lpar '(' l :: (f.yield ++ (rest.yield ++ [sym .rpar ')' r]))
/-- Tokens of the rest of `asm_op_comma_c`. -/
def Inners.yield : Inners → List Tok
  | .nil => []
  | .cons c o rest => sym .comma ',' c :: (o.yield ++ rest.yield)
end

/-- `asm_op` (`assembler_operand_rules.g4` 18-64). -/
inductive AsmOp where
  | call (i : QId) (l : Rng) (first : Inner) (rest : Inners) (r : Rng)
  | triplet (l : Rng) (w1 : EndWord) (c1 : Rng) (w2 : EndWord) (c2 : Rng) (w3 : EndWord) (r : Rng)
  | range (l : Rng) (b : Expr) (c : Rng) (e : Expr) (r : Rng)
  | expr (e : Expr)
  | str (s : Str)

/-- Its tokens. -/
def AsmOp.yield : AsmOp → List Tok
  | .call i l f rest r => i.yield ++ sym .lpar '(' l :: (f.yield ++ (rest.yield ++ [sym .rpar ')' r]))
  | .triplet l w1 c1 w2 c2 w3 r =>
    [sym .lpar '(' l, w1.tok, sym .comma ',' c1, w2.tok, sym .comma ',' c2, w3.tok, sym .rpar ')' r]
  | .range l b c e r => sym .lpar '(' l :: (b.yield ++ sym .comma ',' c :: (e.yield ++ [sym .rpar ')' r]))
  | .expr e => e.yield
  | .str s => s.yield

/-- A list of operands, each of which may be empty (`op_list_mach`, `op_list_dat`, `op_list_asm`: `operand_field_rules.g4` 61-74,
97-110, 133-146). -/
structure OpList (α : Type) where
  first : Option α
  rest : List (Rng × Option α)

/-- Tokens of an operand that may be missing. -/
def optYield {α : Type} (f : α → List Tok) : Option α → List Tok
  | none => []
  | some a => f a

/-- Its tokens. -/
def OpList.yield {α : Type} (f : α → List Tok) (l : OpList α) : List Tok :=
  optYield f l.first ++ l.rest.flatMap fun p => sym .comma ',' p.1 :: optYield f p.2

/-- The remark and the end of the statement (`remark_o`, `EOLLN`; `hlasmparser.g4` 213-222): a space and anything up to the end of the
line. The token `SPACE` is a run of blanks. -/
structure Remark where
  remark : Option (Bytes × Rng × List Tok)
  text : Bytes
  rng : Rng

/-- Its tokens. -/
def Remark.yield (r : Remark) : List Tok :=
  (match r.remark with
  | none => []
  | some (t, p, ts) => ⟨.space, t, p⟩ :: ts) ++ [⟨.eolln, r.text, r.rng⟩]

/-- The operands of the list (`operand_field_rules.g4` 61-74): the range of an empty operand is empty, at the beginning of the token
that follows (`get_empty_range(_localctx->getStart())`). -/
def operandOr (o : Option MachOp) (after : List Tok) : Operand :=
  match o with
  | none => .empty ⟨(span after).start, (span after).start⟩
  | some o => o.operand

/-- The operands behind the first. -/
def restOperands : List (Rng × Option MachOp) → List Tok → List Operand
  | [], _ => []
  | (_, o) :: rest, after =>
    operandOr o ((rest.flatMap fun p => sym .comma ',' p.1 :: optYield MachOp.yield p.2) ++ after) :: restOperands rest after

/-- The operands of a machine instruction. -/
def OpList.operands (l : OpList MachOp) (after : List Tok) : List Operand :=
  operandOr l.first ((l.rest.flatMap fun p => sym .comma ',' p.1 :: optYield MachOp.yield p.2) ++ after) :: restOperands l.rest after

end Verif.Gram
