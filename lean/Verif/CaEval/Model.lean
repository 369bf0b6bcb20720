import Verif.Ca.ExprList
import Verif.Ca.Arith
import Verif.Ca.Str
/-!
Whole conditional assembly expressions: how the operand of SETA, SETB, SETC, AIF, AGO and ACTR gets its kind (`resolve_expression_tree`) and
its value (`evaluate`). Modelled are, in `parser_library/src/expressions/conditional_assembly`,
`ca_expression.cpp`, `ca_expression.h` 30-75, `ca_operator_binary.cpp`, `ca_operator_unary.cpp`, `ca_expr_policy.cpp`,
`terms/ca_expr_list.cpp`, `terms/ca_constant.cpp`, `terms/ca_symbol.cpp`, `terms/ca_symbol_attribute.cpp` (resolving only),
`terms/ca_string.cpp`, `terms/ca_var_sym.cpp`, `terms/ca_function.cpp` 50-200, together with the calls of `resolve_expression` in
`parsing/grammar/ca_expr_rules.g4` 104-117, 289-311 and `parsing/parser_impl.cpp` 298-332.

Taken from elsewhere: how the elements of a parenthesised list are grouped (`Verif.Ca.ExprList`, property C43), arithmetic and comparisons
(`Verif.Ca.Arith`, C41, C42, C47), substrings and duplication (`Verif.Ca.Str`, C46). The values of variable symbols, ordinary symbols,
attributes, concatenations and built-in functions are given by an environment (they are the subjects of C44, C45, C107 and others).

Left out: ranges and numbers of diagnostics (`none` and the flag `diag` mean that a diagnostic was reported), and the second pass of
`resolve_expression_tree` over parameters of functions: they have been resolved with the same kind while they were parsed, and a tree that
is resolved already stays as it is.
-/
namespace Verif.CaEval

open Verif.Ca (A Op)

/-- `SET_t_enum` (common_types.h 30-36). -/
inductive Kind where
  | a | b | c | undef
  deriving DecidableEq, Repr

/-- `SET_t` (common_types.h 88-118). -/
structure SetT where
  a : A
  b : Bool
  c : Bytes
  ty : Kind
  deriving DecidableEq, Repr

/-- `SET_t(A_t)` (common_types.cpp 35-40). -/
def SetT.ofA (v : A) : SetT := ⟨v, v ≠ 0, [], .a⟩

/-- `SET_t(B_t)` (common_types.cpp 42-47). -/
def SetT.ofB (v : Bool) : SetT := ⟨if v then 1 else 0, v, [], .b⟩

/-- `SET_t(C_t)` (common_types.cpp 49-54). -/
def SetT.ofC (v : Bytes) : SetT := ⟨0, false, v, .c⟩

/-- `SET_t(SET_t_enum)` (common_types.cpp 63-68). -/
def SetT.dflt (k : Kind) : SetT := ⟨0, false, [], k⟩

/-- A value of one of the three kinds. -/
inductive Val where
  | a (v : A)
  | b (v : Bool)
  | c (v : Bytes)
  deriving DecidableEq, Repr

/-- `ca_expr_ops` (ca_expr_policy.h 27-63): the arithmetic and logical operators, and those of character expressions. -/
inductive Opn where
  | base (o : Op)
  | BYTE | DOUBLE | LOWER | SIGNED | UPPER
  deriving DecidableEq, Repr

/-- An ordinary symbol. Some have names of operators. -/
inductive Sym where
  | named (n : Nat)
  | op (o : Opn)
  deriving DecidableEq, Repr

/-- `ca_expr_funcs` (ca_expr_policy.h 65-108) without `UNKNOWN`. -/
inductive Fn where
  | B2A | C2A | D2A | DCLEN | FIND | INDEX | ISBIN | ISDEC | ISHEX | ISSYM | X2A
  | A2B | A2C | A2D | A2X | B2C | B2D | B2X | BYTE | C2B | C2D | C2X | D2B | D2C | D2X | DCVAL | DEQUOTE | DOUBLE | ESYM | LOWER | SIGNED
  | SYSATTRA | SYSATTRP | UPPER | X2B | X2C | X2D
  deriving DecidableEq, Repr

/-- The operators of `ca_basic_binary_operator` on numbers. -/
inductive AOp where
  | add | sub | mul | div
  deriving DecidableEq, Repr

/-- An expression as the parser makes it (ca_expr_rules.g4 18-151, 289-333). `absent` stands for a duplication factor, a bound of a
substring or a second parameter that is not there. `attr` is an attribute reference, of type or operation code if the flag is set. `opfn` is a
function whose name is an operator, as in `(&A AND(&B))`, without duplication factor; other unknown functions are always refused. -/
inductive Src where
  | absent
  | num (v : A)
  | sym (s : Sym)
  | var (n : Nat)
  | attr (c : Bool) (n : Nat)
  | str (n : Nat) (dup start count : Src)
  | fn (f : Fn) (p q dup : Src)
  | arith (o : AOp) (l r : Src)
  | conc (l r : Src)
  | plus (e : Src)
  | minus (e : Src)
  | opfn (o : Op) (arg : Src)
  | list (es : List Src)

/-- A resolved expression. `list` and `par` are `ca_expr_list` and `ca_par_operator`, `un` and `bin` are `ca_function_unary_operator` and
`ca_function_binary_operator`; the kind is `expr_kind` where it depends on the use, `ok` is the kind the operands have been resolved with. -/
inductive Tree where
  | absent
  | num (v : A)
  | sym (s : Sym)
  | var (n : Nat) (k : Kind)
  | attr (c : Bool) (n : Nat)
  | str (n : Nat) (dup start count : Tree)
  | fn (f : Fn) (p q dup : Tree)
  | arith (o : AOp) (l r : Tree)
  | conc (l r : Tree)
  | plus (e : Tree)
  | minus (e : Tree)
  | un (o : Opn) (k : Kind) (e : Tree)
  | bin (o : Opn) (k ok : Kind) (l r : Tree)
  | par (e : Tree)
  | list (k : Kind) (e : Tree)
  deriving DecidableEq, Repr

/-- `get_function_type` (ca_expr_policy.cpp 365-374) with `is_function` (57-112). -/
def fnType : Fn → Kind
  | .B2A | .C2A | .D2A | .DCLEN | .FIND | .INDEX | .ISBIN | .ISDEC | .ISHEX | .ISSYM | .X2A => .a
  | _ => .c

/-- `get_function_param_info` (ca_expr_policy.cpp 166-213, 350-363) with the type of the function: number and kind of the parameters. -/
def fnParams : Fn → Nat × Kind
  | .FIND | .INDEX => (2, .c)
  | .B2A | .C2A | .D2A | .DCLEN | .ISBIN | .ISDEC | .ISHEX | .ISSYM | .X2A => (1, .c)
  | .A2B | .A2C | .A2D | .A2X | .BYTE | .SIGNED => (1, .a)
  | _ => (1, .c)

/-- `get_operands_type` (ca_expr_policy.cpp 215-263, 376-389). -/
def operandsType : Opn → Kind → Kind
  | .base .FIND, .a | .base .INDEX, .a => .c
  | .base .NOT, .a | .base .AND, .a | .base .OR, .a | .base .XOR, .a | .base .SLA, .a | .base .SLL, .a | .base .SRA, .a | .base .SRL, .a => .a
  | .base o, .b => if o = .NOT || Ca.isBinary .binary o then .b else .undef
  | .BYTE, .c | .SIGNED, .c => .a
  | .DOUBLE, .c | .LOWER, .c | .UPPER, .c => .c
  | _, _ => .undef

/-- `is_relational` (ca_operator_binary.cpp 244-258). -/
def relational : Opn → Option Ca.Rel
  | .base .EQ => some .EQ
  | .base .NE => some .NE
  | .base .LE => some .LE
  | .base .LT => some .LT
  | .base .GE => some .GE
  | .base .GT => some .GT
  | _ => none

/-- An element of the list in parentheses: an ordinary symbol, an operator with a parameter, or anything else. `α` is what is computed of an
element for each kind. -/
inductive Elem (α : Type) where
  | sym (s : Sym)
  | opfn (o : Op) (bad : Bool) (arg : Kind → α)
  | term (ch : Bool) (res : Kind → α)

def Elem.isOpfn {α : Type} : Elem α → Bool
  | .opfn .. => true
  | _ => false

def Elem.isBad {α : Type} : Elem α → Bool
  | .opfn _ bad _ => bad
  | _ => false

/-- `unknown_functions_to_operators` (ca_expr_list.cpp 79-112): the operator and the parameter become separate elements; `par` wraps the
parameter. -/
def expand {α : Type} (par : α → α) : List (Elem α) → List (Elem α)
  | [] => []
  | .opfn o _ arg :: es => .sym (.op (.base o)) :: .term false (fun k => par (arg k)) :: expand par es
  | e :: es => e :: expand par es

/-- The elements as `Verif.Ca.ExprList` sees them: symbols with the names of arithmetic and logical operators, and other elements with
their positions. -/
def toksFrom {α : Type} : Nat → List (Elem α) → List Ca.Tok
  | _, [] => []
  | i, .sym (.op (.base o)) :: es => .op o :: toksFrom (i + 1) es
  | i, _ :: es => .term i :: toksFrom (i + 1) es

/-- The tree of operators built of a list. `leaf` is the element at that position, `opsym` a symbol with the name of an operator that is used
as a term. -/
inductive Grp where
  | leaf (i : Nat)
  | opsym (o : Opn)
  | un (o : Opn) (g : Grp)
  | bin (o : Opn) (l r : Grp)
  deriving DecidableEq, Repr

def ofExpr : Ca.Expr → Grp
  | .leaf (.term i) => .leaf i
  | .leaf (.op o) => .opsym (.base o)
  | .un o e => .un (.base o) (ofExpr e)
  | .bin o l r => .bin (.base o) (ofExpr l) (ofExpr r)

/-- The operators of character expressions among the elements; all others with their positions. -/
inductive CTok where
  | op (o : Opn)
  | term (i : Nat)
  deriving DecidableEq, Repr

def ctoksFrom {α : Type} : Nat → List (Elem α) → List CTok
  | _, [] => []
  | i, .sym (.op (.base _)) :: es => .term i :: ctoksFrom (i + 1) es
  | i, .sym (.op o) :: es => .op o :: ctoksFrom (i + 1) es
  | i, _ :: es => .term i :: ctoksFrom (i + 1) es

/-- `retrieve_term<ca_character_policy>` (ca_expr_list.cpp 157-212). All operators are unary (`is_unary`, ca_expr_policy.cpp 23-27) and have
priority 0, so that an operator behind a term ends the term. -/
def termC : List CTok → Option (Grp × List CTok)
  | [] => none
  | .op o :: rest => (termC rest).map fun x => (.un o x.1, x.2)
  | [.term i] => some (.leaf i, [])
  | .term i :: .op o :: rest => some (.leaf i, .op o :: rest)
  | .term _ :: .term _ :: _ => none

/-- The loop of `resolve<C_t>` (ca_expr_list.cpp 130-141); the first argument bounds it. -/
def loopC : Nat → Grp → List CTok → Option Grp
  | _, g, [] => some g
  | 0, _, _ => none
  | f + 1, g, .op o :: rest => match termC rest with
    | none => none
    | some (r, rest') => loopC f (.bin o g r) rest'
  | _ + 1, _, .term _ :: _ => none

def groupC (ts : List CTok) : Option Grp :=
  match termC ts with
  | none => none
  | some (g, rest) => loopC (ts.length + 1) g rest

/-- `resolve<T>` (ca_expr_list.cpp 115-141): the tree of operators, none with a diagnostic. -/
def group {α : Type} (k : Kind) (es : List (Elem α)) : Option Grp :=
  match k with
  | .a => (Ca.resolve .arith (toksFrom 0 es)).map ofExpr
  | .b => (Ca.resolve .binary (toksFrom 0 es)).map ofExpr
  | .c => groupC (ctoksFrom 0 es)
  | .undef => none

/-- `is_character_expression` of a part of the tree: of an element, of `ca_unary_operator` (ca_operator_unary.cpp 45), of
`ca_binary_operator` (ca_operator_binary.cpp 57). -/
def charG {α : Type} (es : List (Elem α)) : Grp → Bool
  | .leaf i => match es[i]? with
    | some (.term ch _) => ch
    | _ => false
  | .opsym _ => false
  | .un _ _ => false
  | .bin _ l _ => charG es l

/-- `resolve_expression_tree` of the tree of operators of a list of kind `K` (ca_operator_binary.cpp 78-100, ca_operator_unary.cpp 56-62); the
elements are resolved where they stand. `ca_symbol` (ca_symbol.cpp 29-33). -/
def resolveG (es : List (Elem (Option Tree))) (K : Kind) : Grp → Kind → Option Tree
  | .leaf i, k => match es[i]? with
    | some (.term _ res) => res k
    | some (.sym s) => if k = .c then none else some (.sym s)
    | _ => none
  | .opsym o, k => if k = .c then none else some (.sym (.op o))
  | .un o g, k =>
    if K ≠ k then none
    else (resolveG es K g (operandsType o K)).map (.un o K)
  | .bin o l r, k =>
    if K ≠ k then none
    else if (o = .base .FIND ∨ o = .base .INDEX) ∧ charG es l = false then none
    else
      let ok := if (relational o).isSome then (if charG es l then .c else .a) else operandsType o K
      match resolveG es K l ok, resolveG es K r ok with
      | some l', some r' => some (.bin o K ok l' r')
      | _, _ => none

/-- `ca_expr_list::resolve_expression_tree` (ca_expr_list.cpp 44-59, 115-155). An operator with a parameter is refused in lists of other
kinds than B: with CE001 where an operator is expected, with CE004 as a term. `bad`: resolving the parameter while it was parsed gave a
diagnostic already. -/
def resolveList (k : Kind) (es : List (Elem (Option Tree))) : Option Tree :=
  if es.any Elem.isBad then none
  else if k ≠ .b ∧ es.any Elem.isOpfn then none
  else
    let es := expand (Option.map Tree.par) es
    match group k es with
    | none => none
    | some g => (resolveG es k g k).map (.list k)

def Src.isAbsent : Src → Bool
  | .absent => true
  | _ => false

/-- `is_character_expression`: ca_constant.cpp 43, ca_symbol.cpp 40, ca_var_sym.cpp 70, ca_symbol_attribute.cpp 115-118, ca_string.cpp 64,
ca_function.cpp 90, ca_operator_unary.cpp 45, ca_operator_binary.cpp 57, ca_expr_list.cpp 67. -/
def isChar : Src → Bool
  | .attr c _ => c
  | .str _ dup _ _ => dup.isAbsent
  | .arith _ l _ => isChar l
  | .conc l _ => isChar l
  | _ => false

mutual
/-- `resolve_expression_tree` (with the expressions inside that the parser resolves, and all diagnostics of both): ca_constant.cpp 30-34,
ca_symbol.cpp 29-33, ca_var_sym.cpp 57-61, ca_symbol_attribute.cpp 98-104, ca_string.cpp 47-51, ca_function.cpp 63-83,
ca_operator_binary.cpp 40-49, ca_operator_unary.cpp 34-40. -/
def resolve : Src → Kind → Option Tree
  | .absent, _ => none
  | .num v, k => if k = .c then none else some (.num v)
  | .sym s, k => if k = .c then none else some (.sym s)
  | .var n, k => some (.var n k)
  | .attr c n, k => if k = .c ∧ c = false then none else some (.attr c n)
  | .str n dup start count, k =>
    match (if dup.isAbsent then some .absent else resolve dup .a), (if start.isAbsent then some .absent else resolve start .a),
      (if count.isAbsent then some .absent else resolve count .a) with
    | some d, some s, some c => if k ≠ .c then none else some (.str n d s c)
    | _, _, _ => none
  | .fn f p q dup, k =>
    match resolve p (fnParams f).2, (if q.isAbsent then some .absent else resolve q (fnParams f).2),
      (if dup.isAbsent then some .absent else resolve dup .a) with
    | some p', some q', some d =>
      if k ≠ fnType f then none
      else if dup.isAbsent = false ∧ fnType f ≠ .c then none
      else if (if q.isAbsent then 1 else 2) ≠ (fnParams f).1 then none
      else some (.fn f p' q' d)
    | _, _, _ => none
  | .arith o l r, k =>
    if k ≠ .a then none else match resolve l .a, resolve r .a with
    | some l', some r' => some (.arith o l' r')
    | _, _ => none
  | .conc l r, k =>
    if k ≠ .c then none else match resolve l .c, resolve r .c with
    | some l', some r' => some (.conc l' r')
    | _, _ => none
  | .plus e, k => if k ≠ .a then none else (resolve e .a).map .plus
  | .minus e, k => if k ≠ .a then none else (resolve e .a).map .minus
  | .opfn _ _, _ => none
  | .list es, k => resolveList k (elems es)
/-- The expressions as elements of a list. -/
def elems : List Src → List (Elem (Option Tree))
  | [] => []
  | .sym s :: es => .sym s :: elems es
  | .opfn o a :: es => .opfn o (resolve a .undef).isNone (resolve a) :: elems es
  | e :: es => .term (isChar e) (resolve e) :: elems es
end

/-- `expr_kind` of a resolved expression. -/
def exprKind : Tree → Kind
  | .absent => .undef
  | .num _ => .a
  | .sym _ => .a
  | .var _ k => k
  | .attr c _ => if c then .c else .a
  | .str .. => .c
  | .fn f .. => fnType f
  | .arith .. => .a
  | .conc .. => .c
  | .plus _ => .a
  | .minus _ => .a
  | .un _ k _ => k
  | .bin _ k _ _ _ => k
  | .par e => exprKind e
  | .list k _ => k

/-- What an expression refers to; none and the flags mean that a diagnostic is reported. `toE` is the translation to EBCDIC, `selfDef` the
value of a self-defining term (ca_constant.cpp 49-81). The last four are the built-in functions, by the kinds of their results and
parameters. -/
structure Env where
  sym : Sym → Option A
  var : Nat → Option Val
  attrA : Nat → Option A
  attrC : Nat → Option Bytes
  chain : Nat → Option Bytes
  selfDef : Bytes → Option A
  toE : List Nat → List Nat
  fAC : Fn → Bytes → Option A
  fACC : Fn → Bytes → Bytes → A
  fCA : Fn → A → Option Bytes
  fCC : Fn → Bytes → Option Bytes

/-- The outcome of `evaluate`: undefined behaviour, or a value and whether a diagnostic was reported. -/
inductive Ev where
  | ub
  | ret (v : SetT) (diag : Bool)
  deriving DecidableEq, Repr

def Ev.bind (e : Ev) (f : SetT → Ev) : Ev :=
  match e with
  | .ub => .ub
  | .ret v d => match f v with
    | .ub => .ub
    | .ret w d' => .ret w (d || d')

/-- A value, or the default and a diagnostic. -/
def Ev.orDiag {α : Type} (mk : α → SetT) (dflt : SetT) : Option α → Ev
  | some v => .ret (mk v) false
  | none => .ret dflt true

def Ev.ofStr : Ca.StrRes → Ev
  | .ok s => .ret (.ofC s) false
  | .err _ => .ret (.ofC []) true
  | .ub => .ub

/-- `ca_var_sym::convert_return_types` (ca_var_sym.cpp 79-111). -/
def convertVar (env : Env) (k : Kind) : Val → Ev
  | .c s => match k with
    | .a => if s = [] then .ret (.ofA 0) false else Ev.orDiag .ofA (.ofA 0) (env.selfDef s)
    | .b => Ev.orDiag .ofA (.ofA 0) (env.selfDef s)
    | .c => .ret (.ofC s) false
    | .undef => .ret (.dflt k) false
  | .b v => .ret { SetT.ofB v with ty := if k = .a then .a else .b } false
  | .a v => .ret { SetT.ofA v with ty := if k = .b then .b else .a } false

/-- The operations of `ca_basic_binary_operator` on numbers (ca_operator_binary.cpp 276-300). -/
def arithOp : AOp → A → A → Ca.Res
  | .add => Ca.caAdd
  | .sub => Ca.caSub
  | .mul => Ca.caMul
  | .div => Ca.caDiv

/-- `ca_conc::operation` (ca_operator_binary.cpp 302-314). -/
def concOp (l r : SetT) : Ev :=
  if l.c.length + r.c.length > Ca.MAX_STR_SIZE then .ret (.ofC []) true else .ret { l with c := l.c ++ r.c } false

/-- `ca_function_unary_operator::operation` (ca_operator_unary.cpp 64-98). -/
def unOp (env : Env) (o : Opn) (k : Kind) (x : SetT) : Ev :=
  match k, o with
  | .a, .base .NOT => .ret (.ofA (~~~ x.a)) false
  | .b, .base .NOT => .ret (.ofB (!x.b)) false
  | .c, .BYTE => Ev.orDiag .ofC (.dflt .undef) (env.fCA .BYTE x.a)
  | .c, .DOUBLE => Ev.orDiag .ofC (.dflt .undef) (env.fCC .DOUBLE x.c)
  | .c, .LOWER => Ev.orDiag .ofC (.dflt .undef) (env.fCC .LOWER x.c)
  | .c, .SIGNED => Ev.orDiag .ofC (.dflt .undef) (env.fCA .SIGNED x.a)
  | .c, .UPPER => Ev.orDiag .ofC (.dflt .undef) (env.fCC .UPPER x.c)
  | _, _ => .ret (.dflt k) false

/-- `compare_relational` (ca_operator_binary.cpp 230-242): as numbers or as strings by the kind of the left operand, otherwise equal. -/
def compareRel (env : Env) (o : Ca.Rel) (lk : Kind) (l r : SetT) : Ev :=
  match lk with
  | .a => match Ca.relA o l.a r.a with
    | some v => .ret (.ofB v) false
    | none => .ub
  | .c => .ret (.ofB (Ca.relC env.toE o (l.c.map (·.toNat)) (r.c.map (·.toNat)))) false
  | _ => .ret (.ofB (Ca.rel o 0)) false

/-- `ca_function_binary_operator::operation` (ca_operator_binary.cpp 155-218); `lk` is the kind of the left operand. -/
def binOp (env : Env) (o : Opn) (k lk : Kind) (l r : SetT) : Ev :=
  match k with
  | .a => match o with
    | .base .SLA => .ret (.ofA (Ca.shiftOperands l.a r.a .SLA)) false
    | .base .SLL => .ret (.ofA (Ca.shiftOperands l.a r.a .SLL)) false
    | .base .SRA => .ret (.ofA (Ca.shiftOperands l.a r.a .SRA)) false
    | .base .SRL => .ret (.ofA (Ca.shiftOperands l.a r.a .SRL)) false
    | .base .FIND => .ret (.ofA (env.fACC .FIND l.c r.c)) false
    | .base .INDEX => .ret (.ofA (env.fACC .INDEX l.c r.c)) false
    | .base .AND => .ret (.ofA (l.a &&& r.a)) false
    | .base .OR => .ret (.ofA (l.a ||| r.a)) false
    | .base .XOR => .ret (.ofA (l.a ^^^ r.a)) false
    | _ => .ret (.dflt k) false
  | .b => match relational o with
    | some rel => compareRel env rel lk l r
    | none => match o with
      | .base .AND => .ret (.ofB (l.b && r.b)) false
      | .base .OR => .ret (.ofB (l.b || r.b)) false
      | .base .XOR => .ret (.ofB (l.b != r.b)) false
      | .base .AND_NOT => .ret (.ofB (l.b && !r.b)) false
      | .base .OR_NOT => .ret (.ofB (l.b || !r.b)) false
      | .base .XOR_NOT => .ret (.ofB (l.b != !r.b)) false
      | _ => .ret (.dflt k) false
  | _ => .ret (.dflt k) false

/-- `evaluate`: ca_constant.cpp 47, ca_symbol.cpp 44-55, ca_var_sym.cpp 74-77, ca_string.cpp 68-138, ca_function.cpp 94-198,
ca_operator_binary.cpp 65-68, ca_operator_unary.cpp 49-52, 106-126, ca_expr_list.cpp 71-78. -/
def eval (env : Env) : Tree → Ev
  | .absent => .ret (.dflt .undef) false
  | .num v => .ret (.ofA v) false
  | .sym s => Ev.orDiag .ofA (.ofA 0) (env.sym s)
  | .var n k => match env.var n with
    | none => .ret (.dflt .undef) true
    | some v => convertVar env k v
  | .attr false n => Ev.orDiag .ofA (.ofA 0) (env.attrA n)
  | .attr true n => Ev.orDiag .ofC (.ofC []) (env.attrC n)
  | .str n dup start count =>
    match env.chain n with
    | none => .ret (.ofC []) true
    | some s =>
      let dupl (s : Bytes) : Ev :=
        if dup = .absent then .ret (.ofC s) false else (eval env dup).bind fun d => Ev.ofStr (Ca.duplicate (some d.a) s)
      if s.length > Ca.MAX_STR_SIZE then .ret (.ofC []) true
      else if start = .absent then dupl s
      else (eval env start).bind fun b =>
        let sub (c : Option A) : Ev := match Ca.evalString none s (some b.a) c with
          | .ok s => dupl s
          | r => Ev.ofStr r
        if count = .absent then sub none else (eval env count).bind fun c => sub (some c.a)
  | .fn f p q dup =>
    let dupl (s : Option Bytes) : Ev :=
      let r := (if dup = .absent then .ret (.ofC (s.getD [])) false
        else (eval env dup).bind fun d => Ev.ofStr (Ca.duplicate (some d.a) (s.getD [])))
      (Ev.ret (.dflt .c) s.isNone).bind fun _ => r
    match f with
    | .FIND | .INDEX => (eval env p).bind fun x => (eval env q).bind fun y => .ret (.ofA (env.fACC f x.c y.c)) false
    | .B2A | .C2A | .D2A | .DCLEN | .ISBIN | .ISDEC | .ISHEX | .ISSYM | .X2A =>
      (eval env p).bind fun x => Ev.orDiag .ofA (.dflt .undef) (env.fAC f x.c)
    | .A2B | .A2C | .A2D | .A2X | .BYTE | .SIGNED => (eval env p).bind fun x => dupl (env.fCA f x.a)
    | _ => (eval env p).bind fun x => dupl (env.fCC f x.c)
  | .arith o l r => (eval env l).bind fun x => (eval env r).bind fun y => let v := arithOp o x.a y.a; .ret (.ofA v.value) v.diag
  | .conc l r => (eval env l).bind fun x => (eval env r).bind fun y => concOp x y
  | .plus e => (eval env e).bind fun x => .ret (.ofA (Ca.caPlus x.a)) false
  | .minus e => (eval env e).bind fun x => match Ca.caMinus x.a with
    | some v => .ret (.ofA v) false
    | none => .ub
  | .un o k e => (eval env e).bind fun x => unOp env o k x
  | .bin o k _ l r => (eval env l).bind fun x => (eval env r).bind fun y => binOp env o k (exprKind l) x y
  | .par e => eval env e
  | .list _ e => eval env e

/-- `ca_expression::convert_return_types` (ca_expression.cpp 26-39); `ek` is the kind of the expression. -/
def convert (k ek : Kind) (v : SetT) : Ev :=
  if k ≠ v.ty then
    if v.ty = .a ∧ k = .b ∧ (v.a = 0 ∨ v.a = 1) then .ret (.ofB (v.a = 1)) false else .ret (.dflt ek) true
  else .ret v false

/-- What becomes of an operand: it is refused while parsing, it is undefined, a diagnostic is reported while it is evaluated, or it has a
value. -/
inductive Outcome where
  | refused
  | ub
  | reported
  | value (v : Val)
  deriving DecidableEq, Repr

def SetT.get (k : Kind) (v : SetT) : Val :=
  match k with
  | .a => .a v.a
  | .b => .b v.b
  | _ => .c v.c

/-- `evaluate<T>` (ca_expression.h 63-77). -/
def evaluateAs (env : Env) (k : Kind) (t : Tree) : Outcome :=
  match (eval env t).bind (convert k (exprKind t)) with
  | .ub => .ub
  | .ret _ true => .reported
  | .ret v false => .value (v.get k)

/-- An operand of kind `k`: resolved by the parser (parser_impl.cpp 298-332), evaluated by the statement (ca_processor.cpp). -/
def operand (env : Env) (k : Kind) (e : Src) : Outcome :=
  match resolve e k with
  | none => .refused
  | some t => evaluateAs env k t

end Verif.CaEval
