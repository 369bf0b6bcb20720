import Verif.Basic
/-!
Building the expression tree of a conditional assembly expression list, `ca_expr_list::resolve`
(expressions/conditional_assembly/terms/ca_expr_list.cpp).

The list holds the elements between the parentheses: terms and symbols. Symbols naming operators are `op`, everything else (numbers,
variable symbols, strings, nested lists, functions) is an opaque `term`. A symbol that is no operator (CE002) is a `term` as well: it is
rejected in operator position in both cases. Ranges and diagnostics are left out; `none` is the outcome with a diagnostic.
-/
namespace Verif.Ca

/-- `ca_expr_ops` (ca_expr_policy.h 28-63) without the operators of character expressions. -/
inductive Op where
  | SLA | SLL | SRA | SRL | FIND | INDEX
  | AND | OR | XOR | NOT
  | EQ | NE | LE | LT | GE | GT
  | AND_NOT | OR_NOT | XOR_NOT
  deriving DecidableEq, Repr

/-- `EXPR_POLICY`: `ca_arithmetic_policy` or `ca_binary_policy`. -/
inductive Policy where
  | arith | binary
  deriving DecidableEq, Repr

/-- `get_priority` (ca_expr_policy.cpp 114-162). -/
def prio : Policy → Op → Nat
  | .arith, .NOT => 1
  | .arith, .AND | .arith, .OR | .arith, .XOR => 2
  | .arith, .SLA | .arith, .SLL | .arith, .SRA | .arith, .SRL => 3
  | .arith, _ => 0
  | .binary, .NOT => 1
  | .binary, .AND | .binary, .AND_NOT => 2
  | .binary, .OR | .binary, .OR_NOT => 3
  | .binary, .XOR | .binary, .XOR_NOT => 4
  | .binary, _ => 0

/-- `is_unary` (ca_expr_policy.cpp 21-22). -/
def isUnary (o : Op) : Bool := o = .NOT

/-- `is_binary` (ca_expr_policy.cpp 36-49). -/
def isBinary : Policy → Op → Bool
  | .arith, o => o = .SLA || o = .SLL || o = .SRA || o = .SRL || o = .FIND || o = .INDEX || o = .AND || o = .OR || o = .XOR
  | .binary, o => o = .EQ || o = .NE || o = .LE || o = .LT || o = .GE || o = .GT || o = .AND || o = .OR || o = .XOR || o = .AND_NOT ||
      o = .OR_NOT || o = .XOR_NOT

/-- `multiple_words` (ca_expr_policy.cpp 29-33). -/
def multipleWords : Policy → Op → Bool
  | .arith, _ => false
  | .binary, o => o = .AND || o = .OR || o = .XOR

/-- `get_operator(symbol + "_NOT")` (ca_expr_list.cpp 237). -/
def withNot : Op → Op
  | .AND => .AND_NOT
  | .OR => .OR_NOT
  | .XOR => .XOR_NOT
  | o => o

/-- An element of `expr_list`. -/
inductive Tok where
  | term (n : Nat)
  | op (o : Op)
  deriving DecidableEq, Repr

/-- The tree built. A symbol can end up as a leaf too. -/
inductive Expr where
  | leaf (t : Tok)
  | un (o : Op) (e : Expr)
  | bin (o : Op) (l r : Expr)
  deriving DecidableEq, Repr

/-- `retrieve_binary_operator` (ca_expr_list.cpp 214-244): the elements from the operator on to the priority, the operator and the
elements behind its last word. -/
def retrieveBinary (p : Policy) : List Tok → Option (Nat × Op × List Tok)
  | .op o :: rest =>
    if isUnary o || isBinary p o then
      match multipleWords p o, rest with
      | true, .op .NOT :: rest' => some (prio p (withNot o), withNot o, rest')
      | _, _ => some (prio p o, o, rest)
    else none
  | _ => none

/-- `retrieve_term` (ca_expr_list.cpp 157-212): the elements from `it` on to the tree and the elements from the new `it` on. The first
argument bounds the recursion, each call of which consumes an element. -/
def retrieveTerm (p : Policy) : Nat → Nat → List Tok → Option (Expr × List Tok)
  | 0, _, _ => none
  | _ + 1, _, [] => none
  | f + 1, priority, t :: rest =>
    let plain : Option (Expr × List Tok) :=
      match rest with
      | [] => some (.leaf t, [])
      | _ =>
        match retrieveBinary p rest with
        | none => none
        | some (q, o, rest') =>
          if q ≥ priority then some (.leaf t, rest)
          else match retrieveTerm p f q rest' with
            | none => none
            | some (r, rest'') => some (.bin o (.leaf t) r, rest'')
    match t with
    | .op o =>
      if isUnary o then
        match retrieveTerm p f (prio p o) rest with
        | none => none
        | some (e, rest') => some (.un o e, rest')
      else plain
    | .term _ => plain

/-- The loop of `resolve` (ca_expr_list.cpp 130-141). -/
def resolveLoop (p : Policy) : Nat → Expr → List Tok → Option Expr
  | _, final, [] => some final
  | 0, _, _ => none
  | f + 1, final, toks =>
    match retrieveBinary p toks with
    | none => none
    | some (q, o, rest) =>
      match retrieveTerm p (rest.length + 1) q rest with
      | none => none
      | some (r, rest') => resolveLoop p f (.bin o final r) rest'

/-- `resolve` (ca_expr_list.cpp 115-155). -/
def resolve (p : Policy) (toks : List Tok) : Option Expr :=
  match retrieveTerm p (toks.length + 1) 0 toks with
  | none => none
  | some (e, rest) => resolveLoop p (toks.length + 1) e rest

end Verif.Ca
