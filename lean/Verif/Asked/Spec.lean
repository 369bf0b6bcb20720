import Verif.Asked.Model

/-!
What users expect: a statement is processed only when everything it asks about symbols is known, as far as it can be known.
-/
namespace Verif.Asked
open Attr (Env Kind extract symbolName readVar)
open Context (Val)
open Ord (Sym)

/-- `E` with other symbols found by looking ahead. -/
def withRefs (E : Env) (r : Bytes → Option Sym) : Env := { E with refs := r }

/-- Nothing found before is changed. -/
def More (r r' : Bytes → Option Sym) : Prop := ∀ n s, r n = some s → r' n = some s

/-- Values of variable symbols name a symbol only if they are its name: there are no values like `A+1` or `(A)`. -/
def Simple (E : Env) : Prop :=
  ∀ name v sub text s n, E.vars name = some v → readVar v sub = .c text → extract text = some s → symbolName s = some n →
    symbolName text = some n

mutual
/-- There are attribute references in it. -/
def Expr.refers : Expr → Bool
  | .const _ => false
  | .op _ args => args.refers
  | .var v => v.refers
  | .attr _ _ => true
  | .attrVar _ _ => true
  | .str value parts => value.refers || parts.refers
def Exprs.refers : Exprs → Bool
  | .nil => false
  | .cons e es => e.refers || es.refers
def VarSym.refers : VarSym → Bool
  | .named _ subs => subs.refers
  | .created n subs => n.refers || subs.refers
def Chain.refers : Chain → Bool
  | .nil => false
  | .text _ rest => rest.refers
  | .var v rest => v.refers || rest.refers
  | .sub l rest => l.refers || rest.refers
def Chains.refers : Chains → Bool
  | .nil => false
  | .cons c cs => c.refers || cs.refers
end

mutual
/-- No attribute references in the variable symbols between the apostrophes of a string; created names have no sublists (the
grammar has none). -/
def Expr.open : Expr → Bool
  | .const _ => true
  | .op _ args => args.open
  | .var v => v.open
  | .attr _ _ => true
  | .attrVar _ v => v.open
  | .str value parts => !value.refers && parts.open
def Exprs.open : Exprs → Bool
  | .nil => true
  | .cons e es => e.open && es.open
def VarSym.open : VarSym → Bool
  | .named _ subs => subs.open
  | .created n subs => n.openName && subs.open
def Chain.openName : Chain → Bool
  | .nil => true
  | .text _ rest => rest.openName
  | .var v rest => v.open && rest.openName
  | .sub _ _ => false
end

mutual
def Chain.open : Chain → Bool
  | .nil => true
  | .text _ rest => rest.open
  | .var v rest => v.open && rest.open
  | .sub l rest => l.open && rest.open
def Chains.open : Chains → Bool
  | .nil => true
  | .cons c cs => c.open && cs.open
end

def Label.open : Label → Bool
  | .plain => true
  | .var v => v.open
  | .conc c => c.open

def Operand.open : Operand → Bool
  | .model c => c.open
  | .mac c => c.open
  | .caVar v => v.open
  | .caExpr e => e.open
  | .branch e => e.open
  | .plain => true

def Stmt.open (s : Stmt) : Bool :=
  (s.instr.map Chain.open).getD true && s.label.open && (s.operands.map fun l => l.all Operand.open).getD true

mutual
/-- How deep attribute references are nested in subscripts. -/
def Expr.depth : Expr → Nat
  | .const _ => 0
  | .op _ args => args.depth
  | .var v => v.depth
  | .attr _ _ => 1
  | .attrVar _ v => v.depth + 1
  | .str _ parts => parts.depth
def Exprs.depth : Exprs → Nat
  | .nil => 0
  | .cons e es => max e.depth es.depth
def VarSym.depth : VarSym → Nat
  | .named _ subs => subs.depth
  | .created n subs => max n.depth subs.depth
def Chain.depth : Chain → Nat
  | .nil => 0
  | .text _ rest => rest.depth
  | .var v rest => max v.depth rest.depth
  | .sub l rest => max l.depth rest.depth
def Chains.depth : Chains → Nat
  | .nil => 0
  | .cons c cs => max c.depth cs.depth
end

def Label.depth : Label → Nat
  | .plain => 0
  | .var v => v.depth
  | .conc c => c.depth

def Operand.depth : Operand → Nat
  | .model c => c.depth
  | .mac c => c.depth
  | .caVar v => v.depth
  | .caExpr e => e.depth
  | .branch e => e.depth
  | .plain => 0

/-- The symbols whose attributes a piece of a statement asks for: a reference to the symbol by name, or through a variable symbol
whose value is its name. -/
inductive Asks (O : Opr) (E : Env) (n : Bytes) : Expr → Prop
  | name (k : Kind) (h : k ∈ [Kind.L, .I, .S, .T]) : Asks O E n (.attr k n)
  | value (k : Kind) (h : k ∈ [Kind.L, .I, .S, .T]) (v : VarSym) (x : Attr.Var) (text : Bytes)
      (hx : E.vars (evalV O E v).1.1 = some x) (ht : readVar x (evalV O E v).1.2 = .c text)
      (hn : symbolName text = some n) : Asks O E n (.attrVar k v)

mutual
/-- The expressions in a piece of a statement, at any depth. -/
def Expr.parts : Expr → List Expr
  | .const v => [.const v]
  | .op n args => .op n args :: args.parts
  | .var v => .var v :: v.parts
  | .attr k n => [.attr k n]
  | .attrVar k v => .attrVar k v :: v.parts
  | .str value ps => .str value ps :: (value.parts ++ ps.parts)
def Exprs.parts : Exprs → List Expr
  | .nil => []
  | .cons e es => e.parts ++ es.parts
def VarSym.parts : VarSym → List Expr
  | .named _ subs => subs.parts
  | .created n subs => n.parts ++ subs.parts
def Chain.parts : Chain → List Expr
  | .nil => []
  | .text _ rest => rest.parts
  | .var v rest => v.parts ++ rest.parts
  | .sub l rest => l.parts ++ rest.parts
def Chains.parts : Chains → List Expr
  | .nil => []
  | .cons c cs => c.parts ++ cs.parts
end

def Label.parts : Label → List Expr
  | .plain => []
  | .var v => v.parts
  | .conc c => c.parts

def Operand.parts : Operand → List Expr
  | .model c => c.parts
  | .mac c => c.parts
  | .caVar v => v.parts
  | .caExpr e => e.parts
  | .branch e => e.parts
  | .plain => []

/-- All expressions of a statement. -/
def Stmt.parts (s : Stmt) : List Expr :=
  (s.instr.map Chain.parts).getD [] ++ s.label.parts ++ (s.operands.map fun l => l.flatMap Operand.parts).getD []

/-- How often the program may have to be searched for the instruction, and then for the rest of the statement. -/
def Stmt.depth (s : Stmt) : Nat :=
  (s.instr.map Chain.depth).getD 0 +
    max ((s.operands.map fun l => l.foldr (fun o d => max o.depth d) 0).getD 0) s.label.depth

/-- The program has been searched for what the statement asks: all these names are known now, and what was known before. -/
def Searched (O : Opr) (s : Stmt) (E E' : Env) : Prop :=
  ∃ r, E' = withRefs E r ∧ More E.refs r ∧ ∀ n ∈ asks O E s, (r n).isSome

/-- The program has been searched a number of times. -/
inductive Rounds (O : Opr) (s : Stmt) : Nat → Env → Env → Prop
  | zero (E) : Rounds O s 0 E E
  | succ {k E E' E''} : Searched O s E E' → Rounds O s k E' E'' → Rounds O s (k + 1) E E''

end Verif.Asked
