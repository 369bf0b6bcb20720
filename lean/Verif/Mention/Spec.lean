import Verif.Mention.Model
import Verif.Attr.Spec
/-!
What a statement mentions, independently of what the analysis collects.
-/
namespace Verif.Mention

open Lexing (Pos Rng)

/-- A text has the form of a symbol: 1 to 63 letters, digits, `_`, `@`, `$`, `#`, not beginning with a digit. -/
def isName (t : Bytes) : Bool :=
  match t with
  | [] => false
  | c :: _ => decide (c ∉ Attr.Spec.digits) && decide (t.length ≤ 63) && t.all fun x => decide (x ∈ Attr.Spec.symChars)

/-- Lower case letters and their capitals. -/
def small : Bytes := "abcdefghijklmnopqrstuvwxyz".toUTF8.toList

/-- Symbols are the same in upper and lower case: their names are written in capitals. -/
def capitals (t : Bytes) : Bytes := t.map fun c => if c ∈ small then c - 32 else c

/-- The mention of an ordinary symbol in a text. -/
def text (t : Bytes) (r : Rng) : List Occ := if isName t then [⟨.ord, capitals t, r, none⟩] else []

/-- The ordinary symbols of a machine expression. -/
def Mach.all : Mach → List Occ
  | .sym n r => [⟨.ord, n, r, none⟩]
  | .attr n r => [⟨.ord, n, r, none⟩]
  | .un e => e.all
  | .bin l r => l.all ++ r.all
  | _ => []

/-- The chain is empty. -/
def Chain.isNil : Chain → Bool
  | .nil => true
  | _ => false

mutual
/-- All mentions in a variable symbol: itself, or the variable symbols its name is made of, and what its subscripts mention. -/
def Var.all : Var → List Occ
  | .basic n s r => ⟨.var, n, r, none⟩ :: s.all
  | .created c s _ => c.all false true ++ s.all
/-- All mentions in a chain. If `t` is set the chain may be a symbol itself; it is one if it consists of one text (`alone`: nothing
precedes). -/
def Chain.all (t alone : Bool) : Chain → List Occ
  | .nil => []
  | .str v r rest => (if t && alone && rest.isNil then text v r else []) ++ rest.all t false
  | .var v rest => v.all ++ rest.all t false
  | .dot rest => rest.all t false
  | .sub l rest => l.all t ++ rest.all t false
/-- All mentions in a sublist. -/
def Chains.all (t : Bool) : Chains → List Occ
  | .nil => []
  | .cons c rest => c.all t true ++ rest.all t
/-- All mentions in an expression. -/
def Expr.all : Expr → List Occ
  | .const => []
  | .list es => es.all
  | .func ps d => d.all ++ ps.all
  | .string v d s c => d.all ++ v.all false true ++ s.all ++ c.all
  | .sym n r => [⟨.ord, n, r, none⟩]
  | .attrOrd n r => [⟨.ord, n, r, none⟩]
  | .attrVar v => v.all
  | .var v => v.all
  | .un e => e.all
  | .bin l r => l.all ++ r.all
/-- All mentions in a list of expressions. -/
def Exprs.all : Exprs → List Occ
  | .nil => []
  | .cons e rest => e.all ++ rest.all
/-- All mentions in an expression that may be left out. -/
def OptExpr.all : OptExpr → List Occ
  | .none => []
  | .some e => e.all
end

mutual
/-- The mentions in subscripts and in character strings of a variable symbol. -/
def Var.buried : Var → List Occ
  | .basic _ s _ => s.all
  | .created c s _ => c.buried ++ s.all
/-- The mentions in subscripts of the variable symbols of a chain. -/
def Chain.buried : Chain → List Occ
  | .nil => []
  | .str _ _ rest => rest.buried
  | .var v rest => v.buried ++ rest.buried
  | .dot rest => rest.buried
  | .sub l rest => l.buried ++ rest.buried
/-- The same for a sublist. -/
def Chains.buried : Chains → List Occ
  | .nil => []
  | .cons c rest => c.buried ++ rest.buried
/-- The mentions in subscripts and character strings of an expression. -/
def Expr.buried : Expr → List Occ
  | .list es => es.buried
  | .func ps d => d.buried ++ ps.buried
  | .string v d s c => d.buried ++ v.all false true ++ s.all ++ c.all
  | .attrVar v => v.buried
  | .var v => v.buried
  | .un e => e.buried
  | .bin l r => l.buried ++ r.buried
  | _ => []
/-- The same for a list of expressions. -/
def Exprs.buried : Exprs → List Occ
  | .nil => []
  | .cons e rest => e.buried ++ rest.buried
/-- The same for an expression that may be left out. -/
def OptExpr.buried : OptExpr → List Occ
  | .none => []
  | .some e => e.buried
end

mutual
/-- Parts of names made with variable symbols that look like symbols themselves, as `A` in `A&X`. The parameters are those of
`Chain.all`. -/
def Chain.glued (t alone : Bool) : Chain → List Occ
  | .nil => []
  | .str v r rest => (if t && alone && rest.isNil then [] else text v r) ++ rest.glued t false
  | .var _ rest => rest.glued t false
  | .dot rest => rest.glued t false
  | .sub l rest => l.glued t ++ rest.glued t false
/-- The same for a sublist. -/
def Chains.glued (t : Bool) : Chains → List Occ
  | .nil => []
  | .cons c rest => c.glued t true ++ rest.glued t
end

/-- The mentions in a nominal value. -/
def Nominal.all : Nominal → List Occ
  | .expr e => e.all
  | .addr d b => b.all ++ d.all

/-- The mentions in a machine expression that may be left out. -/
def optAll (e : Option Mach) : List Occ := e.elim [] (·.all)

/-- All mentions in an operand. -/
def Operand.all : Operand → List Occ
  | .model c => c.all true true
  | .machExpr e => optAll e
  | .machAddr d f s => optAll d ++ optAll f ++ optAll s
  | .asmExpr e => optAll e
  | .asmUsing b s => optAll b ++ optAll s
  | .data d p l s e n => optAll d ++ optAll p ++ optAll l ++ optAll s ++ optAll e ++ n.flatMap (·.all)
  | .caVar v => v.all
  | .caExpr e => e.all
  | .caSeq n r => [⟨.seq, n, r, none⟩]
  | .caBranch e n r => e.all ++ [⟨.seq, n, r, none⟩]
  | .macChain c => c.all true true
  | _ => []

/-- The mentions in subscripts and character strings of an operand. -/
def Operand.buried : Operand → List Occ
  | .model c => c.buried
  | .caVar v => v.buried
  | .caExpr e => e.buried
  | .caBranch e _ _ => e.buried
  | .macChain c => c.buried
  | _ => []

/-- The parts of names in an operand. -/
def Operand.glued : Operand → List Occ
  | .model c => c.glued true true
  | .macChain c => c.glued true true
  | _ => []

/-- All mentions in a name field. -/
def Label.all : Label → List Occ
  | .ord n r => [⟨.ord, n, r, none⟩]
  | .seq n r => [⟨.seq, n, r, none⟩]
  | .var v => v.all
  | .conc c => c.all true true
  | _ => []

/-- The mentions in subscripts in a name field. -/
def Label.buried : Label → List Occ
  | .var v => v.buried
  | .conc c => c.buried
  | _ => []

/-- The parts of names in a name field. -/
def Label.glued : Label → List Occ
  | .conc c => c.glued true true
  | _ => []

/-- All mentions in an operation field: an operation code, or the variable symbols it is made with. -/
def Instr.all (C : Codes) : Instr → List Occ
  | .ord n r => (C n).elim [] fun o => [⟨.instr, o.1, r, o.2⟩]
  | .conc c => c.all false true
  | .empty => []

/-- The mentions in subscripts in an operation field. -/
def Instr.buried : Instr → List Occ
  | .conc c => c.buried
  | _ => []

/-- The parts of names in an operation field: all texts of an operation made with variable symbols are. -/
def Instr.glued : Instr → List Occ
  | .conc c => c.glued false true
  | _ => []

/-- All mentions in an operand field. -/
def Field.all : Field → List Occ
  | .operands l => l.flatMap (·.all)
  | .deferred vs => vs.flatMap (·.all)

/-- The mentions in subscripts and character strings of an operand field. -/
def Field.buried : Field → List Occ
  | .operands l => l.flatMap (·.buried)
  | .deferred vs => vs.flatMap (·.buried)

/-- The parts of names in an operand field. -/
def Field.glued : Field → List Occ
  | .operands l => l.flatMap (·.glued)
  | .deferred _ => []

/-- All mentions in a statement: in its name field, its operation and its operands. -/
def Stmt.all (C : Codes) (s : Stmt) : List Occ := s.label.all ++ s.instr.all C ++ s.field.all

/-- The mentions in subscripts and character strings of a statement. -/
def Stmt.buried (s : Stmt) : List Occ := s.label.buried ++ s.instr.buried ++ s.field.buried

/-- The parts of names in a statement. -/
def Stmt.glued (s : Stmt) : List Occ := s.label.glued ++ s.instr.glued ++ s.field.glued

/-- The mentions of one kind. -/
def only (k : Kind) (l : List Occ) : List Occ := l.filter fun o => o.kind = k

/-- A variable symbol is declared here with this type, if its name is written out. -/
def declOf (file : String) (ty : SetTy) (g : Bool) : Var → List VarDef
  | .basic n _ r => [⟨n, ty, g, file, r.start⟩]
  | .created _ _ _ => []

/-- The names a statement of open code declares, with type, whether it is global and place: SETx its name field, LCLx and GBLx their
operands. -/
def Stmt.declares (file : String) (s : Stmt) : List VarDef :=
  let decl := declOf file
  let ops := match s.field with
    | .operands l => l.filterMap Operand.caVar?
    | .deferred _ => []
  let name := match s.label, s.field with
    | .var v, .operands _ => [v]
    | _, _ => []
  let is (t : String) : Bool := s.opcode == t.toUTF8.toList
  if is "SETA" then name.flatMap (decl .A false)
  else if is "SETB" then name.flatMap (decl .B false)
  else if is "SETC" then name.flatMap (decl .C false)
  else if is "LCLA" then ops.flatMap (decl .A false)
  else if is "LCLB" then ops.flatMap (decl .B false)
  else if is "LCLC" then ops.flatMap (decl .C false)
  else if is "GBLA" then ops.flatMap (decl .A true)
  else if is "GBLB" then ops.flatMap (decl .B true)
  else if is "GBLC" then ops.flatMap (decl .C true)
  else []

/-- A line of open code or of a macro that is called, with who provides it and its file. -/
structure Line where
  stmt : Stmt
  prov : Prov
  file : String

/-- The statement is MACRO. -/
def Stmt.isMacro (s : Stmt) : Bool := s.resolved && s.opcode == "MACRO".toUTF8.toList
/-- The statement is MEND. -/
def Stmt.isMend (s : Stmt) : Bool := s.resolved && s.opcode == "MEND".toUTF8.toList

/-- How many more MACRO than MEND statements there are, with those before: the depth of definitions. -/
def depth (before : Nat) (ss : List Stmt) : Int := before + ss.countP Stmt.isMacro - ss.countP Stmt.isMend

end Verif.Mention
