import Verif.CaStmt.Model
/-!
What SETx, GBLx, LCLx and AREAD do, on variables that are kept by name: those of the current scope, those of the callers, and the global ones.
Only statements, expressions and what can be seen of a variable are taken from the model. C122.
-/
namespace Verif.CaStmt.Spec
open Verif.Context

/-- What a scope knows about a name: a variable of its own, or that it is the global one. -/
inductive Bind where
  | own (v : Var)
  | global

structure Scope where
  names : Name → Option Bind := fun _ => none
  params : Name → Bool := fun _ => false

structure Store where
  globals : Name → Option Var := fun _ => none
  here : Scope := {}
  callers : List Scope := []
  calls : Nat := 0
  recs : List Bytes := []
  reported : Bool := false

/-- What a name stands for in the current scope. -/
def Store.look (σ : Store) : View := fun n =>
  match σ.here.names n with
  | some (.own v) => .var v
  | some .global => match σ.globals n with
    | some v => .var v
    | none => .undef
  | none => if σ.here.params n then .param else .undef

def put {β : Type} (f : Name → β) (n : Name) (x : β) : Name → β := fun m => if m = n then x else f m

def Store.report (σ : Store) (b : Bool := true) : Store := { σ with reported := σ.reported || b }

/-- A variable that was never assigned to. -/
def fresh (ty : Ty) (scalar : Bool) : Var := ⟨ty, scalar, fun _ => none⟩

/-- A variable of the current scope comes into being. -/
def Store.declare (σ : Store) (n : Name) (v : Var) : Store := { σ with here := { σ.here with names := put σ.here.names n (some (.own v)) } }

/-- The element `i` of the variable gets the value `x`. -/
def Var.with (v : Var) (i : Nat) (x : Val) : Var := { v with elem := fun j => if j = i then some x else v.elem j }

/-- The element `i` of the variable that is called `n` here gets the value `x`. -/
def Store.assign (σ : Store) (n : Name) (i : Nat) (x : Val) : Store :=
  match σ.here.names n with
  | some (.own v) => σ.declare n (Var.with v i x)
  | some .global => match σ.globals n with
    | some v => { σ with globals := put σ.globals n (some (Var.with v i x)) }
    | none => σ
  | none => σ

/-- A variable can be assigned values of the type `ty`, at a subscript or without one. A name that is not known yet can. -/
def fits (l : Look) (ty : Ty) (scalar : Bool) : Bool :=
  match l with
  | .undef => true
  | .param => false
  | .var v => v.ty = ty && v.scalar = scalar

/-- The variable and the subscript to assign to; none if it cannot be assigned to. -/
def place (σ : Store) (t : Target) (ty : Ty) : Option (Name × Option Nat) :=
  match t.name σ.look with
  | none => none
  | some n => match t.subs with
    | [] => if fits (σ.look n) ty true then some (n, none) else none
    | [e] => if 1 ≤ (e σ.look).1 ∧ fits (σ.look n) ty false then some (n, some (e σ.look).1.toNat) else none
    | _ => none

/-- Whether there was something wrong with the subscripts themselves. -/
def subsReported (σ : Store) (t : Target) : Bool := t.subs.any fun e => (e σ.look).2

/-- The variable is there, with the values it had or as a new one. -/
def ensure (σ : Store) (p : Name × Option Nat) (ty : Ty) : Store :=
  match σ.look p.1 with
  | .undef => σ.declare p.1 (fresh ty p.2.isNone)
  | _ => σ

/-- The element `k` behind the first one; a variable without subscript has only one. -/
def index (sub : Option Nat) (k : Nat) : Nat :=
  match sub with
  | some i => i + k
  | none => 0

/-- The value of the operand at position `k` goes to the element `k` behind the first one; where nothing is written nothing is assigned. -/
def assignOps (n : Name) (sub : Option Nat) : Nat → List SetOp → Store → Store
  | _, [], σ => σ
  | k, .expr e :: ops, σ =>
    let r := e σ.look
    assignOps n sub (k + 1) ops ((σ.assign n (index sub k) r.1).report r.2)
  | k, _ :: ops, σ => assignOps n sub (k + 1) ops σ

def isExpr : SetOp → Bool
  | .expr _ => true
  | _ => false

def isOther : SetOp → Bool
  | .other => true
  | _ => false

/-- There are values to assign, and only one for a variable without subscript. -/
def proper (ops : List SetOp) (sub : Option Nat) : Bool :=
  !ops.any isOther && ops.any isExpr && (sub.isSome || (ops.filter isExpr).length == 1)

/-- SETx. -/
def setStmt (σ : Store) (ty : Ty) (label : Label) (ops : List SetOp) : Store :=
  match label with
  | .var t => match place σ t ty with
    | none => σ.report
    | some p => if proper ops p.2 then assignOps p.1 p.2 0 ops ((ensure σ p ty).report (subsReported σ t)) else σ.report
  | _ => σ.report

/-- One variable is declared. A global variable that is there already must have the same type and shape. -/
def declareOne (glob : Bool) (ty : Ty) (σ : Store) (n : Name) (scalar : Bool) : Store :=
  match σ.look n with
  | .undef =>
    if glob then
      match σ.globals n with
      | none => { σ with globals := put σ.globals n (some (fresh ty scalar)), here := { σ.here with names := put σ.here.names n (some .global) } }
      | some v =>
        if v.ty = ty ∧ v.scalar = scalar then { σ with here := { σ.here with names := put σ.here.names n (some .global) } }
        else σ.report
    else σ.declare n (fresh ty scalar)
  | _ => σ.report

/-- The operands of a declaration, one after the other; `v` is what could be seen before the statement. -/
def declareOps (glob : Bool) (ty : Ty) (v : View) : List DeclOp → Store → Store
  | [], σ => σ
  | .var t :: ops, σ => match t.name v with
    | none => declareOps glob ty v ops σ.report
    | some n => declareOps glob ty v ops ((declareOne glob ty σ n t.subs.isEmpty).report (t.subs.any fun e => (e v).2))
  | _ :: ops, σ => declareOps glob ty v ops σ

def declIsVar : DeclOp → Bool
  | .var _ => true
  | _ => false

def declIsOther : DeclOp → Bool
  | .other => true
  | _ => false

def labelWrong : Label → Bool
  | .empty => false
  | .seq => false
  | _ => true

/-- LCLx and GBLx. -/
def declStmt (σ : Store) (glob : Bool) (ty : Ty) (label : Label) (ops : List DeclOp) : Store :=
  if ops.any declIsOther ∨ ops.any declIsVar = false then σ.report
  else declareOps glob ty σ.look ops (σ.report (labelWrong label))

/-- What AREAD reads. -/
def source : List ReadOp → Option Variant
  | [] => some .reader
  | [.empty, .empty] => some .reader
  | [.sym n] =>
    if n = "NOSTMT".toUTF8.toList ∨ n = "NOPRINT".toUTF8.toList then some .reader
    else if n = "CLOCKB".toUTF8.toList then some .clockb
    else if n = "CLOCKD".toUTF8.toList then some .clockd
    else none
  | _ => none

/-- `k` decimal digits. -/
def digits : Nat → Nat → Bytes
  | 0, _ => []
  | k + 1, n => digits k (n / 10) ++ [UInt8.ofNat (48 + n % 10)]

/-- Hundredths of a second since midnight, in eight digits. -/
def timeB (ns : Nat) : Bytes := digits 8 (ns / 10000000)

/-- Hours, minutes, seconds and hundredths, in two digits each. -/
def timeD (ns : Nat) : Bytes :=
  let h := ns / 10000000
  digits 2 (h / 100 / 60 / 60) ++ digits 2 (h / 100 / 60 % 60) ++ digits 2 (h / 100 % 60) ++ digits 2 (h % 100)

/-- AREAD. -/
def areadStmt (σ : Store) (label : Label) (ops : List ReadOp) (now : Nat) : Store :=
  match label, source ops with
  | .var t, some w =>
    if σ.callers.isEmpty then σ.report
    else match place σ t .C with
      | none => σ.report
      | some p =>
        let v := match w with
          | .reader => σ.recs.headD []
          | .clockb => timeB now
          | .clockd => timeD now
        let σ' := (ensure σ p .C).assign p.1 (p.2.getD 0) (.c v)
        { σ' with recs := if w = .reader then σ.recs.tail else σ.recs, reported := σ.reported || subsReported σ t }
  | _, _ => σ.report

/-- The names a macro knows when it is called. -/
def initial (σ : Store) (sys : List (Name × Val)) (globs : List Name) : Name → Option Bind := fun n =>
  match ((SYSNDX, Val.c (sysndxValue σ.calls)) :: sys).find? (·.1 = n) with
  | some p => some (.own ⟨p.2.ty, true, fun i => if i = 0 then some p.2 else none⟩)
  | none => if n ∈ globs ∧ (σ.globals n).isSome then some .global else none

def enter (σ : Store) (params : Name → Bool) (sys : List (Name × Val)) (globs : List Name) : Store :=
  { σ with here := ⟨initial σ sys globs, params⟩, callers := σ.here :: σ.callers, calls := σ.calls + 1 }

def leave (σ : Store) : Store :=
  match σ.callers with
  | [] => σ
  | c :: cs => { σ with here := c, callers := cs }

def step (σ : Store) : Stmt → Store
  | .set ty label ops => setStmt σ ty label ops
  | .decl glob ty label ops => declStmt σ glob ty label ops
  | .aread label ops now => areadStmt σ label ops now
  | .enter params sys globs => enter σ params sys globs
  | .leave => leave σ

def run (σ : Store) (p : List Stmt) : Store := p.foldl step σ

/-! ### What is not done as described -/

def isBlank : SetOp → Bool
  | .empty => true
  | _ => false

/-- Nothing is written behind an operand that is left out. -/
def noGap : List SetOp → Bool
  | [] => true
  | .empty :: ops => ops.all isBlank
  | _ :: ops => noGap ops

def namedOk (σ : Store) : Label → Prop
  | .var t => (t.name σ.look).isSome
  | _ => True

/-- A statement that is processed as described. -/
def Regular (σ : Store) : Stmt → Prop
  | .set ty label ops => namedOk σ label ∧ match label with
    | .var t => ∀ p, place σ t ty = some p →
      -- operands are left out only at the end
      noGap ops ∧
      -- there is something to assign to a new variable
      (∀ n sub, p = (n, sub) → (σ.look n matches .undef) = true → ops.any isOther = false ∧ ops.any isExpr) ∧
      -- a variable without subscript gets one value
      (p.2 = none → (ops.filter isExpr).length ≤ 1)
    | _ => True
  | .decl glob ty _ ops => glob = true → ∀ t n v, DeclOp.var t ∈ ops → t.name σ.look = some n → (σ.look n matches .undef) = true →
      σ.globals n = some v →
      v.ty = ty ∧ v.scalar = t.subs.isEmpty
  | .aread label ops now => namedOk σ label ∧ (1 < ops.length → ∀ n, ops.head? ≠ some (.sym n)) ∧ now < 24 * 60 * 60 * 1000000000
  | .enter params sys globs => params SYSNDX = false ∧ (∀ p ∈ sys, params p.1 = false) ∧ ∀ n ∈ globs, params n = false
  | .leave => True

def AllRegular : Store → List Stmt → Prop
  | _, [] => True
  | σ, s :: p => Regular σ s ∧ AllRegular (step σ s) p

end Verif.CaStmt.Spec
