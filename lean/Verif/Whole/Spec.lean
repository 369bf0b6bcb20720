import Verif.Whole.Model
import Verif.Ord.AlignProps
/-!
What a program of data, labels and `EQU` means: the values of its symbols satisfy the equations the program states.
-/
namespace Verif.Whole
open Verif.Ord

/-- A number, or a place in the section: so many bytes from its beginning. -/
inductive Val where
  | abs (n : Int)
  | rel (n : Int)
  deriving DecidableEq, Repr

/-- Values of symbols. -/
abbrev Values := SymId → Option Val

def plus : Val → Val → Option Val
  | .abs x, .abs y => some (.abs (x + y))
  | .rel x, .abs y => some (.rel (x + y))
  | .abs x, .rel y => some (.rel (x + y))
  | .rel _, .rel _ => none

def minus : Val → Val → Option Val
  | .abs x, .abs y => some (.abs (x - y))
  | .rel x, .abs y => some (.rel (x - y))
  | .rel x, .rel y => some (.abs (x - y))
  | .abs _, .rel _ => none

def times : Val → Val → Option Val
  | .abs x, .abs y => some (.abs (x * y))
  | _, _ => none

/-- Division truncates and gives 0 for the divisor 0. -/
def over : Val → Val → Option Val
  | .abs x, .abs y => some (.abs (x.tdiv y))
  | _, _ => none

def minus1 : Val → Option Val
  | .abs x => some (.abs (-x))
  | .rel _ => none

/-- The value of an expression; `here` is the value of `*`. `none`: it refers to an undefined symbol, or is neither a number nor a place. -/
def value (F : Values) (here : Val) : MExpr → Option Val
  | .const v => some (.abs v)
  | .sym n => F n
  | .loc _ => some here
  | .par e => value F here e
  | .neg e => (value F here e).bind minus1
  | .add l r => (value F here l).bind fun x => (value F here r).bind (plus x)
  | .sub l r => (value F here l).bind fun x => (value F here r).bind (minus x)
  | .mul l r => (value F here l).bind fun x => (value F here r).bind (times x)
  | .div l r => (value F here l).bind fun x => (value F here r).bind (over x)
  | .attr .. => none
  | .dflt => none

/-- The bytes of `k` items of `u` bytes; nothing is reserved if that is negative or more than a number of 32 bits. -/
def bytes (u : Nat) (k : Int) : Int := if 0 ≤ k ∧ u * k ≤ 2147483647 then u * k else 0

/-- The values satisfy the rest of a program that begins `p` bytes into the section: `n EQU e` makes `n` what `e` is worth; a label is
worth the next place that is a multiple of the boundary of its data; and the place after the data is that of the label plus as many items as
the expression says. -/
def SolvesFrom (F : Values) : Int → List Stmt → Prop
  | _, [] => True
  | p, .equ n e :: rest => (∃ x, value F (.rel p) e = some x ∧ F n = some x) ∧ SolvesFrom F p rest
  | p, .data l al u e :: rest =>
    (∀ n, l = some n → F n = some (.rel (alignUp al p))) ∧
    ∃ k, value F (.rel (alignUp al p)) e = some (.abs k) ∧ SolvesFrom F (alignUp al p + bytes u k) rest

/-- The values satisfy the program. -/
def Solves (F : Values) (prog : List Stmt) : Prop := SolvesFrom F 0 prog

/-- The value of a symbol the user sees. -/
def St.value (st : St) (n : SymId) : Option Val := match st.tab.value n with
  | .abs x => some (.abs x)
  | .reloc a => if a.bases = [(owner, 1)] then some (.rel (a.offset st.lc.heap)) else none
  | _ => none

/-! ### Programs the theorem is about -/

/-- How often an expression mentions a place outside of products. -/
def places (F : Values) : MExpr → Nat
  | .sym n => match F n with
    | some (.rel _) => 1
    | _ => 0
  | .loc _ => 1
  | .par e => places F e
  | .neg e => places F e
  | .add l r => places F l + places F r
  | .sub l r => places F l + places F r
  | _ => 0

/-- No sum or difference mentions more than two places, as `B-A+4` and `(B-A)*(D-C)`, but not `D-C-(B-A)`. -/
def Tidy (F : Values) : MExpr → Prop
  | .const _ => True
  | .sym _ => True
  | .loc _ => True
  | .par e => Tidy F e
  | .neg e => Tidy F e
  | .add l r => Tidy F l ∧ Tidy F r ∧ places F l + places F r ≤ 2
  | .sub l r => Tidy F l ∧ Tidy F r ∧ places F l + places F r ≤ 2
  | .mul l r => Tidy F l ∧ Tidy F r
  | .div l r => Tidy F l ∧ Tidy F r
  | .attr .. => False
  | .dflt => False

/-- A symbol or `*`. -/
def Bare : MExpr → Prop
  | .sym _ => True
  | .loc _ => True
  | .par e => Bare e
  | _ => False

/-- No symbols and no `*`. -/
def Constant : MExpr → Prop
  | .const _ => True
  | .par e => Constant e
  | .neg e => Constant e
  | .add l r => Constant l ∧ Constant r
  | .sub l r => Constant l ∧ Constant r
  | .mul l r => Constant l ∧ Constant r
  | .div l r => Constant l ∧ Constant r
  | _ => False

/-- An expression is worth a number, whatever the value of `*`. -/
def IsNumber (F : Values) (e : MExpr) : Prop := ∃ k, value F (.rel 0) e = some (.abs k)
/-- An expression is worth a place. -/
def IsPlace (F : Values) (e : MExpr) : Prop := ∃ k, value F (.rel 0) e = some (.rel k)

/-- Expressions are worth numbers or places, lengths are worth numbers; sums and differences mention at most two places; items are as long as
a multiple of their boundary, which is a power of two. `var` says that there was data before whose length is not a constant: from then on
`n EQU e` makes `n` a number, or `e` is a symbol or `*` alone (see `C58_witness_offset`). -/
def CarefulFrom (F : Values) : Bool → List Stmt → Prop
  | _, [] => True
  | var, .equ _ e :: rest => Tidy F e ∧ (IsNumber F e ∨ IsPlace F e ∧ (var = false ∨ Bare e)) ∧ CarefulFrom F var rest
  | var, .data _ al u e :: rest => (∃ k, k ≤ 64 ∧ al = ⟨0, 2 ^ k⟩) ∧ al.boundary ∣ u ∧ Tidy F e ∧ IsNumber F e ∧
    (Constant e ∧ CarefulFrom F var rest ∨ CarefulFrom F true rest)

def Careful (F : Values) (prog : List Stmt) : Prop := CarefulFrom F false prog

/-- A number fits into 32 bits. -/
def Fits : Option Val → Prop
  | some (.abs k) => -2147483648 ≤ k ∧ k ≤ 2147483647
  | _ => True

/-- The result of every operation of an expression fits. -/
def Small (F : Values) (here : Val) : MExpr → Prop
  | .par e => Small F here e
  | .neg e => Small F here e ∧ Fits (value F here (.neg e))
  | .add l r => Small F here l ∧ Small F here r ∧ Fits (value F here (.add l r))
  | .sub l r => Small F here l ∧ Small F here r ∧ Fits (value F here (.sub l r))
  | .mul l r => Small F here l ∧ Small F here r ∧ Fits (value F here (.mul l r))
  | .div l r => Small F here l ∧ Small F here r ∧ Fits (value F here (.div l r))
  | _ => True

/-- The numbers that come up in the rest of a program that begins `p` bytes into the section fit. -/
def SmallFrom (F : Values) : Int → List Stmt → Prop
  | _, [] => True
  | p, .equ _ e :: rest => Small F (.rel p) e ∧ SmallFrom F p rest
  | p, .data _ al u e :: rest => Small F (.rel (alignUp al p)) e ∧
    ∀ k, value F (.rel (alignUp al p)) e = some (.abs k) → SmallFrom F (alignUp al p + bytes u k) rest

/-- No operation of the program overflows. -/
def SmallProg (F : Values) (prog : List Stmt) : Prop := SmallFrom F 0 prog

end Verif.Whole
