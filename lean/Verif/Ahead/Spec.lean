import Verif.Ahead.Model
import Verif.Ord.DepsProps
import Verif.Attr.Props
/-!
What C108 says, independently of how the attributes are computed.
-/
namespace Verif.Ahead
open Verif.Ord

/-- A 32-bit number. -/
def fits (v : Int) : Option Int := if -2147483648 ≤ v ∧ v ≤ 2147483647 then some v else none

/-- The number an expression over absolute symbols and known attributes is worth; relocatable terms and the location counter have none. -/
def worth (T : Table) : MExpr → Option Int
  | .const v => some v
  | .sym n => match T n with
    | some s => match s.val with
      | .abs v => some v
      | _ => none
    | none => none
  | .attr k n => match T n with
    | some s => if s.hasAttr k then some (if (k = .S ∨ k = .I) ∧ s.si = false then 0 else s.attr k) else none
    | none => none
  | .par e => worth T e
  | .neg e => do fits (-(← worth T e))
  | .add l r => do fits ((← worth T l) + (← worth T r))
  | .sub l r => do fits ((← worth T l) - (← worth T r))
  | .mul l r => do fits ((← worth T l) * (← worth T r))
  | .div l r => do
    let x ← worth T l
    let y ← worth T r
    if y = 0 then some 0 else fits (x.tdiv y)
  | _ => none

/-- An operand of `EQU` that means the same wherever it is read: it is not written with variable symbols, and if it is an expression, the
value is known. -/
def EquOp.Plain (T : Table) (o : EquOp) : Prop := o = .empty ∨ o = .other ∨ ∃ e v, o = .expr e ∧ worth T e = some v

/-- The term an expression begins with, apart from parentheses and minus signs, is the symbol. -/
inductive Begins : MExpr → SymId → Prop where
  | sym (n : SymId) : Begins (.sym n) n
  | par (e : MExpr) (n : SymId) (h : Begins e n) : Begins (.par e) n
  | neg (e : MExpr) (n : SymId) (h : Begins e n) : Begins (.neg e) n
  | add (l r : MExpr) (n : SymId) (h : Begins l n) : Begins (.add l r) n
  | sub (l r : MExpr) (n : SymId) (h : Begins l n) : Begins (.sub l r) n
  | mul (l r : MExpr) (n : SymId) (h : Begins l n) : Begins (.mul l r) n
  | div (l r : MExpr) (n : SymId) (h : Begins l n) : Begins (.div l r) n

/-- One expression is the other one with the address put for every `*`. -/
inductive Located (a : Addr) : MExpr → MExpr → Prop where
  | const (v : Int) : Located a (.const v) (.const v)
  | sym (n : SymId) : Located a (.sym n) (.sym n)
  | attr (k : AttrKind) (n : SymId) : Located a (.attr k n) (.attr k n)
  | star (b : Option Addr) : Located a (.loc b) (.loc (some a))
  | dflt : Located a .dflt .dflt
  | par (e f : MExpr) (h : Located a e f) : Located a (.par e) (.par f)
  | neg (e f : MExpr) (h : Located a e f) : Located a (.neg e) (.neg f)
  | add (l r l' r' : MExpr) (h : Located a l l') (k : Located a r r') : Located a (.add l r) (.add l' r')
  | sub (l r l' r' : MExpr) (h : Located a l l') (k : Located a r r') : Located a (.sub l r) (.sub l' r')
  | mul (l r l' r' : MExpr) (h : Located a l l') (k : Located a r r') : Located a (.mul l r) (.mul l' r')
  | div (l r l' r' : MExpr) (h : Located a l l') (k : Located a r r') : Located a (.div l r) (.div l' r')

/-- The operands of a statement refer to nothing that is still to be defined: the length and type operands of `EQU` are known, and so is the
length of the symbol its value begins with, unless a length is given; the modifiers of a data definition are known. -/
def Settled (T : Table) : Stmt → Prop
  | .equ ops => (∀ i, i = 1 ∨ i = 2 → ∀ o, ops[i]? = some o → o.Plain T) ∧
      ((∃ e v, ops[1]? = some (.expr e) ∧ worth T e = some v ∧ 0 ≤ v ∧ v ≤ 65535) ∨
        ∀ e n, ops.head? = some (.expr e) → Begins e n → ∃ s l, T n = some s ∧ s.val ≠ .undef ∧ s.len = some l)
  | .data ops => ∀ d r, ops = some d :: r → (∀ e, d.length = some e → ∃ v, worth T e = some v) ∧ ∀ e, d.scale = some e → ∃ v, worth T e = some v
  | _ => True

/-- The attributes looking ahead promises to get right: type and length always, the scale of data definitions, and their integer attribute
when no scale is written; scale and integer of an `EQU` symbol when its type has none. -/
def Promised (k : Attr.Kind) : Stmt → Prop
  | .equ _ => k = .T ∨ k = .L
  | .data ops => k = .T ∨ k = .L ∨ k = .S ∨ k = .I ∧ ∀ d r, ops = some d :: r → d.scale = none
  | .org => False
  | _ => k = .T ∨ k = .L ∨ k = .S ∨ k = .I

/-- The types of constants with the type attribute of a label: without and with a length written. -/
def dataTypes : List (Char × Char × Char) :=
  [('A', 'A', 'R'), ('B', 'B', 'B'), ('C', 'C', 'C'), ('D', 'D', 'K'), ('E', 'E', 'K'), ('F', 'F', 'G'), ('G', '@', '@'), ('H', 'H', 'G'),
   ('J', 'A', 'R'), ('L', 'L', 'K'), ('P', 'P', 'P'), ('Q', 'Q', 'R'), ('R', 'V', 'R'), ('S', 'S', 'R'), ('V', 'V', 'R'), ('X', 'X', 'X'),
   ('Y', 'Y', 'R'), ('Z', 'Z', 'Z')]

/-- The type attributes of constants that have a scale and an integer attribute. -/
def numeric : List Char := ['D', 'E', 'F', 'G', 'H', 'K', 'L', 'P', 'Z']

end Verif.Ahead
