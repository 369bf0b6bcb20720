import Verif.Ord.Address
/-!
Ordinary symbols, their values and the machine expressions over them
(context/ordinary_assembly/symbol.cpp, symbol_attributes.cpp, expressions/mach_expr_term.cpp, mach_operator.h).
-/
namespace Verif.Ord

/-- An `id_index`. -/
abbrev SymId := Nat

/-- `symbol_value` (symbol.h 36-60). `ub` is not a value of the program: a signed 32-bit operation overflowed, which C++ leaves undefined. -/
inductive SVal where
  | undef
  | ub
  | abs (v : Int)
  | reloc (a : Addr)
  deriving DecidableEq, Repr

/-- The result of an operation on `int32_t`. -/
def int32 (v : Int) : SVal := if -2147483648 ≤ v ∧ v ≤ 2147483647 then .abs v else .ub

/-- `has_unresolved_spaces` (address.cpp 320-328). -/
def Heap.pending (H : Heap) (i : SpId) : Bool :=
  match h : H.info i with
  | none => true
  | some s => s.ptrs.attach.any fun p => H.pending p.1.1
termination_by H.rank i
decreasing_by exact H.dec i s h p.1 p.2

/-- `address::has_unresolved_space` (address.cpp 342-348). -/
def Addr.pending (H : Heap) (a : Addr) : Bool := a.spaces.any fun e => H.pending e.1

/-- The common end of `RELOC + RELOC` and `RELOC - RELOC` (symbol.cpp 51-56, 83-88). -/
def SVal.ofAddr (H : Heap) (t : Addr) : SVal := if t.bases = [] ∧ t.pending H = false then int32 (t.offset H) else .reloc t

/-- `operator+` (symbol.cpp 33-63). -/
def SVal.add (H : Heap) : SVal → SVal → SVal
  | .ub, _ => .ub
  | _, .ub => .ub
  | .undef, _ => .undef
  | _, .undef => .undef
  | .abs x, .abs y => int32 (x + y)
  | .abs x, .reloc b => .reloc (b.addInt x)
  | .reloc a, .abs y => .reloc (a.addInt y)
  | .reloc a, .reloc b => .ofAddr H (a.add H b)

/-- binary `operator-` (symbol.cpp 65-95). -/
def SVal.sub (H : Heap) : SVal → SVal → SVal
  | .ub, _ => .ub
  | _, .ub => .ub
  | .undef, _ => .undef
  | _, .undef => .undef
  | .abs x, .abs y => int32 (x - y)
  | .abs x, .reloc b => .reloc (b.subInt H x)
  | .reloc a, .abs y => .reloc (a.subInt H y)
  | .reloc a, .reloc b => .ofAddr H (a.sub H b)

/-- `operator*` (symbol.cpp 97-103). -/
def SVal.mul : SVal → SVal → SVal
  | .ub, _ => .ub
  | _, .ub => .ub
  | .abs x, .abs y => int32 (x * y)
  | _, _ => .undef

/-- `operator/` (symbol.cpp 105-111); division truncates, `INT_MIN / -1` overflows. -/
def SVal.div : SVal → SVal → SVal
  | .ub, _ => .ub
  | _, .ub => .ub
  | .abs x, .abs y => if y = 0 then .abs 0 else int32 (x.tdiv y)
  | _, _ => .undef

/-- unary `operator-` (symbol.cpp 113-127). -/
def SVal.neg (H : Heap) : SVal → SVal
  | .ub => .ub
  | .undef => .undef
  | .abs x => int32 (-x)
  | .reloc a => .reloc (a.neg H)

/-- `data_attr_kind` (symbol_attributes.h 25-36); `other` stands for `K`, `N`, `D`, `O` and `UNKNOWN`. -/
inductive AttrKind where
  | T | L | S | I | other
  deriving DecidableEq, Repr

/-- `symbol` with its `symbol_attributes` (symbol.h 64-84, symbol_attributes.h 51-107). `none` is `undef_length` and `undef_scale`; the
length is kept as the `int32_t` the `uint32_t` converts to. `si` is `can_have_SI_attr`. The name and location are left out. -/
structure Sym where
  val : SVal
  type : Int
  len : Option Int
  scale : Option Int
  integer : Int
  si : Bool
  deriving DecidableEq, Repr

/-- Conversion to `len_attr` (symbol_attributes.h 55, symbol_attributes.cpp 27): -1 is the undefined length. -/
def toLen (v : Int) : Option Int := if v = -1 then none else some v
/-- Conversion to `scale_attr`, a 16-bit integer (symbol_attributes.h 56, symbol_attributes.cpp 29): 32767 is the undefined scale. -/
def toScale (v : Int) : Option Int := if v.bmod 65536 = 32767 then none else some (v.bmod 65536)

/-- `symbol_attributes::default_value` (symbol_attributes.cpp 86-97); 228 is `to_ebcdic('U')`. -/
def AttrKind.dflt : AttrKind → Int
  | .T => 228
  | .L => 1
  | _ => 0

/-- `symbol_attributes::is_defined` (symbol_attributes.cpp 149-164). -/
def Sym.hasAttr (s : Sym) : AttrKind → Bool
  | .T => true
  | .L => s.len.isSome
  | .S => s.scale.isSome
  | .I => s.scale.isSome && s.len.isSome
  | .other => false

/-- `symbol_attributes::get_attribute_value` (symbol_attributes.cpp 176-191). -/
def Sym.attr (s : Sym) : AttrKind → Int
  | .T => s.type
  | .L => s.len.getD 1
  | .S => s.scale.getD 0
  | .I => s.integer
  | .other => 0

/-- `ordinary_assembly_context::symbols_` as `get_symbol` sees it (ordinary_assembly_context.cpp 67-79). -/
abbrev Table := SymId → Option Sym

/-- `mach_expression` (mach_expr_term.h, mach_operator.h). `self-defining terms` are constants, unary plus and parentheses both `par`;
`loc` is the location counter after `fill_location_counter`, `dflt` a missing expression. Ranges and diagnostics are left out. -/
inductive MExpr where
  | const (v : Int)
  | sym (n : SymId)
  | attr (k : AttrKind) (n : SymId)
  | loc (a : Option Addr)
  | dflt
  | par (e : MExpr)
  | neg (e : MExpr)
  | add (l r : MExpr)
  | sub (l r : MExpr)
  | mul (l r : MExpr)
  | div (l r : MExpr)
  deriving DecidableEq, Repr

/-- `mach_expr_symbol::evaluate` (mach_expr_term.cpp 77-85). -/
def Table.value (T : Table) (n : SymId) : SVal := match T n with
  | none => .undef
  | some s => s.val

/-- `mach_expr_data_attr::evaluate` (mach_expr_term.cpp 175-195). -/
def Table.attrValue (T : Table) (k : AttrKind) (n : SymId) : Int := match T n with
  | none => k.dflt
  | some s => if (k = .S ∨ k = .I) ∧ s.si = false then 0 else if s.hasAttr k then s.attr k else k.dflt

/-- `evaluate` (mach_expr_term.cpp 48, 102, 122-128, 145, mach_operator.h 129-188). -/
def MExpr.eval (H : Heap) (T : Table) : MExpr → SVal
  | .const v => .abs v
  | .sym n => T.value n
  | .attr k n => .abs (T.attrValue k n)
  | .loc (some a) => .reloc a
  | .loc none => .reloc ⟨[(none, 1)], 0, []⟩
  | .dflt => .undef
  | .par e => e.eval H T
  | .neg e => (e.eval H T).neg H
  | .add l r => (l.eval H T).add H (r.eval H T)
  | .sub l r => (l.eval H T).sub H (r.eval H T)
  | .mul l r => (l.eval H T).mul (r.eval H T)
  | .div l r => (l.eval H T).div (r.eval H T)

/-- `mach_expression::resolve` (mach_expression.cpp 34-42). -/
def MExpr.resolve (H : Heap) (T : Table) (e : MExpr) : SVal := match e.eval H T with
  | .undef => .abs 0
  | v => v

end Verif.Ord
