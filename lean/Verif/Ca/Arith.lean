import Verif.Basic
/-!
SETA arithmetic, shifts and comparisons (expressions/conditional_assembly/ca_operator_binary.cpp, ca_operator_unary.cpp).

`A_t` is `int32_t`; values are 32-bit vectors, read as signed numbers by `toInt`.
-/
namespace Verif.Ca

abbrev A := BitVec 32

/-- Result of an operation: the value and whether a diagnostic was reported. -/
structure Res where
  value : A
  diag : Bool
  deriving DecidableEq, Repr

/-- `overflow_transform` (ca_operator_binary.cpp 260-274): `val` is an `int64_t`; CE013 or CE014 when it does not fit. -/
def overflowTransform (val : BitVec 64) : Res :=
  if val.toInt > 2147483647 then ⟨0, true⟩
  else if val.toInt < -2147483648 then ⟨0, true⟩
  else ⟨val.truncate 32, false⟩

/-- `ca_add::operation` (ca_operator_binary.cpp 276-280). -/
def caAdd (l r : A) : Res := overflowTransform (l.signExtend 64 + r.signExtend 64)

/-- `ca_sub::operation` (ca_operator_binary.cpp 282-286). -/
def caSub (l r : A) : Res := overflowTransform (l.signExtend 64 - r.signExtend 64)

/-- `ca_mul::operation` (ca_operator_binary.cpp 288-292). -/
def caMul (l r : A) : Res := overflowTransform (l.signExtend 64 * r.signExtend 64)

/-- `ca_div::operation` (ca_operator_binary.cpp 294-300). -/
def caDiv (l r : A) : Res := if r = 0 then ⟨0, false⟩ else overflowTransform ((l.signExtend 64).sdiv (r.signExtend 64))

/-- `ca_minus_operator::operation` (ca_operator_unary.cpp 115-118): `none` is signed overflow, undefined behaviour. -/
def caMinus (v : A) : Option A := if v.toInt = -2147483648 then none else some (-v)

/-- `ca_plus_operator::operation` (ca_operator_unary.cpp 106-109). -/
def caPlus (v : A) : A := v

inductive Shift where
  | SLA | SLL | SRA | SRL
  deriving DecidableEq, Repr

/-- `shift_operands` (ca_operator_binary.cpp 102-153). -/
def shiftOperands (lhs rhs : A) (shift : Shift) : A :=
  let n := (rhs &&& 0x3f#32).toNat
  let sign := lhs &&& 0x80000000#32
  if n = 0 then rhs
  else if n ≥ 32 then
    match shift with
    | .SLA => sign
    | .SRA => ~~~0#32
    | _ => 0
  else
    match shift with
    | .SLA => (lhs <<< n) ||| sign
    | .SLL => lhs <<< n
    | .SRA => if sign ≠ 0 then (lhs >>> n) ||| ((~~~0#32) <<< (32 - n)) else lhs >>> n
    | .SRL => lhs >>> n

/-- Operands of a comparison: two numbers or two strings (bytes of UTF-8). -/
inductive Val where
  | a (v : A)
  | c (s : List Nat)
  deriving DecidableEq, Repr

/-- The sign of `std::string::compare`: lexicographical comparison of unsigned bytes. -/
def strCompare : List Nat → List Nat → Int
  | [], [] => 0
  | [], _ :: _ => -1
  | _ :: _, [] => 1
  | x :: xs, y :: ys => if x < y then -1 else if y < x then 1 else strCompare xs ys

/-- `compare_string` (ca_operator_binary.cpp 220-228). `toE` stands for `to_ebcdic` (C48); any function will do here. Sizes are at most
`ca_string::MAX_STR_SIZE`, so the conversion to `int` is exact. -/
def compareString (toE : List Nat → List Nat) (l r : List Nat) : Int :=
  let diff := (l.length : Int) - r.length
  if diff ≠ 0 then diff else strCompare (toE l) (toE r)

/-- `compare_relational` (ca_operator_binary.cpp 230-242). `none`: signed overflow, undefined behaviour. -/
def compareA (l r : A) : Option Int :=
  let d := l.toInt - r.toInt
  if d > 2147483647 ∨ d < -2147483648 then none else some d

inductive Rel where
  | EQ | NE | LE | LT | GE | GT
  deriving DecidableEq, Repr

/-- The relational operators (ca_operator_binary.cpp 189-200). -/
def rel (o : Rel) (comp : Int) : Bool :=
  match o with
  | .EQ => comp = 0
  | .NE => comp ≠ 0
  | .LE => comp ≤ 0
  | .LT => comp < 0
  | .GE => comp ≥ 0
  | .GT => comp > 0

/-- The relation between two numbers; `none` when the subtraction overflows. -/
def relA (o : Rel) (l r : A) : Option Bool := (compareA l r).map (rel o)

/-- The relation between two strings. -/
def relC (toE : List Nat → List Nat) (o : Rel) (l r : List Nat) : Bool := rel o (compareString toE l r)

end Verif.Ca
