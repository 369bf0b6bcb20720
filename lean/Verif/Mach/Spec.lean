import Verif.Mach.Model

/-!
What the properties of machine instructions mean, independently of the way the code checks operands.
-/
namespace Verif.Mach

/-- A machine operand as the grammar reads it (parser_library/src/parsing/grammar/machine_operand_rules.g4:19-39). -/
inductive Written where
  /-- `D` -/
  | plain (d : Value)
  /-- `D(B)`; in a place with an index or a length this is `D(X)` -/
  | paren (d b : Value)
  /-- `D(X,B)` -/
  | both (d x b : Value)
  /-- `D(,B)` -/
  | base (d b : Value)
  /-- `D(X,)` -/
  | trailing (d x : Value)
deriving DecidableEq, Repr

/-- The object built for a written operand (machine_operand_rules.g4:20-38). -/
def Written.src : Written → Src
  | .plain d => .expr d
  | .paren d b => .addr d none (some b) .oneOp
  | .both d x b => .addr d (some x) (some b) .present
  | .base d b => .addr d none (some b) .firstOmitted
  | .trailing d x => .addr d (some x) none .secondOmitted

/-- The values that can be stored in a field: `n` bits, two's complement or unsigned. -/
def Param.Holds (p : Param) (v : Int) : Prop :=
  if p.signed then -2 ^ (p.size - 1) ≤ v ∧ v < 2 ^ (p.size - 1) else 0 ≤ v ∧ v < 2 ^ p.size

/-- The values allowed for the first part of `D(F,B)`. A length of `n` bits is written as 0 to `2 ^ n`: what is encoded is the
length less one, and 0 for the length 0. -/
def Param.HoldsFirst (p : Param) (v : Int) : Prop :=
  if p.ty = .length then 0 ≤ v ∧ v ≤ 2 ^ p.size else p.Holds v

instance (p : Param) (v : Int) : Decidable (p.Holds v) := by unfold Param.Holds; infer_instance
instance (p : Param) (v : Int) : Decidable (p.HoldsFirst v) := by unfold Param.HoldsFirst; infer_instance

/-- The value is absolute and satisfies `P`. -/
def Value.Is (P : Int → Prop) : Value → Prop
  | .abs v => P v
  | _ => False

instance (P : Int → Prop) [DecidablePred P] (v : Value) : Decidable (v.Is P) := by
  cases v <;> unfold Value.Is <;> infer_instance

/-- The kinds of places: one value, `D(B)`, `D(F,B)`. -/
inductive Place where
  | simple (p : Param)
  | db (d b : Param)
  | dfb (d f b : Param)
deriving DecidableEq, Repr

/-- The place a format describes ("empty when simple operand", instr_operand.h:97-99; the comments of instruction.h:144-152). -/
def Fmt.place (f : Fmt) : Place :=
  if f.second = pEmpty then .simple f.id else if f.first = pEmpty then .db f.id f.second else .dfb f.id f.first f.second

/-- The operand has the form the place asks for and every value fits its field. -/
def Admissible : Place → Written → Prop
  | .simple p, .plain (.abs v) => p.Holds v
  | .simple p, .plain _ => p.ty = .regImm
  | .simple _, _ => False
  | .db d _, .plain (.abs v) => d.Holds v
  | .db _ _, .plain _ => True
  | .db d b, .paren vd vb => vd.Is d.Holds ∧ vb.Is b.Holds
  | .db _ _, _ => False
  | .dfb d _ _, .plain (.abs v) => d.Holds v
  | .dfb _ _ _, .plain _ => True
  | .dfb d f _, .paren vd vx => vd.Is d.Holds ∧ vx.Is f.HoldsFirst
  | .dfb d f b, .both vd vx vb => vd.Is d.Holds ∧ vx.Is f.HoldsFirst ∧ vb.Is b.Holds
  | .dfb d _ b, .base vd vb => vd.Is d.Holds ∧ vb.Is b.Holds
  | .dfb _ _ _, .trailing _ _ => False

/-- Every symbol the operand refers to is defined. -/
def Written.Defined : Written → Prop
  | .plain d => d ≠ .pending
  | .paren d b => d ≠ .pending ∧ b ≠ .pending
  | .both d x b => d ≠ .pending ∧ x ≠ .pending ∧ b ≠ .pending
  | .base d b => d ≠ .pending ∧ b ≠ .pending
  | .trailing d x => d ≠ .pending ∧ x ≠ .pending

/-- The values of an operand with parentheses are absolute. -/
def Written.Absolute : Written → Prop
  | .plain _ => True
  | .paren d b => (∃ v, d = .abs v) ∧ ∃ v, b = .abs v
  | .both d x b => (∃ v, d = .abs v) ∧ (∃ v, x = .abs v) ∧ ∃ v, b = .abs v
  | .base d b => (∃ v, d = .abs v) ∧ ∃ v, b = .abs v
  | .trailing d x => (∃ v, d = .abs v) ∧ ∃ v, x = .abs v

/-- The operand is `D(X)` in a place with an index or a length. -/
def IndexOnly (p : Place) (w : Written) : Prop := (∃ d f b, p = .dfb d f b) ∧ ∃ d x, w = .paren d x

/-- The formats of the table: a simple format is of one of the types with a diagnostic of its own and, if the text of the
diagnostic says "between 0 and 15", of four bits; signed fields have bits; a base register has four bits. -/
def Fmt.Ok (f : Fmt) : Bool :=
  (f.id.signed == false || decide (0 < f.id.size))
  && (if f.second = pEmpty then
      f.first == pEmpty
        && (match f.id.ty, f.id.signed with
          | .imm, _ => true
          | .regImm, true => true
          | .reg, false => f.id.size == 4
          | .mask, false => f.id.size == 4
          | .vecReg, false => f.id.size == 4
          | _, _ => false)
    else
      f.second == pBase
        && (f.first == pEmpty || (f.first.signed == false && decide (0 < f.first.size)
          && (f.first.ty == .length || f.first.ty == .disReg || f.first.ty == .reg || f.first.ty == .vecReg))))

/-- The message about a value that stands alone, by what it is (diagnostic.cpp, M120 to M124): a register, a mask, an immediate value,
the offset of a branch, a vector register. -/
def valueMessages : List (Ty × Nat) := [(.reg, 120), (.mask, 121), (.imm, 122), (.regImm, 123), (.vecReg, 124)]

/-- The message about the first value in the parentheses, by what it is (diagnostic.cpp, M132 to M135): a length, a register, a vector
register, an index. -/
def firstMessages : List (Ty × Nat) := [(.length, 132), (.reg, 133), (.vecReg, 134), (.disReg, 135)]

/-- An operand between commas: nothing, or a written operand. -/
def slot : Option Written → Src
  | none => .empty
  | some w => w.src

/-- All symbols in the operands are defined. -/
def AllDefined (ws : List (Option Written)) : Prop := ∀ w, some w ∈ ws → w.Defined

/-- The statement is accepted: there is a verdict and no diagnostic. -/
def Tables.Accepts (T : Tables) (n : OpName) (ws : List (Option Written)) : Prop := T.check n (ws.map slot) = .ok []

deriving instance DecidableEq for Except

instance (T : Tables) (n : OpName) (ws : List (Option Written)) : Decidable (T.Accepts n ws) := by unfold Tables.Accepts; infer_instance

/-- The operands of the base instruction: each fixed value is inserted at its place, in the order of the table. -/
def insertFixed (rep : List (Nat × Nat)) (ws : List (Option Written)) : List (Option Written) :=
  rep.foldl (fun l x => l.insertIdx x.1 (some (.plain (.abs x.2)))) ws

end Verif.Mach
