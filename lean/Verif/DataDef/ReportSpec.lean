import Verif.DataDef.Spec
import Verif.DataDef.Report

/-
  What is wrong with an operand of DC or DS, and what the messages claim, after the HLASM Language Reference.  The
  ranges of modifiers and the forms of values are those of `Spec.lean`.
-/

namespace Verif.DataDef.Spec

open Verif.DataDef (Text Operand Nominal Instr Arg Definition Msg Mod Value Part)

/-- The sorts of mistakes in an operand. -/
inductive Sort'
  | type | dupl | length | scale | exponent | value | size
  deriving Repr, DecidableEq

/-- The operand has a mistake of a sort.  Of an operand whose type is not known nothing else is asked; the size is
asked only if everything else is right. -/
def Mistake (i : Instr) (d : Definition) : Sort' → Prop
  | .type => d.ext ∉ extensions d.type
  | .dupl => d.ext ∈ extensions d.type ∧ ¬ Permitted d.dupl fun v => 0 ≤ v
  | .length => d.ext ∈ extensions d.type ∧ ¬ Permitted d.length (LengthOk i d.type d.ext d.bit (relocatable d))
  | .scale => d.ext ∈ extensions d.type ∧ ¬ Permitted d.scale (ScaleOk d.type d.ext)
  | .exponent => d.ext ∈ extensions d.type ∧ ¬ Permitted d.exponent (ExponentOk d.type)
  | .value => d.ext ∈ extensions d.type ∧ ¬ NominalOk i d
  | .size => d.ext ∈ extensions d.type ∧ ModifiersOk i d ∧ NominalOk i d ∧ ¬ bits d.operand < 2147483648 * 8

/-- If the operand is an address constant with a length, its values are given as expressions; the length is not looked
at otherwise. -/
def LengthSeen (d : Definition) : Prop :=
  d.type = 'A' ∨ d.type = 'Y' → d.length ≠ .none →
    ∃ l, d.nominal = some (.exprs l) ∧ ∀ v ∈ l, ∃ x kind ignored, v = .expr x kind ignored

/-- What a message complains of; a warning complains of nothing. -/
def about : Msg → Option Sort'
  | .D012 | .D013 => some .type
  | .D011 => some .dupl
  | .D007 _ | .D014 | .D021 | .D024 => some .length
  | .D008 .length .. | .D008 .bitLength .. | .D009 .length | .D009 .bitLength => some .length
  | .D008 .scale .. | .D009 .scale => some .scale
  | .D008 .exponent .. | .D009 .exponent => some .exponent
  | .D010 | .D016 | .D017 | .D018 | .D020 _ | .D022 _ | .D023 _ | .D026 => some .value
  | .D028 => some .size
  | .D025 _ => none

/-- Where a mistake of a sort is shown: a modifier at the modifier, a type at the type or its extension, a wrong value at
the nominal value, at the one of its values that is wrong, or at the whole operand. -/
def Shown : Sort' → Part → Prop
  | .type, p => p = .type ∨ p = .ext
  | .dupl, p => p = .dupl
  | .length, p => p = .length
  | .scale, p => p = .scale
  | .exponent, p => p = .exponent
  | .value, p => p = .nominal ∨ p = .operand ∨ ∃ k, p = .value k ∨ p = .displacement k ∨ p = .base k
  | .size, p => p = .operand

/-- The value number `k` in the parentheses. -/
def valueAt (d : Definition) (k : Nat) (v : Value) : Prop := ∃ l, d.nominal = some (.exprs l) ∧ l[k]? = some v

/-- What a message says about the operand. -/
def Says (i : Instr) (d : Definition) : Msg → Prop
  | .D007 rel => d.bit = true ∧ d.length ≠ .none ∧ (rel = true → relocatable d = true)
      ∧ ∀ l, ¬ LengthOk i d.type d.ext true rel l
  | .D008 .length lo hi rel => d.bit = false ∧ (rel = true → relocatable d = true)
      ∧ (∀ l, LengthOk i d.type d.ext false (relocatable d) l → lo ≤ l ∧ l ≤ hi)
      ∧ LengthOk i d.type d.ext false (relocatable d) hi
      ∧ (d.length = .other ∨ ∃ v, d.length = .abs v ∧ ¬ (lo ≤ v ∧ v ≤ hi))
  | .D008 .bitLength lo hi _ => d.bit = true
      ∧ (∀ l, LengthOk i d.type d.ext true (relocatable d) l ↔ lo ≤ l ∧ l ≤ hi)
      ∧ (d.length = .other ∨ ∃ v, d.length = .abs v ∧ ¬ (lo ≤ v ∧ v ≤ hi))
  | .D008 .scale lo hi _ => (∀ s, ScaleOk d.type d.ext s ↔ lo ≤ s ∧ s ≤ hi) ∧ ∃ v, d.scale = .abs v ∧ ¬ (lo ≤ v ∧ v ≤ hi)
  | .D008 .exponent lo hi _ =>
      (∀ s, ExponentOk d.type s ↔ lo ≤ s ∧ s ≤ hi) ∧ ∃ v, d.exponent = .abs v ∧ ¬ (lo ≤ v ∧ v ≤ hi)
  | .D009 .length | .D009 .bitLength => False
  | .D009 .scale => (∃ v, d.scale = .abs v) ∧ ∀ s, ¬ ScaleOk d.type d.ext s
  | .D009 .exponent => (∃ v, d.exponent = .abs v) ∧ ∀ s, ¬ ExponentOk d.type s
  | .D010 => ∃ s, d.nominal = some (.str s) ∧ ¬ TextOk d.type d.ext s
  | .D011 => ∃ v, d.dupl = .abs v ∧ v < 0
  | .D012 => extensions d.type = []
  | .D013 => d.ext ∉ extensions d.type ∧ '\x00' ∈ extensions d.type
  | .D014 => (d.type = 'C' ∧ d.ext = 'U' ∨ d.type = 'G') ∧ ∃ v, d.length = .abs v ∧ v % 2 = 1
  | .D016 => i = .DC ∧ d.nominal = none ∧ d.dupl ≠ .abs 0
  | .D017 => (∃ s, d.nominal = some (.str s)) ∧ ∀ s, ¬ TextOk d.type d.ext s
  | .D018 => (∃ l, d.nominal = some (.exprs l)) ∧ ∀ l, ¬ ExprsOk d.type d.ext l
  | .D020 k => d.type ≠ 'S' ∧ ∃ b x g, valueAt d k (.address b x g)
  | .D021 => (d.length = .other ∨ ∃ v, d.length = .abs v ∧ v ≠ 3 ∧ v ≠ 4 ∧ v ≠ 8)
      ∧ ∀ l, LengthOk i d.type d.ext false (relocatable d) l ↔ l = 3 ∨ l = 4 ∨ l = 8
  | .D022 k => d.type = 'S' ∧ ∃ v, valueAt d k v ∧
      match v with
      | .address _ x g => g = false ∧ ¬ Displacement d.ext x.value
      | .expr x _ g => g = false ∧ ¬ Displacement d.ext x
  | .D023 k => d.type = 'S' ∧ ∃ b x, valueAt d k (.address b x false) ∧ ¬ (0 ≤ b.value ∧ b.value ≤ 15)
  | .D024 => (d.length = .other ∨ ∃ v, d.length = .abs v ∧ ¬ (2 ≤ v ∧ v ≤ 4) ∧ v ≠ 8)
      ∧ ∀ l, LengthOk i d.type d.ext false (relocatable d) l ↔ 2 ≤ l ∧ l ≤ 4 ∨ l = 8
  | .D025 m => m = .scale ∧ d.scale ≠ .none ∧ ∀ s, ScaleOk d.type d.ext s
  | .D026 => (d.type = 'E' ∨ d.type = 'D' ∨ d.type = 'L') ∧
      ∃ s, d.nominal = some (.str s) ∧ ¬ TextOk d.type d.ext s
  | .D028 => ¬ bits d.operand < 2147483648 * 8

/-- What is wrong at a place inside the parentheses: base and displacement where there is no room for them, a displacement
that does not fit, a base that is not a register. -/
def WrongAt (d : Definition) : Part → Prop
  | .value k => d.type ≠ 'S' ∧ ∃ b x g, valueAt d k (.address b x g)
  | .displacement k => d.type = 'S' ∧ ∃ v, valueAt d k v ∧
      match v with
      | .address _ x g => g = false ∧ ¬ Displacement d.ext x.value
      | .expr x _ g => g = false ∧ ¬ Displacement d.ext x
  | .base k => d.type = 'S' ∧ ∃ b x, valueAt d k (.address b x false) ∧ ¬ (0 ≤ b.value ∧ b.value ≤ 15)
  | _ => True

end Verif.DataDef.Spec
