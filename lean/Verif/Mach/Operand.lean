import Verif.Mach.Spec
import Verif.Mach.TableFacts
import Mathlib.Tactic.Tauto

/-!
C92: the check of one operand, and of the operands of an instruction.
-/
namespace Verif.Mach

theorem sizeSigned_iff (v : Int) (n : Nat) : sizeSigned v n = true ↔ -2 ^ (n - 1) ≤ v ∧ v < 2 ^ (n - 1) := by
  simp only [sizeSigned, Bool.and_eq_true, decide_eq_true_eq, ge_iff_le]
  exact and_comm

theorem sizeUnsigned_iff (v : Int) (n : Nat) : sizeUnsigned v n = true ↔ 0 ≤ v ∧ v < 2 ^ n := by
  simp only [sizeUnsigned, Bool.and_eq_true, decide_eq_true_eq, ge_iff_le]
  omega

theorem corresponds_iff (v : Int) (p : Param) : corresponds v p = true ↔ p.Holds v := by
  unfold corresponds Param.Holds
  cases hs : p.signed
  · simp [sizeUnsigned_iff]
  · simp [sizeSigned_iff]

theorem lengthCorresponds_iff (v : Int) (n : Nat) : lengthCorresponds v n = true ↔ 0 ≤ v ∧ v ≤ 2 ^ n := by
  unfold lengthCorresponds
  by_cases h : v > 2 ^ n <;> by_cases h' : v < 0 <;> simp [h, h'] <;> omega

theorem corresponds_false (v : Int) (p : Param) : corresponds v p = false ↔ ¬ p.Holds v := by
  rw [← corresponds_iff, Bool.not_eq_true]

theorem checkFirst_none (f : Fmt) (x : Int) (st : OpState) (h : st ≠ .firstOmitted) : checkFirst f x st = none ↔ f.first.HoldsFirst x := by
  unfold checkFirst Param.HoldsFirst
  rw [if_pos h]
  by_cases ht : f.first.ty = .length
  · cases hl : lengthCorresponds x f.first.size
    · simp only [ht, true_and, if_true, reduceCtorEq, false_iff]
      rw [← lengthCorresponds_iff, hl]; simp
    · simp [ht, (lengthCorresponds_iff _ _).1 hl]
  · cases hc : corresponds x f.first
    · simpa [ht] using (corresponds_false _ _).1 hc
    · simpa [ht] using (corresponds_iff _ _).1 hc

theorem empty_eq {p : Param} : p.isEmpty = true ↔ p = pEmpty := by
  cases p with | mk s n t => cases s <;> cases t <;> simp [Param.isEmpty, pEmpty]

theorem isSimple_iff {f : Fmt} : f.isSimple = true ↔ f.first = pEmpty ∧ f.second = pEmpty := by
  obtain ⟨i, ⟨s1, n1, t1⟩, ⟨s2, n2, t2⟩⟩ := f
  simp only [Fmt.isSimple, pEmpty, Bool.and_eq_true, beq_iff_eq, Param.mk.injEq]
  tauto

/-- The operand is accepted in the place `f` (the field type is the hint the code passes). -/
def accepts (f : Fmt) (w : Written) : Prop := (w.src.value (some f.id.ty)).check f = none

instance (f : Fmt) (w : Written) : Decidable (accepts f w) := by unfold accepts; infer_instance

/-- What the code accepts: as `Admissible`, but values in parentheses that are not absolute count as 0, and the value in
parentheses of `D(X)` is not looked at. -/
def Accepted : Place → Written → Prop
  | .simple p, .plain (.abs v) => p.Holds v
  | .simple p, .plain _ => p.ty = .regImm
  | .simple _, _ => False
  | .db d _, .plain (.abs v) => d.Holds v
  | .db _ _, .plain _ => True
  | .db d b, .paren vd vb => d.Holds vd.orZero ∧ b.Holds vb.orZero
  | .db _ _, _ => False
  | .dfb d _ _, .plain (.abs v) => d.Holds v
  | .dfb _ _ _, .plain _ => True
  | .dfb d _ _, .paren vd _ => d.Holds vd.orZero
  | .dfb d f b, .both vd vx vb => d.Holds vd.orZero ∧ f.HoldsFirst vx.orZero ∧ b.Holds vb.orZero
  | .dfb d _ b, .base vd vb => d.Holds vd.orZero ∧ b.Holds vb.orZero
  | .dfb _ _ _, .trailing _ _ => False

theorem checkOne_none (f : Fmt) (v : Int) : checkOne f v = none ↔ f.id.Holds v := by
  unfold checkOne
  by_cases hs : f.isSimple = true
  · cases hg : f.id.signed
    · by_cases hu : sizeUnsigned v f.id.size = true
      · simpa [hs, hg, hu, Param.Holds] using (sizeUnsigned_iff _ _).1 hu
      · have hu' : sizeUnsigned v f.id.size = false := by simpa using hu
        rw [sizeUnsigned_iff] at hu
        simpa [hs, hg, hu', Param.Holds] using hu
    · by_cases hu : sizeSigned v f.id.size = true
      · simpa [hs, hg, hu, Param.Holds] using (sizeSigned_iff _ _).1 hu
      · have hu' : sizeSigned v f.id.size = false := by simpa using hu
        rw [sizeSigned_iff] at hu
        simpa [hs, hg, hu', Param.Holds] using hu
  · have hs' : f.isSimple = false := by simpa using hs
    by_cases hc : corresponds v f.id = true
    · simpa [hs', hc] using (corresponds_iff _ _).1 hc
    · have hc' : corresponds v f.id = false := by simpa using hc
      simpa [hs', hc'] using (corresponds_false _ _).1 hc'

theorem holds_zero {f : Fmt} (h : f.Ok = true) : f.id.Holds 0 := by
  simp only [Fmt.Ok, Bool.and_eq_true, Bool.or_eq_true, beq_iff_eq, decide_eq_true_eq] at h
  unfold Param.Holds
  cases hs : f.id.signed
  · simp only [Bool.false_eq_true, if_false]; exact ⟨Int.le_refl 0, Int.pow_pos (by decide)⟩
  · simp only [if_true]
    have : (0 : Int) < 2 ^ (f.id.size - 1) := Int.pow_pos (by decide)
    omega

theorem checkAddr_unres {f : Fmt} (hs : f.isSimple = false) (d a b : Int) {st : OpState} (hst : st ≠ .secondOmitted) :
    checkAddr f .unres d a b st = none ↔ f.id.Holds d ∧ checkParts f a b st = none := by
  unfold checkAddr
  by_cases hc : corresponds d f.id = true
  · simp [hs, hst, hc, (corresponds_iff _ _).1 hc]
  · have hc' : corresponds d f.id = false := by simpa using hc
    simp [hs, hst, hc', (corresponds_false _ _).1 hc']

theorem checkParts_db {f : Fmt} (h : f.first = pEmpty) (a b : Int) (st : OpState) :
    checkParts f a b st = none ↔ st = .oneOp ∧ f.second.Holds b := by
  have he : f.first.isEmpty = true := empty_eq.2 h
  unfold checkParts
  by_cases hst : st = .oneOp
  · by_cases hc : corresponds b f.second = true
    · simp [he, hst, hc, (corresponds_iff _ _).1 hc]
    · have hc' : corresponds b f.second = false := by simpa using hc
      simp [he, hst, hc', (corresponds_false _ _).1 hc']
  · simp [he, hst]

theorem checkParts_dfb {f : Fmt} (h : f.first ≠ pEmpty) (a b : Int) (st : OpState) :
    checkParts f a b st = none ↔ (st = .firstOmitted ∨ st = .present → f.second.Holds b) ∧ (st ≠ .firstOmitted → f.first.HoldsFirst a) := by
  have he : f.first.isEmpty = false := by
    cases hh : f.first.isEmpty
    · rfl
    · exact absurd (empty_eq.1 hh) h
  have hf : checkFirst f a st = none ↔ (st ≠ .firstOmitted → f.first.HoldsFirst a) := by
    by_cases hst : st = .firstOmitted
    · simp [checkFirst, hst]
    · simp [checkFirst_none f a st hst, hst]
  unfold checkParts
  simp only [he, Bool.false_eq_true, if_false]
  by_cases hst : st = .firstOmitted ∨ st = .present
  · by_cases hc : corresponds b f.second = true
    · simp only [hst, hc, true_and, Bool.true_eq_false, if_false, hf, true_implies, (corresponds_iff _ _).1 hc]
    · have hc' : corresponds b f.second = false := by simpa using hc
      simp [hst, hc', (corresponds_false _ _).1 hc']
  · simp only [hst, false_and, if_false, hf, false_implies, true_and]

/-- C92. For every format of the tables and every operand the grammar reads: what is accepted and what is not. -/
theorem C92_exact (f : Fmt) (hf : f.Ok = true) (w : Written) : accepts f w ↔ Accepted f.place w := by
  have h0 := holds_zero hf
  have hok := hf
  simp only [Fmt.Ok, Bool.and_eq_true] at hok
  obtain ⟨-, hok⟩ := hok
  unfold accepts Fmt.place
  by_cases h2 : f.second = pEmpty
  · simp only [h2, if_true, Bool.and_eq_true, beq_iff_eq] at hok
    have hs : f.isSimple = true := isSimple_iff.2 ⟨hok.1, h2⟩
    simp only [h2, if_true]
    cases w with
    | plain d =>
      cases d with
      | abs v => simp only [Written.src, Src.value, CheckOp.check, checkOne_none, Accepted]
      | reloc | undef | pending =>
        by_cases ht : f.id.ty = .regImm
        · simp [Written.src, Src.value, ht, CheckOp.check, checkOne_none, Accepted, h0]
        · simp [Written.src, Src.value, ht, CheckOp.check, checkAddr, hs, Accepted]
    | paren | both | base | trailing => simp [Written.src, Src.value, CheckOp.check, checkAddr, hs, Accepted]
  · simp only [h2, if_false, Bool.and_eq_true, beq_iff_eq] at hok
    have hs : f.isSimple = false := by
      cases hh : f.isSimple
      · rfl
      · exact absurd (isSimple_iff.1 hh).2 h2
    have hb0 : f.second.Holds 0 := by rw [hok.1]; decide
    simp only [h2, if_false]
    by_cases h1 : f.first = pEmpty
    · simp only [h1, if_true]
      have key : ∀ d a b st, st ≠ OpState.secondOmitted → (checkAddr f .unres d a b st = none ↔ f.id.Holds d ∧ st = .oneOp ∧ f.second.Holds b) := by
        intro d a b st hst
        rw [checkAddr_unres hs d a b hst, checkParts_db h1]
      cases w with
      | plain d =>
        cases d with
        | abs v => simp only [Written.src, Src.value, CheckOp.check, checkOne_none, Accepted]
        | reloc | undef | pending =>
          by_cases ht : f.id.ty = .regImm
          · simp [Written.src, Src.value, ht, CheckOp.check, checkOne_none, Accepted, h0]
          · simp [Written.src, Src.value, ht, CheckOp.check, key, Accepted, h0, hb0]
      | paren d b => simp [Written.src, Src.value, CheckOp.check, key, Accepted]
      | both d x b => simp [Written.src, Src.value, CheckOp.check, key, Accepted]
      | base d b => simp [Written.src, Src.value, CheckOp.check, key, Accepted]
      | trailing d b => simp [Written.src, Src.value, CheckOp.check, checkAddr, hs, Accepted]
    · simp only [h1, if_false]
      have hx0 : f.first.HoldsFirst 0 := by
        simp only [h1, Bool.or_eq_true, beq_iff_eq, false_or, Bool.and_eq_true, decide_eq_true_eq] at hok
        unfold Param.HoldsFirst Param.Holds
        have hp : (0 : Int) < 2 ^ f.first.size := Int.pow_pos (by decide)
        split
        · omega
        · simp only [hok.2.1.1, Bool.false_eq_true, if_false]; omega
      have key : ∀ d a b st, st ≠ OpState.secondOmitted → (checkAddr f .unres d a b st = none ↔ f.id.Holds d ∧
          (st = .firstOmitted ∨ st = .present → f.second.Holds b) ∧ (st ≠ .firstOmitted → f.first.HoldsFirst a)) := by
        intro d a b st hst
        rw [checkAddr_unres hs d a b hst, checkParts_dfb h1]
      cases w with
      | plain d =>
        cases d with
        | abs v => simp only [Written.src, Src.value, CheckOp.check, checkOne_none, Accepted]
        | reloc | undef | pending =>
          by_cases ht : f.id.ty = .regImm
          · simp [Written.src, Src.value, ht, CheckOp.check, checkOne_none, Accepted, h0]
          · simp [Written.src, Src.value, ht, CheckOp.check, key, Accepted, h0, hx0]
      | paren d b => simp [Written.src, Src.value, CheckOp.check, key, Accepted, hx0]
      | both d x b => simp [Written.src, Src.value, CheckOp.check, key, Accepted]; tauto
      | base d b => simp [Written.src, Src.value, CheckOp.check, key, Accepted]
      | trailing d b => simp [Written.src, Src.value, CheckOp.check, checkAddr, hs, Accepted]

/-- What the code accepts is what should be accepted, if the values are absolute and the operand is not `D(X)`. -/
theorem accepted_iff (p : Place) (w : Written) (ha : w.Absolute) (hx : ¬ IndexOnly p w) : Accepted p w ↔ Admissible p w := by
  cases p with
  | simple p => cases w <;> simp only [Accepted, Admissible]
                rename_i d; cases d <;> simp only [Accepted, Admissible]
  | db d b =>
    cases w with
    | plain v => cases v <;> simp only [Accepted, Admissible]
    | paren x y => obtain ⟨⟨x, rfl⟩, y, rfl⟩ := ha; simp only [Accepted, Admissible, Value.Is, Value.orZero]
    | both | base | trailing => simp only [Accepted, Admissible]
  | dfb d f b =>
    cases w with
    | plain v => cases v <;> simp only [Accepted, Admissible]
    | paren x y => exact absurd ⟨⟨d, f, b, rfl⟩, x, y, rfl⟩ hx
    | both x y z => obtain ⟨⟨x, rfl⟩, ⟨y, rfl⟩, z, rfl⟩ := ha; simp only [Accepted, Admissible, Value.Is, Value.orZero]
    | base x y => obtain ⟨⟨x, rfl⟩, y, rfl⟩ := ha; simp only [Accepted, Admissible, Value.Is, Value.orZero]
    | trailing => simp only [Accepted, Admissible]

/-- C92 for one operand. Missing for the full property: `D(X)` in a place with an index or a length
(`C92_witness_index`) and values in parentheses that are not absolute (`C92_witness_reloc`). -/
theorem C92_operand_partial (f : Fmt) (hf : f.Ok = true) (w : Written) (ha : w.Absolute) (hx : ¬ IndexOnly f.place w) :
    accepts f w ↔ Admissible f.place w := (C92_exact f hf w).trans (accepted_iff _ _ ha hx)


end Verif.Mach
