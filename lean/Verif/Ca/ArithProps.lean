import Verif.Ca.Arith
import Mathlib.Tactic.NormNum
import Mathlib.Tactic.ByContra
import Mathlib.Algebra.Order.Ring.Abs
import Mathlib.Algebra.Order.Ring.Int
/-!
C41: SETA arithmetic is exact or reported. C42: shifts. C47: comparisons.
-/
namespace Verif.Ca

/-! ### C41 -/

/-- The mathematical result, if it is a 32-bit number, without diagnostic, otherwise 0 with a diagnostic. -/
def ExactOrReported (exact : Int) (r : Res) : Prop :=
  (-2147483648 ≤ exact ∧ exact ≤ 2147483647 → r.value.toInt = exact ∧ r.diag = false) ∧
  (exact < -2147483648 ∨ 2147483647 < exact → r.value = 0 ∧ r.diag = true)

theorem toInt_range (v : A) : -2147483648 ≤ v.toInt ∧ v.toInt ≤ 2147483647 := by
  have h1 := BitVec.le_toInt v
  have h2 := BitVec.toInt_lt (x := v)
  simp at h1 h2
  omega

theorem ext_toInt (v : A) : (v.signExtend 64).toInt = v.toInt := BitVec.toInt_signExtend_of_le (by decide)

theorem overflow_spec (val : BitVec 64) (exact : Int) (h : val.toInt = exact) : ExactOrReported exact (overflowTransform val) := by
  unfold overflowTransform
  rw [h]
  constructor
  · intro ⟨h1, h2⟩
    rw [if_neg (by omega), if_neg (by omega)]
    refine ⟨?_, rfl⟩
    simp only [BitVec.truncate_eq_setWidth, BitVec.toInt_setWidth]
    have h3 := BitVec.toInt_eq_toNat_bmod val
    rw [h] at h3
    have : ((val.toNat : Int)).bmod (2 ^ 32) = exact.bmod (2 ^ 32) := by
      rw [h3]
      simp only [Int.bmod_bmod_of_dvd (show (2 ^ 32 : Nat) ∣ 2 ^ 64 from ⟨2 ^ 32, by decide⟩)]
    rw [this]
    exact Int.bmod_eq_of_le (by norm_num; omega) (by norm_num; omega)
  · intro h1
    rcases h1 with h1 | h1
    · rw [if_neg (by omega), if_pos h1]; exact ⟨rfl, rfl⟩
    · rw [if_pos h1]; exact ⟨rfl, rfl⟩

/-- C41: addition. -/
theorem C41_add (l r : A) : ExactOrReported (l.toInt + r.toInt) (caAdd l r) := by
  refine overflow_spec _ _ ?_
  rw [BitVec.toInt_add, ext_toInt, ext_toInt]
  have h1 := toInt_range l
  have h2 := toInt_range r
  exact Int.bmod_eq_of_le (by norm_num; omega) (by norm_num; omega)

/-- C41: subtraction. -/
theorem C41_sub (l r : A) : ExactOrReported (l.toInt - r.toInt) (caSub l r) := by
  refine overflow_spec _ _ ?_
  rw [BitVec.toInt_sub, ext_toInt, ext_toInt]
  have h1 := toInt_range l
  have h2 := toInt_range r
  exact Int.bmod_eq_of_le (by norm_num; omega) (by norm_num; omega)

/-- C41: multiplication. -/
theorem C41_mul (l r : A) : ExactOrReported (l.toInt * r.toInt) (caMul l r) := by
  refine overflow_spec _ _ ?_
  rw [BitVec.toInt_mul, ext_toInt, ext_toInt]
  have h1 := toInt_range l
  have h2 := toInt_range r
  have h3 : |l.toInt * r.toInt| ≤ 2147483648 * 2147483648 := by
    rw [abs_mul]
    exact mul_le_mul (by rw [abs_le]; omega) (by rw [abs_le]; omega) (abs_nonneg _) (by omega)
  rw [abs_le] at h3
  exact Int.bmod_eq_of_le (by norm_num; omega) (by norm_num; omega)

/-- C41: division truncates and a division by zero gives zero. -/
theorem C41_div (l r : A) : (r.toInt ≠ 0 → ExactOrReported (l.toInt.tdiv r.toInt) (caDiv l r)) ∧ (r.toInt = 0 → caDiv l r = ⟨0, false⟩) := by
  constructor
  · intro hr
    have hr' : r ≠ 0 := by rintro rfl; simp at hr
    unfold caDiv
    rw [if_neg hr']
    refine overflow_spec _ _ ?_
    have hne : (l.signExtend 64 ≠ BitVec.intMin 64 ∨ r.signExtend 64 ≠ -1#64) := by
      left
      intro h
      have := congrArg BitVec.toInt h
      rw [ext_toInt] at this
      have h1 := toInt_range l
      simp [BitVec.toInt_intMin] at this
      omega
    rw [BitVec.toInt_sdiv_of_ne_or_ne _ _ hne, ext_toInt, ext_toInt]
  · intro hr
    have : r = 0 := by
      apply BitVec.eq_of_toInt_eq
      simpa using hr
    simp [caDiv, this]

/-- C41: the unary operators are exact, except for the negation of -2147483648. -/
theorem C41_minus_partial (v : A) (h : v.toInt ≠ -2147483648) : ∃ r, caMinus v = some r ∧ r.toInt = -v.toInt := by
  refine ⟨-v, by simp [caMinus, h], ?_⟩
  rw [BitVec.toInt_neg]
  have h1 := toInt_range v
  exact Int.bmod_eq_of_le (by norm_num; omega) (by norm_num; omega)

/-- `-(-2147483648)` is undefined behaviour in the C++ code instead of an error. -/
theorem C41_witness_minus : ∃ v : A, caMinus v = none := ⟨0x80000000#32, by decide⟩

example : caAdd 0x7fffffff#32 1#32 = ⟨0, true⟩ ∧ caMul 65536#32 (-32768#32) = ⟨0x80000000#32, false⟩ ∧ caDiv (-7#32) 2#32 = ⟨-3#32, false⟩ ∧
    caDiv 0x80000000#32 (-1#32) = ⟨0, true⟩ := by decide

/-! ### C42 -/

/-- The shift amount: the low six bits of the right operand. -/
def amount (rhs : A) : Nat := rhs.toNat % 64

/-- The definition of the operators: logical shifts, arithmetic shift right filling with the sign, arithmetic shift left that shifts the
31 low bits and keeps the sign bit. -/
def ShiftSpec (lhs : A) (n : Nat) : Shift → A
  | .SLL => lhs <<< n
  | .SRL => lhs >>> n
  | .SRA => lhs.sshiftRight n
  | .SLA => BitVec.cons lhs.msb ((lhs.setWidth 31) <<< n)

theorem amount_eq (rhs : A) : (rhs &&& 0x3f#32).toNat = amount rhs := by
  rw [BitVec.toNat_and, amount]
  exact Nat.and_two_pow_sub_one_eq_mod rhs.toNat 6

theorem sign_bit (lhs : A) (i : Nat) (hi : i < 32) : (lhs &&& 0x80000000#32).getLsbD i = (decide (i = 31) && lhs.msb) := by
  rw [BitVec.getLsbD_and, BitVec.msb_eq_getLsbD_last]
  by_cases h : i = 31
  · subst h
    have : (0x80000000#32).getLsbD 31 = true := by decide
    simp [this]
  · have : (0x80000000#32).getLsbD i = false := by
      have : ∀ i, i < 32 → i ≠ 31 → (0x80000000#32).getLsbD i = false := by decide
      exact this i hi h
    simp [this, h]

theorem sign_zero (lhs : A) : (lhs &&& 0x80000000#32) ≠ 0 ↔ lhs.msb = true := by
  constructor
  · intro h
    by_contra hm
    apply h
    apply BitVec.eq_of_getLsbD_eq
    intro i hi
    rw [sign_bit lhs i hi]
    have hm' : lhs.msb = false := by simpa using hm
    simp [hm']
  · intro h he
    have := sign_bit lhs 31 (by decide)
    rw [he] at this
    simp [h] at this

/-- C42 (partial): the shift operators follow their definition when the shift amount is not zero and, for SRA, is below 32 or the
number is negative and, for SLA, no one is shifted into the sign position of a non-negative number. -/
theorem C42_shift_partial (lhs rhs : A) (s : Shift) (h0 : amount rhs ≠ 0) (hsra : s = .SRA → amount rhs < 32 ∨ lhs.msb = true)
    (hsla : s = .SLA → amount rhs < 32 → lhs.msb = true ∨ (lhs <<< amount rhs).msb = false) :
    shiftOperands lhs rhs s = ShiftSpec lhs (amount rhs) s := by
  unfold shiftOperands
  simp only [amount_eq]
  rw [if_neg h0]
  have hlt : amount rhs < 64 := Nat.mod_lt _ (by decide)
  generalize amount rhs = n at *
  by_cases hn : n ≥ 32
  · rw [if_pos hn]
    cases s with
    | SLL => simp only [ShiftSpec]; apply BitVec.eq_of_getLsbD_eq; intro i hi; simp; omega
    | SRL => simp only [ShiftSpec]; apply BitVec.eq_of_getLsbD_eq; intro i hi; simp [BitVec.getLsbD_ushiftRight]; exact BitVec.getLsbD_of_ge _ _ (by omega)
    | SRA =>
      have hm : lhs.msb = true := by
        rcases hsra rfl with h | h
        · omega
        · exact h
      simp only [ShiftSpec]
      apply BitVec.eq_of_getLsbD_eq
      intro i hi
      rw [BitVec.getLsbD_sshiftRight]
      have : ¬ n + i < 32 := by omega
      have h1 : ∀ i, i < 32 → (~~~0#32).getLsbD i = true := by decide
      rw [h1 i hi]
      simp [hm, hi, this]
    | SLA =>
      simp only [ShiftSpec]
      apply BitVec.eq_of_getLsbD_eq
      intro i hi
      rw [sign_bit lhs i hi, BitVec.getLsbD_cons]
      by_cases h31 : i = 31
      · simp [h31]
      · simp only [h31, decide_false, Bool.false_and, if_false]
        simp
        omega
  · rw [if_neg hn]
    have hn' : n < 32 := by omega
    cases s with
    | SLL => rfl
    | SRL => rfl
    | SRA =>
      simp only [ShiftSpec]
      by_cases hm : lhs.msb = true
      · rw [if_pos ((sign_zero lhs).2 hm)]
        apply BitVec.eq_of_getLsbD_eq
        intro i hi
        rw [BitVec.getLsbD_sshiftRight, BitVec.getLsbD_or, BitVec.getLsbD_ushiftRight, BitVec.getLsbD_shiftLeft]
        by_cases hc : n + i < 32
        · have : i < 32 - n := by omega
          simp [hc, this, hi]
        · have : ¬ i < 32 - n := by omega
          have h1 : (~~~0#32).getLsbD (i - (32 - n)) = true := by
            have : ∀ i, i < 32 → (~~~0#32).getLsbD i = true := by decide
            exact this _ (by omega)
          rw [h1]
          simp [hi, this, hc, hm]
      · rw [if_neg (by rw [sign_zero]; exact hm)]
        have hm' : lhs.msb = false := by simpa using hm
        rw [BitVec.sshiftRight_eq_of_msb_false hm']
    | SLA =>
      simp only [ShiftSpec]
      apply BitVec.eq_of_getLsbD_eq
      intro i hi
      rw [BitVec.getLsbD_or, sign_bit lhs i hi, BitVec.getLsbD_cons, BitVec.getLsbD_shiftLeft]
      by_cases h31 : i = 31
      · subst h31
        simp only [decide_true, Bool.true_and, if_true]
        rcases hsla rfl hn' with hm | hm
        · simp [hm]
        · rw [BitVec.msb_eq_getLsbD_last, BitVec.getLsbD_shiftLeft] at hm
          rw [hm]
          simp
      · simp only [h31, decide_false, Bool.false_and, Bool.or_false, if_false]
        rw [BitVec.getLsbD_shiftLeft, BitVec.getLsbD_setWidth]
        have h1 : i < 31 := by omega
        have h2 : i - n < 31 := by omega
        simp [hi, h1, h2]

/-- A shift by zero returns the shift amount operand instead of the shifted value. -/
theorem C42_witness_zero : ¬ ∀ lhs rhs s, shiftOperands lhs rhs s = ShiftSpec lhs (amount rhs) s := by
  intro h
  have := h 5#32 0#32 .SLL
  revert this
  decide

/-- SRA of a non-negative number by 32 or more gives -1. -/
theorem C42_witness_sra : shiftOperands 5#32 32#32 .SRA = -1#32 ∧ ShiftSpec 5#32 (amount 32#32) .SRA = 0#32 := by decide

/-- SLA of a non-negative number shifts ones into the sign. -/
theorem C42_witness_sla : (shiftOperands 0x40000000#32 1#32 .SLA).msb = true ∧ (ShiftSpec 0x40000000#32 (amount 1#32) .SLA).msb = false := by decide

example : shiftOperands (-8#32) 2#32 .SRA = -2#32 ∧ shiftOperands (-8#32) 2#32 .SLA = -32#32 := by decide

/-! ### C47 -/

theorem strCompare_antisymm (a b : List Nat) : strCompare b a = -strCompare a b := by
  induction a generalizing b with
  | nil => cases b <;> simp [strCompare]
  | cons x xs ih =>
    cases b with
    | nil => simp [strCompare]
    | cons y ys =>
      simp only [strCompare]
      by_cases h1 : x < y
      · have : ¬ y < x := by omega
        simp [h1, this]
      · by_cases h2 : y < x
        · simp [h1, h2]
        · simp [h1, h2, ih]

theorem strCompare_trans (a b c : List Nat) (h1 : strCompare a b ≤ 0) (h2 : strCompare b c ≤ 0) :
    strCompare a c ≤ 0 ∧ (strCompare a b < 0 ∨ strCompare b c < 0 → strCompare a c < 0) := by
  induction a generalizing b c with
  | nil =>
    cases c with
    | nil => cases b <;> simp [strCompare] at *
    | cons z zs => simp [strCompare]
  | cons x xs ih =>
    cases b with
    | nil => simp [strCompare] at h1
    | cons y ys =>
      cases c with
      | nil => simp [strCompare] at h2
      | cons z zs =>
        simp only [strCompare] at h1 h2 ⊢
        by_cases hxy : x < y
        · by_cases hyz : y < z
          · have : x < z := by omega
            simp [this]
          · by_cases hzy : z < y
            · simp [hyz, hzy] at h2
            · have : x < z := by omega
              simp [this]
        · by_cases hyx : y < x
          · simp [hxy, hyx] at h1
          · by_cases hyz : y < z
            · have : x < z := by omega
              simp [this]
            · by_cases hzy : z < y
              · simp [hyz, hzy] at h2
              · have e1 : ¬ x < z := by omega
                have e2 : ¬ z < x := by omega
                simp only [hxy, hyx, hyz, hzy, e1, e2, if_false] at h1 h2 ⊢
                exact ih ys zs h1 h2

theorem compareString_antisymm (toE : List Nat → List Nat) (a b : List Nat) : compareString toE b a = -compareString toE a b := by
  unfold compareString
  by_cases h : (a.length : Int) - b.length = 0
  · have : (b.length : Int) - a.length = 0 := by omega
    simp only [h, this, ne_eq, not_true_eq_false, if_false]
    exact strCompare_antisymm _ _
  · have : ¬ (b.length : Int) - a.length = 0 := by omega
    simp only [h, this, ne_eq, not_false_eq_true, if_true]
    omega

/-- C47: the operators are consistent: NE, LE, GE are the complements of EQ, GT, LT, and exactly one of LT, EQ, GT holds. -/
theorem C47_string_trichotomy (toE : List Nat → List Nat) (l r : List Nat) :
    relC toE .NE l r = !relC toE .EQ l r ∧ relC toE .LE l r = !relC toE .GT l r ∧ relC toE .GE l r = !relC toE .LT l r ∧
    ((relC toE .LT l r = true ∧ relC toE .EQ l r = false ∧ relC toE .GT l r = false) ∨
     (relC toE .LT l r = false ∧ relC toE .EQ l r = true ∧ relC toE .GT l r = false) ∨
     (relC toE .LT l r = false ∧ relC toE .EQ l r = false ∧ relC toE .GT l r = true)) := by
  simp only [relC, rel]
  generalize compareString toE l r = c
  rcases Int.lt_trichotomy c 0 with h | h | h
  · have h1 : ¬ c = 0 := by omega
    have h2 : ¬ c > 0 := by omega
    have h3 : c ≤ 0 := by omega
    have h4 : ¬ c ≥ 0 := by omega
    simp [h, h1, h2, h3, h4]
  · subst h; simp
  · have h1 : ¬ c = 0 := by omega
    have h2 : ¬ c < 0 := by omega
    have h3 : ¬ c ≤ 0 := by omega
    have h4 : c ≥ 0 := by omega
    simp [h, h1, h2, h3, h4]

/-- C47: swapping the operands swaps the relation. -/
theorem C47_string_symmetry (toE : List Nat → List Nat) (l r : List Nat) : relC toE .LT l r = relC toE .GT r l ∧ relC toE .EQ l r = relC toE .EQ r l := by
  simp only [relC, rel, compareString_antisymm toE l r]
  constructor <;> (rw [decide_eq_decide]; omega)

/-- C47: the order of strings is transitive. -/
theorem C47_string_transitive (toE : List Nat → List Nat) (a b c : List Nat) (h1 : relC toE .LE a b = true) (h2 : relC toE .LE b c = true) :
    relC toE .LE a c = true ∧ (relC toE .LT a b = true ∨ relC toE .LT b c = true → relC toE .LT a c = true) := by
  simp only [relC, rel, decide_eq_true_eq] at *
  unfold compareString at *
  by_cases e1 : (a.length : Int) - b.length = 0
  · by_cases e2 : (b.length : Int) - c.length = 0
    · have e3 : (a.length : Int) - c.length = 0 := by omega
      simp only [e1, e2, e3, ne_eq, not_true_eq_false, if_false] at *
      exact strCompare_trans _ _ _ h1 h2
    · have e3 : ¬ (a.length : Int) - c.length = 0 := by omega
      simp only [e2, e3, ne_eq, not_true_eq_false, not_false_eq_true, if_true, if_false] at h2 ⊢
      omega
  · by_cases e2 : (b.length : Int) - c.length = 0
    · have e3 : ¬ (a.length : Int) - c.length = 0 := by omega
      simp only [e1, e3, ne_eq, not_true_eq_false, not_false_eq_true, if_true, if_false] at h1 ⊢
      omega
    · simp only [e1, e2, ne_eq, not_false_eq_true, if_true] at h1 h2 ⊢
      have e3 : ¬ (a.length : Int) - c.length = 0 := by omega
      simp only [e3, not_false_eq_true, if_true]
      omega

/-- C47 (partial): numbers are compared as numbers when their difference is a 32-bit number. -/
theorem C47_number_partial (l r : A) (h : -2147483648 ≤ l.toInt - r.toInt ∧ l.toInt - r.toInt ≤ 2147483647) :
    relA .LT l r = some (decide (l.toInt < r.toInt)) ∧ relA .EQ l r = some (decide (l.toInt = r.toInt)) ∧
    relA .GT l r = some (decide (l.toInt > r.toInt)) ∧ relA .LE l r = some (decide (l.toInt ≤ r.toInt)) ∧
    relA .GE l r = some (decide (l.toInt ≥ r.toInt)) ∧ relA .NE l r = some (decide (l.toInt ≠ r.toInt)) := by
  have hn : ¬ (l.toInt - r.toInt > 2147483647 ∨ l.toInt - r.toInt < -2147483648) := by omega
  simp only [relA, compareA, hn, if_false, Option.map_some, rel, Option.some.injEq, decide_eq_decide]
  refine ⟨by omega, by omega, by omega, by omega, by omega, by omega⟩

/-- Comparing -2147483648 with 1 is undefined behaviour in the C++ code; on the usual hardware the difference is positive and
-2147483648 is found to be greater. -/
theorem C47_witness_overflow : relA .LT 0x80000000#32 1#32 = none ∧ (0x80000000#32 : A).toInt < (1#32 : A).toInt := by decide

example : relA .LT (-5#32) 3#32 = some true ∧ relC id .LT [1, 2] [0, 0, 0] = true ∧ relC id .GT [2, 1] [1, 9] = true := by decide

end Verif.Ca
