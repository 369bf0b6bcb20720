import Verif.DataDef.Attr
import Verif.DataDef.ParseConverse

/-
  C84 to C88 and C90: the storage a DC or DS statement reserves, the attributes of its label, and which operands are
  accepted.  The vocabulary is in `Spec.lean` and `NominalSpec.lean`.
-/

namespace Verif.DataDef

open Spec (Ordinary WellFormed IsNext Placed boundaryBits written values)

/-- An operand without modifiers, for the examples. -/
def plain (type : Char) (nominal : Option Nominal) : Definition :=
  ⟨.none, type, '\x00', .none, false, .none, .none, nominal⟩

/-- An operand without modifiers and with few values is ordinary. -/
theorem plain_ordinary (type : Char) (nominal : Option Nominal)
    (h : (Spec.valueBits (plain type nominal).operand).sum < 2 ^ 64) : Ordinary (plain type nominal) where
  settled := by simp [plain]
  absolute := by simp [plain]
  dupl := by simp [plain]
  scale := by simp [plain]
  bit := by simp [plain]
  address := by simp [plain]
  size := ⟨h, by unfold Spec.bits; simpa [Spec.times, plain, Definition.operand, setField] using h⟩

theorem wellFormed_of_check {i : Instr} {d : Definition} (h : Ordinary d) (hc : d.operand.check i = .ok true) :
    WellFormed i d := by
  obtain ⟨b, hb, hi⟩ := wellFormed_iff (i := i) h
  rw [hc] at hb
  cases hb
  exact hi.mp rfl

/-- Decidable form of `d.operand.check i = .ok true`. -/
def accepts (i : Instr) (d : Definition) : Bool :=
  match d.operand.check i with
  | .ok b => b
  | .error _ => false

theorem accepts_iff (i : Instr) (d : Definition) : accepts i d = true ↔ d.operand.check i = .ok true := by
  unfold accepts
  cases h : d.operand.check i with
  | ok b => simp
  | error e => simp

/-- The outcome, if the analysis does not fail. -/
def result (i : Instr) (label : Bool) (loc : Nat) (ops : List (Option Definition)) : Option Outcome :=
  match process i label loc ops with
  | .ok o => some o
  | .error _ => none

theorem result_iff {i : Instr} {label : Bool} {loc : Nat} {ops : List (Option Definition)} {o : Outcome} :
    result i label loc ops = some o ↔ process i label loc ops = .ok o := by
  unfold result
  cases h : process i label loc ops with
  | ok b => simp
  | error e => simp

/-! ### C84 -/

/-- C84, the address of the statement: its first operand begins at the next address that is a multiple of the boundary
of its type. -/
theorem C84_start {i : Instr} {label : Bool} {loc : Nat} {d : Definition} {r : List (Option Definition)} {o : Outcome}
    (h : process i label loc (some d :: r) = .ok o) (ho : Ordinary d) (hk : d.ext ∈ Spec.extensions d.type) :
    IsNext (8 * loc) (boundaryBits d.operand) (8 * o.start) := by
  obtain ⟨hs, _⟩ := process_eq h
  rw [hs]
  exact start_next ho hk loc

/-- C84, the storage.  Placing the operands one after another ends at `e`, the next byte is `n`, and there the location
counter stands (beyond 2 GB nothing is reserved).

Partial: the boundary of every operand must divide the address at which the statement begins, as it does if no operand
needs a stricter boundary than the first one; see `C84_relative_partial` for what happens otherwise and
`C84_witness_relative`.  The operands are ordinary, see `Spec.Ordinary` and `C84_witness_wrap`. -/
theorem C84_placement_partial {i : Instr} {label : Bool} {loc : Nat} {ops : List (Option Definition)} {o : Outcome}
    (h : process i label loc ops = .ok o) (ho : ∀ d ∈ written ops, Ordinary d)
    (hw : ∀ d ∈ written ops, WellFormed i d) (hb : ∀ d ∈ written ops, boundaryBits d.operand ∣ 8 * o.start) :
    ∃ e n, Placed (8 * loc) ((written ops).map Definition.operand) e ∧ IsNext e 8 (8 * n) ∧ o.start ≤ n
      ∧ o.next = if n - o.start ≤ 2147483647 then n else o.start :=
  process_placed h ho hw hb

/-- C84, what the code does with any boundaries: the operands are placed as they would be if the statement began at
address zero. -/
theorem C84_relative_partial {i : Instr} {label : Bool} {loc : Nat} {ops : List (Option Definition)} {o : Outcome}
    (h : process i label loc ops = .ok o) (ho : ∀ d ∈ written ops, Ordinary d)
    (hw : ∀ d ∈ written ops, WellFormed i d) :
    ∃ e n, Placed 0 ((written ops).map Definition.operand) e ∧ IsNext e 8 (8 * n)
      ∧ o.next = if n ≤ 2147483647 then o.start + n else o.start :=
  process_relative h ho hw

/-- C84, a refused operand: nothing is reserved. -/
theorem C84_refused {i : Instr} {label : Bool} {loc : Nat} {ops : List (Option Definition)} {o : Outcome}
    (h : process i label loc ops = .ok o) (ho : ∀ d ∈ written ops, Ordinary d)
    (hw : ∃ d ∈ written ops, ¬ WellFormed i d) : o.next = o.start :=
  process_refused h ho hw

/-- `DC F'1,2',H'3',3CL2` at 5. -/
def sample : List (Option Definition) :=
  [ some (plain 'F' (some (.str "1,2".toList))), some (plain 'H' (some (.str "3".toList))),
    some { plain 'C' (some (.str "AB".toList)) with dupl := .abs 3, length := .abs 2 } ]

theorem sample_ordinary : ∀ d ∈ written sample, Ordinary d := by
  intro d hd
  have : d ∈ [plain 'F' (some (.str "1,2".toList)), plain 'H' (some (.str "3".toList)),
    { plain 'C' (some (.str "AB".toList)) with dupl := .abs 3, length := .abs 2 }] := hd
  simp only [List.mem_cons, List.not_mem_nil, or_false] at this
  rcases this with rfl | rfl | rfl
  · exact plain_ordinary _ _ (by decide +kernel)
  · exact plain_ordinary _ _ (by decide +kernel)
  · exact ⟨by simp [plain], by simp [plain], by intro v h; cases h; decide, by simp [plain], by simp [plain],
      by simp [plain], by decide +kernel⟩

theorem sample_wellFormed : ∀ d ∈ written sample, WellFormed .DC d := by
  intro d hd
  refine wellFormed_of_check (sample_ordinary d hd) ((accepts_iff _ _).mp ?_)
  have : ∀ d ∈ written sample, accepts .DC d = true := by decide +kernel
  exact this d hd

-- the statement begins at 8 and ends at 24
example : result .DC true 5 sample = some ⟨8, 24, some ⟨4, 0, 31⟩⟩ := by decide +kernel

example : ∃ o, process .DC true 5 sample = .ok o ∧ (∀ d ∈ written sample, Ordinary d)
    ∧ (∀ d ∈ written sample, WellFormed .DC d) ∧ (∀ d ∈ written sample, boundaryBits d.operand ∣ 8 * o.start)
    ∧ 5 < o.start ∧ o.start < o.next :=
  ⟨_, result_iff.mp (by decide +kernel : result .DC true 5 sample = some ⟨8, 24, some ⟨4, 0, 31⟩⟩), sample_ordinary,
    sample_wellFormed, by decide +kernel, by decide, by decide⟩

-- a statement that is refused: X'G'
theorem refused_X : ¬ WellFormed .DC (plain 'X' (some (.str "G".toList))) := by
  intro h
  obtain ⟨b, hb, hi⟩ :=
    wellFormed_iff (i := .DC) (plain_ordinary 'X' (some (.str "G".toList)) (by decide +kernel))
  have : b = true := hi.mpr h
  subst this
  have := (accepts_iff _ _).mpr hb
  exact absurd this (by decide +kernel)

example : ∃ o, process .DC false 5 (sample ++ [some (plain 'X' (some (.str "G".toList)))]) = .ok o
    ∧ ∃ d ∈ written (sample ++ [some (plain 'X' (some (.str "G".toList)))]), ¬ WellFormed .DC d :=
  ⟨_, result_iff.mp (by decide +kernel :
    result .DC false 5 (sample ++ [some (plain 'X' (some (.str "G".toList)))]) = some ⟨8, 8, none⟩),
    _, by simp [written, sample], refused_X⟩

/-- C84 fails: `DS H,F` at address 2 ends at 10, although placing a halfword at 2 and a fullword at the next multiple
of four ends at 8. -/
theorem C84_witness_relative :
    ∃ o, process .DS false 2 [some (plain 'H' none), some (plain 'F' none)] = .ok o ∧ o.start = 2 ∧ o.next = 10
      ∧ Placed 16 [(plain 'H' none).operand, (plain 'F' none).operand] 64 := by
  refine ⟨_, result_iff.mp (by decide +kernel :
    result .DS false 2 [some (plain 'H' none), some (plain 'F' none)] = some ⟨2, 10, none⟩), rfl, rfl, ?_⟩
  exact .cons (q := 16) (by unfold IsNext; decide +kernel)
    (.cons (q := 32) (by unfold IsNext; decide +kernel) (.nil 64))

/-- C84 fails: `DS 2147483647AL(1073741825)` is 2^61 bytes long and `DS 1073741824AL(-2147483648)` has a negative
length, but their lengths in bits are computed modulo 2^64; they are accepted and reserve 1073741823 bytes and nothing. -/
theorem C84_witness_wrap :
    (accepts .DS { plain 'A' none with dupl := .abs 2147483647, length := .abs 1073741825 } = true
      ∧ 2 ^ 64 < Spec.bits { plain 'A' none with dupl := .abs 2147483647, length := .abs 1073741825 }.operand
      ∧ result .DS false 0 [some { plain 'A' none with dupl := .abs 2147483647, length := .abs 1073741825 }]
          = some ⟨0, 1073741823, none⟩)
    ∧ accepts .DS { plain 'A' none with dupl := .abs 1073741824, length := .abs (-2147483648) } = true
    ∧ result .DS false 0 [some { plain 'A' none with dupl := .abs 1073741824, length := .abs (-2147483648) }]
        = some ⟨0, 0, none⟩ := by
  decide +kernel

/-! ### C85 -/

/-- C85: the length attribute of the label is the number of bytes the first value occupies.

Partial: a bit string must be written without blanks, see `C85_witness_blanks`. -/
theorem C85_length_partial {i : Instr} {loc : Nat} {d : Definition} {r : List (Option Definition)} {o : Outcome}
    (h : process i true loc (some d :: r) = .ok o) (hw : WellFormed i d) (hf : FirstPlain d) :
    ∃ a, o.label = some a ∧ a.length = Spec.firstBytes d.operand := by
  obtain ⟨td, s, _, _, hl⟩ := label_eq hw hf
  unfold process at h
  simp only [labelAttributes, hl, bind, Except.bind, Except.map, if_true] at h
  split at h
  · cases h
  · cases h
    exact ⟨_, rfl, rfl⟩

-- `DC 5X'123,45'`: two bytes
example : result .DC true 5 [some { plain 'X' (some (.str "123,45".toList)) with dupl := .abs 5 }]
    = some ⟨5, 20, some ⟨2, 0, 0⟩⟩ := by decide +kernel

example : WellFormed .DC (plain 'X' (some (.str "123,45".toList)))
    ∧ FirstPlain (plain 'X' (some (.str "123,45".toList))) := by
  refine ⟨wellFormed_of_check (plain_ordinary _ _ (by decide +kernel)) ((accepts_iff _ _).mp (by decide +kernel)), ?_, ?_⟩
  · simp [plain]
  · rintro - s v r hs hv
    cases hs
    have : values "123,45".toList = ["123".toList, "45".toList] := by decide
    rw [this] at hv
    cases hv
    decide

/-- C85 fails: `X'1 2 3 4'` occupies two bytes, its length attribute is four. -/
theorem C85_witness_blanks :
    Spec.firstBytes (plain 'X' (some (.str "1 2 3 4".toList))).operand = 2
    ∧ result .DC true 0 [some (plain 'X' (some (.str "1 2 3 4".toList)))] = some ⟨0, 2, some ⟨4, 0, 0⟩⟩ := by
  decide +kernel

/-! ### C86 -/

/-- C86: an operand the other parts of which are permitted is accepted exactly when its nominal value is well formed. -/
theorem C86_accepted_iff {i : Instr} {d : Definition} {s : Text} (hn : d.nominal = some (.str s)) (ho : Ordinary d)
    (hk : d.ext ∈ Spec.extensions d.type) (hm : Spec.ModifiersOk i d) (hs : Spec.bits d.operand < 2147483648 * 8) :
    d.operand.check i = .ok true ↔ Spec.TextOk d.type d.ext s := by
  obtain ⟨b, hb, hi⟩ := check_iff (i := i) ho
  have hno : Spec.NominalOk i d ↔ Spec.TextOk d.type d.ext s := by
    unfold Spec.NominalOk
    rw [hn]
  rw [hb, ← hno]
  constructor
  · intro h
    cases h
    exact (hi.mp rfl).2.2.1
  · intro h
    rw [hi.mpr ⟨hk, hm, h, hs⟩]

/-- C86 for any operand whatever, one way: a text that is accepted is well formed. -/
theorem C86_sound {i : Instr} {op : Operand} {s : Text} (hp : op.nominal.present = true)
    (hv : op.nominal.value = .str s) (h : op.check i = .ok true) : Spec.TextOk op.type op.ext s := by
  unfold Operand.check at h
  cases ha : accessType op.type op.ext with
  | none => rw [ha] at h; cases h
  | some td =>
    rw [ha] at h
    obtain ⟨hm, ht, he⟩ := accessType_mem ha
    rw [← ht, ← he]
    have hty : checkNominalType td op = true := by
      cases hty : checkNominalType td op with
      | true => rfl
      | false =>
        obtain ⟨b, hb, _⟩ := checkOwn_absent hm op false
        simp only [checkType, checkBase_present hp, hty, Bool.and_false, hb, bind, Except.bind, Bool.false_and,
          Bool.not_false, if_true] at h
        cases h
    have hs : td.nominal = .string := by
      rcases shaped_of_type (fun _ => hty) hp with ⟨h, _⟩ | ⟨_, l, hl⟩
      · exact h
      · rw [hv] at hl; cases hl
    obtain ⟨b, hb, hbi⟩ := checkOwn_text hm hs op s false hv
    cases hbv : b with
    | true => exact (hbi.mp hbv).2
    | false =>
      subst hbv
      simp only [checkType, checkBase_present hp, hty, hb, bind, Except.bind, Bool.and_false, Bool.not_false,
        if_true] at h
      cases h

-- accepted and refused nominal values
example : accepts .DC (plain 'F' (some (.str "-1.5E+3,U 7 0".toList))) = true
    ∧ accepts .DC (plain 'F' (some (.str "1.2.3".toList))) = false
    ∧ accepts .DC { plain 'E' (some (.str "1E5R7".toList)) with ext := 'H' } = true
    ∧ accepts .DC (plain 'P' (some (.str "1E5".toList))) = false := by decide +kernel

example : Spec.TextOk 'F' '\x00' "-1.5E+3,U 7 0".toList :=
  C86_sound (i := .DC) (op := (plain 'F' (some (.str "-1.5E+3,U 7 0".toList))).operand) rfl rfl
    ((accepts_iff _ _).mp (by decide +kernel))

/-! ### C87 -/

/-- C87: an accepted operand has a type and an extension there are, permitted modifiers and a permitted nominal value,
and it is shorter than 2^31 bytes; and such an operand is accepted.

Partial: the operand is ordinary, see `Spec.Ordinary` and the witnesses. -/
theorem C87_accepted_iff_partial {i : Instr} {d : Definition} (ho : Ordinary d) :
    d.operand.check i = .ok true ↔ WellFormed i d := by
  obtain ⟨b, hb, hi⟩ := wellFormed_iff (i := i) ho
  rw [hb, ← hi]
  constructor
  · intro h
    cases h
    rfl
  · intro h
    rw [h]

example : Ordinary { plain 'H' (some (.str "1".toList)) with length := .abs 9 }
    ∧ accepts .DC { plain 'H' (some (.str "1".toList)) with length := .abs 9 } = false
    ∧ accepts .DC { plain 'H' (some (.str "1".toList)) with length := .abs 8 } = true :=
  ⟨⟨by simp [plain], by simp [plain], by simp [plain], by simp [plain], by simp [plain], by simp [plain],
    by decide +kernel⟩, by decide +kernel, by decide +kernel⟩

/-- C87 fails: the scale modifier 65537 is taken for 1. -/
theorem C87_witness_scale :
    accepts .DC { plain 'F' (some (.str "1".toList)) with scale := .abs 65537 } = true
    ∧ ¬ Spec.ScaleOk 'F' '\x00' 65537 := by
  refine ⟨by decide +kernel, ?_⟩
  show ¬ ((-187 : Int) ≤ 65537 ∧ (65537 : Int) ≤ 346)
  decide

/-- C87 fails: a duplication factor that is not absolute is taken for 0. -/
theorem C87_witness_relocatable :
    accepts .DC { plain 'F' (some (.str "1".toList)) with dupl := .other } = true
    ∧ result .DC false 0 [some { plain 'F' (some (.str "1".toList)) with dupl := .other }] = some ⟨0, 0, none⟩ := by
  decide +kernel

/-- C87 fails: in DS, the length of an address constant is not looked at when it has no nominal value. -/
theorem C87_witness_address :
    accepts .DS { plain 'A' none with length := .abs 100 } = true
    ∧ ¬ Spec.LengthOk .DS 'A' '\x00' false false 100 := by
  refine ⟨by decide +kernel, ?_⟩
  show ¬ (if false then (2 : Int) ≤ 100 ∧ (100 : Int) ≤ 4 else (1 : Int) ≤ 100 ∧ (100 : Int) ≤ 8)
  decide

/-! ### C88 -/

/-- C88: checking a statement and computing its length never fails. -/
theorem C88_length (i : Instr) (ops : List Operand) : ∃ n, statementLength i ops = .ok n :=
  statementLength_total i ops

/-- C88: the analysis of a statement fails exactly when it is labelled and its first operand is a packed or zoned
constant without a length, the value of which stands in parentheses.

Partial: in this case it does fail, see `C88_witness`. -/
theorem C88_process_partial (i : Instr) (label : Bool) (loc : Nat) (ops : List (Option Definition)) :
    (∃ o, process i label loc ops = .ok o) ↔
      ¬ (label = true ∧ ∃ d r, ops = some d :: r ∧ (d.type = 'P' ∨ d.type = 'Z') ∧ d.ext = '\x00'
        ∧ d.operand.length.present = false ∧ ∃ l, d.nominal = some (.exprs l)) :=
  process_total i label loc ops

/-- C88 fails: `L DC P(1)` ends in `std::bad_variant_access`. -/
theorem C88_witness : ∀ i, result i true 0 [some (plain 'P' (some (.exprs [.expr 1 .abs false])))] = none := by
  intro i
  cases i <;> decide +kernel

example : result .DC false 0 [some (plain 'P' (some (.exprs [.expr 1 .abs false])))] = some ⟨0, 0, none⟩ := by
  decide +kernel

/-! ### C90 -/

/-- C90: the scale attribute of the label is the scale modifier if there is one, and the integer attribute is the
number of digits left of the point, which follows from type, length and scale.

Partial: the first value of a decimal constant must be written without blanks; and its implied scale, though used for
the integer attribute, is not shown as the scale attribute, see `C90_witness_decimal`. -/
theorem C90_attributes_partial {i : Instr} {loc : Nat} {d : Definition} {r : List (Option Definition)} {o : Outcome}
    (h : process i true loc (some d :: r) = .ok o) (ho : Ordinary d) (hw : WellFormed i d) (hf : FirstPlain d)
    (hp : DecimalPlain d) :
    ∃ a, o.label = some a
      ∧ a.integer = Spec.integer d.type d.ext (Spec.firstBytes d.operand) (Spec.scale d)
      ∧ (d.type ≠ 'P' → d.type ≠ 'Z' → a.scale = Spec.scale d) := by
  obtain ⟨td, s, ha, hs, hl⟩ := label_eq hw hf
  obtain ⟨hm, ht, he⟩ := accessType_mem ha
  rw [scaleAttr_eq hm ht ho hw hp] at hs
  rw [integer_eq td hm, ht, he, hs] at hl
  unfold process at h
  simp only [labelAttributes, hl, bind, Except.bind, Except.map, if_true] at h
  split at h
  · cases h
  · cases h
    refine ⟨_, rfl, rfl, ?_⟩
    intro hP hZ
    show (if _ then Spec.scale d else 0) = Spec.scale d
    split
    · rfl
    · rename_i hn
      have : d.scale = .none := by
        have := ho.settled.2.2.1
        cases hsc : d.scale with
        | none => rfl
        | pending => exact absurd hsc this
        | abs v => rw [hsc] at hn; exact absurd rfl hn
        | other => rw [hsc] at hn; exact absurd rfl hn
      unfold Spec.scale
      rw [this]
      dsimp only
      split
      · rename_i h _; exact absurd h hP
      · rename_i h _; exact absurd h hZ
      · rfl

-- `DC FS10'1.5'`: S' = 10, I' = 21; `DC P'-12.345'`: I' = 2
example : result .DC true 0 [some { plain 'F' (some (.str "1.5".toList)) with scale := .abs 10 }]
    = some ⟨0, 4, some ⟨4, 10, 21⟩⟩ := by decide +kernel

example : Spec.scale (plain 'P' (some (.str "-12.345".toList))) = 3
    ∧ Spec.integer 'P' '\x00' 3 3 = 2
    ∧ result .DC true 0 [some (plain 'P' (some (.str "-12.345".toList)))] = some ⟨0, 3, some ⟨3, 0, 2⟩⟩ := by
  decide +kernel

example : DecimalPlain (plain 'P' (some (.str "-12.345,1 2".toList))) := by
  rintro - s v r hs hv
  cases hs
  have : values "-12.345,1 2".toList = ["-12.345".toList, "1 2".toList] := by decide
  rw [this] at hv
  cases hv
  decide

/-- C90 fails: the scale of `P'1.23'` is two, its scale attribute is zero. -/
theorem C90_witness_decimal :
    Spec.scale (plain 'P' (some (.str "1.23".toList))) = 2
    ∧ result .DC true 0 [some (plain 'P' (some (.str "1.23".toList)))] = some ⟨0, 2, some ⟨2, 0, 1⟩⟩ := by
  decide +kernel

end Verif.DataDef
