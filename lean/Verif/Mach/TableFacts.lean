import Verif.Mach.Spec
import Verif.Mach.Tables

/-!
Facts about the two tables, by computation over all their entries.
-/
namespace Verif.Mach

/-! ## No name is in both tables -/

/-- A number with the bit `n % P` set for every name `n` of the list. -/
def mask (P : Nat) (l : List Nat) : Nat := l.foldr (fun n a => a ||| 2 ^ (n % P)) 0

theorem mask_mem (P : Nat) (l : List Nat) (n : Nat) (h : n ∈ l) : (mask P l).testBit (n % P) = true := by
  induction l with
  | nil => simp at h
  | cons a l ih =>
    simp only [mask, List.foldr_cons, Nat.testBit_or, Bool.or_eq_true]
    rcases List.mem_cons.1 h with rfl | h
    · right; simp [Nat.testBit_two_pow_self]
    · exact .inl (ih h)

theorem masks_apart : (instrs.all fun i => !(mask 125687 (mnems.map (·.name))).testBit (i.name % 125687)) = true := by
  decide +kernel

theorem disjoint {n : OpName} {ins : Instr} (h : tables.instr n = some ins) : tables.mnem n = none := by
  have hm : ins ∈ instrs := List.mem_of_find?_eq_some h
  have hn : ins.name = n := by simpa using List.find?_some h
  have := List.all_eq_true.1 masks_apart ins hm
  unfold Tables.mnem
  rw [List.find?_eq_none]
  intro m hmm hc
  have hname : m.name = n := by simpa using hc
  have hb := mask_mem 125687 (mnems.map (·.name)) n (List.mem_map.2 ⟨m, hmm, hname⟩)
  rw [hn, hb] at this
  exact absurd this (by decide)

/-! ## Mnemonics and their base instructions -/

/-- `List.find?` by the recursor, which the kernel computes faster. -/
noncomputable def findRec (n : Nat) (l : List Instr) : Option Instr := List.rec none (fun i _ ih => cond (Nat.beq i.name n) (some i) ih) l

theorem findRec_eq (n : Nat) (l : List Instr) : findRec n l = l.find? (·.name == n) := by
  induction l with
  | nil => rfl
  | cons a l ih =>
    have : findRec n (a :: l) = cond (Nat.beq a.name n) (some a) (findRec n l) := rfl
    rw [this, ih, List.find?_cons]
    have hb : (a.name == n) = Nat.beq a.name n := by
      rw [Bool.eq_iff_iff, beq_iff_eq, Nat.beq_eq]
    rw [hb]
    cases Nat.beq a.name n <;> rfl

/-- The mnemonics with a place outside the operands of the base instruction (instruction.cpp:2345-2350). -/
def misplaced : List OpName := [n!"WFCSB", n!"WFCDB", n!"WFCXB", n!"WFKSB", n!"WFKDB", n!"WFKXB"]

/-- What is checked of a mnemonic and its base instruction. -/
def Mnem.fits (m : Mnem) (ins : Instr) : Bool :=
  decide ((m.replaced.map (·.1)).Pairwise (· < ·))
  && decide (m.replaced.length ≤ ins.ops.length)
  && (misplaced.contains m.name || m.replaced.all fun x => decide (x.1 < ins.ops.length + ins.opt))
  && m.replaced.all fun x => match ins.ops[x.1]? with
    | some f => f.second == pEmpty && decide (f.id.Holds x.2)
    | none => true

theorem mnems_fit : (mnems.all fun m => match findRec m.base instrs with
    | some ins => m.fits ins
    | none => false) = true := by decide +kernel

theorem mnem_fits {n : OpName} {m : Mnem} (h : tables.mnem n = some m) : m.name = n ∧ ∃ ins, tables.instr m.base = some ins ∧ m.fits ins = true := by
  have hm : m ∈ mnems := List.mem_of_find?_eq_some h
  have hn : m.name = n := by simpa using List.find?_some h
  have := List.all_eq_true.1 mnems_fit m hm
  refine ⟨hn, ?_⟩
  rw [findRec_eq] at this
  unfold Tables.instr
  show ∃ ins, instrs.find? (·.name == m.base) = some ins ∧ _
  cases hf : instrs.find? (·.name == m.base) with
  | none => rw [hf] at this; cases this
  | some ins => rw [hf] at this; exact ⟨ins, rfl, this⟩

/-- Every format in the table of instructions is one of those of instruction.h:153-175. -/
theorem formats_ok : instrs.all (fun i => i.ops.all Fmt.Ok) = true := by decide +kernel

theorem format_ok {n : OpName} {ins : Instr} (h : tables.instr n = some ins) {f : Fmt} (hf : f ∈ ins.ops) : f.Ok = true :=
  List.all_eq_true.1 (List.all_eq_true.1 formats_ok ins (List.mem_of_find?_eq_some h)) f hf

/-- The ranges of the parts of an operand, by what is written there. -/
inductive Range : Ty → Int → Int → Prop
  | reg : Range .reg 0 15
  | index : Range .disReg 0 15
  | base : Range .base 0 15
  | mask : Range .mask 0 15
  | vector : Range .vecReg 0 15
  | displacement : Range .displc 0 4095
  | displacementLong : Range .displc (-524288) 524287
  | length16 : Range .length 0 16
  | length256 : Range .length 0 256
  | imm4 : Range .imm 0 15
  | imm8s : Range .imm (-128) 127
  | imm8 : Range .imm 0 255
  | imm12s : Range .imm (-2048) 2047
  | imm16s : Range .imm (-32768) 32767
  | imm16 : Range .imm 0 65535
  | imm32s : Range .imm (-2147483648) 2147483647
  | relative12 : Range .regImm (-2048) 2047
  | relative16 : Range .regImm (-32768) 32767
  | relative24 : Range .regImm (-8388608) 8388607
  | relative32 : Range .regImm (-2147483648) 2147483647

/-- The range of a part, computed. -/
def Param.range (p : Param) : Int × Int :=
  if p.ty = .length then (0, 2 ^ p.size) else if p.signed then (-2 ^ (p.size - 1), 2 ^ (p.size - 1) - 1) else (0, 2 ^ p.size - 1)

theorem holdsFirst_range (p : Param) (v : Int) : p.HoldsFirst v ↔ p.range.1 ≤ v ∧ v ≤ p.range.2 := by
  unfold Param.HoldsFirst Param.Holds Param.range
  split
  · exact Iff.rfl
  · split <;> constructor <;> rintro ⟨h1, h2⟩ <;> refine ⟨h1, ?_⟩ <;> simp only at * <;> omega

/-- The parts that are in the table. -/
def tableParams : List (Ty × Int × Int) :=
  [(.reg, 0, 15), (.disReg, 0, 15), (.base, 0, 15), (.mask, 0, 15), (.vecReg, 0, 15), (.displc, 0, 4095), (.displc, -524288, 524287),
    (.length, 0, 16), (.length, 0, 256), (.imm, 0, 15), (.imm, -128, 127), (.imm, 0, 255), (.imm, -2048, 2047), (.imm, -32768, 32767),
    (.imm, 0, 65535), (.imm, -2147483648, 2147483647), (.regImm, -2048, 2047), (.regImm, -32768, 32767), (.regImm, -8388608, 8388607),
    (.regImm, -2147483648, 2147483647)]

theorem tableParams_range : ∀ x ∈ tableParams, Range x.1 x.2.1 x.2.2 := by
  simp only [tableParams, List.mem_cons, List.not_mem_nil, or_false, forall_eq_or_imp, forall_eq]
  exact ⟨.reg, .index, .base, .mask, .vector, .displacement, .displacementLong, .length16, .length256, .imm4, .imm8s, .imm8, .imm12s, .imm16s,
    .imm16, .imm32s, .relative12, .relative16, .relative24, .relative32⟩

theorem ranges_ok : (instrs.all fun i => i.ops.all fun f => [f.id, f.first, f.second].all fun p =>
    decide (p = pEmpty) || tableParams.contains (p.ty, p.range.1, p.range.2)) = true := by decide +kernel

/-- What may be written for each part of each operand of each instruction, in numbers. -/
theorem C92_ranges (n : OpName) (ins : Instr) (hi : tables.instr n = some ins) (f : Fmt) (hf : f ∈ ins.ops) (p : Param)
    (hp : p = f.id ∨ p = f.first ∨ p = f.second) (hne : p ≠ pEmpty) :
    ∃ lo hi, Range p.ty lo hi ∧ ∀ v, p.HoldsFirst v ↔ lo ≤ v ∧ v ≤ hi := by
  have h := List.all_eq_true.1 (List.all_eq_true.1 (List.all_eq_true.1 ranges_ok ins (List.mem_of_find?_eq_some hi)) f hf) p
    (by simpa using hp)
  rw [Bool.or_eq_true, decide_eq_true_eq] at h
  rcases h with h | h
  · exact absurd h hne
  · exact ⟨_, _, tableParams_range _ (List.contains_iff_mem.1 h), holdsFirst_range p⟩

end Verif.Mach
