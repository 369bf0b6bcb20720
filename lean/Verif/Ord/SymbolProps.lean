import Verif.Ord.Symbol
import Verif.Ord.AddressProps
import Mathlib.Tactic.Ring
/-!
C57: arithmetic of symbol values.

The meaning of a value is the number it stands for once every section `β` and every undetermined space `σ` has a place.
-/
namespace Verif.Ord

/-- The number a value stands for; an undefined one stands for none. -/
def SVal.num (H : Heap) (β : Base → Int) (σ : SpId → Int) : SVal → Option Int
  | .abs v => some v
  | .reloc a => some (a.val H β σ)
  | _ => none

/-- The values that occur: absolute ones are 32-bit, relocatable ones are obtained from location counters by the operations. -/
def SVal.Ok (H : Heap) : SVal → Prop
  | .abs v => -2147483648 ≤ v ∧ v ≤ 2147483647
  | .reloc a => Built H a
  | _ => True

/-- Fits into 32 bits. -/
def Fits (v : Int) : Prop := -2147483648 ≤ v ∧ v ≤ 2147483647

theorem int32_fits {v : Int} (h : Fits v) : int32 v = .abs v := if_pos h
theorem int32_ub {v : Int} (h : ¬ Fits v) : int32 v = .ub := if_neg h

/-- C57: absolute values follow the arithmetic of the integers; only a result that does not fit into 32 bits is undefined behaviour. -/
theorem C57_abs (H : Heap) (x y : Int) :
    (Fits (x + y) → (SVal.abs x).add H (.abs y) = .abs (x + y)) ∧ (Fits (x - y) → (SVal.abs x).sub H (.abs y) = .abs (x - y)) ∧
    (Fits (x * y) → (SVal.abs x).mul (.abs y) = .abs (x * y)) ∧ (Fits (-x) → (SVal.abs x).neg H = .abs (-x)) ∧
    (¬ Fits (x + y) → (SVal.abs x).add H (.abs y) = .ub) ∧ (¬ Fits (x - y) → (SVal.abs x).sub H (.abs y) = .ub) ∧
    (¬ Fits (x * y) → (SVal.abs x).mul (.abs y) = .ub) ∧ (¬ Fits (-x) → (SVal.abs x).neg H = .ub) :=
  ⟨int32_fits, int32_fits, int32_fits, int32_fits, int32_ub, int32_ub, int32_ub, int32_ub⟩

/-- C57: division drops the fraction, and dividing by zero gives zero. -/
theorem C57_div (x y : Int) (hx : Fits x) : (y = 0 → (SVal.abs x).div (.abs y) = .abs 0) ∧
    (y ≠ 0 → ¬ (x = -2147483648 ∧ y = -1) → ∃ q r : Int, (SVal.abs x).div (.abs y) = .abs q ∧ x = q * y + r ∧ r.natAbs < y.natAbs ∧ (0 ≤ x → 0 ≤ r) ∧ (x ≤ 0 → r ≤ 0)) := by
  constructor
  · intro h; simp [SVal.div, h]
  · intro h hm
    refine ⟨x.tdiv y, x.tmod y, ?_, ?_, ?_, ?_, ?_⟩
    · show (if y = 0 then SVal.abs 0 else int32 (x.tdiv y)) = _
      rw [if_neg h, int32_fits]
      have hb : (x.tdiv y).natAbs ≤ x.natAbs := by rw [Int.natAbs_tdiv]; exact Nat.div_le_self _ _
      have e := Int.tdiv_mul_add_tmod x y
      unfold Fits at *
      by_cases h1 : y = -1
      · subst h1
        have : x.tdiv (-1) = -x := by rw [Int.tdiv_neg, Int.tdiv_one]
        rw [this]; omega
      · by_cases h2 : x = -2147483648
        · by_cases h3 : y = 1
          · subst h3; rw [Int.tdiv_one]; exact hx
          · have hy : 2 ≤ y.natAbs := by omega
            have : (x.tdiv y).natAbs ≤ 2147483648 / 2 := by
              rw [Int.natAbs_tdiv, h2]
              exact Nat.div_le_div_left hy (by decide)
            omega
        · omega
    · have := Int.tdiv_mul_add_tmod x y; omega
    · have := Int.natAbs_tmod x y
      rw [this]; exact Nat.mod_lt _ (by omega)
    · intro h0; exact Int.tmod_nonneg y h0
    · intro h0
      have := Int.tmod_nonneg y (a := -x) (by omega)
      rw [Int.neg_tmod] at this; omega

/-- C57: an undefined operand makes the result undefined. -/
theorem C57_undef (H : Heap) (v : SVal) (hv : v ≠ .ub) :
    SVal.undef.add H v = .undef ∧ v.add H .undef = .undef ∧ SVal.undef.sub H v = .undef ∧ v.sub H .undef = .undef ∧
    SVal.undef.mul v = .undef ∧ v.mul .undef = .undef ∧ SVal.undef.div v = .undef ∧ v.div .undef = .undef ∧ SVal.undef.neg H = .undef := by
  cases v <;> simp_all [SVal.add, SVal.sub, SVal.mul, SVal.div, SVal.neg]

/-- C57: relocatable values cannot be multiplied or divided. -/
theorem C57_no_product (a : Addr) (v : SVal) (hv : v ≠ .ub) :
    (SVal.reloc a).mul v = .undef ∧ v.mul (.reloc a) = .undef ∧ (SVal.reloc a).div v = .undef ∧ v.div (.reloc a) = .undef := by
  cases v <;> simp_all [SVal.mul, SVal.div]

theorem pending_unknown {H : Heap} {i : SpId} (h : H.info i = none) : H.pending i = true := by
  rw [Heap.pending.eq_def]; split <;> simp_all

theorem spaces_of_settled {H : Heap} {a : Addr} (ha : Built H a) (hp : a.pending H = false) : a.spaces = [] := by
  cases hs : a.spaces with
  | nil => rfl
  | cons e l =>
    have := pending_unknown ((C50_canonical H a ha).2.2 e (by rw [hs]; simp))
    rw [Addr.pending, hs] at hp
    simp [this] at hp

theorem ofAddr_num {H : Heap} {t : Addr} (ht : Built H t) (β σ) : SVal.ofAddr H t = .ub ∨ (SVal.ofAddr H t).num H β σ = some (t.val H β σ) := by
  unfold SVal.ofAddr
  split
  · rename_i h
    have hs := spaces_of_settled ht h.2
    unfold int32
    split
    · right; simp [SVal.num, Addr.val, Addr.offset, hs, h.1, wsum]
    · left; rfl
  · right; rfl

theorem ofAddr_ok {H : Heap} {t : Addr} (ht : Built H t) : (SVal.ofAddr H t).Ok H := by
  unfold SVal.ofAddr
  split
  · unfold int32; split
    · assumption
    · trivial
  · exact ht

theorem int32_num {H : Heap} {β σ} (v : Int) : int32 v = .ub ∨ (int32 v).num H β σ = some v := by
  unfold int32; split <;> simp [SVal.num]

theorem int32_ok {H : Heap} (v : Int) : (int32 v).Ok H := by
  unfold int32; split
  · assumption
  · trivial

/-- C57: the sum of two values stands for the sum of their numbers, whether absolute or relocatable. -/
theorem C57_add (H : Heap) (x y : SVal) (hx : x.Ok H) (hy : y.Ok H) (β : Base → Int) (σ : SpId → Int) (p q : Int)
    (hp : x.num H β σ = some p) (hq : y.num H β σ = some q) : x.add H y = .ub ∨ (x.add H y).num H β σ = some (p + q) := by
  cases x <;> cases y <;> simp [SVal.num] at hp hq <;> subst hp hq
  · exact int32_num _
  · rename_i v a; right; show some ((a.addInt v).val H β σ) = _; rw [(C50_int H a v β σ).1]; simp; omega
  · rename_i a v; right; show some ((a.addInt v).val H β σ) = _; rw [(C50_int H a v β σ).1]
  · rename_i a b
    have := ofAddr_num (Built.add hx hy) β σ
    rw [C50_add H a b hx hy] at this
    exact this

/-- Two addresses count the sections and spaces they share equally often, as two addresses of one section do. -/
def SVal.Alike (H : Heap) : SVal → SVal → Prop
  | .reloc a, .reloc b => Agree a.bases b.bases ∧ Agree a.spaces b.spaces
  | _, _ => True

/-- C57 (partial): the difference stands for the difference. Missing: a number minus a relocatable value, which the code computes with the
operands exchanged (`C57_witness_abs_minus_reloc`), and addresses that count a section differently (`C50_witness_sign`). -/
theorem C57_sub_partial (H : Heap) (x y : SVal) (hx : x.Ok H) (hy : y.Ok H) (hxy : ∀ v b, ¬ (x = .abs v ∧ y = .reloc b)) (hal : x.Alike H y)
    (β : Base → Int) (σ : SpId → Int) (p q : Int) (hp : x.num H β σ = some p) (hq : y.num H β σ = some q) :
    x.sub H y = .ub ∨ (x.sub H y).num H β σ = some (p - q) := by
  cases x <;> cases y <;> simp [SVal.num] at hp hq <;> subst hp hq
  · exact int32_num _
  · exact absurd ⟨rfl, rfl⟩ (hxy _ _)
  · rename_i a v; right; show some ((a.subInt H v).val H β σ) = _; rw [(C50_int H a v β σ).2 (built_plain hx)]
  · rename_i a b
    have := ofAddr_num (Built.sub hx hy) β σ
    rw [C50_sub_partial H a b (built_plain hx) (built_plain hy) hal.1 (by rw [built_norm hx, built_norm hy]; exact hal.2)] at this
    exact this

/-- C57: the negated value stands for the negated number. -/
theorem C57_neg (H : Heap) (x : SVal) (hx : x.Ok H) (β : Base → Int) (σ : SpId → Int) (p : Int) (hp : x.num H β σ = some p) :
    x.neg H = .ub ∨ (x.neg H).num H β σ = some (-p) := by
  cases x <;> simp [SVal.num] at hp <;> subst hp
  · exact int32_num _
  · rename_i a; right; show some ((a.neg H).val H β σ) = _; rw [C50_neg H a (built_plain hx)]

/-- C57: adding or subtracting a number keeps a relocatable value relocatable to the same sections. -/
theorem C57_relocatable (H : Heap) (a : Addr) (n : Int) :
    (∃ b, (SVal.reloc a).add H (.abs n) = .reloc b ∧ b.bases = a.bases) ∧ (∃ b, (SVal.abs n).add H (.reloc a) = .reloc b ∧ b.bases = a.bases) ∧
    (∃ b, (SVal.reloc a).sub H (.abs n) = .reloc b ∧ b.bases = a.bases) := ⟨⟨_, rfl, rfl⟩, ⟨_, rfl, rfl⟩, ⟨_, rfl, rfl⟩⟩

/-- C57: the difference of two addresses at known distances from a common one is absolute. -/
theorem C57_same_base (H : Heap) (c : Addr) (hc : Built H c) (m n : Int) (hf : Fits (m - n)) :
    (SVal.reloc (c.addInt m)).sub H (.reloc (c.addInt n)) = .abs (m - n) := by
  have hs : (c.addInt m).sub H (c.addInt n) = ⟨[], m - n, []⟩ := by
    have h0 := C50_self H c hc
    unfold Addr.sub Addr.addInt Addr.offset Addr.norm at *
    simp only at *
    have h1 := congrArg Addr.bases h0
    have h2 := congrArg Addr.spaces h0
    simp only at h1 h2
    rw [h1, h2]
    congr 1
    omega
  show SVal.ofAddr H _ = _
  rw [hs]
  show (if _ then _ else _) = _
  rw [if_pos ⟨rfl, rfl⟩]
  have : Addr.offset H ⟨[], m - n, []⟩ = m - n := by simp [Addr.offset]
  rw [this, int32_fits hf]

/-- C57: the sums, differences, products, quotients and negations of values that occur are values that occur. -/
theorem C57_closed (H : Heap) (x y : SVal) (hx : x.Ok H) (hy : y.Ok H) :
    (x.add H y).Ok H ∧ (x.sub H y).Ok H ∧ (x.mul y).Ok H ∧ (x.div y).Ok H ∧ (x.neg H).Ok H := by
  refine ⟨?_, ?_, ?_, ?_, ?_⟩
  · cases x <;> cases y <;> first | trivial | exact int32_ok _ | exact Built.addInt _ hx | exact Built.addInt _ hy | exact ofAddr_ok (Built.add hx hy)
  · cases x <;> cases y <;> first | trivial | exact int32_ok _ | exact Built.subInt _ hx | exact Built.subInt _ hy | exact ofAddr_ok (Built.sub hx hy)
  · cases x <;> cases y <;> first | trivial | exact int32_ok _
  · cases x <;> cases y <;> try trivial
    rename_i v w
    show SVal.Ok H (if w = 0 then _ else _)
    split
    · exact ⟨by decide, by decide⟩
    · exact int32_ok _
  · cases x <;> first | trivial | exact int32_ok _ | exact Built.neg hx

/-- Violation: `10 - S`, with the section `S` at 4, is computed as `S - 10`: -6 instead of 6. -/
theorem C57_witness_abs_minus_reloc :
    let s := Addr.make Heap.fresh (some 7) 0 []
    (SVal.abs 10).sub Heap.fresh (.reloc s) = .reloc ⟨[(some 7, 1)], -10, []⟩ ∧
    ((SVal.abs 10).sub Heap.fresh (.reloc s)).num Heap.fresh (fun _ => 4) (fun _ => 0) = some (-6) ∧
    (SVal.reloc s).num Heap.fresh (fun _ => 4) (fun _ => 0) = some 4 := by
  simp [SVal.sub, SVal.num, Addr.subInt, Addr.make, Addr.offset, Addr.norm, Heap.norm, Addr.val, wsum]

/-- Non-vacuity: two labels of a section with an undetermined space before them. -/
example : let c := Addr.make Heap.fresh (some 7) 0 [1]
    (SVal.reloc (c.addInt 12)).sub Heap.fresh (.reloc (c.addInt 4)) = .abs 8 ∧ Built Heap.fresh (c.addInt 12) :=
  ⟨C57_same_base _ _ (.make _ _ _) 12 4 ⟨by decide, by decide⟩, .addInt _ (.make _ _ _)⟩

example : (SVal.abs (-7)).div (.abs 2) = .abs (-3) ∧ (SVal.abs 2147483647).add Heap.fresh (.abs 1) = .ub := by decide

end Verif.Ord
