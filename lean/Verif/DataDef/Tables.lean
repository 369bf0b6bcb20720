import Verif.DataDef.Length

/-
  The table of types agrees with the types, lengths, scales and exponents of the specification.
-/

namespace Verif.DataDef

open Spec (values)

/-- A value satisfies a `modifier_spec`. -/
def ModSpec.Ok : ModSpec → Int → Prop
  | .bound lo hi, v => lo ≤ v ∧ v ≤ hi
  | .na, _ => False
  | .noCheck, _ => True
  | .ignored, _ => True

theorem checkModifier_iff (present : Bool) (v : Int) (m : ModSpec) :
    checkModifier present v m = true ↔ (present = true → m.Ok v) := by
  cases m <;> cases present <;> simp [checkModifier, ModSpec.Ok]

theorem types_known : ∀ td ∈ types, td.ext ∈ Spec.extensions td.type := by decide

theorem known_iff (type ext : Char) : (∃ td, accessType type ext = some td) ↔ ext ∈ Spec.extensions type := by
  constructor
  · rintro ⟨td, h⟩
    obtain ⟨hm, rfl, rfl⟩ := accessType_mem h
    exact types_known td hm
  · intro h
    unfold Spec.extensions at h
    split at h <;> simp only [List.mem_cons, List.not_mem_nil, or_false] at h <;>
      first
      | exact h.elim
      | (subst h; exact ⟨_, rfl⟩)
      | (rcases h with rfl | rfl <;> exact ⟨_, rfl⟩)
      | (rcases h with rfl | rfl | rfl <;> exact ⟨_, rfl⟩)
      | (rcases h with rfl | rfl | rfl | rfl <;> exact ⟨_, rfl⟩)
      | (rcases h with rfl | rfl | rfl | rfl | rfl <;> exact ⟨_, rfl⟩)

theorem scaleOk_iff : ∀ td ∈ types, ∀ v, td.scale.Ok v ↔ Spec.ScaleOk td.type td.ext v := by
  intro td h v
  simp only [types, List.mem_cons, List.not_mem_nil, or_false] at h
  rcases h with rfl|rfl|rfl|rfl|rfl|rfl|rfl|rfl|rfl|rfl|rfl|rfl|rfl|rfl|rfl|rfl|rfl|rfl|rfl|rfl|rfl|rfl|rfl|rfl|rfl|rfl|rfl|rfl|rfl|rfl|rfl|rfl|rfl|rfl|rfl|rfl|rfl|rfl|rfl <;>
    simp [mkType, mkTypeDS, typeCA_CE, typeHF, typePZ, typeA, typeS, typeSingle, typeEDL, ModSpec.Ok, Spec.ScaleOk]

theorem exponentOk_iff : ∀ td ∈ types, ∀ v, td.exponent.Ok v ↔ Spec.ExponentOk td.type v := by
  intro td h v
  simp only [types, List.mem_cons, List.not_mem_nil, or_false] at h
  rcases h with rfl|rfl|rfl|rfl|rfl|rfl|rfl|rfl|rfl|rfl|rfl|rfl|rfl|rfl|rfl|rfl|rfl|rfl|rfl|rfl|rfl|rfl|rfl|rfl|rfl|rfl|rfl|rfl|rfl|rfl|rfl|rfl|rfl|rfl|rfl|rfl|rfl|rfl|rfl <;>
    simp [mkType, mkTypeDS, typeCA_CE, typeHF, typePZ, typeA, typeS, typeSingle, typeEDL, ModSpec.Ok, Spec.ExponentOk]

/-- What the types check of the length beyond its bounds. -/
def OwnLength (td : TypeDef) (bit rel : Bool) (l : Int) : Prop :=
  match td.type, td.ext with
  | 'C', 'U' => Int.tmod l 2 ≠ 1
  | 'G', _ => Int.tmod l 2 ≠ 1
  | 'A', 'D' => if rel then bit = false ∧ 2 ≤ l ∧ l ≤ 8 else if bit then 1 ≤ l ∧ l ≤ 128 else 1 ≤ l ∧ l ≤ 8
  | 'A', _ => if rel then bit = false ∧ 2 ≤ l ∧ l ≤ 4 else if bit then 1 ≤ l ∧ l ≤ 128 else 1 ≤ l ∧ l ≤ 8
  | 'Y', _ => if rel then bit = false ∧ 2 ≤ l ∧ l ≤ 2 else if bit then 1 ≤ l ∧ l ≤ 16 else 1 ≤ l ∧ l ≤ 2
  | 'R', 'D' | 'V', 'D' => l = 3 ∨ l = 4 ∨ l = 8
  | 'J', _ => l = 2 ∨ l = 3 ∨ l = 4 ∨ l = 8
  | _, _ => True

set_option maxHeartbeats 4000000 in
theorem lengthOk_iff : ∀ td ∈ types, ∀ i bit rel l,
    ((bit = true → td.bitLength ≠ .na) ∧ (lengthSpec td i bit).Ok l ∧ OwnLength td bit rel l)
      ↔ Spec.LengthOk i td.type td.ext bit rel l := by
  intro td h i bit rel l
  have hmod : 1 ≤ l → (Int.tmod l 2 ≠ 1 ↔ l % 2 = 0) := by
    intro h
    rw [Int.tmod_eq_emod_of_nonneg (by omega)]
    omega
  simp only [types, List.mem_cons, List.not_mem_nil, or_false] at h
  rcases h with rfl|rfl|rfl|rfl|rfl|rfl|rfl|rfl|rfl|rfl|rfl|rfl|rfl|rfl|rfl|rfl|rfl|rfl|rfl|rfl|rfl|rfl|rfl|rfl|rfl|rfl|rfl|rfl|rfl|rfl|rfl|rfl|rfl|rfl|rfl|rfl|rfl|rfl|rfl <;>
    cases i <;> cases bit <;> cases rel <;>
    simp [mkType, mkTypeDS, typeCA_CE, typeHF, typePZ, typeA, typeS, typeSingle, typeEDL, ModSpec.Ok, Spec.LengthOk, lengthSpec,
      OwnLength] <;> try omega

end Verif.DataDef
