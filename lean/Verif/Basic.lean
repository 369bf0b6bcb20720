/-!
Shared vocabulary of the models: byte strings, and the way a statement about all bytes is checked.
-/
namespace Verif

/-- `std::string` of the C++ code: a sequence of bytes. -/
abbrev Bytes := List UInt8

/-- A decidable statement about every byte may be checked on the 256 bit vectors. -/
theorem forall_byte (P : UInt8 → Prop) (h : ∀ b : BitVec 8, P ⟨b⟩) : ∀ b, P b :=
  fun b => h b.toBitVec

end Verif
