import Verif.Ord.LocCtr
import Mathlib.Tactic.Ring
/-!
C51: aligning yields the next boundary.
-/
namespace Verif.Ord

/-- `y` is the smallest number not below `x` that is `byte` modulo `boundary`. -/
def IsNext (al : Al) (x y : Int) : Prop := x ≤ y ∧ y % al.boundary = al.byte ∧ ∀ z, x ≤ z → z % al.boundary = al.byte → y ≤ z

/-- The specification of alignment. -/
def alignUp (al : Al) (x : Int) : Int := x + (al.byte - x) % al.boundary

/-- Where `size_t` and `int` agree: the boundary is a power of two, or the number is not negative. -/
def SizeOk (boundary : Nat) (x : Int) : Prop := (boundary ∣ 2 ^ 64) ∨ (0 ≤ x ∧ x < 2 ^ 63)

theorem sz_mod {b : Nat} {x : Int} (h : SizeOk b x) : ((sz x % b : Nat) : Int) = x % b := by
  unfold sz
  have h0 : (0 : Int) ≤ x % 2 ^ 64 := Int.emod_nonneg _ (by decide)
  rw [Int.natCast_mod, Int.toNat_of_nonneg h0]
  rcases h with h | ⟨h1, h2⟩
  · exact Int.emod_emod_of_dvd x (by exact_mod_cast h)
  · rw [Int.emod_eq_of_lt h1 (by omega)]

theorem pad_eq (b byte : Nat) (x : Int) (hb : 0 < b) (h : SizeOk b x) : (((b - sz x % b) + byte) % b : Nat) = (byte - x) % (b : Int) := by
  have hr := sz_mod h
  have hlt : sz x % b < b := Nat.mod_lt _ hb
  rw [Int.natCast_mod, Int.natCast_add, Int.natCast_sub hlt.le, hr]
  have : (b : Int) - x % b + byte = (byte - x) + b * (1 + x / b) := by
    have := Int.emod_add_mul_ediv x b
    rw [Int.mul_add]
    omega
  rw [this, Int.add_mul_emod_self_left]

theorem padData_eq (al : Al) (x : Int) (hb : 0 < al.boundary) (h : SizeOk al.boundary x) : padData al x = (al.byte - x) % al.boundary :=
  pad_eq _ _ _ hb h

theorem padSpace_eq (al : Al) (x : Int) (hb : al.byte < al.boundary) (h : SizeOk al.boundary x) : padSpace al x = (al.byte - x) % al.boundary := by
  unfold padSpace
  split
  · exact pad_eq _ _ _ (by omega) h
  · rename_i he
    have hr := sz_mod h
    simp only [ne_eq, Decidable.not_not] at he
    rw [he] at hr
    have : (al.byte : Int) - x = 0 + al.boundary * (-(x / al.boundary)) := by
      have := Int.emod_add_mul_ediv x al.boundary
      rw [Int.mul_neg]; omega
    rw [this, Int.add_mul_emod_self_left]; simp

theorem alignUp_next (al : Al) (x : Int) (hb : al.byte < al.boundary) : IsNext al x (alignUp al x) := by
  have hpos : (0 : Int) < al.boundary := by omega
  have h0 := Int.emod_nonneg ((al.byte : Int) - x) (Int.ne_of_gt hpos)
  have hlt := Int.emod_lt_of_pos ((al.byte : Int) - x) hpos
  have hdiv := Int.emod_add_mul_ediv ((al.byte : Int) - x) al.boundary
  unfold alignUp
  refine ⟨by omega, ?_, ?_⟩
  · have : x + ((al.byte : Int) - x) % al.boundary = al.byte + al.boundary * (-(((al.byte : Int) - x) / al.boundary)) := by
      rw [Int.mul_neg]; omega
    rw [this, Int.add_mul_emod_self_left]
    exact Int.emod_eq_of_lt (by omega) (by omega)
  · intro z hz hm
    have hzd := Int.emod_add_mul_ediv z al.boundary
    rw [hm] at hzd
    have : ((al.byte : Int) - x) % al.boundary = (z - x) % al.boundary := by
      have : (al.byte : Int) - x = (z - x) + al.boundary * (-(z / al.boundary)) := by rw [Int.mul_neg]; omega
      rw [this, Int.add_mul_emod_self_left]
    rw [this]
    have hle : (z - x) % al.boundary ≤ z - x := by
      have h1 := Int.emod_add_mul_ediv (z - x) al.boundary
      have h2 := Int.mul_nonneg hpos.le (Int.ediv_nonneg (show 0 ≤ z - x by omega) hpos.le)
      omega
    omega

/-- C51: the length given to an alignment space leads to the next boundary. -/
theorem C51_space (al : Al) (x : Int) (hb : al.byte < al.boundary) (h : SizeOk al.boundary x) : IsNext al x (x + padSpace al x) := by
  rw [padSpace_eq al x hb h]; exact alignUp_next al x hb

/-- C51: aligning a location counter without gaps leads to the next boundary (`storage = initial` is the invariant `C52_storage_sum`). -/
theorem C51_counter (c : LC) (al : Al) (hb : al.byte < al.boundary) (h : SizeOk al.boundary c.data.storage) (hp : c.data.parts = [])
    (hs : c.data.storage = c.data.initial) : IsNext al c.data.storage (c.alignTo al).data.storage ∧ (c.alignTo al).data.parts = [] := by
  have hr := sz_mod h
  unfold LC.alignTo
  by_cases hh : c.hasAlignment al
  · rw [if_pos hh]
    refine ⟨⟨Int.le_refl _, ?_, fun z hz _ => hz⟩, hp⟩
    simp [LC.hasAlignment, hp] at hh
    rw [hh] at hr; exact hr.symm
  · rw [if_neg hh, if_neg (by simp [LC.needSpace, hp])]
    refine ⟨?_, by simp [LData.appendStorage, hp, addLast]⟩
    show IsNext al c.data.storage (c.data.storage + padData al c.data.last)
    have : c.data.last = c.data.storage := by simp [LData.last, hp, hs]
    rw [this, padData_eq al _ (by omega) h]
    exact alignUp_next al _ hb

/-- C51: `ORG` with a boundary goes to the next multiple of the boundary, then adds the third operand. -/
theorem C51_org (boundary : Nat) (x addend : Int) (hb : 0 < boundary) (h : SizeOk boundary x) :
    ∃ y, orgResolve boundary x addend = y + addend ∧ IsNext ⟨0, boundary⟩ x y := by
  refine ⟨x + padOrg boundary x, rfl, ?_⟩
  have : padOrg boundary x = (((0 : Nat) : Int) - x) % boundary := by
    unfold padOrg
    rw [if_pos (by omega), ← pad_eq boundary 0 x hb h]; simp
  rw [this]
  exact alignUp_next ⟨0, boundary⟩ x hb

/-- C51: without a boundary `ORG` does not move. -/
theorem C51_org_none (x addend : Int) : orgResolve 0 x addend = x + addend := by simp [orgResolve, padOrg]

/-- Non-vacuity. -/
example : IsNext ⟨2, 8⟩ 11 18 ∧ IsNext ⟨0, 8⟩ (-3) 0 ∧ (11 : Int) + padSpace ⟨2, 8⟩ 11 = 18 ∧ (-3 : Int) + padSpace ⟨0, 8⟩ (-3) = 0 := by
  refine ⟨?_, ?_, by decide +kernel, by decide +kernel⟩
  · have := C51_space ⟨2, 8⟩ 11 (by decide) (.inl (by decide))
    exact this
  · have := C51_space ⟨0, 8⟩ (-3) (by decide) (.inl (by decide))
    exact this

/-- The condition on negative numbers is needed: modulo 3 the conversion to `size_t` shifts the residue, -1 is "aligned" to 0 and not 0. -/
example : (-1 : Int) + padSpace ⟨0, 3⟩ (-1) = -1 := by decide +kernel

end Verif.Ord
