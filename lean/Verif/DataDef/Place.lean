import Verif.DataDef.Accept

/-
  Where the operands of a DC or DS statement are placed, what its label gets, and when the analysis fails.
-/

namespace Verif.DataDef

open Spec (values IsNext Placed boundaryBits written)

theorem wellFormed_iff {i : Instr} {d : Definition} (h : Spec.Ordinary d) :
    ∃ b, d.operand.check i = .ok b ∧ (b = true ↔ Spec.WellFormed i d) := by
  obtain ⟨b, hb, hi⟩ := check_iff (i := i) h
  exact ⟨b, hb, hi.trans ⟨fun h => ⟨h.1, h.2.1, h.2.2.1, h.2.2.2⟩, fun h => ⟨h.1, h.2, h.3, h.4⟩⟩⟩

theorem operand_getLength {i : Instr} {d : Definition} (h : Spec.Ordinary d) (hw : Spec.WellFormed i d) :
    d.operand.getLength = .ok (Spec.bits d.operand) := by
  obtain ⟨td, ha⟩ := (known_iff _ _).mpr hw.known
  obtain ⟨hm, ht, he⟩ := accessType_mem ha
  unfold Operand.getLength
  have : accessType d.operand.type d.operand.ext = some td := ha
  rw [this]
  exact getLength_eq hm ht he (shaped_of_ok hm ht he hw.nominal) (operand_default d) (small_of_ok h hw.modifiers)

/-! ### rounding -/

theorem roundUp_next (n m : Nat) (h : 0 < m) : IsNext n m (roundUp n m) := by
  unfold roundUp
  refine ⟨Nat.dvd_mul_left _ _, ?_, ?_⟩
  · have := Nat.lt_div_mul_add (a := n + m - 1) h
    omega
  · have := Nat.div_mul_le_self (n + m - 1) m
    omega

theorem next_unique {p m q r : Nat} (h1 : IsNext p m q) (h2 : IsNext p m r) : q = r := by
  obtain ⟨⟨a, rfl⟩, h1b, h1c⟩ := h1
  obtain ⟨⟨b, rfl⟩, h2b, h2c⟩ := h2
  have h3 : m * a < m * (b + 1) := by rw [Nat.mul_add]; omega
  have h4 : m * b < m * (a + 1) := by rw [Nat.mul_add]; omega
  have := Nat.lt_of_mul_lt_mul_left h3
  have := Nat.lt_of_mul_lt_mul_left h4
  have : a = b := by omega
  rw [this]

theorem next_self {p m : Nat} (hm : 0 < m) (h : m ∣ p) : IsNext p m p := ⟨h, by omega, by omega⟩

theorem next_shift {p m q k : Nat} (h : IsNext p m q) (hk : m ∣ k) : IsNext (k + p) m (k + q) :=
  ⟨(Nat.dvd_add_right hk).mpr h.1, by have := h.2.1; omega, by have := h.2.2; omega⟩

theorem next_scale {p m q : Nat} (k : Nat) (hk : 0 < k) (h : IsNext p m q) : IsNext (k * p) (k * m) (k * q) :=
  ⟨Nat.mul_dvd_mul_left k h.1, Nat.mul_le_mul_left k h.2.1, by
    rw [← Nat.mul_add]
    exact Nat.mul_lt_mul_of_pos_left h.2.2 hk⟩

/-- Rounding to bytes first does not matter. -/
theorem roundUp_twice (n b : Nat) (h : 0 < b) : IsNext n (8 * b) (roundUp (roundUp n 8) (b * 8)) := by
  obtain ⟨⟨x, h1⟩, h2, h3⟩ := roundUp_next n 8 (by omega)
  obtain ⟨⟨y, h4⟩, h5, h6⟩ := roundUp_next (roundUp n 8) (b * 8) (by omega)
  refine ⟨⟨y, by rw [h4, Nat.mul_comm b 8]⟩, by omega, ?_⟩
  have h7 : b * 8 * y = 8 * (b * y) := by rw [Nat.mul_comm b 8, Nat.mul_assoc]
  omega

theorem align_pos : ∀ td ∈ types, 0 < td.align := by decide

/-! ### placing operands -/

theorem alignment_eq {d : Definition} (hk : d.ext ∈ Spec.extensions d.type) :
    d.operand.alignment = if d.operand.length.present then 1 else Spec.boundary d.type d.ext := by
  obtain ⟨td, ha⟩ := (known_iff _ _).mpr hk
  obtain ⟨hm, ht, he⟩ := accessType_mem ha
  unfold Operand.alignment
  have : accessType d.operand.type d.operand.ext = some td := ha
  rw [this]
  show td.getAlignment _ = _
  rw [TypeDef.getAlignment, types_boundary td hm, ht, he]

theorem boundary_pos {d : Definition} (hk : d.ext ∈ Spec.extensions d.type) : 0 < Spec.boundary d.type d.ext := by
  obtain ⟨td, ha⟩ := (known_iff _ _).mpr hk
  obtain ⟨hm, ht, he⟩ := accessType_mem ha
  rw [← ht, ← he, ← types_boundary td hm]
  exact align_pos td hm

theorem boundaryBits_pos {d : Definition} (hk : d.ext ∈ Spec.extensions d.type) : 0 < boundaryBits d.operand := by
  have := boundary_pos hk
  have : 0 < Spec.boundary d.operand.type d.operand.ext := this
  unfold boundaryBits
  split
  · split <;> omega
  · omega

theorem bit_present {d : Definition} (h : Spec.Ordinary d) (hb : d.bit = true) : d.operand.length.present = true := by
  have h1 := h.bit hb
  have h2 := h.settled.2.1
  unfold Definition.operand
  cases hd : d.length with
  | none => exact absurd hd h1
  | pending => exact absurd hd h2
  | abs v => rfl
  | other => rfl

/-- Where the next operand begins. -/
theorem begin_next {d : Definition} (h : Spec.Ordinary d) (hk : d.ext ∈ Spec.extensions d.type) (n : Nat) :
    IsNext n (boundaryBits d.operand)
      (if d.operand.length.bit then n else roundUp (roundUp n 8) (d.operand.alignment * 8)) := by
  have hbd : d.operand.length.bit = d.bit := rfl
  cases hb : d.bit with
  | true =>
    have hp := bit_present h hb
    simp only [boundaryBits, hp, hbd, hb, if_true]
    exact ⟨Nat.one_dvd _, by omega, by omega⟩
  | false =>
    have ha := alignment_eq hk
    rw [hbd, hb, ha]
    simp only [boundaryBits, hbd, hb, Bool.false_eq_true, if_false]
    split
    · exact roundUp_twice n 1 (by omega)
    · exact roundUp_twice n _ (boundary_pos hk)

theorem loop_placed {i : Instr} {s : Nat} : ∀ (ds : List Definition) (n : Nat),
    (∀ d ∈ ds, Spec.Ordinary d) → (∀ d ∈ ds, Spec.WellFormed i d) → (∀ d ∈ ds, boundaryBits d.operand ∣ 8 * s) →
    ∃ e, operandsLoop i (ds.map Definition.operand) n = .ok (some e)
      ∧ Placed (8 * s + n) (ds.map Definition.operand) (8 * s + e)
  | [], n, _, _, _ => ⟨n, rfl, .nil _⟩
  | d :: ds, n, ho, hw, hb => by
    have ho' := ho d (by simp)
    have hw' := hw d (by simp)
    obtain ⟨b, hc, hci⟩ := wellFormed_iff (i := i) ho'
    have : b = true := hci.mpr hw'
    subst this
    have hg := operand_getLength ho' hw'
    have hn := begin_next ho' hw'.known n
    generalize hq : (if d.operand.length.bit then n else roundUp (roundUp n 8) (d.operand.alignment * 8)) = q at hn
    obtain ⟨e, h1, h2⟩ := loop_placed ds (q + Spec.bits d.operand) (fun x hx => ho x (by simp [hx]))
      (fun x hx => hw x (by simp [hx])) (fun x hx => hb x (by simp [hx]))
    refine ⟨e, ?_, ?_⟩
    · rw [List.map_cons, operandsLoop]
      simp only [hc, hg, bind, Except.bind, Bool.not_true, Bool.false_eq_true, if_false, hq]
      exact h1
    · refine .cons (next_shift hn (hb d (by simp))) ?_
      rw [Nat.add_assoc]
      exact h2

/-- A refused operand: the statement has no length. -/
theorem loop_refused {i : Instr} : ∀ (ds : List Definition) (n : Nat),
    (∀ d ∈ ds, Spec.Ordinary d) → (∃ d ∈ ds, ¬ Spec.WellFormed i d) →
    operandsLoop i (ds.map Definition.operand) n = .ok none
  | [], n, _, h => by obtain ⟨d, h, _⟩ := h; cases h
  | d :: ds, n, ho, h => by
    have ho' := ho d (by simp)
    obtain ⟨b, hc, hci⟩ := wellFormed_iff (i := i) ho'
    rw [List.map_cons, operandsLoop]
    simp only [hc, bind, Except.bind]
    cases b with
    | false => rfl
    | true =>
      have hw' := hci.mp rfl
      have hg := operand_getLength ho' hw'
      simp only [hg, Bool.not_true, Bool.false_eq_true, if_false]
      refine loop_refused ds _ (fun x hx => ho x (by simp [hx])) ?_
      obtain ⟨x, hx, hxw⟩ := h
      rcases List.mem_cons.mp hx with rfl | hx
      · exact absurd hw' hxw
      · exact ⟨x, hx, hxw⟩

/-! ### the statement -/

theorem process_eq {i : Instr} {label : Bool} {loc : Nat} {ops : List (Option Definition)} {o : Outcome}
    (h : process i label loc ops = .ok o) :
    o.start = roundUp loc (firstAlignment ops) ∧
      ∃ len, statementLength i ((written ops).map Definition.operand) = .ok len ∧ o.next = o.start + len := by
  unfold process at h
  simp only [bind, Except.bind] at h
  split at h
  · cases h
  · split at h
    · cases h
    · rename_i len hl
      cases h
      exact ⟨rfl, len, hl, rfl⟩

theorem definition_alignment {d : Definition} (h : Spec.Ordinary d) (hk : d.ext ∈ Spec.extensions d.type) :
    d.alignment = d.operand.alignment := by
  have h2 := h.settled.2.1
  obtain ⟨td, ha⟩ := (known_iff _ _).mpr hk
  have ha' : accessType d.operand.type d.operand.ext = some td := ha
  unfold Definition.alignment Operand.alignment
  rw [ha, ha']
  have : (d.length != .none) = d.operand.length.present := by
    unfold Definition.operand
    cases hd : d.length with
    | pending => exact absurd hd h2
    | none => rfl
    | abs v => rfl
    | other => rfl
  rw [this]

/-- Where the first operand begins. -/
theorem start_next {d : Definition} (h : Spec.Ordinary d) (hk : d.ext ∈ Spec.extensions d.type) (loc : Nat) :
    IsNext (8 * loc) (boundaryBits d.operand) (8 * roundUp loc d.alignment) := by
  rw [definition_alignment h hk, alignment_eq hk]
  have hbd : d.operand.length.bit = d.bit := rfl
  have hty : d.operand.type = d.type := rfl
  have hex : d.operand.ext = d.ext := rfl
  cases hp : d.operand.length.present with
  | true =>
    have h1 : roundUp loc 1 = loc := by simp [roundUp]
    simp only [boundaryBits, hp, if_true, h1]
    cases d.operand.length.bit with
    | true => exact next_self (by decide) (Nat.one_dvd _)
    | false => exact next_self (by decide) (Nat.dvd_mul_right 8 loc)
  | false =>
    simp only [boundaryBits, hp, Bool.false_eq_true, if_false, hty, hex]
    exact next_scale 8 (by omega) (roundUp_next loc _ (boundary_pos hk))

theorem written_cons (d : Definition) (r : List (Option Definition)) : written (some d :: r) = d :: written r := rfl

theorem process_placed {i : Instr} {label : Bool} {loc : Nat} {ops : List (Option Definition)} {o : Outcome}
    (h : process i label loc ops = .ok o) (ho : ∀ d ∈ written ops, Spec.Ordinary d)
    (hw : ∀ d ∈ written ops, Spec.WellFormed i d) (hb : ∀ d ∈ written ops, boundaryBits d.operand ∣ 8 * o.start) :
    ∃ e n, Placed (8 * loc) ((written ops).map Definition.operand) e ∧ IsNext e 8 (8 * n) ∧ o.start ≤ n
      ∧ o.next = if n - o.start ≤ 2147483647 then n else o.start := by
  obtain ⟨hs, len, hl, hn⟩ := process_eq h
  obtain ⟨e, h1, h2⟩ := loop_placed (s := o.start) (written ops) 0 ho hw hb
  have hlen : len = if roundUp e 8 / 8 > 2147483647 then 0 else roundUp e 8 / 8 := by
    unfold statementLength operandsLength at hl
    simp only [h1, bind, Except.bind] at hl
    cases hl
    rfl
  have hr := roundUp_next e 8 (by omega)
  obtain ⟨⟨k, hk⟩, hk2, hk3⟩ := hr
  have hdiv : roundUp e 8 / 8 = k := by omega
  rw [hdiv] at hlen
  refine ⟨8 * o.start + e, o.start + k, ?_, ⟨⟨o.start + k, rfl⟩, by omega, by omega⟩, by omega, ?_⟩
  · rw [Nat.add_zero] at h2
    cases ops with
    | nil =>
      have : o.start = loc := by rw [hs]; simp [firstAlignment, roundUp]
      rw [← this]
      exact h2
    | cons a r =>
      cases a with
      | none =>
        have : o.start = loc := by rw [hs]; simp [firstAlignment, roundUp]
        rw [← this]
        exact h2
      | some d =>
        rw [written_cons] at h2 ho hw hb ⊢
        have ho' := ho d (by simp)
        have hw' := hw d (by simp)
        have hst := start_next ho' hw'.known loc
        have hs' : o.start = roundUp loc d.alignment := hs
        rw [← hs'] at hst
        rw [List.map_cons] at h2 ⊢
        cases h2 with
        | cons hq hr =>
          have := next_unique hq (next_self (boundaryBits_pos hw'.known) (hb d (by simp)))
          rw [this] at hr
          exact .cons hst hr
  · rw [hn, hlen]
    split <;> split <;> omega

/-- In any case the operands are placed as they would be at address zero. -/
theorem process_relative {i : Instr} {label : Bool} {loc : Nat} {ops : List (Option Definition)} {o : Outcome}
    (h : process i label loc ops = .ok o) (ho : ∀ d ∈ written ops, Spec.Ordinary d)
    (hw : ∀ d ∈ written ops, Spec.WellFormed i d) :
    ∃ e n, Placed 0 ((written ops).map Definition.operand) e ∧ IsNext e 8 (8 * n)
      ∧ o.next = if n ≤ 2147483647 then o.start + n else o.start := by
  obtain ⟨hs, len, hl, hn⟩ := process_eq h
  obtain ⟨e, h1, h2⟩ := loop_placed (s := 0) (written ops) 0 ho hw (fun d _ => Nat.dvd_zero _)
  have hlen : len = if roundUp e 8 / 8 > 2147483647 then 0 else roundUp e 8 / 8 := by
    unfold statementLength operandsLength at hl
    simp only [h1, bind, Except.bind] at hl
    cases hl
    rfl
  have hr := roundUp_next e 8 (by omega)
  obtain ⟨⟨k, hk⟩, hk2, hk3⟩ := hr
  have hdiv : roundUp e 8 / 8 = k := by omega
  rw [hdiv] at hlen
  refine ⟨e, k, by simpa using h2, ⟨⟨k, rfl⟩, by omega, by omega⟩, ?_⟩
  rw [hn, hlen]
  split <;> split <;> omega

theorem process_refused {i : Instr} {label : Bool} {loc : Nat} {ops : List (Option Definition)} {o : Outcome}
    (h : process i label loc ops = .ok o) (ho : ∀ d ∈ written ops, Spec.Ordinary d)
    (hw : ∃ d ∈ written ops, ¬ Spec.WellFormed i d) : o.next = o.start := by
  obtain ⟨hs, len, hl, hn⟩ := process_eq h
  unfold statementLength operandsLength at hl
  simp only [loop_refused (written ops) 0 ho hw, bind, Except.bind] at hl
  cases hl
  exact hn

end Verif.DataDef
