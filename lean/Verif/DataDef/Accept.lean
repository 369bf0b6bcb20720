import Verif.DataDef.Tables
import Verif.DataDef.NominalProps

/-
  When an operand of DC or DS is accepted.
-/

namespace Verif.DataDef

open Spec (values)

/-- The length modifier passes what its type checks beyond the bounds. -/
def OwnLengthOk (td : TypeDef) (op : Operand) (rel : Bool) : Prop :=
  op.length.present = true → OwnLength td op.length.bit rel op.length.value

theorem tmod_iff (op : Operand) : (!(op.length.present && decide (Int.tmod op.length.value 2 = 1))) = true ↔
    (op.length.present = true → Int.tmod op.length.value 2 ≠ 1) := by
  cases op.length.present <;> simp

theorem lengthIn_iff (op : Operand) (l : List Int) :
    lengthIn op l = true ↔ (op.length.present = true → op.length.value ∈ l) := by
  unfold lengthIn
  cases op.length.present <;> simp

/-- The virtual `check` without a nominal value to look at. -/
theorem checkOwn_absent {td : TypeDef} (h : td ∈ types) (op : Operand) (rel : Bool) :
    ∃ b, checkOwn td op false = .ok b ∧
      (b = true ↔ (td.type ≠ 'A' → td.type ≠ 'Y' → OwnLengthOk td op rel)) := by
  simp only [types, List.mem_cons, List.not_mem_nil, or_false] at h
  rcases h with rfl|rfl|rfl|rfl|rfl|rfl|rfl|rfl|rfl|rfl|rfl|rfl|rfl|rfl|rfl|rfl|rfl|rfl|rfl|rfl|rfl|rfl|rfl|rfl|rfl|rfl|rfl|rfl|rfl|rfl|rfl|rfl|rfl|rfl|rfl|rfl|rfl|rfl|rfl <;>
    refine ⟨_, rfl, ?_⟩ <;>
    first
    | exact ⟨fun _ h => absurd rfl h, fun _ => rfl⟩
    | exact ⟨fun _ _ h => absurd rfl h, fun _ => rfl⟩
    | exact (tmod_iff op).trans ⟨fun h _ _ => h, fun h => h (by decide) (by decide)⟩
    | exact ⟨fun _ _ _ _ => trivial, fun _ => rfl⟩
    | (refine (lengthIn_iff op _).trans ?_
       simp only [OwnLengthOk, OwnLength, List.mem_cons, List.not_mem_nil, or_false]
       exact ⟨fun h _ _ => h, fun h => h (by decide) (by decide)⟩)

/-- The virtual `check` with a text. -/
theorem checkOwn_text {td : TypeDef} (h : td ∈ types) (hs : td.nominal = .string) (op : Operand) (s : Text) (rel : Bool)
    (hv : op.nominal.value = .str s) :
    ∃ b, checkOwn td op true = .ok b ∧ (b = true ↔ OwnLengthOk td op rel ∧ Spec.TextOk td.type td.ext s) := by
  unfold checkOwn
  rw [hv]
  simp only [types, List.mem_cons, List.not_mem_nil, or_false] at h
  rcases h with rfl|rfl|rfl|rfl|rfl|rfl|rfl|rfl|rfl|rfl|rfl|rfl|rfl|rfl|rfl|rfl|rfl|rfl|rfl|rfl|rfl|rfl|rfl|rfl|rfl|rfl|rfl|rfl|rfl|rfl|rfl|rfl|rfl|rfl|rfl|rfl|rfl|rfl|rfl <;>
    first
    | exact absurd hs (by decide)
    | (refine ⟨_, rfl, (checkB_iff s).trans ?_⟩; exact ⟨fun h => ⟨fun _ => trivial, h⟩, fun h => h.2⟩)
    | (refine ⟨_, rfl, (checkX_iff s).trans ?_⟩; exact ⟨fun h => ⟨fun _ => trivial, h⟩, fun h => h.2⟩)
    | (refine ⟨_, rfl, (checkHF_iff s).trans ?_⟩; exact ⟨fun h => ⟨fun _ => trivial, h⟩, fun h => h.2⟩)
    | (refine ⟨_, rfl, (checkPZ_iff s).trans ?_⟩; exact ⟨fun h => ⟨fun _ => trivial, h⟩, fun h => h.2⟩)
    | (refine ⟨_, rfl, (checkEDL_iff _ s).trans ?_⟩; exact ⟨fun h => ⟨fun _ => trivial, h⟩, fun h => h.2⟩)
    | (refine ⟨_, rfl, (tmod_iff op).trans ?_⟩; exact ⟨fun h => ⟨h, trivial⟩, fun h => h.1⟩)
    | (refine ⟨_, rfl, ?_⟩; exact ⟨fun _ => ⟨fun _ => trivial, trivial⟩, fun _ => rfl⟩)

/-- Some value in parentheses is relocatable. -/
def relOf (l : List Value) : Bool := l.any fun v => match v with
  | .expr _ kind ignored => !ignored && kind != .abs
  | .address .. => false

theorem allAbsolute_eq : ∀ l : List Value, l.any Value.isAddress = false → allAbsolute l = .ok (!relOf l)
  | [], _ => rfl
  | .address _ _ _ :: r, h => by simp [Value.isAddress] at h
  | .expr v kind ignored :: r, h => by
    have ih := allAbsolute_eq r (by simpa [Value.isAddress] using h)
    rw [allAbsolute, ih]
    unfold relOf
    rw [List.any_cons]
    cases hc : (!ignored && kind != .abs) <;> simp [hc]

theorem sizeUnsigned12 (v : Int) : sizeUnsigned v 12 = true ↔ 0 ≤ v ∧ v ≤ 4095 := by
  simp [sizeUnsigned]

theorem sizeUnsigned4 (v : Int) : sizeUnsigned v 4 = true ↔ 0 ≤ v ∧ v ≤ 15 := by
  simp [sizeUnsigned]

theorem sizeSigned20 (v : Int) : sizeSigned v 20 = true ↔ -524288 ≤ v ∧ v ≤ 524287 := by
  simp [sizeSigned]

theorem checkSValue_S (v : Value) : checkSValue 12 false v = true ↔ Spec.AddressOk '\x00' v := by
  cases v with
  | expr x kind ignored =>
    simp only [checkSValue, Spec.AddressOk, Spec.Displacement, Bool.or_eq_true]
    exact or_congr Iff.rfl (sizeUnsigned12 x)
  | address base disp ignored =>
    simp only [checkSValue, Spec.AddressOk, Spec.Displacement, Bool.or_eq_true, Bool.and_eq_true]
    exact or_congr Iff.rfl (and_congr (sizeUnsigned12 _) (sizeUnsigned4 _))

theorem checkSValue_SY (v : Value) : checkSValue 20 true v = true ↔ Spec.AddressOk 'Y' v := by
  cases v with
  | expr x kind ignored =>
    simp only [checkSValue, Spec.AddressOk, Spec.Displacement, Bool.or_eq_true]
    exact or_congr Iff.rfl (sizeSigned20 x)
  | address base disp ignored =>
    simp only [checkSValue, Spec.AddressOk, Spec.Displacement, Bool.or_eq_true, Bool.and_eq_true]
    exact or_congr Iff.rfl (and_congr (sizeSigned20 _) (sizeUnsigned4 _))

theorem noAddress_iff (l : List Value) :
    l.any Value.isAddress = false ↔ ∀ v ∈ l, ∃ x kind ignored, v = .expr x kind ignored := by
  rw [List.any_eq_false]
  constructor
  · intro h v hv
    cases v with
    | expr x kind ignored => exact ⟨x, kind, ignored, rfl⟩
    | address b d i => exact absurd rfl (h _ hv)
  · intro h v hv
    obtain ⟨x, kind, ignored, rfl⟩ := h v hv
    simp [Value.isAddress]

theorem checkALength_iff (op : Operand) (l : List Value) (hv : op.nominal.value = .exprs l)
    (ha : l.any Value.isAddress = false) (a b c d e f : Int) :
    ∃ r, checkALength op a b c d e f = .ok r ∧
      (r = true ↔ (op.length.present = true →
        if relOf l then op.length.bit = false ∧ c ≤ op.length.value ∧ op.length.value ≤ d
        else if op.length.bit then e ≤ op.length.value ∧ op.length.value ≤ f
        else a ≤ op.length.value ∧ op.length.value ≤ b)) := by
  unfold checkALength
  rw [hv]
  simp only [getExprs, allAbsolute_eq l ha, bind, Except.bind]
  cases op.length.present <;> cases relOf l <;> cases op.length.bit <;> simp

/-- The virtual `check` with a list of values in parentheses. -/
theorem checkOwn_exprs {td : TypeDef} (h : td ∈ types) (hs : td.nominal ≠ .string) (op : Operand) (l : List Value)
    (hv : op.nominal.value = .exprs l) (ht : checkNominalType td op = true) :
    ∃ b, checkOwn td op true = .ok b ∧ (b = true ↔ OwnLengthOk td op (relOf l) ∧ Spec.ExprsOk td.type td.ext l) := by
  have hna : td.nominal = .expressions → l.any Value.isAddress = false := by
    intro he
    unfold checkNominalType at ht
    rw [he, hv] at ht
    simpa using ht
  have hS : ∀ size signed, checkS size signed op = .ok (l.all (checkSValue size signed)) := by
    intro size signed
    simp only [checkS, hv, getExprs, bind, Except.bind]
  unfold checkOwn
  simp only [types, List.mem_cons, List.not_mem_nil, or_false] at h
  rcases h with rfl|rfl|rfl|rfl|rfl|rfl|rfl|rfl|rfl|rfl|rfl|rfl|rfl|rfl|rfl|rfl|rfl|rfl|rfl|rfl|rfl|rfl|rfl|rfl|rfl|rfl|rfl|rfl|rfl|rfl|rfl|rfl|rfl|rfl|rfl|rfl|rfl|rfl|rfl <;>
    first
    | exact absurd rfl hs
    | (obtain ⟨r, h1, h2⟩ := checkALength_iff op l hv (hna rfl) 1 8 2 8 1 128
       refine ⟨r, h1, h2.trans ?_⟩
       exact ⟨fun h => ⟨h, (noAddress_iff l).mp (hna rfl)⟩, fun h => h.1⟩)
    | (obtain ⟨r, h1, h2⟩ := checkALength_iff op l hv (hna rfl) 1 8 2 4 1 128
       refine ⟨r, h1, h2.trans ?_⟩
       exact ⟨fun h => ⟨h, (noAddress_iff l).mp (hna rfl)⟩, fun h => h.1⟩)
    | (obtain ⟨r, h1, h2⟩ := checkALength_iff op l hv (hna rfl) 1 2 2 2 1 16
       refine ⟨r, h1, h2.trans ?_⟩
       exact ⟨fun h => ⟨h, (noAddress_iff l).mp (hna rfl)⟩, fun h => h.1⟩)
    | (refine ⟨_, hS 12 false, List.all_eq_true.trans ?_⟩
       simp only [checkSValue_S]
       exact ⟨fun h => ⟨fun _ => trivial, h⟩, fun h => h.2⟩)
    | (refine ⟨_, hS 20 true, List.all_eq_true.trans ?_⟩
       simp only [checkSValue_SY]
       exact ⟨fun h => ⟨fun _ => trivial, h⟩, fun h => h.2⟩)
    | (refine ⟨_, rfl, (lengthIn_iff op _).trans ?_⟩
       simp only [List.mem_cons, List.not_mem_nil, or_false]
       exact ⟨fun h => ⟨h, (noAddress_iff l).mp (hna rfl)⟩, fun h => h.1⟩)
    | (refine ⟨_, rfl, ?_⟩
       exact ⟨fun _ => ⟨fun _ => trivial, (noAddress_iff l).mp (hna rfl)⟩, fun _ => rfl⟩)

theorem textOk_only : ∀ td ∈ types, td.nominal ≠ .string → ∀ s, ¬ Spec.TextOk td.type td.ext s := by
  intro td h hs s
  simp only [types, List.mem_cons, List.not_mem_nil, or_false] at h
  rcases h with rfl|rfl|rfl|rfl|rfl|rfl|rfl|rfl|rfl|rfl|rfl|rfl|rfl|rfl|rfl|rfl|rfl|rfl|rfl|rfl|rfl|rfl|rfl|rfl|rfl|rfl|rfl|rfl|rfl|rfl|rfl|rfl|rfl|rfl|rfl|rfl|rfl|rfl|rfl <;>
    first
    | exact absurd rfl hs
    | exact fun h => h

theorem exprsOk_only : ∀ td ∈ types, td.nominal = .string → ∀ l, ¬ Spec.ExprsOk td.type td.ext l := by
  intro td h hs s
  simp only [types, List.mem_cons, List.not_mem_nil, or_false] at h
  rcases h with rfl|rfl|rfl|rfl|rfl|rfl|rfl|rfl|rfl|rfl|rfl|rfl|rfl|rfl|rfl|rfl|rfl|rfl|rfl|rfl|rfl|rfl|rfl|rfl|rfl|rfl|rfl|rfl|rfl|rfl|rfl|rfl|rfl|rfl|rfl|rfl|rfl|rfl|rfl <;>
    first
    | exact absurd hs (by decide)
    | exact fun h => h

theorem exprsOk_noAddress : ∀ td ∈ types, td.nominal = .expressions → ∀ l, Spec.ExprsOk td.type td.ext l →
    l.any Value.isAddress = false := by
  intro td h hs l
  simp only [types, List.mem_cons, List.not_mem_nil, or_false] at h
  rcases h with rfl|rfl|rfl|rfl|rfl|rfl|rfl|rfl|rfl|rfl|rfl|rfl|rfl|rfl|rfl|rfl|rfl|rfl|rfl|rfl|rfl|rfl|rfl|rfl|rfl|rfl|rfl|rfl|rfl|rfl|rfl|rfl|rfl|rfl|rfl|rfl|rfl|rfl|rfl <;>
    first
    | exact absurd hs (by decide)
    | exact (noAddress_iff l).mpr

/-- What `checkBase` checks of the modifiers. -/
def modifiers (td : TypeDef) (i : Instr) (op : Operand) : Bool :=
  checkDupl op && checkLength td i op && checkModifier op.scale.present op.scale.value td.scale
    && checkModifier op.exponent.present op.exponent.value td.exponent

theorem checkBase_present {td : TypeDef} {i : Instr} {op : Operand} (h : op.nominal.present = true) :
    checkBase td i op = (modifiers td i op && checkNominalType td op, checkNominalType td op) := by
  unfold checkBase checkNominalPresent modifiers
  cases i <;> simp [h]

theorem checkBase_absent {td : TypeDef} {i : Instr} {op : Operand} (h : op.nominal.present = false) :
    checkBase td i op
      = (modifiers td i op && (decide (i = .DS) || (decide (op.dupl.value = 0) && op.dupl.present)), false) := by
  unfold checkBase checkNominalPresent modifiers
  cases i
  · by_cases hd : (decide (op.dupl.value = 0) && op.dupl.present) = true
    · simp [h, hd]
    · have hd' : (decide (op.dupl.value = 0) && op.dupl.present) = false := by simpa using hd
      simp [h, hd']
  · simp [h]

theorem checkDupl_iff (op : Operand) : checkDupl op = true ↔ (op.dupl.present = true → 0 ≤ op.dupl.value) := by
  unfold checkDupl
  cases op.dupl.present <;> simp

theorem narrow16_eq {v : Int} (h0 : -32768 ≤ v) (h1 : v ≤ 32767) : narrow16 v = v := by
  unfold narrow16
  omega

theorem lengthOk_bounds {i : Instr} {type ext : Char} {bit rel : Bool} {l : Int}
    (h : Spec.LengthOk i type ext bit rel l) : 1 ≤ l ∧ (if bit then l else 8 * l) ≤ 524280 := by
  unfold Spec.LengthOk at h
  split at h <;> (try split at h) <;> (try simp only [if_true, if_false, Bool.false_eq_true, reduceIte]) <;>
    first
    | exact h.elim
    | omega

/-! ### an operand as it is written -/

section
variable {i : Instr} {d : Definition} {td : TypeDef}

theorem dupl_iff (h : Spec.Ordinary d) :
    checkDupl d.operand = true ↔ Spec.Permitted d.dupl fun v => 0 ≤ v := by
  rw [checkDupl_iff]
  have h1 := h.settled.1
  have h2 := h.absolute.1
  unfold Definition.operand Spec.Permitted
  cases hd : d.dupl <;> simp_all [setField]

theorem scale_iff (h : Spec.Ordinary d) (hm : td ∈ types) (ht : td.type = d.type) (he : td.ext = d.ext) :
    checkModifier d.operand.scale.present d.operand.scale.value td.scale = true
      ↔ Spec.Permitted d.scale (Spec.ScaleOk d.type d.ext) := by
  rw [checkModifier_iff, scaleOk_iff td hm, ht, he]
  have h1 := h.settled.2.2.1
  have h2 := h.absolute.2.1
  have h3 := h.scale
  unfold Definition.operand Spec.Permitted
  cases hd : d.scale with
  | none => simp [setField]
  | abs v =>
    have := h3 v hd
    simp [setField, narrow16_eq this.1 this.2]
  | other => exact absurd hd h2
  | pending => exact absurd hd h1

theorem exponent_iff (h : Spec.Ordinary d) (hm : td ∈ types) (ht : td.type = d.type) :
    checkModifier d.operand.exponent.present d.operand.exponent.value td.exponent = true
      ↔ Spec.Permitted d.exponent (Spec.ExponentOk d.type) := by
  rw [checkModifier_iff, exponentOk_iff td hm, ht]
  have h1 := h.settled.2.2.2
  have h2 := h.absolute.2.2
  unfold Definition.operand Spec.Permitted
  cases hd : d.exponent <;> simp_all [setField]

theorem length_iff (h : Spec.Ordinary d) (hm : td ∈ types) (ht : td.type = d.type) (he : td.ext = d.ext) (rel : Bool) :
    (checkLength td i d.operand = true ∧ OwnLengthOk td d.operand rel)
      ↔ Spec.Permitted d.length (Spec.LengthOk i d.type d.ext d.bit rel) := by
  have hl := lengthOk_iff td hm i d.bit rel
  rw [ht, he] at hl
  have hcl : checkLength td i d.operand = true ↔
      ((d.bit = true → td.bitLength ≠ .na)
        ∧ (d.operand.length.present = true → (lengthSpec td i d.bit).Ok d.operand.length.value)) := by
    unfold checkLength
    rw [← checkModifier_iff]
    have : d.operand.length.bit = d.bit := rfl
    rw [this]
    by_cases hb : (td.bitLength == .na && d.bit) = true
    · rw [if_pos hb]
      simp only [Bool.and_eq_true, beq_iff_eq] at hb
      simp [hb.1, hb.2]
    · rw [if_neg hb]
      simp only [Bool.and_eq_true, beq_iff_eq, not_and] at hb
      exact ⟨fun h => ⟨fun h1 h2 => hb h2 h1, h⟩, fun h => h.2⟩
  rw [hcl]
  unfold OwnLengthOk Spec.Permitted
  have hbit := h.bit
  cases hd : d.length with
  | none =>
    have hp : d.operand.length.present = false := by simp [Definition.operand, hd, setField]
    have hb : d.bit = false := by cases hb : d.bit with
      | false => rfl
      | true => exact absurd hd (hbit hb)
    simp [hp, hb]
  | abs v =>
    have hp : d.operand.length.present = true := by simp [Definition.operand, hd, setField]
    have hv : d.operand.length.value = v := by simp [Definition.operand, hd, setField]
    have hb : d.operand.length.bit = d.bit := rfl
    have := hl v
    simp only [hp, hv, hb, true_implies]
    rw [and_assoc, this]
    simp
  | other =>
    have hp : d.operand.length.present = true := by simp [Definition.operand, hd, setField]
    have hv : d.operand.length.value = 0 := by simp [Definition.operand, hd, setField]
    have hb : d.operand.length.bit = d.bit := rfl
    simp only [hp, hv, hb, true_implies]
    rw [and_assoc, hl 0]
    constructor
    · intro h0
      have := (lengthOk_bounds h0).1
      omega
    · rintro (h0 | ⟨v, h0, _⟩) <;> cases h0
  | pending => exact absurd hd h.settled.2.1

theorem modifiers_iff (h : Spec.Ordinary d) (hm : td ∈ types) (ht : td.type = d.type) (he : td.ext = d.ext) :
    (modifiers td i d.operand = true ∧ OwnLengthOk td d.operand (Spec.relocatable d)) ↔ Spec.ModifiersOk i d := by
  unfold modifiers
  simp only [Bool.and_eq_true]
  rw [scale_iff h hm ht he, exponent_iff h hm ht, dupl_iff h]
  constructor
  · rintro ⟨⟨⟨⟨h1, h2⟩, h3⟩, h4⟩, h5⟩
    exact ⟨h1, (length_iff h hm ht he _).mp ⟨h2, h5⟩, h3, h4⟩
  · rintro ⟨h1, h2, h3, h4⟩
    have := (length_iff h hm ht he _).mpr h2
    exact ⟨⟨⟨⟨h1, this.1⟩, h3⟩, h4⟩, this.2⟩

/-- The checks before the length of the operand is computed. -/
theorem checks_iff (h : Spec.Ordinary d) (hm : td ∈ types) (ht : td.type = d.type) (he : td.ext = d.ext) :
    ∃ own, checkOwn td d.operand (checkBase td i d.operand).2 = .ok own ∧
      (((checkBase td i d.operand).1 && own) = true ↔ Spec.ModifiersOk i d ∧ Spec.NominalOk i d) := by
  unfold Spec.NominalOk
  cases hn : d.nominal with
  | none =>
    have hp : d.operand.nominal.present = false := by simp [Definition.operand, hn, noNominal]
    rw [checkBase_absent hp]
    obtain ⟨b, hb, hbi⟩ := checkOwn_absent hm d.operand (Spec.relocatable d)
    refine ⟨b, hb, ?_⟩
    have hown : b = true ↔ OwnLengthOk td d.operand (Spec.relocatable d) := by
      rw [hbi]
      constructor
      · intro h0 hpl
        by_cases hA : td.type = 'A' ∨ td.type = 'Y'
        · rw [ht] at hA
          refine absurd hn (h.address hA ?_)
          intro hnone
          simp [Definition.operand, hnone, setField] at hpl
        · exact h0 (fun h => hA (.inl h)) (fun h => hA (.inr h)) hpl
      · exact fun h0 _ _ => h0
    have hd0 : (decide (d.operand.dupl.value = 0) && d.operand.dupl.present) = true ↔ d.dupl = .abs 0 := by
      have h1 := h.settled.1
      have h2 := h.absolute.1
      have h3 : d.operand.dupl = setField d.dupl := rfl
      rw [h3]
      cases hd : d.dupl with
      | none => simp [setField]
      | abs v =>
        simp only [setField, Bool.and_true, Arg.abs.injEq]
        exact decide_eq_true_iff
      | other => exact absurd hd h2
      | pending => exact absurd hd h1
    rw [← modifiers_iff h hm ht he, ← hown]
    simp only [Bool.and_eq_true, Bool.or_eq_true, decide_eq_true_eq] at hd0 ⊢
    rw [hd0]
    constructor
    · rintro ⟨⟨h1, h2⟩, h3⟩; exact ⟨⟨h1, h3⟩, h2⟩
    · rintro ⟨⟨h1, h3⟩, h2⟩; exact ⟨⟨h1, h2⟩, h3⟩
  | some n =>
    have hp : d.operand.nominal.present = true := by simp [Definition.operand, hn]
    have hv : d.operand.nominal.value = n := by simp [Definition.operand, hn]
    rw [checkBase_present hp]
    cases n with
    | str s =>
      by_cases hs : td.nominal = .string
      · have hty : checkNominalType td d.operand = true := by simp [checkNominalType, hs, hv]
        obtain ⟨b, hb, hbi⟩ := checkOwn_text hm hs d.operand s (Spec.relocatable d) hv
        rw [hty]
        refine ⟨b, hb, ?_⟩
        rw [← modifiers_iff h hm ht he, ← ht, ← he]
        simp only [Bool.and_true, Bool.and_eq_true, hbi]
        exact and_assoc.symm
      · have hty : checkNominalType td d.operand = false := by
          unfold checkNominalType
          rw [hv]
          cases hk : td.nominal <;> simp_all
        obtain ⟨b, hb, _⟩ := checkOwn_absent hm d.operand (Spec.relocatable d)
        rw [hty]
        refine ⟨b, hb, ?_⟩
        have := textOk_only td hm hs s
        rw [ht, he] at this
        simp [this]
    | exprs l =>
      have hrel : Spec.relocatable d = relOf l := by simp only [Spec.relocatable, hn, relOf]; rfl
      by_cases hty : checkNominalType td d.operand = true
      · have hs : td.nominal ≠ .string := by
          intro hs
          simp [checkNominalType, hs, hv] at hty
        obtain ⟨b, hb, hbi⟩ := checkOwn_exprs hm hs d.operand l hv hty
        rw [hty]
        refine ⟨b, hb, ?_⟩
        rw [← modifiers_iff h hm ht he, ← ht, ← he, hrel]
        simp only [Bool.and_true, Bool.and_eq_true, hbi]
        exact and_assoc.symm
      · have hty' : checkNominalType td d.operand = false := by simpa using hty
        obtain ⟨b, hb, _⟩ := checkOwn_absent hm d.operand (Spec.relocatable d)
        rw [hty']
        refine ⟨b, hb, ?_⟩
        have : ¬ Spec.ExprsOk d.type d.ext l := by
          rw [← ht, ← he]
          cases hk : td.nominal with
          | string => exact exprsOk_only td hm hk l
          | expressions =>
            intro h0
            have := exprsOk_noAddress td hm hk l h0
            simp [checkNominalType, hk, hv, this] at hty'
          | addressOrExpression => simp [checkNominalType, hk, hv] at hty'
        simp [this]

theorem operand_default (d : Definition) : NominalDefault d.operand := by
  intro h
  cases hn : d.nominal with
  | none => simp [Definition.operand, hn, noNominal]
  | some n => simp [Definition.operand, hn] at h

theorem shaped_of_ok (hm : td ∈ types) (ht : td.type = d.type) (he : td.ext = d.ext) (h : Spec.NominalOk i d) :
    Shaped td d.operand := by
  intro hp
  unfold Spec.NominalOk at h
  cases hn : d.nominal with
  | none => simp [Definition.operand, hn, noNominal] at hp
  | some n =>
    have hv : d.operand.nominal.value = n := by simp [Definition.operand, hn]
    rw [hv]
    rw [hn] at h
    rw [← ht, ← he] at h
    cases n with
    | str s =>
      by_cases hs : td.nominal = .string
      · exact .inl ⟨hs, s, rfl⟩
      · exact absurd h (textOk_only td hm hs s)
    | exprs l =>
      by_cases hs : td.nominal = .string
      · exact absurd h (exprsOk_only td hm hs l)
      · exact .inr ⟨hs, l, rfl⟩

theorem small_of_ok (h : Spec.Ordinary d) (hok : Spec.ModifiersOk i d) : Small d.operand where
  length hp := by
    rcases hok.length with h0 | ⟨v, hv, hl⟩
    · simp [Definition.operand, h0, setField] at hp
    · have h1 := lengthOk_bounds hl
      have h2 : d.operand.length.value = v := by simp [Definition.operand, hv, setField]
      omega
  dupl hp := by
    rcases hok.dupl with h0 | ⟨v, hv, hl⟩
    · simp [Definition.operand, h0, setField] at hp
    · have h2 : d.operand.dupl.value = v := by simp [Definition.operand, hv, setField]
      rw [h2]
      exact ⟨hl, h.dupl v hv⟩
  sum := h.size.1
  bits := h.size.2

/-- When an operand is accepted. -/
theorem check_iff (h : Spec.Ordinary d) : ∃ b, d.operand.check i = .ok b ∧
    (b = true ↔ d.ext ∈ Spec.extensions d.type ∧ Spec.ModifiersOk i d ∧ Spec.NominalOk i d
      ∧ Spec.bits d.operand < 2147483648 * 8) := by
  unfold Operand.check
  have hty : d.operand.type = d.type := rfl
  have hex : d.operand.ext = d.ext := rfl
  rw [hty, hex]
  cases ha : accessType d.type d.ext with
  | none =>
    refine ⟨false, rfl, ?_⟩
    have : ¬ d.ext ∈ Spec.extensions d.type := by
      rw [← known_iff, ha]
      simp
    simp [this]
  | some td =>
    obtain ⟨hm, ht, he⟩ := accessType_mem ha
    have hk : d.ext ∈ Spec.extensions d.type := (known_iff _ _).mp ⟨td, ha⟩
    obtain ⟨own, ho, hi⟩ := checks_iff (i := i) h hm ht he
    simp only [checkType, ho, bind, Except.bind]
    by_cases hc : ((checkBase td i d.operand).1 && own) = true
    · obtain ⟨h1, h2⟩ := hi.mp hc
      have hg := getLength_eq hm ht he (shaped_of_ok hm ht he h2) (operand_default d) (small_of_ok h h1)
      simp only [hc, hg]
      exact ⟨_, rfl, by simp [hk, h1, h2]⟩
    · have hc' : ((checkBase td i d.operand).1 && own) = false := by simpa using hc
      simp only [hc']
      refine ⟨false, rfl, ?_⟩
      simp only [Bool.false_eq_true, false_iff]
      rintro ⟨_, h1, h2, _⟩
      exact hc (hi.mpr ⟨h1, h2⟩)

end

end Verif.DataDef
