import Verif.AsmCheck.Props
import Mathlib.Data.List.Perm.Subperm
import Mathlib.Data.List.Nodup

/-!
The checks of the operands of the other assembler instructions (C102).
-/
namespace Verif.AsmCheck

/-! ## PUSH and POP -/

/-- The operand is this text. -/
def Is (o : AOp) (n : String) : Prop := ∃ v, o = AOp.simple n v

theorem stackLoop_iff (n : Nat) : ∀ (ops : List AOp) (seen : List String) (i : Nat), i + ops.length = n →
    (stackLoop n seen i ops = accept ↔ ∃ first last, List.Forall₂ Is ops (first ++ last) ∧
      (∀ x ∈ first, x ∈ ["PRINT", "USING", "ACONTROL"]) ∧ first.Nodup ∧ (∀ x ∈ first, x ∉ seen) ∧
      (last = [] ∨ (last = ["NOPRINT"] ∧ n ≠ 1)))
  | [], seen, i, _ => by
    simp only [stackLoop, true_iff]
    exact ⟨[], [], .nil, by simp, by simp, by simp, Or.inl rfl⟩
  | .complex id ps :: r, seen, i, _ => by
    simp only [stackLoop, refuse_accept, false_iff]
    rintro ⟨first, last, h, -⟩
    cases hl : first ++ last with
    | nil => rw [hl] at h; cases h
    | cons x y => rw [hl] at h; cases h with | cons h _ => obtain ⟨v, e⟩ := h; cases e
  | .empty :: r, seen, i, _ => by
    simp only [stackLoop, refuse_accept, false_iff]
    rintro ⟨first, last, h, -⟩
    cases hl : first ++ last with
    | nil => rw [hl] at h; cases h
    | cons x y => rw [hl] at h; cases h with | cons h _ => obtain ⟨v, e⟩ := h; cases e
  | .simple t v :: r, seen, i, hn => by
    simp only [stackLoop]
    simp only [List.length_cons] at hn
    by_cases ht : t = "ACONTROL" ∨ t = "PRINT" ∨ t = "USING"
    · rw [if_pos ht, ite_accept, stackLoop_iff n r (t :: seen) (i + 1) (by omega)]
      have hmem : t ∈ ["PRINT", "USING", "ACONTROL"] := by
        rcases ht with rfl | rfl | rfl <;> simp
      constructor
      · rintro ⟨h0, first, last, h1, h2, h3, h4, h5⟩
        refine ⟨t :: first, last, .cons ⟨v, rfl⟩ h1, ?_, ?_, ?_, h5⟩
        · intro x hx
          rcases List.mem_cons.1 hx with rfl | hx
          · exact hmem
          · exact h2 x hx
        · exact List.nodup_cons.2 ⟨fun hm => h4 t hm (by simp), h3⟩
        · intro x hx
          rcases List.mem_cons.1 hx with rfl | hx
          · exact h0
          · exact fun hs => h4 x hx (by simp [hs])
      · rintro ⟨first, last, h1, h2, h3, h4, h5⟩
        cases first with
        | nil =>
          rcases h5 with rfl | ⟨rfl, -⟩
          · cases h1
          · cases h1 with
            | cons h _ =>
              obtain ⟨w, e⟩ := h
              cases e
              simp at ht
        | cons y first =>
          cases h1 with
          | cons h h1 =>
            obtain ⟨w, e⟩ := h
            cases e
            rw [List.nodup_cons] at h3
            refine ⟨h4 _ (by simp), first, last, h1, fun x hx => h2 x (by simp [hx]), h3.2, fun x hx => ?_, h5⟩
            rw [List.mem_cons, not_or]
            exact ⟨by rintro rfl; exact h3.1 hx, h4 x (by simp [hx])⟩
    · rw [if_neg ht]
      by_cases ht' : t = "NOPRINT"
      · subst ht'
        rw [if_pos rfl, ite_accept, ite_accept]
        constructor
        · rintro ⟨h1, h2, h3⟩
          have hr : r = [] := by
            rw [not_not] at h1
            have : r.length = 0 := by omega
            exact List.length_eq_zero_iff.1 this
          subst hr
          exact ⟨[], ["NOPRINT"], .cons ⟨v, rfl⟩ .nil, by simp, by simp, by simp, Or.inr ⟨rfl, h2⟩⟩
        · rintro ⟨first, last, h1, h2, -, -, h5⟩
          cases first with
          | nil =>
            rcases h5 with rfl | ⟨rfl, h5⟩
            · cases h1
            · cases h1 with
              | cons _ h =>
                cases h
                exact ⟨by simp at hn; omega, h5, rfl⟩
          | cons y first =>
            cases h1 with
            | cons h _ =>
              obtain ⟨w, e⟩ := h
              cases e
              have := h2 "NOPRINT" (by simp)
              simp at this
      · rw [if_neg ht']
        simp only [refuse_accept, false_iff]
        rintro ⟨first, last, h1, h2, -, -, h5⟩
        cases first with
        | nil =>
          rcases h5 with rfl | ⟨rfl, h5⟩
          · cases h1
          · cases h1 with
            | cons h _ => obtain ⟨w, e⟩ := h; cases e; exact ht' rfl
        | cons y first =>
          cases h1 with
          | cons h _ =>
            obtain ⟨w, e⟩ := h
            cases e
            have := h2 _ (List.mem_cons_self)
            simp at this
            tauto

theorem stack_iff (ops : List AOp) : check .stack ops = accept ↔ Valid .stack ops := by
  show sized 1 (some 4) ops (stackLoop ops.length [] 0 ops) = accept ↔ ∃ names : List String, List.Forall₂ Is ops names ∧ names.Nodup ∧
      ∃ first, first ≠ [] ∧ (∀ n ∈ first, n ∈ ["PRINT", "USING", "ACONTROL"]) ∧ (names = first ∨ names = first ++ ["NOPRINT"])
  rw [sized_accept, stackLoop_iff ops.length ops [] 0 (by simp)]
  constructor
  · rintro ⟨h0, -, first, last, h1, h2, h3, -, h5⟩
    have hlen := h1.length_eq
    have hne : first ≠ [] := by
      rintro rfl
      rcases h5 with rfl | ⟨rfl, h5⟩
      · simp only [List.append_nil, List.length_nil] at hlen; omega
      · simp only [List.nil_append, List.length_cons, List.length_nil] at hlen; omega
    refine ⟨first ++ last, h1, ?_, first, hne, h2, ?_⟩
    · rcases h5 with rfl | ⟨rfl, -⟩
      · simpa using h3
      · rw [List.nodup_append]
        refine ⟨h3, by simp, fun a ha b hb => ?_⟩
        have := h2 a ha
        simp at hb this
        subst hb
        rintro rfl
        simp at this
    · rcases h5 with rfl | ⟨rfl, -⟩
      · exact Or.inl (by simp)
      · exact Or.inr rfl
  · rintro ⟨names, h1, hnd, first, hne, h2, h5⟩
    have hlen := h1.length_eq
    have hnd' : first.Nodup := by
      rcases h5 with rfl | rfl
      · exact hnd
      · exact (List.nodup_append.1 hnd).1
    have h3 : first.length ≤ 3 := by
      have := (List.subperm_of_subset hnd' (fun x hx => h2 x hx)).length_le
      simpa using this
    have hpos : 1 ≤ first.length := List.length_pos_of_ne_nil hne
    rcases h5 with rfl | rfl
    · refine ⟨by omega, by rintro _ ⟨⟩; omega, names, [], by simpa using h1, h2, hnd', by simp, Or.inl rfl⟩
    · simp at hlen
      exact ⟨by omega, by rintro _ ⟨⟩; omega, first, ["NOPRINT"], h1, h2, hnd', by simp, Or.inr ⟨rfl, by omega⟩⟩

/-! ## ICTL -/

theorem ictlForm_iff (i : Nat) (o : AOp) : ictlForm i o = none ↔ ∃ v, Decimal o v := by
  cases o with
  | simple t v =>
    cases v with
    | none => simp [ictlForm, Decimal]
    | some x =>
      simp only [ictlForm]
      constructor
      · intro h
        split at h
        next h' => exact ⟨x, t, (allDigits_iff t).1 h', rfl⟩
        next => simp at h
      · rintro ⟨v, t', h, e⟩
        cases e
        rw [if_pos ((allDigits_iff t).2 h)]
  | complex id ps => simp [ictlForm, Decimal]
  | empty => simp [ictlForm, Decimal]

theorem decimal_value {o : AOp} {v : Int} (h : Decimal o v) : o.value? = some v := by
  obtain ⟨t, -, rfl⟩ := h; rfl

theorem decimal_ne {v : Int} (h : Decimal .empty v) : False := by
  obtain ⟨t, -, e⟩ := h; cases e

theorem checkIctl2_iff (b e : Int) (c : Option Int) : checkIctl2 b e c = accept ↔
    1 ≤ b ∧ b ≤ 40 ∧ 41 ≤ e ∧ e ≤ 80 ∧ b + 5 ≤ e ∧ ∀ x, c = some x → 2 ≤ x ∧ x ≤ 40 ∧ b < x := by
  unfold checkIctl2
  rw [ite_accept, ite_accept, ite_accept]
  cases c with
  | none => simp; omega
  | some x => simp; omega

theorem ictl_iff (ops : List AOp) (hq : ¬ Quirk .ictl ops) : check .ictl ops = accept ↔ Valid .ictl ops := by
  show checkIctl ops = accept ↔ ∃ b e c, Columns ops b e c ∧ 1 ≤ b ∧ b ≤ 40 ∧ 41 ≤ e ∧ e ≤ 80 ∧ b + 5 ≤ e ∧
      ∀ x, c = some x → 2 ≤ x ∧ x ≤ 40 ∧ b < x
  unfold checkIctl
  rw [sized_accept]
  have hform : ∀ ops : List AOp, checkIctl3 ops = accept ↔
      ((∀ o ∈ ops, ∃ v, Decimal o v) ∧ checkIctl2 (ictlValues ops).1 (ictlValues ops).2.1 (ictlValues ops).2.2 = accept) := by
    intro ops
    unfold checkIctl3
    split
    · simp only [refuse_accept, false_iff, not_and]
      intro h
      obtain ⟨v, hv⟩ := h .empty (by simp)
      exact absurd hv decimal_ne
    · rw [← firstWrong_none ictlForm_iff ops 0]
      cases firstWrong ictlForm 0 ops with
      | none => simp
      | some d => simp [accept]
  rw [hform, checkIctl2_iff]
  unfold Quirk at hq
  simp only [not_or] at hq
  obtain ⟨q1, q2, q3⟩ := hq
  rcases ops with _ | ⟨x, _ | ⟨y, _ | ⟨z, _ | ⟨w, r⟩⟩⟩⟩
  · refine iff_of_false (by simp) ?_
    rintro ⟨b, e, c, h, -⟩; cases h
  · constructor
    · rintro ⟨-, -, h, h'⟩
      obtain ⟨b, hb⟩ := h x (by simp)
      simp only [ictlValues, decimal_value hb, Option.getD_some] at h'
      exact ⟨b, 72, none, .b x b hb, by omega, by omega, by omega, by omega, by omega, by simp⟩
    · rintro ⟨b, e, c, h, h'⟩
      cases h with
      | b _ _ hb =>
        refine ⟨by simp, by simp, by simpa using ⟨b, hb⟩, ?_⟩
        simp only [ictlValues, decimal_value hb, Option.getD_some]
        obtain ⟨t, ht, rfl⟩ := hb
        have h16 : b < 16 := by
          by_contra h
          exact q1 ⟨t, b, rfl, by omega⟩
        simp only [Option.some.injEq, forall_eq']
        omega
  · simp only [List.tail_cons, List.mem_cons, List.not_mem_nil, or_false] at q2
    constructor
    · rintro ⟨-, -, h, h'⟩
      obtain ⟨b, hb⟩ := h x (by simp)
      obtain ⟨e, he⟩ := h y (by simp)
      simp only [ictlValues, decimal_value hb, decimal_value he, Option.getD_some] at h'
      exact ⟨b, e, none, .be x y b e hb (Or.inl he), h'⟩
    · rintro ⟨b, e, c, h, h'⟩
      cases h with
      | be _ _ _ _ hb he =>
        rcases he with he | ⟨rfl, -⟩
        · refine ⟨by simp, by simp, ?_, ?_⟩
          · simp only [List.mem_cons, List.not_mem_nil, or_false]
            rintro o (rfl | rfl)
            · exact ⟨b, hb⟩
            · exact ⟨e, he⟩
          · simp only [ictlValues, decimal_value hb, decimal_value he, Option.getD_some]
            exact h'
        · exact absurd rfl q2
  · simp only [List.tail_cons, List.mem_cons, List.not_mem_nil, or_false, not_or] at q2
    have h80 : ∀ e, Decimal y e → e ≠ 80 := by
      rintro e ⟨t, -, rfl⟩ rfl
      exact q3 ⟨x, t, z, rfl⟩
    constructor
    · rintro ⟨-, -, h, h'⟩
      obtain ⟨b, hb⟩ := h x (by simp)
      obtain ⟨e, he⟩ := h y (by simp)
      obtain ⟨c, hc⟩ := h z (by simp)
      simp only [ictlValues, decimal_value hb, decimal_value he, decimal_value hc, Option.getD_some, if_neg (h80 e he)] at h'
      exact ⟨b, e, some c, .bec x y z b e c hb (Or.inl he) hc, h'⟩
    · rintro ⟨b, e, c, h, h'⟩
      cases h with
      | bec _ _ _ _ _ c hb he hc =>
        rcases he with he | ⟨rfl, -⟩
        · refine ⟨by simp, by simp, ?_, ?_⟩
          · simp only [List.mem_cons, List.not_mem_nil, or_false]
            rintro o (rfl | rfl | rfl)
            · exact ⟨b, hb⟩
            · exact ⟨e, he⟩
            · exact ⟨c, hc⟩
          · simp only [ictlValues, decimal_value hb, decimal_value he, decimal_value hc, Option.getD_some, if_neg (h80 e he)]
            exact h'
        · exact absurd rfl q2.1
      | be_ => exact absurd rfl q2.2
  · refine iff_of_false (by simp) ?_
    rintro ⟨b, e, c, h, -⟩; cases h

/-! ## DROP -/

theorem alpha_iff (c : Char) (h : c ∉ ['$', '_', '#', '@']) : c.isAlpha = true ↔ SymLetter c := by
  unfold SymLetter
  exact ⟨Or.inl, fun h' => h'.resolve_right h⟩

theorem ordSymbol_iff (l : List Char) (h : ∀ c ∈ l, c ∉ ['$', '_', '#', '@']) : ordSymbol l = true ↔ OrdinarySymbol l := by
  unfold OrdinarySymbol
  cases l with
  | nil => simp [ordSymbol]
  | cons c r =>
    have hc := alpha_iff c (h c (by simp))
    simp only [ordSymbol, Bool.and_eq_true, decide_eq_true_eq, List.all_cons, Char.isAlphanum, Bool.or_eq_true, List.all_eq_true]
    constructor
    · rintro ⟨⟨h1, h2⟩, h3, h4⟩
      refine ⟨c, r, rfl, hc.1 h2, fun d hd => ?_, h1⟩
      rcases h4 d hd with h | h
      · exact Or.inl (Or.inl h)
      · exact Or.inr h
    · rintro ⟨_, _, e, h1, h2, h3⟩
      cases e
      refine ⟨⟨h3, hc.2 h1⟩, Or.inl (hc.2 h1), fun d hd => ?_⟩
      rcases h2 d hd with h' | h'
      · exact Or.inl ((alpha_iff d (h d (by simp [hd]))).2 h')
      · exact Or.inr h'

theorem varSymbol_iff (l : List Char) (h : ∀ c ∈ l, c ∉ ['$', '_', '#', '@']) : varSymbol l = true ↔ VariableSymbol l := by
  unfold VariableSymbol
  cases l with
  | nil => simp [varSymbol]
  | cons c r =>
    simp only [varSymbol, Bool.and_eq_true, beq_iff_eq, ordSymbol_iff r (fun d hd => h d (by simp [hd]))]
    constructor
    · rintro ⟨rfl, h'⟩; exact ⟨r, rfl, h'⟩
    · rintro ⟨_, e, h'⟩; cases e; exact ⟨rfl, h'⟩

theorem firstWrong_none' {f : Nat → AOp → Option Diag} {P : AOp → Prop} :
    ∀ (ops : List AOp) (i : Nat), (∀ i, ∀ o ∈ ops, f i o = none ↔ P o) → (firstWrong f i ops = none ↔ ∀ o ∈ ops, P o)
  | [], _, _ => by simp [firstWrong]
  | o :: r, i, h => by
    rw [firstWrong, Option.or_eq_none_iff, h i o (by simp), firstWrong_none' r (i + 1) (fun i x hx => h i x (by simp [hx]))]
    simp

theorem drop_iff (ops : List AOp) (hq : ¬ Quirk .drop ops) : check .drop ops = accept ↔ Valid .drop ops := by
  show checkDrop ops = accept ↔ (ops = [.empty, .empty] ∨ ∀ o ∈ ops, (∃ v, Absolute o v ∧ 0 ≤ v ∧ v ≤ 15) ∨
      ∃ t, o = .simple t none ∧ (OrdinarySymbol t.toList ∨ VariableSymbol t.toList))
  have h : ∀ i, ∀ o ∈ ops, dropOperand i o = none ↔ ((∃ v, Absolute o v ∧ 0 ≤ v ∧ v ≤ 15) ∨
      ∃ t, o = .simple t none ∧ (OrdinarySymbol t.toList ∨ VariableSymbol t.toList)) := by
    intro i o ho
    cases o with
    | simple t v =>
      cases v with
      | some x =>
        have h15 : ¬ 15 < x := fun h => hq ⟨_, ho, Or.inl ⟨x, ⟨t, rfl⟩, h⟩⟩
        simp [dropOperand, Absolute, byteValue]
        omega
      | none =>
        have hc : ∀ c ∈ t.toList, c ∉ ['$', '_', '#', '@'] := fun c hc h => hq ⟨_, ho, Or.inr ⟨t, rfl, c, hc, h⟩⟩
        simp only [dropOperand]
        have : (ordSymbol t.toList || varSymbol t.toList) = true ↔ (OrdinarySymbol t.toList ∨ VariableSymbol t.toList) := by
          rw [Bool.or_eq_true, ordSymbol_iff _ hc, varSymbol_iff _ hc]
        by_cases hb : (ordSymbol t.toList || varSymbol t.toList) = true
        · rw [if_pos hb]
          exact iff_of_true rfl (Or.inr ⟨t, rfl, this.1 hb⟩)
        · rw [if_neg hb]
          refine iff_of_false (by simp) ?_
          rintro (⟨v, ⟨_, e⟩, _⟩ | ⟨_, e, h⟩)
          · cases e
          · cases e; exact hb (this.2 h)
    | complex id ps => simp [dropOperand, Absolute]
    | empty => simp [dropOperand, Absolute]
  unfold checkDrop
  split
  · simp
  next hne =>
    rw [outOf_accept, firstWrong_none' ops 0 h]
    exact ⟨Or.inr, fun h => h.resolve_left hne⟩

/-! ## CCW -/

theorem ccw_iff (ops : List AOp) (hq : ¬ Quirk .ccw ops) : check .ccw ops = accept ↔ Valid .ccw ops := by
  show sized 4 (some 4) ops (outOf (firstWrong ccwOperand 0 ops)) = accept ↔
    ∃ a b c d x z w t v, ops = [a, b, c, d] ∧ Absolute a x ∧ b = .simple t v ∧ Absolute c z ∧ Absolute d w
  have h : ∀ i, ∀ o ∈ ops, ccwOperand i o = none ↔ ∃ v, Absolute o v := by
    intro i o ho
    cases o with
    | simple t v =>
      cases v with
      | some x => simp [ccwOperand, Absolute]
      | none => exact absurd ⟨t, ho⟩ hq
    | complex id ps => simp [ccwOperand, Absolute]
    | empty => simp [ccwOperand, Absolute]
  rw [sized_accept, outOf_accept, firstWrong_none' ops 0 h]
  constructor
  · rintro ⟨h1, h2, h3⟩
    have := h2 4 rfl
    rcases ops with _ | ⟨a, _ | ⟨b, _ | ⟨c, _ | ⟨d, _ | ⟨e, r⟩⟩⟩⟩⟩ <;> simp at h1 this
    obtain ⟨x, hx⟩ := h3 a (by simp)
    obtain ⟨y, t, hy⟩ := h3 b (by simp)
    obtain ⟨z, hz⟩ := h3 c (by simp)
    obtain ⟨w, hw⟩ := h3 d (by simp)
    exact ⟨a, b, c, d, x, z, w, t, some y, rfl, hx, hy, hz, hw⟩
  · rintro ⟨a, b, c, d, x, z, w, t, v, rfl, ha, rfl, hc, hd⟩
    refine ⟨by simp, by simp, ?_⟩
    simp only [List.mem_cons, List.not_mem_nil, or_false]
    rintro o (rfl | rfl | rfl | rfl)
    · exact ⟨x, ha⟩
    · cases v with
      | none => exact absurd ⟨t, by simp⟩ hq
      | some y => exact ⟨y, t, rfl⟩
    · exact ⟨z, hc⟩
    · exact ⟨w, hd⟩

/-! ## ALIAS -/

theorem aliasChar_iff (c : Char) (h : c.toNat < 128) (ha : c ≠ '\'') : aliasChar c = true ↔ EbcdicInRange c := by
  have key : ∀ n : Fin 128, Char.ofNat n ≠ '\'' → (aliasChar (Char.ofNat n) = true ↔
      (0x42 ≤ (Ca.a2eTable.getD n 0).toNat ∧ (Ca.a2eTable.getD n 0).toNat ≤ 0xFE)) := by decide +kernel
  have e : Char.ofNat c.toNat = c := Char.ofNat_toNat c
  have := key ⟨c.toNat, h⟩ (by simpa [e] using ha)
  rw [show ((⟨c.toNat, h⟩ : Fin 128) : Nat) = c.toNat from rfl, e] at this
  rw [this]
  exact ⟨fun h' => ⟨h, h'⟩, fun h' => h'.2⟩

theorem aliasChar_iff' (c : Char) (ha : c ≠ '\'') : aliasChar c = true ↔ EbcdicInRange c := by
  by_cases h : c.toNat < 128
  · exact aliasChar_iff c h ha
  · refine iff_of_false (fun hc => h ?_) (fun hc => h hc.1)
    unfold aliasChar at hc
    rw [Bool.or_eq_true] at hc
    rcases hc with hc | hc
    · simp only [Char.isAlphanum, Char.isAlpha, Char.isUpper, Char.isLower, Char.isDigit, Bool.or_eq_true, Bool.and_eq_true,
        decide_eq_true_eq] at hc
      have hv : c.toNat = c.val.toNat := rfl
      rw [hv]
      simp only [UInt32.le_iff_toNat_le, ge_iff_le] at hc
      rcases hc with (⟨-, h⟩ | ⟨-, h⟩) | ⟨-, h⟩
      · exact Nat.lt_of_le_of_lt h (by decide)
      · exact Nat.lt_of_le_of_lt h (by decide)
      · exact Nat.lt_of_le_of_lt h (by decide)
    · have hall : ∀ d ∈ ".<(+|&!$*);-/,%_>?`,:#@=\"~[]{}^\\".toList, d.toNat < 128 := by decide +kernel
      exact hall c (List.contains_iff_mem.1 hc)

theorem alias_iff (ops : List AOp) (hq : ¬ Quirk .alias ops) : check .alias ops = accept ↔ Valid .alias ops := by
  show checkAlias ops = accept ↔ ∃ t v body, ops = [.simple t v] ∧ body ≠ [] ∧
      ((t.toList = 'C' :: '\'' :: (body ++ ['\'']) ∧ ∀ c ∈ body, EbcdicInRange c) ∨
        (t.toList = 'X' :: '\'' :: (body ++ ['\'']) ∧ HexBytes body))
  unfold checkAlias
  rw [sized_accept]
  rcases ops with _ | ⟨a, _ | ⟨b, r⟩⟩
  · simp
  · cases a with
    | complex id ps => simp
    | empty => simp
    | simple t v =>
      refine Iff.trans (b := ¬ t.length < 3 ∧ aliasText t.toList = accept) (by simp) ?_
      have hx : ∀ r, t.toList ≠ 'X' :: r := fun r h => hq ⟨t, v, r, rfl, Or.inl h⟩
      have he : t.toList ≠ ['C', '\'', '\''] := fun h => hq ⟨t, v, [], rfl, Or.inr (Or.inl h)⟩
      have hc : ∀ r, t.toList = 'C' :: '\'' :: r → '\'' ∉ r.dropLast := fun r h hm => hq ⟨t, v, r, rfl, Or.inr (Or.inr ⟨h, hm⟩)⟩
      rw [← length_toList]
      generalize hl : t.toList = l at hx he hc
      constructor
      · rintro ⟨h1, h2⟩
        unfold aliasText at h2
        split at h2
        next p r =>
          split at h2
          next hlast =>
            split at h2
            next hp =>
              subst hp
              rw [ite_accept', List.all_eq_true] at h2
              have hr : r ≠ [] := by rintro rfl; simp at hlast
              have hr' : r = r.dropLast ++ ['\''] := by
                rw [List.getLast?_eq_some_getLast hr, Option.some.injEq] at hlast
                rw [← hlast, List.dropLast_append_getLast hr]
              have hbody : r.dropLast ≠ [] := by
                intro h
                rw [h] at hr'
                exact he (by rw [hr']; rfl)
              refine ⟨t, v, r.dropLast, rfl, hbody, Or.inl ⟨by rw [hl, ← hr'], fun c hm => ?_⟩⟩
              refine (aliasChar_iff' c ?_).1 (h2.1 c hm)
              rintro rfl
              exact hc r rfl hm
            next =>
              split at h2
              next hp => subst hp; exact absurd rfl (hx _)
              next => simp [accept] at h2
          next => simp at h2
        next => simp at h2
      · rintro ⟨_, _, body, e, hb, (⟨h1, h2⟩ | ⟨h1, -⟩)⟩
        · cases e
          rw [hl] at h1
          subst h1
          refine ⟨by simp, ?_⟩
          simp only [aliasText]
          rw [if_pos (by simp), if_pos True.intro, ite_accept', List.all_eq_true]
          refine ⟨fun c hm => ?_, rfl⟩
          rw [List.dropLast_concat] at hm
          refine (aliasChar_iff' c ?_).2 (h2 c hm)
          rintro rfl
          exact hc _ rfl (by rw [List.dropLast_concat]; exact hm)
        · cases e
          rw [hl] at h1
          exact absurd h1 (hx _)
  · simp

/-! ## ADATA -/

theorem adataValue_iff (i : Nat) (o : AOp) : adataValue i o = none ↔ (o = .empty ∨ ∃ v, Absolute o v) := by
  cases o with
  | simple t v => cases v <;> simp [adataValue, Absolute]
  | complex id ps => simp [adataValue, Absolute]
  | empty => simp [adataValue]

theorem adata_iff (ops : List AOp) (hq : ¬ Quirk .adata ops) : check .adata ops = accept ↔ Valid .adata ops := by
  show checkAdata ops = accept ↔ ∃ a b c d e, ops = [a, b, c, d, e] ∧ (∀ o ∈ [a, b, c, d], o = .empty ∨ ∃ v, Absolute o v) ∧
      (e = .empty ∨ ∃ body, Enclosed e body ∧ body.length + 2 ≤ 255)
  unfold checkAdata
  rw [sized_accept]
  have hs : ∀ e ∈ ops, (adataString e = accept ↔ (e = .empty ∨ ∃ body, Enclosed e body ∧ body.length + 2 ≤ 255)) := by
    intro e he
    cases e with
    | empty => simp [adataString]
    | complex id ps => simp [adataString, Enclosed]
    | simple t v =>
      have hne : t ≠ "" := by rintro rfl; exact hq ⟨v, he⟩
      have hlen : t.length ≠ 0 := by
        rw [← length_toList]
        intro h
        exact hne (String.toList_inj.1 (by rw [List.length_eq_zero_iff.1 h]; rfl))
      have hne' : t.toList.isEmpty = false := by
        rw [List.isEmpty_eq_false_iff]
        intro h
        rw [← length_toList, h] at hlen
        exact hlen rfl
      simp only [adataString, charString, hne', length_toList, Bool.false_or]
      rcases text_cases t with ⟨h1, h2⟩ | ⟨h1, body, e, hl⟩
      · rw [if_pos (c := t.length = 1 ∨ _) (by rcases h1 with h1 | h1 <;> [exact Or.inl (by omega); skip]
                                               by_cases h : t.length = 1
                                               · exact Or.inl h
                                               · exact Or.inr ⟨by omega, h1⟩)]
        refine iff_of_false ?_ ?_
        · split <;> simp [accept]
        · rintro (h | ⟨body, h, -⟩)
          · cases h
          · exact h2 body ((enclosed_iff t v body).1 h)
      · rw [not_or] at h1
        rw [if_neg (c := t.length = 1 ∨ _) (by rintro (h | ⟨-, h⟩) <;> [omega; exact h1.2 h])]
        constructor
        · intro h
          split at h
          next h' =>
            simp at h'
            exact Or.inr ⟨body, (enclosed_iff t v body).2 e, by omega⟩
          next => simp [accept] at h
        · rintro (h | ⟨body', h, h'⟩)
          · cases h
          · rw [enclosed_iff, e] at h
            obtain rfl : body = body' := by simpa using h
            rw [if_pos (by simp; omega)]
            rfl
  have hf := fun l => firstWrong_none adataValue_iff l 0
  constructor
  · rintro ⟨h1, h2, h3⟩
    have := h2 5 rfl
    rcases ops with _ | ⟨a, _ | ⟨b, _ | ⟨c, _ | ⟨d, _ | ⟨e, _ | ⟨f, r⟩⟩⟩⟩⟩⟩ <;> simp at h1 this
    simp only [List.dropLast, List.getLast?] at h3
    cases hw : firstWrong adataValue 0 [a, b, c, d] with
    | some x => rw [hw] at h3; simp [accept] at h3
    | none =>
      rw [hw] at h3
      exact ⟨a, b, c, d, e, rfl, (hf _).1 hw, (hs e (by simp)).1 h3⟩
  · rintro ⟨a, b, c, d, e, rfl, h1, h2⟩
    refine ⟨by simp, by simp, ?_⟩
    simp only [List.dropLast, List.getLast?]
    rw [(hf _).2 h1]
    exact (hs e (by simp)).2 h2

end Verif.AsmCheck
