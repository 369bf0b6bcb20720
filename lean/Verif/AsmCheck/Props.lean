import Verif.AsmCheck.Spec
import Mathlib.Data.Nat.Bitwise

/-!
The checks of the operands of assembler instructions accept what the messages ask for (C102).
-/
namespace Verif.AsmCheck

theorem refuse_ne (c : Nat) (p : Where) : refuse c p ≠ accept := by simp [refuse, accept]

@[simp] theorem refuse_accept (c : Nat) (p : Where) : (refuse c p = accept) ↔ False := by simp [refuse, accept]

@[simp] theorem ite_accept (p : Prop) [Decidable p] (c : Nat) (w : Where) (k : Out) :
    ((if p then refuse c w else k) = accept) ↔ ¬ p ∧ k = accept := by
  by_cases h : p <;> simp [h]

@[simp] theorem ite_accept' (p : Prop) [Decidable p] (c : Nat) (w : Where) (k : Out) :
    ((if p then k else refuse c w) = accept) ↔ p ∧ k = accept := by
  by_cases h : p <;> simp [h]

theorem sized_accept (lo : Nat) (hi : Option Nat) (ops : List AOp) (k : Out) :
    sized lo hi ops k = accept ↔ lo ≤ ops.length ∧ (∀ h, hi = some h → ops.length ≤ h) ∧ k = accept := by
  unfold sized
  by_cases h : (decide (lo ≤ ops.length) && hi.all (fun h => decide (ops.length ≤ h))) = true
  · rw [if_pos h]
    simp only [Bool.and_eq_true, decide_eq_true_eq] at h
    cases hi with
    | none => simp [h.1]
    | some x => simp at h; simp [h.1, h.2]
  · rw [if_neg h]
    constructor
    · intro e
      cases hi with
      | none => simp at e
      | some x => simp only at e; split at e <;> [skip; split at e] <;> simp at e
    · rintro ⟨h1, h2, -⟩
      refine absurd ?_ h
      cases hi with
      | none => simp [h1]
      | some x => simp [h1, h2 x rfl]

@[simp] theorem outOf_accept (o : Option Diag) : outOf o = accept ↔ o = none := by
  cases o <;> simp [outOf, accept]

theorem firstWrong_none {f : Nat → AOp → Option Diag} {P : AOp → Prop} (h : ∀ i o, f i o = none ↔ P o) :
    ∀ (ops : List AOp) (i : Nat), firstWrong f i ops = none ↔ ∀ o ∈ ops, P o
  | [], _ => by simp [firstWrong]
  | o :: r, i => by
    rw [firstWrong, Option.or_eq_none_iff, h, firstWrong_none h r]
    simp

theorem isDigit_iff (c : Char) : c.isDigit = true ↔ '0' ≤ c ∧ c ≤ '9' := by
  rw [Char.isDigit, Bool.and_eq_true, decide_eq_true_eq, decide_eq_true_eq]
  exact Iff.rfl

theorem allDigits_iff (t : String) : allDigits t = true ↔ Digits t := by
  unfold allDigits Digits
  rw [List.all_eq_true]
  simp only [isDigit_iff]

theorem among_iff (o : AOp) (l l' : List String) (h : ∀ t, l.contains t = true ↔ t ∈ l') : o.among l = true ↔ OneOf l' o := by
  unfold AOp.among OneOf
  cases o with
  | simple t v =>
    simp only [AOp.text?, Option.any_some, h]
    exact ⟨fun m => ⟨t, v, m, rfl⟩, by rintro ⟨_, _, m, e⟩; cases e; exact m⟩
  | complex id ps => simp [AOp.text?]
  | empty => simp [AOp.text?]

theorem value_iff (o : AOp) (v : Int) : o.value? = some v ↔ Absolute o v := by
  unfold Absolute
  cases o with
  | simple t x =>
    simp only [AOp.value?]
    exact ⟨by rintro rfl; exact ⟨t, rfl⟩, by rintro ⟨_, e⟩; cases e; rfl⟩
  | complex id ps => simp [AOp.value?]
  | empty => simp [AOp.value?]

theorem text_iff (o : AOp) : (o.text?.any (· ≠ "")) = true ↔ Name o := by
  unfold Name
  cases o with
  | simple t v =>
    simp only [AOp.text?, Option.any_some, decide_eq_true_eq]
    exact ⟨fun m => ⟨t, v, m, rfl⟩, by rintro ⟨_, _, m, e⟩; cases e; exact m⟩
  | complex id ps => simp [AOp.text?]
  | empty => simp [AOp.text?]

theorem powerOfTwo_iff (n : Int) (h : 2 ≤ n) : powerOfTwo n = true ↔ ∃ k : Nat, n = 2 ^ k := by
  obtain ⟨m, rfl⟩ := Int.eq_ofNat_of_zero_le (by omega : (0 : Int) ≤ n)
  unfold powerOfTwo
  rw [if_pos (by omega), beq_iff_eq]
  simp only [Int.ofNat_eq_natCast, Int.toNat_natCast]
  rw [Nat.and_sub_one_eq_zero_iff_isPowerOfTwo (by omega), Nat.isPowerOfTwo]
  exact ⟨fun ⟨k, h⟩ => ⟨k, by rw [h]; push_cast; rfl⟩, fun ⟨k, h⟩ => ⟨k, by exact_mod_cast h⟩⟩

/-! ## One instruction at a time -/

theorem noOperands_iff (ops : List AOp) : check .noOperands ops = accept ↔ Valid .noOperands ops := by
  show sized 0 (some 0) ops accept = accept ↔ ops = []
  rw [sized_accept]
  simp

theorem expression_iff (ops : List AOp) (hq : ¬ Quirk .expression ops) : check .expression ops = accept ↔ Valid .expression ops := by
  show checkExpression ops = accept ↔ (ops = [] ∨ ops = [.empty, .empty] ∨ ∃ o v, ops = [o] ∧ Absolute o v ∧ 0 ≤ v)
  match ops, hq with
  | [], _ => simp [checkExpression]
  | [.empty, .empty], _ => simp [checkExpression]
  | [.simple t none], _ => simp [checkExpression, sized_accept, checkExpression1, Absolute]
  | [.simple t (some v)], hq =>
    have h0 : v ≠ 0 := by rintro rfl; exact hq ⟨t, rfl⟩
    simp [checkExpression, sized_accept, checkExpression1, Absolute]
    omega
  | [.complex id ps], _ => simp [checkExpression, sized_accept, checkExpression1, Absolute]
  | [.empty], _ => simp [checkExpression, sized_accept, checkExpression1, Absolute]
  | .simple _ _ :: _ :: r, _ => simp [checkExpression, sized_accept]
  | .complex _ _ :: _ :: r, _ => simp [checkExpression, sized_accept]
  | .empty :: .simple _ _ :: r, _ => simp [checkExpression, sized_accept]
  | .empty :: .complex _ _ :: r, _ => simp [checkExpression, sized_accept]
  | .empty :: .empty :: _ :: r, _ => simp [checkExpression, sized_accept]

theorem length_two {α : Type} {l : List α} : l.length = 2 ↔ ∃ a b, l = [a, b] := by
  constructor
  · intro h
    match l, h with
    | [a, b], _ => exact ⟨a, b, rfl⟩
  · rintro ⟨a, b, rfl⟩; rfl

theorem cnop_iff (ops : List AOp) : check .cnop ops = accept ↔ Valid .cnop ops := by
  show checkCnop ops = accept ↔ ∃ a b x y, ops = [a, b] ∧ Absolute a x ∧ Absolute b y ∧ (∃ k : Nat, y = 2 ^ k) ∧ 2 ≤ y ∧ y ≤ 4096 ∧
      x % 2 = 0 ∧ 0 ≤ x ∧ x ≤ y - 2
  unfold checkCnop
  rw [sized_accept]
  constructor
  · rintro ⟨h1, h2, h3⟩
    obtain ⟨a, b, rfl⟩ := length_two.1 (Nat.le_antisymm (h2 2 rfl) h1)
    simp only at h3
    cases ha : a.value? with
    | none => simp [ha] at h3
    | some x =>
      cases hb : b.value? with
      | none => simp [ha, hb] at h3
      | some y =>
        simp only [ha, hb] at h3
        unfold checkCnop2 at h3
        rw [ite_accept, ite_accept, ite_accept] at h3
        obtain ⟨h1, h2, h3, -⟩ := h3
        have hp : powerOfTwo y = true := by cases h : powerOfTwo y <;> simp_all
        exact ⟨a, b, x, y, rfl, (value_iff a x).1 ha, (value_iff b y).1 hb, (powerOfTwo_iff y (by omega)).1 hp, by omega, by omega,
          by omega, by omega, by omega⟩
  · rintro ⟨a, b, x, y, rfl, ha, hb, hp, h2, h3, h4, h5, h6⟩
    refine ⟨by simp, by simp, ?_⟩
    simp only [(value_iff a x).2 ha, (value_iff b y).2 hb]
    unfold checkCnop2
    rw [if_neg (by omega), if_neg (by rw [(powerOfTwo_iff y h2).2 hp]; simp; omega), if_neg (by omega)]

theorem iseq_iff (ops : List AOp) (hq : ¬ Quirk .iseq ops) : check .iseq ops = accept ↔ Valid .iseq ops := by
  show checkIseq ops = accept ↔ (ops = [] ∨ ∃ a b l r, ops = [a, b] ∧ Decimal a l ∧ Decimal b r ∧ 1 ≤ l ∧ l ≤ r ∧ r ≤ 80)
  have hd : ∀ o ∈ ops, ∀ v, o.value? = some v ↔ Decimal o v := by
    intro o ho v
    rw [value_iff]
    constructor
    · rintro ⟨t, rfl⟩
      refine ⟨t, Classical.byContradiction fun h => hq ⟨t, v, ho, h⟩, rfl⟩
    · rintro ⟨t, -, e⟩; exact ⟨t, e⟩
  match ops, hd with
  | [], _ => simp [checkIseq]
  | [_], _ => simp [checkIseq]
  | _ :: _ :: _ :: _, _ => simp [checkIseq]
  | [a, b], hd =>
    simp only [checkIseq]
    have hda := hd a (by simp)
    have hdb := hd b (by simp)
    constructor
    · intro h
      cases ha : a.value? with
      | none => simp [ha] at h
      | some x =>
        cases hb : b.value? with
        | none => simp [ha, hb] at h
        | some y =>
          simp only [ha, hb, checkIseq2] at h
          split at h
          next h' => exact Or.inr ⟨a, b, x, y, rfl, (hda x).1 ha, (hdb y).1 hb, by omega, by omega, by omega⟩
          next => simp at h
    · rintro (h | ⟨_, _, x, y, e, ha, hb, h⟩)
      · simp at h
      · cases e
        simp only [(hda x).2 ha, (hdb y).2 hb, checkIseq2]
        rw [if_pos (by omega)]

theorem entry_iff (ops : List AOp) : check .entry ops = accept ↔ Valid .entry ops := by
  show sized 1 none ops (if ops.length > 65535 then refuse 14 .stmt else outOf (firstWrong entryOperand 0 ops)) = accept ↔
    (ops ≠ [] ∧ ops.length ≤ 65535 ∧ ∀ o ∈ ops, Name o)
  have h : ∀ i o, entryOperand i o = none ↔ Name o := by
    intro i o
    unfold entryOperand
    rw [← text_iff]
    split <;> simp_all
  rw [sized_accept, ite_accept, outOf_accept, firstWrong_none h]
  cases ops with
  | nil => simp
  | cons o r => simp

theorem external_iff (ops : List AOp) (hq : ¬ Quirk .external ops) : check .external ops = accept ↔ Valid .external ops := by
  show sized 1 none ops (outOf (firstWrong externalOperand 0 ops)) = accept ↔
    (ops ≠ [] ∧ ∀ o ∈ ops, Name o ∨ ∃ ps, o = .complex "PART" ps ∧ ps ≠ [] ∧ ∀ p ∈ ps, Name p)
  have h : ∀ i o, externalOperand i o = none ↔ (Name o ∨ ∃ ps, o = .complex "PART" ps ∧ ∀ p ∈ ps, Name p) := by
    intro i o
    cases o with
    | simple t v =>
      simp only [externalOperand]
      constructor
      · intro h
        refine Or.inl ⟨t, v, ?_, rfl⟩
        rintro rfl
        simp at h
      · rintro (⟨_, _, h, e⟩ | ⟨_, e, _⟩) <;> cases e
        rw [if_neg h]
    | empty => simp [externalOperand, Name]
    | complex id ps =>
      simp only [externalOperand]
      by_cases hid : id = "PART"
      · subst hid
        have : ps.all (fun p => p.text?.any (· ≠ "")) = true ↔ ∀ p ∈ ps, Name p := by
          rw [List.all_eq_true]
          simp only [text_iff]
        rw [if_neg (by simp)]
        constructor
        · intro h
          split at h
          next h' => exact Or.inr ⟨ps, rfl, this.1 h'⟩
          next => simp at h
        · rintro (⟨_, _, _, e⟩ | ⟨_, e, h⟩) <;> cases e
          rw [if_pos (this.2 h)]
      · simp [hid, Name]
  rw [sized_accept, outOf_accept, firstWrong_none h]
  constructor
  · rintro ⟨h1, -, h3⟩
    refine ⟨by rintro rfl; simp at h1, fun o ho => ?_⟩
    rcases h3 o ho with h | ⟨ps, rfl, h⟩
    · exact Or.inl h
    · refine Or.inr ⟨ps, rfl, ?_, h⟩
      rintro rfl
      exact hq ho
  · rintro ⟨h1, h2⟩
    refine ⟨List.length_pos_of_ne_nil h1, by simp, fun o ho => ?_⟩
    rcases h2 o ho with h | ⟨ps, rfl, -, h⟩
    · exact Or.inl h
    · exact Or.inr ⟨ps, rfl, h⟩

theorem quoted_iff (l : List Char) : (2 ≤ l.length ∧ quoted l = true) ↔ ∃ body, l = '\'' :: (body ++ ['\'']) := by
  unfold quoted
  constructor
  · rintro ⟨h1, h2⟩
    rcases l with _ | ⟨c, r⟩
    · simp at h1
    · rw [Bool.and_eq_true, beq_iff_eq, beq_iff_eq] at h2
      obtain ⟨h2, h3⟩ := h2
      simp at h2
      subst h2
      have hr : r ≠ [] := by rintro rfl; simp at h1
      rw [List.getLast?_cons, Option.some.injEq] at h3
      refine ⟨r.dropLast, ?_⟩
      rw [List.getLast?_eq_some_getLast hr, Option.getD_some] at h3
      rw [← h3, List.dropLast_append_getLast hr]
  · rintro ⟨body, rfl⟩
    refine ⟨by simp, ?_⟩
    rw [Bool.and_eq_true, beq_iff_eq, beq_iff_eq]
    refine ⟨rfl, ?_⟩
    rw [← List.cons_append, List.getLast?_append]
    rfl

theorem enclosed_iff (t : String) (v : Option Int) (body : List Char) :
    Enclosed (.simple t v) body ↔ t.toList = '\'' :: (body ++ ['\'']) := by
  constructor
  · rintro ⟨_, _, h, e⟩; cases e; exact h
  · exact fun h => ⟨t, v, h, rfl⟩

theorem length_toList (t : String) : t.toList.length = t.length := String.length_toList

/-- A text that is enclosed in apostrophes, or not. -/
theorem text_cases (t : String) : (t.length < 2 ∨ quoted t.toList = false) ∧ (∀ body, t.toList ≠ '\'' :: (body ++ ['\''])) ∨
    ¬ (t.length < 2 ∨ quoted t.toList = false) ∧ ∃ body, t.toList = '\'' :: (body ++ ['\'']) ∧ t.length = body.length + 2 := by
  by_cases h : t.length < 2 ∨ quoted t.toList = false
  · refine Or.inl ⟨h, fun body e => ?_⟩
    have := (quoted_iff t.toList).2 ⟨body, e⟩
    rw [length_toList] at this
    rcases h with h | h
    · omega
    · rw [h] at this; exact absurd this.2 (by simp)
  · refine Or.inr ⟨h, ?_⟩
    rw [not_or, Bool.not_eq_false] at h
    obtain ⟨body, e⟩ := (quoted_iff t.toList).1 ⟨by rw [length_toList]; omega, h.2⟩
    refine ⟨body, e, ?_⟩
    rw [← length_toList, e]; simp

theorem end_iff (ops : List AOp) : check .end_ ops = accept ↔ Valid .end_ ops := by
  show checkEnd ops = accept ↔ (ops = [] ∨ ∃ o r, ops = o :: r ∧ (o = .empty ∨ ∃ t v, o = .simple t v) ∧
      (r = [] ∨ r = [.empty] ∨ ∃ a b c va vb vc, r = [.complex "" [.simple a va, .simple b vb, .simple c vc]] ∧
        1 ≤ a.length ∧ a.length ≤ 10 ∧ b.length = 4 ∧ c.length = 5 ∧ Digits c))
  have hp : ∀ i o, endParam i o = none ↔ ∃ t v, o = .simple t v := by
    intro i o
    cases o <;> simp [endParam, AOp.text?]
  have hl : ∀ l, endLanguage l = accept ↔ (l = .empty ∨ ∃ a b c va vb vc, l = .complex "" [.simple a va, .simple b vb, .simple c vc] ∧
        1 ≤ a.length ∧ a.length ≤ 10 ∧ b.length = 4 ∧ c.length = 5 ∧ Digits c) := by
    intro l
    cases l with
    | empty => simp [endLanguage]
    | simple t v => simp [endLanguage]
    | complex id ps =>
      simp only [endLanguage]
      rw [ite_accept, ite_accept]
      constructor
      · rintro ⟨h1, h2, h3⟩
        rcases ps with _ | ⟨p, _ | ⟨q, _ | ⟨r, _ | _⟩⟩⟩ <;> simp at h1
        cases hf : firstWrong endParam 0 [p, q, r] with
        | some d => rw [hf] at h3; simp [accept] at h3
        | none =>
          rw [hf] at h3
          have hall := (firstWrong_none hp _ _).1 hf
          obtain ⟨a, va, rfl⟩ := hall p (by simp)
          obtain ⟨b, vb, rfl⟩ := hall q (by simp)
          obtain ⟨c, vc, rfl⟩ := hall r (by simp)
          simp only [List.filterMap_cons, AOp.text?, List.filterMap_nil, endTexts] at h3
          rw [ite_accept, ite_accept, ite_accept] at h3
          obtain ⟨h3, h4, h5, -⟩ := h3
          have h6 : allDigits c = true := by cases h : allDigits c <;> simp_all
          exact Or.inr ⟨a, b, c, va, vb, vc, by simpa using h2, by omega, by omega, by omega, by omega, (allDigits_iff c).1 h6⟩
      · rintro (h | ⟨a, b, c, va, vb, vc, e, h1, h2, h3, h4, h5⟩)
        · cases h
        · cases e
          have hf : firstWrong endParam 0 [AOp.simple a va, .simple b vb, .simple c vc] = none := by simp [firstWrong, endParam, AOp.text?]
          refine ⟨by simp, by simp, ?_⟩
          rw [hf]
          simp only [List.filterMap_cons, AOp.text?, List.filterMap_nil, endTexts]
          rw [if_neg (by omega), if_neg (by omega), if_neg (by rw [(allDigits_iff c).2 h5]; simp; omega)]
  unfold checkEnd
  rw [sized_accept]
  rcases ops with _ | ⟨o, _ | ⟨l, _ | ⟨x, r⟩⟩⟩
  · simp
  · cases o <;> simp [AOp.isComplex]
  · have : ∀ q, (endLanguage l = accept ↔ q) → ((0 ≤ [o, l].length ∧ (∀ h, some 2 = some h → [o, l].length ≤ h) ∧
        (if o.isComplex = true then refuse 243 (.op 0) else endLanguage l) = accept) ↔ (o.isComplex = false ∧ q)) := by
      intro q hq
      rw [ite_accept, hq]; simp
    refine (this _ (hl l)).trans ?_
    cases o <;> simp [AOp.isComplex]
  · simp

theorem mnote_iff (ops : List AOp) (hq : ¬ Quirk .mnote ops) : check .mnote ops = accept ↔ Valid .mnote ops := by
  show checkMnote ops = accept ↔ ∃ m body, Enclosed m body ∧ body.length ≤ 1020 ∧
      (ops = [m] ∨ ops = [.empty, m] ∨ ∃ s v, ops = [.simple s v, m] ∧ s.length + (body.length + 2) ≤ 1024 ∧
        (s = "*" ∨ (Digits s ∧ ∃ n, v = some n ∧ 0 ≤ n ∧ n ≤ 255)))
  have hlast : ∀ t v, AOp.simple t v ∈ ops → ∀ body, t.toList = '\'' :: (body ++ ['\'']) → body.length ≤ 1018 := by
    intro t v hm body e
    by_contra h
    exact hq ⟨_, hm, body, (enclosed_iff t v body).2 e, by omega⟩
  have hnone : ∀ t i, (∀ body, t.toList = '\'' :: (body ++ ['\'']) → body.length ≤ 1018) →
      (mnoteTexts t i none = accept ↔ ∃ body, t.toList = '\'' :: (body ++ ['\'']) ∧ body.length ≤ 1020) := by
    intro t i hb
    unfold mnoteTexts
    rw [ite_accept, ite_accept]
    rcases text_cases t with ⟨h1, h2⟩ | ⟨h1, body, e, hl⟩
    · exact ⟨fun h => absurd h1 h.1, fun ⟨body, e, _⟩ => absurd e (h2 body)⟩
    · exact ⟨fun h => ⟨body, e, by have := hb body e; omega⟩, fun h => ⟨h1, by have := hb body e; omega, rfl⟩⟩
  have hsome : ∀ t i s v, (∀ body, t.toList = '\'' :: (body ++ ['\'']) → body.length ≤ 1018) →
      (mnoteTexts t i (some (s, v)) = accept ↔ ∃ body, t.toList = '\'' :: (body ++ ['\'']) ∧ body.length ≤ 1020 ∧
        s.length + (body.length + 2) ≤ 1024 ∧ (s = "*" ∨ (Digits s ∧ ∃ n, v = some n ∧ 0 ≤ n ∧ n ≤ 255))) := by
    intro t i s v hb
    unfold mnoteTexts
    rw [ite_accept, ite_accept]
    simp only
    rw [ite_accept]
    have hv : (v.any byteValue = true) ↔ ∃ n, v = some n ∧ 0 ≤ n ∧ n ≤ 255 := by
      cases v with
      | none => simp
      | some n => simp [byteValue]; omega
    have hs : ((if s = "*" then accept else if allDigits s = false then refuse 119 (.op 0) else
        if v.any byteValue = true then accept else refuse 119 (.op 0)) = accept) ↔
        (s = "*" ∨ (Digits s ∧ ∃ n, v = some n ∧ 0 ≤ n ∧ n ≤ 255)) := by
      by_cases h : s = "*"
      · simp [h]
      · rw [if_neg h, ite_accept, ite_accept', ← hv, ← allDigits_iff]
        simp [h]
    rw [hs]
    rcases text_cases t with ⟨h1, h2⟩ | ⟨h1, body, e, hl⟩
    · exact ⟨fun h => absurd h1 h.1, fun ⟨body, e, _⟩ => absurd e (h2 body)⟩
    · constructor
      · rintro ⟨-, h2, h3, h4⟩
        exact ⟨body, e, by have := hb body e; omega, by omega, h4⟩
      · rintro ⟨body', e', h2, h3, h4⟩
        rw [e] at e'
        obtain rfl : body = body' := by simpa using e'
        exact ⟨h1, by have := hb body e; omega, by omega, h4⟩
  unfold checkMnote
  rw [sized_accept]
  rcases ops with _ | ⟨a, _ | ⟨b, _ | ⟨c, r⟩⟩⟩
  · simp
  · cases a with
    | simple t v =>
      refine Iff.trans (b := ∃ body, t.toList = '\'' :: (body ++ ['\'']) ∧ body.length ≤ 1020) ?_ ?_
      · rw [← hnone t 0 (hlast t v (by simp))]; simp
      · constructor
        · rintro ⟨body, h1, h2⟩; exact ⟨_, body, (enclosed_iff t v body).2 h1, h2, Or.inl rfl⟩
        · rintro ⟨_, body, h1, h2, (h | h | ⟨_, _, h, _⟩)⟩ <;> cases h
          exact ⟨body, (enclosed_iff t v body).1 h1, h2⟩
    | complex id ps =>
      refine iff_of_false (by simp) ?_
      rintro ⟨m, body, ⟨t, v, -, rfl⟩, -, h⟩; simp at h
    | empty =>
      refine iff_of_false (by simp) ?_
      rintro ⟨m, body, ⟨t, v, -, rfl⟩, -, h⟩; simp at h
  · cases b with
    | simple t v =>
      have hb := hlast t v (by simp)
      cases a with
      | simple s w =>
        refine Iff.trans (b := mnoteTexts t 1 (some (s, w)) = accept) (by simp) ?_
        rw [hsome t 1 s w hb]
        constructor
        · rintro ⟨body, h1, h2, h3⟩
          exact ⟨_, body, (enclosed_iff t v body).2 h1, h2, Or.inr (Or.inr ⟨s, w, rfl, h3⟩)⟩
        · rintro ⟨_, body, h1, h2, (h | h | ⟨_, _, h, h3⟩)⟩ <;> cases h
          exact ⟨body, (enclosed_iff t v body).1 h1, h2, h3⟩
      | empty =>
        refine Iff.trans (b := mnoteTexts t 1 none = accept) (by simp) ?_
        rw [hnone t 1 hb]
        constructor
        · rintro ⟨body, h1, h2⟩
          exact ⟨_, body, (enclosed_iff t v body).2 h1, h2, Or.inr (Or.inl rfl)⟩
        · rintro ⟨_, body, h1, h2, (h | h | ⟨_, _, h, h3⟩)⟩ <;> cases h
          exact ⟨body, (enclosed_iff t v body).1 h1, h2⟩
      | complex id ps =>
        refine iff_of_false (by simp) ?_
        rintro ⟨m, body, -, -, h⟩; simp at h
    | complex id ps =>
      refine iff_of_false ?_ ?_
      · rintro ⟨-, -, h⟩
        cases a <;> simp at h
      · rintro ⟨m, body, ⟨t, v, -, rfl⟩, -, h⟩; simp at h
    | empty =>
      refine iff_of_false ?_ ?_
      · rintro ⟨-, -, h⟩
        cases a <;> simp at h
      · rintro ⟨m, body, ⟨t, v, -, rfl⟩, -, h⟩; simp at h
  · refine iff_of_false (by simp) ?_
    rintro ⟨m, body, -, -, h⟩; simp at h

theorem opsyn_iff (ops : List AOp) : check .opsyn ops = accept ↔ Valid .opsyn ops := by
  show checkOpsyn ops = accept ↔ (ops = [] ∨ ops = [.empty] ∨ ∃ t v, ops = [.simple t v])
  unfold checkOpsyn
  rw [sized_accept]
  rcases ops with _ | ⟨a, _ | ⟨b, r⟩⟩
  · simp
  · cases a <;> simp [AOp.isComplex]
  · simp

theorem print_iff (ops : List AOp) : check .print ops = accept ↔ Valid .print ops := by
  show sized 1 none ops (outOf (firstWrong printOperand 0 ops)) = accept ↔ (ops ≠ [] ∧ ∀ o ∈ ops, OneOf _ o)
  have h : ∀ i o, printOperand i o = none ↔ OneOf ["GEN", "NOGEN", "DATA", "NODATA", "MCALL", "NOMCALL", "MSOURCE", "NOMSOURCE",
      "UHEAD", "NOUHEAD", "ON", "OFF", "NOPRINT"] o := by
    intro i o
    rw [← among_iff o printOptions _ (by intro t; simp [printOptions]; tauto)]
    unfold printOperand
    split <;> simp_all
  rw [sized_accept, outOf_accept, firstWrong_none h]
  cases ops with
  | nil => simp
  | cons o r => simp

theorem one_iff (l l' : List String) (code : Nat) (ops : List AOp) (h : ∀ t, l.contains t = true ↔ t ∈ l') :
    sized 1 (some 1) ops (if ops.head?.any (·.among l) then accept else refuse code (.op 0)) = accept ↔ ∃ o, ops = [o] ∧ OneOf l' o := by
  rw [sized_accept]
  rcases ops with _ | ⟨a, _ | ⟨b, r⟩⟩
  · simp
  · rw [ite_accept']
    simp only [List.head?_cons, Option.any_some, among_iff a l l' h]
    simp
  · simp

theorem rmode_iff (ops : List AOp) : check .rmode ops = accept ↔ Valid .rmode ops :=
  one_iff rmodeOptions _ 107 ops (by intro t; simp [rmodeOptions])

theorem amode_iff (ops : List AOp) : check .amode ops = accept ↔ Valid .amode ops :=
  one_iff amodeOptions _ 150 ops (by intro t; simp [amodeOptions])

theorem punch_body {b : List Char} {n : Nat} (h : Body b n) :
    punchSize (b ++ ['\'']) = n ∧ punchSize ('\'' :: (b ++ ['\''])) = n + 1 := by
  induction h with
  | nil => exact ⟨by simp [punchSize], by simp [punchSize]⟩
  | @char c r n h1 h2 _ ih =>
    have hs : punchSize (c :: r ++ ['\'']) = n + 1 := by
      rcases hr : r ++ ['\''] with _ | ⟨x, y⟩
      · simp at hr
      · rw [List.cons_append, hr, punchSize, if_neg (by simp [h1, h2]), ← hr, ih.1]; omega
    refine ⟨hs, ?_⟩
    rw [List.cons_append, punchSize, if_neg (by simp [h1]), ← List.cons_append, hs]; omega
  | @apostrophe r n _ ih =>
    refine ⟨?_, ?_⟩
    · rw [List.cons_append, List.cons_append, punchSize, if_pos (by simp), ih.1]; omega
    · rw [List.cons_append, List.cons_append, punchSize, if_pos (by simp), ih.2]; omega
  | @ampersand r n _ ih =>
    have hs : punchSize ('&' :: '&' :: r ++ ['\'']) = n + 1 := by
      rw [List.cons_append, List.cons_append, punchSize, if_pos (by simp), ih.1]; omega
    refine ⟨hs, ?_⟩
    rw [List.cons_append, punchSize, if_neg (by decide), ← List.cons_append, hs]; omega

theorem Body.unique {b : List Char} {n m : Nat} (h : Body b n) (h' : Body b m) : n = m :=
  (punch_body h).1.symm.trans (punch_body h').1

theorem punch_iff (ops : List AOp) (hq : ¬ Quirk .punch ops) : check .punch ops = accept ↔ Valid .punch ops := by
  show checkPunch ops = accept ↔ ∃ o body n, ops = [o] ∧ Enclosed o body ∧ Body body n ∧ n ≤ 80
  unfold checkPunch
  rw [sized_accept]
  rcases ops with _ | ⟨a, _ | ⟨b, r⟩⟩
  · simp
  · cases a with
    | simple t v =>
      refine Iff.trans (b := ¬ (t.length < 2 ∨ quoted t.toList = false) ∧ punchSize t.toList ≤ 80) (by simp) ?_
      rcases text_cases t with ⟨h1, h2⟩ | ⟨h1, body, e, hl⟩
      · refine iff_of_false (fun h => h.1 h1) ?_
        rintro ⟨_, body, n, h, he, -⟩
        cases h
        exact h2 body ((enclosed_iff t v body).1 he)
      · have henc := (enclosed_iff t v body).2 e
        obtain ⟨n, hb⟩ : ∃ n, Body body n := by
          by_contra h
          exact hq ⟨_, body, rfl, henc, Or.inr (not_exists.1 h)⟩
        have h80 : n ≠ 80 := by
          rintro rfl
          exact hq ⟨_, body, rfl, henc, Or.inl hb⟩
        rw [e, (punch_body hb).2]
        constructor
        · rintro ⟨-, h⟩
          exact ⟨_, body, n, rfl, henc, hb, by omega⟩
        · rintro ⟨_, body', m, h, he, hb', hm⟩
          cases h
          rw [enclosed_iff, e] at he
          obtain rfl : body = body' := by simpa using he
          rw [← e]
          exact ⟨h1, by have := hb.unique hb'; omega⟩
    | complex id ps =>
      refine iff_of_false (by simp) ?_
      rintro ⟨_, body, n, h, ⟨t, v, -, rfl⟩, -⟩; simp at h
    | empty =>
      refine iff_of_false (by simp) ?_
      rintro ⟨_, body, n, h, ⟨t, v, -, rfl⟩, -⟩; simp at h
  · simp

theorem body_plain : ∀ b : List Char, '\'' ∉ b → '&' ∉ b → Body b b.length
  | [], _, _ => .nil
  | c :: r, h1, h2 => by
    simp only [List.mem_cons, not_or] at h1 h2
    exact .char c (Ne.symm h1.1) (Ne.symm h2.1) (body_plain r h1.2 h2.2)

theorem title_iff (ops : List AOp) (hq : ¬ Quirk .title ops) : check .title ops = accept ↔ Valid .title ops := by
  show checkTitle ops = accept ↔ ∃ o body n, ops = [o] ∧ Enclosed o body ∧ Body body n ∧ 1 ≤ n ∧ n ≤ 100
  unfold checkTitle
  rw [sized_accept]
  rcases ops with _ | ⟨a, _ | ⟨b, r⟩⟩
  · simp
  · cases a with
    | simple t v =>
      refine Iff.trans (b := ¬ (t.length > 102 ∨ t.length < 3) ∧ quoted t.toList = true) (by simp) ?_
      rcases text_cases t with ⟨h1, h2⟩ | ⟨h1, body, e, hl⟩
      · refine iff_of_false ?_ ?_
        · rintro ⟨h, h'⟩
          rcases h1 with h1 | h1
          · omega
          · simp [h'] at h1
        · rintro ⟨_, body, n, h, he, -⟩
          cases h
          exact h2 body ((enclosed_iff t v body).1 he)
      · have henc := (enclosed_iff t v body).2 e
        have hb := body_plain body (fun h => hq ⟨_, body, rfl, henc, Or.inl h⟩) (fun h => hq ⟨_, body, rfl, henc, Or.inr h⟩)
        constructor
        · rintro ⟨h, -⟩
          exact ⟨_, body, _, rfl, henc, hb, by omega, by omega⟩
        · rintro ⟨_, body', m, h, he, hb', hm⟩
          cases h
          rw [enclosed_iff, e] at he
          obtain rfl : body = body' := by simpa using he
          have := hb.unique hb'
          rw [not_or, Bool.not_eq_false] at h1
          exact ⟨by omega, h1.2⟩
    | complex id ps =>
      refine iff_of_false (by simp) ?_
      rintro ⟨_, body, n, h, ⟨t, v, -, rfl⟩, -⟩; simp at h
    | empty =>
      refine iff_of_false (by simp) ?_
      rintro ⟨_, body, n, h, ⟨t, v, -, rfl⟩, -⟩; simp at h
  · simp

theorem Body.le {b : List Char} {n : Nat} (h : Body b n) : n ≤ b.length := by
  induction h <;> simp <;> omega

theorem Body.pos {b : List Char} {n : Nat} (h : Body b n) (hb : b ≠ []) : 1 ≤ n := by
  cases h <;> simp_all

theorem ainsert_iff (ops : List AOp) (hq : ¬ Quirk .ainsert ops) : check .ainsert ops = accept ↔ Valid .ainsert ops := by
  show checkAinsert ops = accept ↔ ∃ a b body n, ops = [a, b] ∧ Enclosed a body ∧ Body body n ∧ 1 ≤ n ∧ n ≤ 80 ∧ OneOf ["BACK", "FRONT"] b
  unfold checkAinsert
  rw [sized_accept]
  rcases ops with _ | ⟨a, _ | ⟨b, _ | ⟨c, r⟩⟩⟩
  · simp
  · simp
  · refine Iff.trans (b := checkAinsert2 a b = accept) (by simp) ?_
    cases a with
    | simple t v =>
      have hb := among_iff b ["BACK", "FRONT"] ["BACK", "FRONT"] (by intro t; simp)
      simp only [checkAinsert2]
      rw [ite_accept, ite_accept, ite_accept, ite_accept', hb]
      rcases text_cases t with ⟨h1, h2⟩ | ⟨h1, body, e, hl⟩
      · refine iff_of_false ?_ ?_
        · rintro ⟨h, h', -⟩
          rcases h1 with h1 | h1
          · omega
          · exact h' h1
        · rintro ⟨_, _, body, n, h, he, -⟩
          cases h
          exact h2 body ((enclosed_iff t v body).1 he)
      · have henc := (enclosed_iff t v body).2 e
        rw [not_or] at h1
        obtain ⟨n, hbody⟩ : ∃ n, Body body n := by
          by_contra h
          exact hq ⟨_, _, body, rfl, henc, Or.inr (not_exists.1 h)⟩
        have hlen : ¬ 78 < body.length := fun h => hq ⟨_, _, body, rfl, henc, Or.inl h⟩
        constructor
        · rintro ⟨h3, -, h4, h5, -⟩
          have : body ≠ [] := by rintro rfl; simp at hl; omega
          exact ⟨_, _, body, n, rfl, henc, hbody, hbody.pos this, by have := hbody.le; omega, h5⟩
        · rintro ⟨_, _, body', m, h, he, hb', hm, -, h5⟩
          cases h
          rw [enclosed_iff, e] at he
          obtain rfl : body = body' := by simpa using he
          have := hb'.le
          exact ⟨by omega, h1.2, by omega, h5, rfl⟩
    | complex id ps =>
      refine iff_of_false (by simp [checkAinsert2]) ?_
      rintro ⟨_, _, body, n, h, ⟨t, v, -, rfl⟩, -⟩; simp at h
    | empty =>
      refine iff_of_false (by simp [checkAinsert2]) ?_
      rintro ⟨_, _, body, n, h, ⟨t, v, -, rfl⟩, -⟩; simp at h
  · simp

end Verif.AsmCheck
