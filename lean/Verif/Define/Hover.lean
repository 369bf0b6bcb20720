import Verif.Define.Texts
import Mathlib.Data.List.Nodup

/-!
C117: what the text over an ordinary symbol says.
-/
namespace Verif.Define

open MacroDef

/-- Texts with the same separator behind parts without it have the same parts. -/
theorem split_at {c : Char} {a b x y : List Char} (ha : c ∉ a) (hb : c ∉ b) (h : a ++ c :: x = b ++ c :: y) : a = b ∧ x = y := by
  induction a generalizing b with
  | nil =>
    cases b with
    | nil => simpa using h
    | cons d b => simp at h; simp [h.1] at hb
  | cons d a ih =>
    cases b with
    | nil => simp at h; simp [h.1] at ha
    | cons e b =>
      simp at h
      obtain ⟨rfl, h⟩ := h
      simp at ha hb
      obtain ⟨rfl, rfl⟩ := ih ha.2 hb.2 h
      exact ⟨rfl, rfl⟩

theorem digits_plain {n : Nat} {c : Char} (h : c ∈ Nat.toDigits 10 n) : c.isDigit = true := Nat.isDigit_of_mem_toDigits (by omega) (by omega) h

theorem int_plain {v : Int} {c : Char} (h : c ∈ intText v) : c.isDigit = true ∨ c = '-' := by
  cases v with
  | ofNat n => exact .inl (digits_plain h)
  | negSucc n =>
    rcases List.mem_cons.1 h with h | h
    · exact .inr h
    · exact .inl (digits_plain h)

theorem digits_inj {a b : Nat} (h : Nat.toDigits 10 a = Nat.toDigits 10 b) : a = b := by
  have := congrArg (fun l => Nat.ofDigitChars 10 l 0) h
  simpa [Nat.ofDigitChars_ten_toDigits] using this

theorem digits_minus {a : Nat} {x : List Char} : Nat.toDigits 10 a ≠ '-' :: x := by
  intro h
  have : ('-').isDigit = true := digits_plain (n := a) (by rw [h]; simp)
  exact absurd this (by decide)

theorem int_inj {a b : Int} (h : intText a = intText b) : a = b := by
  cases a with
  | ofNat n =>
    cases b with
    | ofNat m => exact congrArg Int.ofNat (digits_inj h)
    | negSucc m => exact absurd h digits_minus
  | negSucc n =>
    cases b with
    | ofNat m => exact absurd h.symm digits_minus
    | negSucc m =>
      have : Nat.toDigits 10 (n + 1) = Nat.toDigits 10 (m + 1) := by simpa [intText] using h
      have := digits_inj this
      exact congrArg Int.negSucc (by omega)

theorem int_not {v : Int} {c : Char} (h1 : c.isDigit = false) (h2 : c ≠ '-') : c ∉ intText v := by
  intro h
  rcases int_plain h with h | h
  · rw [h1] at h; exact absurd h (by simp)
  · exact h2 h

/-- A name of a section: not empty, made of other characters than those that separate the parts of a text. -/
def SectName (n : List Char) : Prop := n ≠ [] ∧ ' ' ∉ n ∧ '*' ∉ n ∧ '\n' ∉ n

/-- Every section with a name and counted at least once. -/
def Proper (bases : List (List Char × Int)) : Prop := ∀ b ∈ bases, SectName b.1 ∧ 1 ≤ b.2

/-- The count and the name of a base. -/
def baseHead (b : List Char × Int) : List Char := (if b.2 > 1 then intText b.2 ++ ['*'] else []) ++ b.1

theorem baseText_eq {b : List Char × Int} (h : SectName b.1) (h1 : 1 ≤ b.2) : baseText b = baseHead b ++ ' ' :: '+' :: ' ' :: [] := by
  unfold baseText baseHead
  rw [if_neg]
  rintro (h' | h')
  · exact h.1 h'
  · omega

theorem baseHead_not {b : List Char × Int} {c : Char} (hd : c.isDigit = false) (hm : c ≠ '-') (hs : c ≠ '*') (hn : c ∉ b.1) : c ∉ baseHead b := by
  unfold baseHead
  have := int_not (v := b.2) hd hm
  split <;> simp [this, hn, hs]

theorem baseHead_inj {a b : List Char × Int} (ha : SectName a.1) (ha1 : 1 ≤ a.2) (hb : SectName b.1) (hb1 : 1 ≤ b.2) (h : baseHead a = baseHead b) : a = b := by
  unfold baseHead at h
  have star : ∀ v : Int, '*' ∉ intText v := fun v => int_not (by decide) (by decide)
  by_cases h1 : a.2 > 1 <;> by_cases h2 : b.2 > 1
  · rw [if_pos h1, if_pos h2, List.append_assoc, List.append_assoc] at h
    obtain ⟨h, h'⟩ := split_at (star _) (star _) h
    exact Prod.ext h' (int_inj h)
  · rw [if_pos h1, if_neg h2] at h
    exact absurd (by rw [List.nil_append] at h; rw [← h]; simp) hb.2.2.1
  · rw [if_neg h1, if_pos h2] at h
    exact absurd (by rw [List.nil_append] at h; rw [h]; simp) ha.2.2.1
  · rw [if_neg h1, if_neg h2] at h
    exact Prod.ext (by simpa using h) (by omega)

theorem address_cons {b : List Char × Int} {bs : List (List Char × Int)} {o : Int} (h : SectName b.1) (h1 : 1 ≤ b.2) :
    addressText (b :: bs) o = baseHead b ++ ' ' :: ('+' :: ' ' :: addressText bs o) := by
  unfold addressText
  rw [List.flatMap_cons, baseText_eq h h1]
  simp

theorem address_inj (a : List (List Char × Int)) : ∀ (b : List (List Char × Int)) (o p : Int), Proper a → Proper b → addressText a o = addressText b p → a = b ∧ o = p := by
  have sp : ∀ v : Int, ' ' ∉ intText v := fun v => int_not (by decide) (by decide)
  induction a with
  | nil =>
    intro b o p ha hb h
    cases b with
    | nil => exact ⟨rfl, int_inj (by simpa [addressText] using h)⟩
    | cons x b =>
      rw [address_cons (hb x (by simp)).1 (hb x (by simp)).2] at h
      exact absurd (by simp [addressText] at h; rw [h]; simp) (sp o)
  | cons x a ih =>
    intro b o p ha hb h
    obtain ⟨hx, hx1⟩ := ha x (by simp)
    rw [address_cons hx hx1] at h
    cases b with
    | nil => exact absurd (by simp [addressText] at h; rw [← h]; simp) (sp p)
    | cons y b =>
      obtain ⟨hy, hy1⟩ := hb y (by simp)
      rw [address_cons hy hy1] at h
      obtain ⟨h1, h2⟩ := split_at (baseHead_not (by decide) (by decide) (by decide) hx.2.1) (baseHead_not (by decide) (by decide) (by decide) hy.2.1) h
      have hxy := baseHead_inj hx hx1 hy hy1 h1
      simp only [List.cons.injEq, true_and] at h2
      obtain ⟨h3, h4⟩ := ih b o p (fun z hz => ha z (by simp [hz])) (fun z hz => hb z (by simp [hz])) h2
      exact ⟨by rw [hxy, h3], h4⟩

theorem address_line (a : List (List Char × Int)) (o : Int) (ha : Proper a) : '\n' ∉ addressText a o := by
  induction a with
  | nil => exact int_not (by decide) (by decide)
  | cons x a ih =>
    obtain ⟨hx, hx1⟩ := ha x (by simp)
    rw [address_cons hx hx1]
    have h1 := baseHead_not (b := x) (c := '\n') (by decide) (by decide) (by decide) hx.2.2.2
    have h2 := ih fun z hz => ha z (by simp [hz])
    simp [h1, h2]

theorem attr_inj {c : Char} {a b : Int} {x y : List Char} (h : attrText c (intText a) ++ x = attrText c (intText b) ++ y) : a = b ∧ x = y := by
  have sp : ∀ v : Int, ' ' ∉ intText v := fun v => int_not (by decide) (by decide)
  simp only [attrText, eol, List.cons_append, List.append_assoc, List.cons.injEq, true_and, List.nil_append] at h
  obtain ⟨h1, h2⟩ := split_at (sp a) (sp b) h
  exact ⟨int_inj h1, by simpa using h2⟩

/-- What the lines with attributes show. -/
structure SameAttrs (s t : Sym) : Prop where
  length : s.length = t.length
  scale : s.scale = t.scale
  type : s.type = t.type
  integer : s.length.isSome = true → s.scale.isSome = true → s.integer = t.integer

theorem attrs_inj {s t : Sym} (h : attrsText s = attrsText t) : SameAttrs s t := by
  unfold attrsText at h
  cases hl : s.length with
  | none =>
    cases hl' : t.length with
    | some b =>
      rw [hl, hl'] at h
      cases hs : s.scale <;> rw [hs] at h <;> simp [attrText] at h
    | none =>
      rw [hl, hl'] at h
      cases hs : s.scale with
      | none =>
        cases hs' : t.scale with
        | none =>
          rw [hs, hs'] at h
          simp [attrText] at h
          exact ⟨by rw [hl, hl'], by rw [hs, hs'], h, by simp [hl]⟩
        | some b => rw [hs, hs'] at h; simp [attrText] at h
      | some a =>
        cases hs' : t.scale with
        | none => rw [hs, hs'] at h; simp [attrText] at h
        | some b =>
          rw [hs, hs'] at h
          simp only [Option.isSome_none, Bool.and_false, Bool.false_eq_true, if_false, List.nil_append] at h
          obtain ⟨h1, h2⟩ := attr_inj h
          simp [attrText] at h2
          exact ⟨by rw [hl, hl'], by rw [hs, hs', h1], h2, by simp [hl]⟩
  | some a =>
    cases hl' : t.length with
    | none =>
      rw [hl, hl'] at h
      cases hs : t.scale <;> rw [hs] at h <;> simp [attrText] at h
    | some b =>
      rw [hl, hl'] at h
      simp only [List.append_assoc] at h
      obtain ⟨h1, h2⟩ := attr_inj h
      have h1 : a = b := by omega
      cases hs : s.scale with
      | none =>
        cases hs' : t.scale with
        | none =>
          rw [hs, hs'] at h2
          simp [attrText] at h2
          exact ⟨by rw [hl, hl', h1], by rw [hs, hs'], h2, by simp [hs]⟩
        | some b => rw [hs, hs'] at h2; simp [attrText] at h2
      | some c =>
        cases hs' : t.scale with
        | none => rw [hs, hs'] at h2; simp [attrText] at h2
        | some d =>
          rw [hs, hs'] at h2
          simp only [Option.isSome_some, Bool.and_true, if_true] at h2
          obtain ⟨h3, h4⟩ := attr_inj h2
          obtain ⟨h5, h6⟩ := attr_inj h4
          simp [attrText] at h6
          exact ⟨by rw [hl, hl', h1], by rw [hs, hs', h5], h6, fun _ _ => h3⟩

/-- The values whose text is complete. -/
def Shown : Value → Prop
  | .undef => False
  | .abs _ => True
  | .reloc bases _ => Proper bases

/-- C117. The text over a symbol determines its value and its attributes: symbols with the same text have the same value (absolute or
relocatable, with the same sections and the same offset), the same length, scale and type, and the same integer attribute where it is defined. This holds for
relocatable values in which each section has a name and counts at least once. -/
theorem C117_text_partial {s t : Sym} (hs : Shown s.value) (ht : Shown t.value) (h : symText s = symText t) : s.value = t.value ∧ SameAttrs s t := by
  have nl : ∀ v : Int, '\n' ∉ intText v := fun v => int_not (by decide) (by decide)
  unfold symText at h
  cases hv : s.value with
  | undef => rw [hv] at hs; exact absurd hs id
  | abs v =>
    cases hw : t.value with
    | undef => rw [hw] at ht; exact absurd ht id
    | abs w =>
      rw [hv, hw] at h
      simp only [rule, List.append_assoc, List.cons_append] at h
      obtain ⟨h1, h2⟩ := split_at (nl _) (nl _) h
      simp only [List.cons.injEq, true_and, List.nil_append] at h2
      exact ⟨by rw [int_inj h1], attrs_inj h2⟩
    | reloc b o =>
      rw [hw] at ht
      rw [hv, hw] at h
      simp only [rule, List.append_assoc, List.cons_append] at h
      obtain ⟨-, h2⟩ := split_at (nl _) (address_line b o ht) h
      simp at h2
  | reloc a o =>
    rw [hv] at hs
    cases hw : t.value with
    | undef => rw [hw] at ht; exact absurd ht id
    | abs w =>
      rw [hv, hw] at h
      simp only [rule, List.append_assoc, List.cons_append] at h
      obtain ⟨-, h2⟩ := split_at (address_line a o hs) (nl _) h
      simp at h2
    | reloc b p =>
      rw [hw] at ht
      rw [hv, hw] at h
      simp only [rule, List.append_assoc, List.cons_append] at h
      obtain ⟨h1, h2⟩ := split_at (address_line a o hs) (address_line b p ht) h
      simp only [List.cons.injEq, true_and, List.nil_append] at h2
      obtain ⟨h3, h4⟩ := address_inj a b o p hs ht h1
      exact ⟨by rw [h3, h4], attrs_inj h2⟩

/-- C117. A symbol without a value has no text, any other has one. -/
theorem C117_undefined (s : Sym) : symText s = [] ↔ s.value = .undef := by
  unfold symText
  cases s.value <;> simp [rule]

/-- C117. The sign of a section is not shown: `5-SECT` and `SECT+5` have the same text. -/
theorem C117_witness_sign (place : Place) : symText ⟨0, place, .reloc [(text!"SECT", -1)] 5, none, none, 0, 'U'⟩ =
    symText ⟨0, place, .reloc [(text!"SECT", 1)] 5, none, none, 0, 'U'⟩ := by
  rfl

/-- C117. Texts of a symbol in a section and of an absolute one. -/
example : symText ⟨0, ⟨1, 0, 0⟩, .reloc [(text!"A", 2), (text!"B", 1)] 12, some 4, some 0, 31, 'F'⟩ =
    text!"2*A + B + 12\n\n---\n\nRelocatable Symbol\n\n---\n\nL: 4  \nI: 31  \nS: 0  \nT: F  \n" := by decide +kernel

example : symText ⟨0, ⟨1, 0, 0⟩, .abs (-7), some 1, none, 0, 'U'⟩ = text!"-7\n\n---\n\nAbsolute Symbol\n\n---\n\nL: 1  \nT: U  \n" := by decide +kernel

/-- The letter of a `SETx` statement. -/
def letter : SetType → Char
  | .A => 'A'
  | .B => 'B'
  | .C => 'C'

/-- C117. The text over a variable symbol names the kind of `SETx` statement. -/
theorem C117_kind (t : SetType) : typeText (some t) = text!"SET" ++ letter t :: text!" variable" := by
  cases t <;> rfl

/-- C117. Which text appears over an ordinary symbol, a macro instruction and another instruction: that of the one symbol of this name
(none for a name without symbol), that of the macro and that of the instruction. -/
theorem C117_over (w : World) (hw : (w.symbols.map (·.name)).Nodup) (o : LspCtx.Occ) (scope : Option Macro) (mt : Macro → List Char) (it : Name → List Char) :
    (o.kind = .ord → ∀ s ∈ w.symbols, s.name = o.name → hoverOf w mt it o scope = some (symText s)) ∧
    (o.kind = .ord → (∀ s ∈ w.symbols, s.name ≠ o.name) → hoverOf w mt it o scope = some []) ∧
    (o.kind = .instr → ∀ i m, o.opcode = some i → w.macros.find? (·.id == i) = some m → hoverOf w mt it o scope = some (mt m)) ∧
    (o.kind = .instr → o.opcode = none → hoverOf w mt it o scope = some (it o.name)) := by
  refine ⟨fun ho s hs hn => ?_, fun ho hno => ?_, fun ho i m hi hm => ?_, fun ho hi => ?_⟩
  · have hf : w.symbols.find? (·.name == o.name) = some s := by
      cases hf : w.symbols.find? (·.name == o.name) with
      | none => exact absurd (List.find?_eq_none.1 hf s hs) (by simp [hn])
      | some t =>
        have ht : t.name = o.name := by simpa using List.find?_some hf
        rw [List.inj_on_of_nodup_map hw (List.mem_of_find?_eq_some hf) hs (ht.trans hn.symm)]
    simp [hoverOf, ho, hf]
  · have hf : w.symbols.find? (·.name == o.name) = none := by
      rw [List.find?_eq_none]; intro s h; simpa using hno s h
    simp [hoverOf, ho, hf]
  · simp [hoverOf, ho, hi, hm]
  · simp [hoverOf, ho, hi]

/-- C117. Two symbols, a macro and an instruction. -/
example : ∃ w : World, w.symbols.length = 2 ∧ (w.symbols.map (·.name)).Nodup ∧
    hoverOf w (fun _ => []) (fun _ => []) ⟨.ord, 1, ⟨⟨3, 15⟩, ⟨3, 18⟩⟩, none⟩ none = some text!"-7\n\n---\n\nAbsolute Symbol\n\n---\n\nT: U  \n" :=
  ⟨⟨[⟨0, ⟨1, 0, 0⟩, .abs 5, none, none, 0, 'U'⟩, ⟨1, ⟨1, 0, 0⟩, .abs (-7), none, none, 0, 'U'⟩], [], [], [], []⟩, rfl, by decide, by decide +kernel⟩

end Verif.Define
