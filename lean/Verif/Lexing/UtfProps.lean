import Verif.Lexing.Utf
import Verif.TextSync.Lemmas
/-!
C72: the text of a token is the standard UTF-8 encoding of its characters; the UTF-16 length of a UTF-8 string.
The specification of UTF-8 is the one of Lean's own library, `String.utf8EncodeChar`; the number of UTF-16 units of a
text is `TextSync.utf16Len`.
-/
namespace Verif.Lexing

open TextSync (utf16Width utf16Len utf8)

theorem and_mask (x : UInt32) (k : Nat) (m : UInt32) (hm : m.toNat = 2 ^ k - 1) : (x &&& m).toNat = x.toNat % 2 ^ k := by
  rw [UInt32.toNat_and, hm, Nat.and_two_pow_sub_one_eq_mod]

theorem shift6 (x : UInt32) : (x >>> 6).toNat = x.toNat / 64 := by
  rw [UInt32.toNat_shiftRight]
  simp [Nat.shiftRight_eq_div_pow]

theorem lead_byte (base : UInt8) (x : UInt32) (k : Nat) (m : UInt32) (hm : m.toNat = 2 ^ k - 1) (hk : k ≤ 6)
    (hb : base.toNat + 2 ^ k ≤ 256) : base + (x &&& m).toUInt8 = UInt8.ofNat (x.toNat % 2 ^ k + base.toNat) := by
  apply UInt8.toNat_inj.mp
  have h2 : 2 ^ k ≤ 2 ^ 6 := Nat.pow_le_pow_right (by omega) hk
  have h3 : x.toNat % 2 ^ k < 2 ^ k := Nat.mod_lt _ (Nat.two_pow_pos k)
  rw [UInt8.toNat_add, UInt8.toNat_ofNat', UInt32.toNat_toUInt8, and_mask x k m hm]
  omega

theorem encodeChar_char (c : Char) : encodeChar c.val = some (String.utf8EncodeChar c) := by
  have hm : c.val.toNat ≤ 0x10FFFF := by
    have := c.valid
    simp only [UInt32.isValidChar, Nat.isValidChar] at this
    omega
  unfold encodeChar String.utf8EncodeChar
  simp only [UInt32.le_iff_toNat_le, UInt32.toNat_ofNat]
  repeat' split
  all_goals first | omega | skip
  all_goals simp only [Option.some.injEq, List.cons.injEq, and_true]
  · apply UInt8.toNat_inj.mp; simp [-Char.toUInt8_val]
  · refine ⟨?_, ?_⟩
    · rw [lead_byte 0xc0 _ 5 _ (by decide) (by decide) (by decide), shift6]; rfl
    · rw [lead_byte 0x80 _ 6 _ (by decide) (by decide) (by decide)]; rfl
  · refine ⟨?_, ?_, ?_⟩
    · rw [lead_byte 0xe0 _ 4 _ (by decide) (by decide) (by decide), shift6, shift6, Nat.div_div_eq_div_mul]; rfl
    · rw [lead_byte 0x80 _ 6 _ (by decide) (by decide) (by decide), shift6]; rfl
    · rw [lead_byte 0x80 _ 6 _ (by decide) (by decide) (by decide)]; rfl
  · refine ⟨?_, ?_, ?_, ?_⟩
    · rw [lead_byte 0xf0 _ 3 _ (by decide) (by decide) (by decide), shift6, shift6, shift6, Nat.div_div_eq_div_mul, Nat.div_div_eq_div_mul]; rfl
    · rw [lead_byte 0x80 _ 6 _ (by decide) (by decide) (by decide), shift6, shift6, Nat.div_div_eq_div_mul]; rfl
    · rw [lead_byte 0x80 _ 6 _ (by decide) (by decide) (by decide), shift6]; rfl
    · rw [lead_byte 0x80 _ 6 _ (by decide) (by decide) (by decide)]; rfl

theorem encodeAll_chars (cs : List Char) : encodeAll (cs.map Char.val) = some (cs.flatMap String.utf8EncodeChar) := by
  induction cs with
  | nil => rfl
  | cons c cs ih => simp [encodeAll, encodeChar_char, ih]

/-- **C72 (text).** The text of the characters `first` to `next - 1` of a stream is the UTF-8 encoding of exactly these
characters, whatever they are and wherever the interval lies. -/
theorem C72_text (cs : List Char) (first next : Nat) (h : next ≤ cs.length) :
    getText (cs.map Char.val) first next = some (((cs.take next).drop first).flatMap String.utf8EncodeChar) := by
  unfold getText
  rw [if_pos (by simpa using h), ← List.map_take, ← List.map_drop, encodeAll_chars]

/-- Characters of one, two, three and four bytes, the first of them left out. -/
example : getText ("xaé€😀".toList.map Char.val) 1 5
    = some [0x61, 0xC3, 0xA9, 0xE2, 0x82, 0xAC, 0xF0, 0x9F, 0x98, 0x80] := by decide +kernel

/-- A number that is no Unicode code point is refused with an exception. -/
theorem C72_text_refused (ch : UInt32) (h : 0x10FFFF < ch.toNat) : encodeChar ch = none := by
  unfold encodeChar
  simp only [UInt32.le_iff_toNat_le, UInt32.toNat_ofNat]
  repeat' split
  all_goals first | omega | rfl

theorem charStart_ascii : ∀ b : UInt8, b.toNat < 128 → charStart b = true := forall_byte _ (by decide)
theorem charStart_lead : ∀ b : UInt8, 192 ≤ b.toNat → b.toNat < 248 → charStart b = true := forall_byte _ (by decide)
theorem charStart_cont : ∀ b : UInt8, 0xB8 ≤ b.toNat → b.toNat < 192 → charStart b = false := forall_byte _ (by decide)

/-- **C72 (UTF-16 length, what is wrong).** A continuation byte counts as the start of a character unless it is one of the
last eight. -/
theorem C72_witness_start : ∀ b : UInt8, 0x80 ≤ b.toNat → b.toNat < 0xC0 → (charStart b = true ↔ b.toNat < 0xB8) :=
  forall_byte _ (by decide)

/-- **C72 (UTF-16 length, negation).** `é` has length 2 and `😀` length 4. -/
theorem C72_witness_length : lengthUtf16 (utf8 ['é']) = 2 ∧ utf16Len ['é'] = 1 ∧ lengthUtf16 (utf8 ['😀']) = 4 ∧ utf16Len ['😀'] = 2 := by
  decide +kernel

/-- The part of the specification the code meets: no character's encoding uses a continuation byte below `0xB8`. -/
def HighTails (cs : List Char) : Prop := ∀ c ∈ cs, ∀ b ∈ (String.utf8EncodeChar c).tail, 0xB8 ≤ b.toNat

theorem lengthLoop_start {b : UInt8} (h : charStart b = true) (bs : Bytes) (l ll : Nat) :
    lengthLoop (b :: bs) l ll = lengthLoop bs (l + (if ll = 4 then 2 else 1)) 1 := by rw [lengthLoop, if_pos h]
theorem lengthLoop_cont {b : UInt8} (h : charStart b = false) (bs : Bytes) (l ll : Nat) :
    lengthLoop (b :: bs) l ll = lengthLoop bs l (ll + 1) := by rw [lengthLoop, if_neg (by simp [h])]

/-- Reading one character after its first byte leaves the loop with the number of bytes of the character. -/
theorem encode_loop (c : Char) (h : ∀ b ∈ (String.utf8EncodeChar c).tail, 0xB8 ≤ b.toNat) :
    ∃ a t, String.utf8EncodeChar c = a :: t ∧ charStart a = true ∧ ((if t.length + 1 = 4 then 2 else 1) = utf16Width c) ∧
      ∀ rest l, lengthLoop (t ++ rest) l 1 = lengthLoop rest l (t.length + 1) := by
  rcases TextSync.encode_cases c with ⟨hc, e⟩ | ⟨h1, h2, a, b, e, ha, ha', hb, hb'⟩ | ⟨h1, h2, a, b, d, e, ha, ha', hb, hb', hd, hd'⟩ |
      ⟨h1, a, b, d, f, e, ha, ha', hb, hb', hd, hd', hf, hf'⟩
  · refine ⟨_, _, e, charStart_ascii _ (by simp [UInt8.toNat_ofNat']; omega), ?_, fun _ _ => rfl⟩
    simp [utf16Width]; omega
  · simp [e] at h
    refine ⟨_, _, e, charStart_lead _ (by omega) (by omega), ?_, fun _ _ => ?_⟩
    · simp [utf16Width]; omega
    · simp [lengthLoop_cont (charStart_cont _ h (by omega))]
  · simp [e] at h
    refine ⟨_, _, e, charStart_lead _ (by omega) (by omega), ?_, fun _ _ => ?_⟩
    · simp [utf16Width]; omega
    · simp [lengthLoop_cont (charStart_cont _ h.1 (by omega)), lengthLoop_cont (charStart_cont _ h.2 (by omega))]
  · simp [e] at h
    refine ⟨_, _, e, charStart_lead _ (by omega) (by omega), ?_, fun _ _ => ?_⟩
    · simp [utf16Width]; omega
    · simp [lengthLoop_cont (charStart_cont _ h.1 (by omega)), lengthLoop_cont (charStart_cont _ h.2.1 (by omega)),
        lengthLoop_cont (charStart_cont _ h.2.2 (by omega))]

theorem lengthLoop_chars (cs : List Char) (h : HighTails cs) : ∀ l ll,
    lengthLoop (utf8 cs) l ll = l + (if ll = 4 then 2 else 1) + utf16Len cs := by
  induction cs with
  | nil => intro l ll; simp [utf8, lengthLoop, utf16Len]
  | cons c cs ih =>
    intro l ll
    obtain ⟨a, t, e, ha, hw, hl⟩ := encode_loop c (h c (by simp))
    rw [TextSync.utf8_cons, e, List.cons_append, lengthLoop_start ha, hl, ih (fun x hx => h x (by simp [hx])), hw,
      TextSync.utf16Len_cons]
    omega

/-- **C72 (UTF-16 length), partial.** For a text in which every continuation byte is at least `0xB8` — in particular for
every ASCII text — the computed length is the number of UTF-16 units. What is missing is every other non-ASCII text, for
which the code is wrong (`C72_witness_length`). -/
theorem C72_length_partial (cs : List Char) (h : HighTails cs) : lengthUtf16 (utf8 cs) = utf16Len cs := by
  cases cs with
  | nil => rfl
  | cons c cs =>
    obtain ⟨a, t, e, _, hw, hl⟩ := encode_loop c (h c (by simp))
    rw [TextSync.utf8_cons, e, List.cons_append, lengthUtf16, hl, lengthLoop_chars _ (fun x hx => h x (by simp [hx])), hw,
      TextSync.utf16Len_cons]
    omega

/-- Every text of ASCII characters is covered, and so are some texts of longer characters. -/
theorem highTails_ascii (cs : List Char) (h : ∀ c ∈ cs, c.toNat < 128) : HighTails cs := by
  intro c hc b hb
  rcases TextSync.encode_cases c with ⟨_, e⟩ | ⟨h1, _⟩ | ⟨h1, _⟩ | ⟨h1, _⟩
  · simp [e] at hb
  all_goals (have := h c hc; omega)

example : lengthUtf16 (utf8 ['a', 'ÿ', Char.ofNat 0x3FFFF]) = 4 := by
  rw [C72_length_partial _ (by unfold HighTails; decide +kernel)]; decide

end Verif.Lexing
