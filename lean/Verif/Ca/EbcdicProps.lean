import Verif.Ca.Ebcdic
import Verif.TextSync.Lemmas
/-!
C48: EBCDIC translation.
-/
namespace Verif.Ca
open Verif.TextSync

/-- The EBCDIC byte of a character: Latin-1 characters have one each, all others become the substitute character. -/
def ebcdicOf (c : Char) : UInt8 := if c.toNat < 256 then a2e (UInt8.ofNat c.toNat) else a2e SUB

theorem tables_inverse : ∀ b : UInt8, a2e (e2a b) = b := forall_byte _ (by decide +kernel)
theorem tables_inverse' : ∀ b : UInt8, e2a (a2e b) = b := forall_byte _ (by decide +kernel)

/-- C48: a byte translated to UTF-8 and back is the same byte. -/
theorem C48_byte (b : UInt8) : translate false (toAscii b) = some [b] := by
  revert b
  exact forall_byte _ (by decide +kernel)

theorem two_lead : ∀ a : UInt8, 196 ≤ a.toNat → a.toNat < 224 → a &&& 0xE0 = 0xC0 ∧ a &&& 0x1C ≠ 0 ∧ ¬ a < 0x80 := forall_byte _ (by decide +kernel)
theorem three_lead : ∀ a : UInt8, 224 ≤ a.toNat → a.toNat < 240 → ¬ a &&& 0xE0 = 0xC0 ∧ a &&& 0xF0 = 0xE0 ∧ ¬ a < 0x80 := forall_byte _ (by decide +kernel)
theorem four_lead : ∀ a : UInt8, 240 ≤ a.toNat → a.toNat < 248 → ¬ a &&& 0xE0 = 0xC0 ∧ ¬ a &&& 0xF0 = 0xE0 ∧ a &&& 0xF8 = 0xF0 ∧ ¬ a < 0x80 :=
  forall_byte _ (by decide +kernel)
theorem cont_ne : ∀ a : UInt8, 128 ≤ a.toNat → ¬ a = 0 := forall_byte _ (by decide +kernel)
theorem lead_ne : ∀ a : UInt8, 192 ≤ a.toNat → ¬ a = 0 := forall_byte _ (by decide +kernel)

theorem latin_encode : ∀ n : Fin 256, ∃ t : Bytes, String.utf8EncodeChar (Char.ofNat n) = (String.utf8EncodeChar (Char.ofNat n)).headD 0 :: t ∧
    (if n.val < 128 then String.utf8EncodeChar (Char.ofNat n) = [UInt8.ofNat n]
     else String.utf8EncodeChar (Char.ofNat n) = [UInt8.ofNat (n / 64 + 192), UInt8.ofNat (n % 64 + 128)]) := by
  intro n
  refine ⟨(String.utf8EncodeChar (Char.ofNat n)).drop 1, ?_⟩
  revert n
  decide +kernel

theorem latin_two : ∀ n : Fin 256, n.val ≥ 128 → ∀ t : Bytes,
    toPseudoascii (UInt8.ofNat (n / 64 + 192) :: UInt8.ofNat (n % 64 + 128) :: t) = (UInt8.ofNat n, 1) := by
  intro n hn t
  have h : ∀ n : Fin 256, n.val ≥ 128 → (¬ (UInt8.ofNat (n / 64 + 192) < 0x80)) ∧ (¬ UInt8.ofNat (n % 64 + 128) = 0) ∧
      (UInt8.ofNat (n / 64 + 192) &&& 0xE0 = 0xC0) ∧ (¬ UInt8.ofNat (n / 64 + 192) &&& 0x1C ≠ 0) ∧
      ((UInt8.ofNat (n / 64 + 192) &&& 3) <<< 6) ||| (UInt8.ofNat (n % 64 + 128) &&& 0x3F) = UInt8.ofNat n := by decide +kernel
  obtain ⟨h1, h2, h3, h4, h5⟩ := h n hn
  unfold toPseudoascii
  simp only [peek, List.getD_cons_zero, List.getD_cons_succ]
  rw [if_neg h1, if_neg h2, if_pos h3, if_neg h4, h5]

/-- The decoder reads one character and moves behind it. -/
theorem pseudo_char (c : Char) (t : Bytes) :
    a2e (toPseudoascii (String.utf8EncodeChar c ++ t)).1 = ebcdicOf c ∧ (toPseudoascii (String.utf8EncodeChar c ++ t)).2 + 1 = (String.utf8EncodeChar c).length := by
  by_cases hlat : c.toNat < 256
  · have hc : Char.ofNat c.toNat = c := Char.ofNat_toNat c
    obtain ⟨_, _, h⟩ := latin_encode ⟨c.toNat, hlat⟩
    simp only [hc] at h
    by_cases h128 : c.toNat < 128
    · rw [if_pos h128] at h
      rw [h]
      have hb : UInt8.ofNat c.toNat < 0x80 := by
        rw [UInt8.lt_iff_toNat_lt, UInt8.toNat_ofNat']
        simp; omega
      have : toPseudoascii ([UInt8.ofNat c.toNat] ++ t) = (UInt8.ofNat c.toNat, 0) := by
        unfold toPseudoascii
        simp only [peek, List.cons_append, List.nil_append, List.getD_cons_zero]
        rw [if_pos hb]
      rw [this]
      simp [ebcdicOf, hlat]
    · rw [if_neg h128] at h
      rw [h]
      have := latin_two ⟨c.toNat, hlat⟩ (by simp only; omega) t
      simp only [List.cons_append, List.nil_append] at this ⊢
      rw [this]
      simp [ebcdicOf, hlat]
  · have hv : c.val.toNat = c.toNat := rfl
    by_cases h2 : c.toNat ≤ 0x7FF
    · have he : String.utf8EncodeChar c = [UInt8.ofNat (c.toNat / 64 % 32 + 192), UInt8.ofNat (c.toNat % 64 + 128)] := by
        unfold String.utf8EncodeChar
        have : ¬ c.toNat ≤ 127 := by omega
        simp [hv, this, h2]
      rw [he]
      obtain ⟨a1, a2, a3⟩ := two_lead (UInt8.ofNat (c.toNat / 64 % 32 + 192)) (by rw [UInt8.toNat_ofNat']; simp; omega)
        (by rw [UInt8.toNat_ofNat']; simp; omega)
      have a4 := cont_ne (UInt8.ofNat (c.toNat % 64 + 128)) (by rw [UInt8.toNat_ofNat']; simp; omega)
      unfold toPseudoascii
      simp only [peek, List.cons_append, List.nil_append, List.getD_cons_zero, List.getD_cons_succ]
      rw [if_neg a3, if_neg a4, if_pos a1, if_pos a2]
      simp [ebcdicOf, hlat]
    · rcases encode_cases c with ⟨h, e⟩ | ⟨h1, h2', _⟩ | ⟨h1, h3, a, b, d, e, r1, r2, r3, r4, r5, r6⟩ | ⟨h1, a, b, d, f, e, r1, r2, r3, r4, r5, r6, r7, r8⟩
      · omega
      · omega
      · rw [e]
        obtain ⟨a1, a2, a3⟩ := three_lead a r1 r2
        have a4 := cont_ne b r3
        unfold toPseudoascii
        simp only [peek, List.cons_append, List.nil_append, List.getD_cons_zero, List.getD_cons_succ]
        rw [if_neg a3, if_neg a4, if_neg a1, if_pos a2, if_pos a4]
        simp [ebcdicOf, hlat]
      · rw [e]
        obtain ⟨a1, a2, a3, a5⟩ := four_lead a r1 r2
        have a4 := cont_ne b r3
        have a6 := cont_ne d r5
        unfold toPseudoascii
        simp only [peek, List.cons_append, List.nil_append, List.getD_cons_zero, List.getD_cons_succ]
        rw [if_neg a5, if_neg a4, if_neg a1, if_neg a2, if_pos a3, if_pos a4]
        simp only [List.getD_cons_zero, List.getD_cons_succ]
        rw [if_pos a6]
        simp [ebcdicOf, hlat]

theorem encode_ne (c : Char) : ∃ a bs, String.utf8EncodeChar c = a :: bs ∧ (c.toNat ≠ 0 → ¬ a = 0) := by
  rcases encode_cases c with ⟨h, e⟩ | ⟨_, _, x, y, e, h1, _⟩ | ⟨_, _, x, y, z, e, h1, _⟩ | ⟨_, x, y, z, w, e, h1, _⟩
  · refine ⟨_, _, e, fun h0 h1 => ?_⟩
    have := congrArg UInt8.toNat h1
    rw [UInt8.toNat_ofNat'] at this
    simp at this
    omega
  all_goals exact ⟨_, _, e, fun _ => lead_ne _ (by omega)⟩

/-- C48: a text is translated to one byte per character: the EBCDIC byte of every Latin-1 character and the substitute character for every
other one. For the translation used by comparisons (`stop`), which ends at a NUL, the text must not contain a NUL. -/
theorem C48_string_partial (stop : Bool) (cs : List Char) (h : stop = true → ∀ c ∈ cs, c.toNat ≠ 0) :
    translate stop (utf8 cs) = some (cs.map ebcdicOf) := by
  induction cs with
  | nil => simp [utf8_nil, translate]
  | cons c cs ih =>
    have ih := ih (fun hs c' hc' => h hs c' (by simp [hc']))
    obtain ⟨a, bs, he, hne⟩ := encode_ne c
    obtain ⟨h1, h2⟩ := pseudo_char c (utf8 cs)
    rw [utf8_cons]
    have hstop : (stop && decide (a = 0)) = false := by
      cases stop with
      | false => rfl
      | true => simp [hne (h rfl c (by simp))]
    rw [he] at h1 h2 ⊢
    rw [List.cons_append] at h1 h2 ⊢
    rw [translate, hstop]
    simp only [Bool.false_eq_true, if_false]
    have hlen : ¬ (toPseudoascii (a :: (bs ++ utf8 cs))).2 + 1 > (a :: (bs ++ utf8 cs)).length := by
      rw [h2]; simp
    rw [if_neg hlen, h2, h1]
    have : (a :: (bs ++ utf8 cs)).drop (a :: bs).length = utf8 cs := by
      rw [← List.cons_append]; exact List.drop_left
    rw [this, ih]
    simp

/-- C48: a Latin-1 text survives the translation to EBCDIC and back. -/
theorem C48_latin1 (cs : List Char) (h : ∀ c ∈ cs, c.toNat < 256) : (cs.map ebcdicOf).flatMap toAscii = utf8 cs := by
  induction cs with
  | nil => rfl
  | cons c cs ih =>
    rw [utf8_cons, List.map_cons, List.flatMap_cons, ih (fun c' hc' => h c' (by simp [hc']))]
    congr 1
    have hlat := h c (by simp)
    have hc : Char.ofNat c.toNat = c := Char.ofNat_toNat c
    have key : ∀ n : Fin 256, toAscii (a2e (UInt8.ofNat n)) = String.utf8EncodeChar (Char.ofNat n) := by decide +kernel
    have := key ⟨c.toNat, hlat⟩
    simp only [hc] at this
    simpa [ebcdicOf, hlat] using this

/-- A text containing a NUL character is cut off there when strings are compared. -/
theorem C48_witness_nul : translate true (utf8 ['a', Char.ofNat 0, 'b']) = some [0x81] := by decide +kernel

/-- A character cut into parts by a substring operation makes the translation run over the end of the string: the first two of the three
bytes of the euro sign, the first three of the four bytes of an emoji. -/
theorem C48_witness_overrun : translate true [0xE2, 0x82] = none ∧ translate false [0xE2, 0x82] = none ∧ translate true [0xF0, 0x9F, 0x98] = none ∧
    [0xE2, 0x82] = (utf8 ['€']).take 2 := by decide +kernel

example : translate true (utf8 ['a', 'é', '€', '😀', 'Z']) = some [0x81, 0xCB, 63, 63, 0xE9] := by decide +kernel

end Verif.Ca
