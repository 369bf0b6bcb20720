import Verif.Ca.Func
import Verif.Ca.ArithProps
import Verif.Ca.EbcdicProps
import Mathlib.Data.List.Induction
/-!
C44: conversion functions. C45: quote doubling. C82: tests and conversions agree. C83: searching.
-/
namespace Verif.Ca
open Verif.TextSync

/-! ### Digits -/

theorem digitVal_char {base d : Nat} (hb : base ≤ 16) (hd : d < base) : digitVal base (digitChar d) = some d := by
  have key : ∀ b : Fin 17, ∀ d : Fin 16, d.val < b.val → digitVal b.val (digitChar d.val) = some d.val := by decide +kernel
  exact key ⟨base, by omega⟩ ⟨d, by omega⟩ hd

theorem spanDigits_map {base : Nat} (hb : base ≤ 16) (ds : List Nat) (h : ∀ d ∈ ds, d < base) : spanDigits base (ds.map digitChar) = (ds, []) := by
  induction ds with
  | nil => rfl
  | cons d ds ih =>
    simp only [List.map_cons, spanDigits, digitVal_char hb (h d (by simp)), ih (fun x hx => h x (by simp [hx]))]

theorem digitsVal_snoc (base : Nat) (l : List Nat) (d : Nat) : digitsVal base (l ++ [d]) = digitsVal base l * base + d := by
  simp [digitsVal, List.foldl_append]

theorem fixed_length (base w v : Nat) : (fixedDigits base w v).length = w := by
  induction w generalizing v with
  | zero => rfl
  | succ w ih => simp [fixedDigits, ih]

theorem fixed_lt {base : Nat} (hb : 0 < base) (w v : Nat) : ∀ d ∈ fixedDigits base w v, d < base := by
  induction w generalizing v with
  | zero => simp [fixedDigits]
  | succ w ih =>
    intro d hd
    simp only [fixedDigits, List.mem_append, List.mem_singleton] at hd
    rcases hd with hd | rfl
    · exact ih _ d hd
    · exact Nat.mod_lt _ hb

theorem fixed_val (base w v : Nat) : digitsVal base (fixedDigits base w v) = v % base ^ w := by
  induction w generalizing v with
  | zero => simp [fixedDigits, digitsVal, Nat.mod_one]
  | succ w ih =>
    rw [fixedDigits, digitsVal_snoc, ih, Nat.pow_succ', Nat.mod_mul]
    rw [Nat.mul_comm base, Nat.add_comm]

theorem dec_lt (n : Nat) : ∀ d ∈ decDigits n, d < 10 := by
  induction n using Nat.strongRecOn with
  | _ n ih =>
    rw [decDigits]
    by_cases h : n < 10
    · simp [h]
    · simp only [h, if_false]
      intro d hd
      simp only [List.mem_append, List.mem_singleton] at hd
      rcases hd with hd | rfl
      · exact ih (n / 10) (by omega) d hd
      · omega

theorem dec_val (n : Nat) : digitsVal 10 (decDigits n) = n := by
  induction n using Nat.strongRecOn with
  | _ n ih =>
    rw [decDigits]
    by_cases h : n < 10
    · simp [h, digitsVal]
    · simp only [h, if_false]
      rw [digitsVal_snoc, ih (n / 10) (by omega)]
      omega

theorem dec_ne (n : Nat) : decDigits n ≠ [] := by
  rw [decDigits]
  by_cases h : n < 10 <;> simp [h]

theorem dec_length (k n : Nat) (h : n < 10 ^ (k + 1)) : (decDigits n).length ≤ k + 1 := by
  induction k generalizing n with
  | zero => rw [decDigits]; simp at h; simp [h]
  | succ k ih =>
    rw [decDigits]
    by_cases h10 : n < 10
    · simp [h10]
    · simp only [h10, if_false, List.length_append, List.length_singleton]
      have := ih (n / 10) (by rw [Nat.div_lt_iff_lt_mul (by decide)]; rw [Nat.pow_succ] at h; exact h)
      omega

theorem fromCharsU_digits {base : Nat} (hb : base ≤ 16) (max : Nat) (ds : List Nat) (h : ∀ d ∈ ds, d < base) (hne : ds ≠ []) (hm : digitsVal base ds ≤ max) :
    fromCharsU base max (ds.map digitChar) = some (digitsVal base ds) := by
  unfold fromCharsU
  rw [spanDigits_map hb ds h]
  simp only
  rw [if_neg (by simp [hne]; omega)]

theorem digitChar_sign (d : Nat) (h : d < 10) : digitChar d ≠ 45 ∧ digitChar d ≠ 43 := by
  have : ∀ d : Fin 10, digitChar d ≠ 45 ∧ digitChar d ≠ 43 := by decide +kernel
  exact this ⟨d, h⟩

/-! ### C44 -/

/-- C44: a number converted to binary digits and back. -/
theorem C44_binary (v : A) : B2A (A2B v) = some v ∧ (A2B v).length = 32 := by
  have hlen : (A2B v).length = 32 := by simp [A2B, fixed_length]
  refine ⟨?_, hlen⟩
  unfold B2A
  rw [if_neg (by intro h; rw [h] at hlen; simp at hlen), if_neg (by omega)]
  unfold A2B
  rw [fromCharsU_digits (by decide) _ _ (fixed_lt (by decide) _ _)]
  · rw [fixed_val, Option.map_some, Nat.mod_eq_of_lt v.isLt]; simp
  · intro h; have := fixed_length 2 32 v.toNat; rw [h] at this; simp at this
  · rw [fixed_val, Nat.mod_eq_of_lt v.isLt]; have := v.isLt; omega

/-- C44: a number converted to hexadecimal digits and back. -/
theorem C44_hex (v : A) : X2A (A2X v) = some v ∧ (A2X v).length = 8 := by
  have hlen : (A2X v).length = 8 := by simp [A2X, fixed_length]
  refine ⟨?_, hlen⟩
  unfold X2A
  rw [if_neg (by intro h; rw [h] at hlen; simp at hlen), if_neg (by omega)]
  unfold A2X
  have hv : v.toNat < 16 ^ 8 := v.isLt
  rw [fromCharsU_digits (by decide) _ _ (fixed_lt (by decide) _ _)]
  · rw [fixed_val, Option.map_some, Nat.mod_eq_of_lt hv]; simp
  · intro h; have := fixed_length 16 8 v.toNat; rw [h] at this; simp at this
  · rw [fixed_val, Nat.mod_eq_of_lt hv]; have := v.isLt; omega

theorem takeWhile_sign (c : UInt8) (hc : c = 45 ∨ c = 43) (ds : List Nat) (h : ∀ d ∈ ds, d < 10) :
    ((c :: ds.map digitChar).takeWhile fun c => c = 45 || c = 43).length ≤ 1 := by
  have h1 : (decide (c = 45) || decide (c = 43)) = true := by rcases hc with rfl | rfl <;> rfl
  rw [List.takeWhile_cons, h1]
  cases ds with
  | nil => simp
  | cons d ds =>
    obtain ⟨h2, h3⟩ := digitChar_sign d (h d (by simp))
    simp [h2, h3]

/-- C44: a number converted to signed decimal digits and back. -/
theorem C44_decimal (v : A) : D2A (A2D v) = some v := by
  have hr := toInt_range v
  have hds := dec_lt v.toInt.natAbs
  have hne := dec_ne v.toInt.natAbs
  have hval := dec_val v.toInt.natAbs
  have hlen := dec_length 9 v.toInt.natAbs (by norm_num; omega)
  generalize hd : decDigits v.toInt.natAbs = ds at *
  by_cases hneg : v.toInt < 0
  · have hA : A2D v = 45 :: ds.map digitChar := by simp [A2D, intToString, hneg, hd]
    rw [hA]
    unfold D2A
    rw [if_neg (by simp), if_neg (by simp; omega), if_neg (by have := takeWhile_sign 45 (Or.inl rfl) ds hds; omega)]
    have h43 : ¬ ((45 :: ds.map digitChar).headD 0 = (43 : UInt8)) := by simp
    rw [if_neg h43]
    simp only [fromCharsI]
    rw [fromCharsU_digits (by decide) _ ds hds hne (by rw [hval]; omega), hval]
    show some (BitVec.ofInt 32 (-(v.toInt.natAbs : Int))) = some v
    have : (-(v.toInt.natAbs : Int)) = v.toInt := by omega
    rw [this]
    exact congrArg some BitVec.ofInt_toInt
  · cases ds with
    | nil => exact absurd rfl hne
    | cons d ds =>
      obtain ⟨h1, h2⟩ := digitChar_sign d (hds d (by simp))
      have hA : A2D v = 43 :: (d :: ds).map digitChar := by
        simp only [A2D, intToString, hneg, hd, if_false]
        simp [h1]
      rw [hA]
      unfold D2A
      rw [if_neg (by simp), if_neg (by simp at hlen ⊢; omega), if_neg (by have := takeWhile_sign 43 (Or.inr rfl) (d :: ds) hds; omega)]
      have h43 : ((43 :: (d :: ds).map digitChar).headD 0 = (43 : UInt8)) := by simp
      rw [if_pos h43, List.tail_cons]
      have hI : fromCharsI 10 ((d :: ds).map digitChar) = (fromCharsU 10 2147483647 ((d :: ds).map digitChar)).map fun n => (n : Int) := by
        unfold fromCharsI
        split
        · rename_i t he
          simp only [List.map_cons, List.cons.injEq] at he
          exact absurd he.1 h1
        · rfl
      rw [hI, fromCharsU_digits (by decide) _ _ hds hne (by rw [hval]; omega), hval]
      show some (BitVec.ofInt 32 (v.toInt.natAbs : Int)) = some v
      have : ((v.toInt.natAbs : Int)) = v.toInt := by omega
      rw [this]
      exact congrArg some BitVec.ofInt_toInt

/-- Binary digits as a user writes them. -/
def IsBin (p : Bytes) : Prop := ∀ c ∈ p, c = 48 ∨ c = 49

/-- Hexadecimal digits as a user writes them. -/
def IsHex (p : Bytes) : Prop := ∀ c ∈ p, (48 ≤ c.toNat ∧ c.toNat ≤ 57) ∨ (65 ≤ c.toNat ∧ c.toNat ≤ 70) ∨ (97 ≤ c.toNat ∧ c.toNat ≤ 102)

/-- Capital letters. -/
def upper (p : Bytes) : Bytes := p.map fun c => if 97 ≤ c.toNat ∧ c.toNat ≤ 122 then c - 32 else c

theorem hex_digit : ∀ c : UInt8, (48 ≤ c.toNat ∧ c.toNat ≤ 57) ∨ (65 ≤ c.toNat ∧ c.toNat ≤ 70) ∨ (97 ≤ c.toNat ∧ c.toNat ≤ 102) ↔ (digitVal 16 c).isSome :=
  forall_byte _ (by decide +kernel)

theorem hex_digit_upper : ∀ c : UInt8, ∀ v : Fin 16, digitVal 16 c = some v.val → digitChar v = (if 97 ≤ c.toNat ∧ c.toNat ≤ 122 then c - 32 else c) :=
  forall_byte _ (by decide +kernel)

theorem digitVal_lt {base : Nat} {c : UInt8} {v : Nat} (h : digitVal base c = some v) : v < base := by
  unfold digitVal at h
  simp only at h
  generalize (if 48 ≤ c.toNat ∧ c.toNat ≤ 57 then c.toNat - 48 else if 65 ≤ c.toNat ∧ c.toNat ≤ 90 then c.toNat - 55
    else if 97 ≤ c.toNat ∧ c.toNat ≤ 122 then c.toNat - 87 else 255) = w at h
  by_cases hw : w < base
  · rw [if_pos hw] at h; cases h; exact hw
  · rw [if_neg hw] at h; cases h

theorem bits4 (a b c d : UInt8) (ha : a = 48 ∨ a = 49) (hb : b = 48 ∨ b = 49) (hc : c = 48 ∨ c = 49) (hd : d = 48 ∨ d = 49) :
    ∃ v : Fin 16, bitsVal [a, b, c, d] = some (UInt8.ofNat v) ∧ (fixedDigits 2 4 v).map digitChar = [a, b, c, d] := by
  rcases ha with rfl | rfl <;> rcases hb with rfl | rfl <;> rcases hc with rfl | rfl <;> rcases hd with rfl | rfl <;> decide +kernel

theorem nib_bits : ∀ v : Fin 16, bitsVal ((fixedDigits 2 4 v).map digitChar) = some (UInt8.ofNat v) := by decide +kernel

/-- A list of length `4 * (k + 1)` starts with four elements. -/
theorem four_split {α : Type} (k : Nat) (l : List α) (h : l.length = 4 * (k + 1)) : ∃ a b c d t, l = a :: b :: c :: d :: t ∧ t.length = 4 * k := by
  match l, h with
  | a :: b :: c :: d :: t, h => exact ⟨a, b, c, d, t, rfl, by simp at h; omega⟩
  | [], h => simp at h; 
  | [_], h => simp at h; omega
  | [_, _], h => simp at h; omega
  | [_, _, _], h => simp at h; omega

/-- One step of `B2X`. -/
def b2xStep (g : Bytes) : Option UInt8 := (bitsVal g).map fun c => digitChar c.toNat

/-- One step of `X2B`. -/
def x2bStep (c : UInt8) : Option Bytes := (digitVal 16 c).map fun v => (fixedDigits 2 4 v).map digitChar

theorem b2x_loop (k : Nat) (l : Bytes) (h : l.length = 4 * k) (hb : IsBin l) :
    ∃ xs : Bytes, (chunks 4 k l).mapM b2xStep = some xs ∧ xs.length = k ∧ ∃ ys, xs.mapM x2bStep = some ys ∧ ys.flatten = l := by
  induction k generalizing l with
  | zero => 
    have : l = [] := by cases l <;> simp_all
    subst this
    exact ⟨[], by simp [chunks], rfl, [], by simp, rfl⟩
  | succ k ih =>
    obtain ⟨a, b, c, d, t, rfl, ht⟩ := four_split k l h
    obtain ⟨xs, h1, h2, ys, h3, h4⟩ := ih t ht (fun x hx => hb x (by simp [hx]))
    obtain ⟨v, hv1, hv2⟩ := bits4 a b c d (hb a (by simp)) (hb b (by simp)) (hb c (by simp)) (hb d (by simp))
    have hvn : (UInt8.ofNat v.val).toNat = v.val := by rw [UInt8.toNat_ofNat']; have := v.isLt; omega
    refine ⟨digitChar v :: xs, ?_, by simp [h2], [a, b, c, d] :: ys, ?_, ?_⟩
    · have hs : b2xStep [a, b, c, d] = some (digitChar v) := by rw [b2xStep, hv1]; simp [hvn]
      simp only [chunks, List.take_succ_cons, List.take_zero, List.drop_succ_cons, List.drop_zero]
      rw [List.mapM_cons, hs, h1]
      rfl
    · have hs : x2bStep (digitChar v) = some [a, b, c, d] := by
        rw [x2bStep, digitVal_char (by decide) v.isLt]; simp [hv2]
      rw [List.mapM_cons, hs, h3]
      rfl
    · simp [h4]

theorem pad_bin {n : Nat} {p : Bytes} (h : IsBin p) : IsBin (padTo n p) := by
  intro c hc
  unfold padTo at hc
  rcases List.mem_append.1 hc with hc | hc
  · by_cases hm : p.length % n ≠ 0
    · rw [if_pos hm] at hc; exact Or.inl (List.eq_of_mem_replicate hc)
    · rw [if_neg hm] at hc; simp at hc
  · exact h c hc

theorem pad_length (n : Nat) (hn : 0 < n) (p : Bytes) : (padTo n p).length = n * ((padTo n p).length / n) := by
  unfold padTo
  have h1 := Nat.mod_lt p.length hn
  have h2 := Nat.div_add_mod p.length n
  by_cases hm : p.length % n ≠ 0
  · rw [if_pos hm]
    have : (List.replicate (n - p.length % n) (48 : UInt8) ++ p).length = n * (p.length / n + 1) := by
      simp only [List.length_append, List.length_replicate]
      rw [Nat.mul_add]
      omega
    rw [this, Nat.mul_div_cancel_left _ hn]
  · rw [if_neg hm]
    have : ([] ++ p : Bytes).length = n * (p.length / n) := by simp; omega
    rw [this, Nat.mul_div_cancel_left _ hn]

theorem pad_length_le (n : Nat) (p : Bytes) : (padTo n p).length ≤ p.length + n := by
  unfold padTo
  by_cases hm : p.length % n ≠ 0
  · rw [if_pos hm]; simp; omega
  · rw [if_neg hm]; simp

theorem pad_ne {n : Nat} {p : Bytes} (h : p ≠ []) : padTo n p ≠ [] := by
  unfold padTo; simp [h]

/-- C44: binary digits to hexadecimal digits and back: the same digits, padded with zeros in front to a multiple of four. -/
theorem C44_b2x_x2b (p : Bytes) (h : IsBin p) (hl : p.length ≤ MAX_STR_SIZE) :
    ∃ x, B2X p = some x ∧ x.length = (p.length + 3) / 4 ∧ X2B x = some (padTo 4 p) := by
  by_cases hp : p = []
  · subst hp; exact ⟨[], by simp [B2X], by simp, by simp [X2B, padTo]⟩
  · have hpl := pad_length 4 (by decide) p
    obtain ⟨xs, h1, h2, ys, h3, h4⟩ := b2x_loop _ (padTo 4 p) hpl (pad_bin h)
    have hpad : (padTo 4 p).length / 4 = (p.length + 3) / 4 := by
      unfold padTo
      by_cases hm : p.length % 4 ≠ 0
      · rw [if_pos hm]; simp; omega
      · rw [if_neg hm]; simp; omega
    refine ⟨xs, ?_, by rw [h2, hpad], ?_⟩
    · unfold B2X; rw [if_neg hp]; exact h1
    · unfold X2B
      have hx : xs ≠ [] := by
        intro he; rw [he] at h2; simp at h2
        have : p.length ≠ 0 := by simp [hp]
        omega
      rw [if_neg hx, if_neg (by simp only [MAX_STR_SIZE] at *; omega)]
      have : xs.mapM (fun c => (digitVal 16 c).map fun v => (fixedDigits 2 4 v).map digitChar) = some ys := h3
      rw [this]
      simp [h4]

theorem x2b_loop (p : Bytes) (h : IsHex p) : ∃ ys, p.mapM x2bStep = some ys ∧ ys.flatten.length = 4 * p.length ∧
    (chunks 4 p.length ys.flatten).mapM b2xStep = some (upper p) := by
  induction p with
  | nil => exact ⟨[], by simp, rfl, by simp [chunks, upper]⟩
  | cons c t ih =>
    obtain ⟨ys, h1, h2, h3⟩ := ih (fun x hx => h x (by simp [hx]))
    have hc := (hex_digit c).1 (h c (by simp))
    obtain ⟨v, hv⟩ := Option.isSome_iff_exists.1 hc
    have hv16 := digitVal_lt hv
    have hup := hex_digit_upper c ⟨v, hv16⟩ hv
    refine ⟨(fixedDigits 2 4 v).map digitChar :: ys, ?_, ?_, ?_⟩
    · have hs : x2bStep c = some ((fixedDigits 2 4 v).map digitChar) := by rw [x2bStep, hv]; rfl
      rw [List.mapM_cons, hs, h1]; rfl
    · simp [h2, fixed_length]; omega
    · have hl4 : ((fixedDigits 2 4 v).map digitChar).length = 4 := by simp [fixed_length]
      simp only [List.length_cons, chunks, List.flatten_cons]
      rw [List.take_append_of_le_length (by omega), List.take_of_length_le (by omega), List.drop_left' hl4]
      have hs : b2xStep ((fixedDigits 2 4 v).map digitChar) = some (digitChar v) := by
        rw [b2xStep, nib_bits ⟨v, hv16⟩]
        have hvn : (UInt8.ofNat v).toNat = v := by rw [UInt8.toNat_ofNat']; omega
        simp [hvn]
      rw [List.mapM_cons, hs, h3, hup]
      rfl

/-- C44: hexadecimal digits to binary digits and back: the same digits in capital letters. -/
theorem C44_x2b_b2x (p : Bytes) (h : IsHex p) (hl : p.length * 4 ≤ MAX_STR_SIZE) :
    ∃ x, X2B p = some x ∧ x.length = 4 * p.length ∧ B2X x = some (upper p) := by
  by_cases hp : p = []
  · subst hp; exact ⟨[], by simp [X2B], by simp, by simp [B2X, upper]⟩
  · obtain ⟨ys, h1, h2, h3⟩ := x2b_loop p h
    refine ⟨ys.flatten, ?_, h2, ?_⟩
    · unfold X2B
      rw [if_neg hp, if_neg (by omega)]
      have : p.mapM (fun c => (digitVal 16 c).map fun v => (fixedDigits 2 4 v).map digitChar) = some ys := h1
      rw [this]; rfl
    · have hne : ys.flatten ≠ [] := by
        intro he; rw [he] at h2; simp at h2; exact hp h2
      unfold B2X
      rw [if_neg hne]
      have hpad : padTo 4 ys.flatten = ys.flatten := by
        unfold padTo
        rw [if_neg (by rw [h2]; omega)]; rfl
      simp only [hpad, h2]
      rw [Nat.mul_div_cancel_left _ (by decide)]
      exact h3

/-- The character of an EBCDIC byte. -/
def charOf (b : UInt8) : Char := Char.ofNat (e2a b).toNat

theorem toAscii_charOf : ∀ b : UInt8, toAscii b = String.utf8EncodeChar (charOf b) ∧ ebcdicOf (charOf b) = b := forall_byte _ (by decide +kernel)

theorem toAscii_utf8 (bs : Bytes) : bs.flatMap toAscii = utf8 (bs.map charOf) := by
  induction bs with
  | nil => rfl
  | cons b bs ih => rw [List.flatMap_cons, List.map_cons, utf8_cons, ih, (toAscii_charOf b).1]

/-- The translation of a list of EBCDIC bytes to UTF-8 can be reverted. -/
theorem translate_toAscii (bs : Bytes) : translate false (bs.flatMap toAscii) = some bs := by
  rw [toAscii_utf8, C48_string_partial false _ (by simp)]
  congr 1
  rw [List.map_map]
  have : (ebcdicOf ∘ charOf) = id := by funext b; exact (toAscii_charOf b).2
  rw [this, List.map_id]

theorem pair_val (a b : Nat) (ha : a < 16) (hb : b < 16) : fixedDigits 16 2 (UInt8.ofNat (a * 16 + b)).toNat = [a, b] := by
  have : ∀ a b : Fin 16, fixedDigits 16 2 (UInt8.ofNat (a.val * 16 + b.val)).toNat = [a.val, b.val] := by decide +kernel
  exact this ⟨a, ha⟩ ⟨b, hb⟩

theorem x2c_loop (k : Nat) (l : Bytes) (h : l.length = 2 * k) (hx : IsHex l) :
    ∃ bs : Bytes, x2cLoop l = some (bs.flatMap toAscii) ∧ bs.flatMap (fun b => (fixedDigits 16 2 b.toNat).map digitChar) = upper l := by
  induction k generalizing l with
  | zero =>
    have : l = [] := by cases l <;> simp_all
    subst this
    exact ⟨[], by simp [x2cLoop], rfl⟩
  | succ k ih =>
    match l, h, hx with
    | [], h, _ => simp at h
    | [_], h, _ => simp at h; omega
    | c :: d :: t, h, hx =>
      obtain ⟨bs, h1, h2⟩ := ih t (by simp at h; omega) (fun x hx' => hx x (by simp [hx']))
      obtain ⟨x, hxv⟩ := Option.isSome_iff_exists.1 ((hex_digit c).1 (hx c (by simp)))
      obtain ⟨y, hyv⟩ := Option.isSome_iff_exists.1 ((hex_digit d).1 (hx d (by simp)))
      have hx16 := digitVal_lt hxv
      have hy16 := digitVal_lt hyv
      refine ⟨UInt8.ofNat (x * 16 + y) :: bs, ?_, ?_⟩
      · simp [x2cLoop, pairVal, hxv, hyv, h1]
      · rw [List.flatMap_cons, pair_val x y hx16 hy16, h2]
        have u1 := hex_digit_upper c ⟨x, hx16⟩ hxv
        have u2 := hex_digit_upper d ⟨y, hy16⟩ hyv
        simp only at u1 u2
        simp [upper, u1, u2]

/-- C44: hexadecimal digits to characters and back: the same digits in capital letters, with a zero in front of an odd number of digits;
provided that the string is not too long for the second conversion. -/
theorem C44_x2c_c2x (p : Bytes) (h : IsHex p) :
    ∃ s, X2C p = some s ∧ (s.length * 2 ≤ MAX_STR_SIZE → C2X s = .ok ((if p.length % 2 = 1 then [48] else []) ++ upper p)) := by
  by_cases hp : p = []
  · subst hp; exact ⟨[], by simp [X2C], by simp [C2X, upper]⟩
  · have hx : IsHex ((if p.length % 2 = 1 then [48] else []) ++ p) := by
      intro c hc
      rcases List.mem_append.1 hc with hc | hc
      · by_cases hm : p.length % 2 = 1
        · rw [if_pos hm] at hc; simp at hc; subst hc; decide
        · rw [if_neg hm] at hc; simp at hc
      · exact h c hc
    have hlen : ∃ k, ((if p.length % 2 = 1 then [48] else []) ++ p).length = 2 * k := by
      by_cases hm : p.length % 2 = 1
      · exact ⟨(p.length + 1) / 2, by rw [if_pos hm]; simp; omega⟩
      · exact ⟨p.length / 2, by rw [if_neg hm]; simp; omega⟩
    obtain ⟨k, hk⟩ := hlen
    obtain ⟨bs, h1, h2⟩ := x2c_loop k _ hk hx
    refine ⟨_, by unfold X2C; rw [if_neg hp]; exact h1, fun hl => ?_⟩
    have hup : upper ((if p.length % 2 = 1 then [48] else []) ++ p) = (if p.length % 2 = 1 then [48] else []) ++ upper p := by
      by_cases hm : p.length % 2 = 1
      · simp only [if_pos hm]; rfl
      · simp only [if_neg hm]; rfl
    unfold C2X
    by_cases hs : bs.flatMap toAscii = []
    · have : bs = [] := by
        cases bs with
        | nil => rfl
        | cons b bs =>
          have hne : ∀ b : UInt8, toAscii b ≠ [] := forall_byte _ (by decide +kernel)
          rw [List.flatMap_cons] at hs
          exact absurd (List.append_eq_nil_iff.1 hs).1 (hne b)
      rw [if_pos hs]
      subst this
      rw [← hup, ← h2]; rfl
    · rw [if_neg hs, if_neg (by omega), translate_toAscii]
      simp only
      rw [h2, hup]

theorem x2c_pairs (bs : Bytes) : x2cLoop (bs.flatMap fun b => (fixedDigits 16 2 b.toNat).map digitChar) = some (bs.flatMap toAscii) := by
  induction bs with
  | nil => rfl
  | cons b bs ih =>
    have key : ∀ b : UInt8, ∃ c d, (fixedDigits 16 2 b.toNat).map digitChar = [c, d] ∧ pairVal c d = some b := by
      intro b
      refine ⟨digitChar (b.toNat / 16 % 16), digitChar (b.toNat % 16), ?_, ?_⟩
      · simp [fixedDigits]
      · rw [pairVal, digitVal_char (by decide) (Nat.mod_lt _ (by decide)), digitVal_char (by decide) (Nat.mod_lt _ (by decide))]
        simp only
        have := b.toNat_lt
        have h2 : b.toNat / 16 % 16 * 16 + b.toNat % 16 = b.toNat := by omega
        rw [h2, UInt8.ofNat_toNat]
    obtain ⟨c, d, h1, h2⟩ := key b
    rw [List.flatMap_cons, h1, List.flatMap_cons]
    simp [x2cLoop, h2, ih]

/-- C44: Latin-1 text to hexadecimal digits and back. -/
theorem C44_c2x_x2c (cs : List Char) (h : ∀ c ∈ cs, c.toNat < 256) (hl : (utf8 cs).length * 2 ≤ MAX_STR_SIZE) :
    ∃ x, C2X (utf8 cs) = .ok x ∧ x.length = 2 * cs.length ∧ X2C x = some (utf8 cs) := by
  by_cases hc : cs = []
  · subst hc; exact ⟨[], by simp [C2X, utf8_nil], rfl, by simp [X2C, utf8_nil]⟩
  · have hne : utf8 cs ≠ [] := by
      cases cs with
      | nil => exact absurd rfl hc
      | cons c cs => obtain ⟨a, bs, he, _⟩ := encode_ne c; rw [utf8_cons, he]; simp
    have hlen : ∀ es : Bytes, (es.flatMap fun b => (fixedDigits 16 2 b.toNat).map digitChar).length = 2 * es.length := by
      intro es
      induction es with
      | nil => rfl
      | cons e es ih => rw [List.flatMap_cons, List.length_append, ih]; simp [fixed_length]; omega
    refine ⟨(cs.map ebcdicOf).flatMap fun b => (fixedDigits 16 2 b.toNat).map digitChar, ?_, ?_, ?_⟩
    · unfold C2X
      rw [if_neg hne, if_neg (by omega), C48_string_partial false cs (by simp)]
    · rw [hlen]; simp
    · have hl2 := hlen (cs.map ebcdicOf)
      unfold X2C
      rw [if_neg (by intro he; rw [he] at hl2; simp at hl2; exact hc hl2), if_neg (by omega), List.nil_append, x2c_pairs, C48_latin1 cs h]

/-- X2C accepts a pair whose second character is no hexadecimal digit. -/
theorem C44_witness_x2c : ¬ IsHex [49, 71] ∧ X2C [49, 71] = some [1] := by
  refine ⟨fun h => ?_, by decide +kernel⟩
  have := h 71 (by simp)
  revert this
  decide

/-- A2C of a number with a byte that is no ASCII character is rejected by C2A, which counts the bytes of the UTF-8 text. -/
theorem C44_witness_c2a : C2A (A2C 0x41424344#32) = none := by decide +kernel

example : IsHex [49, 97, 70] ∧ X2C [49, 97, 70] = some [1, 195, 151] ∧ A2D (-5#32) = [45, 53] := by
  refine ⟨?_, by decide +kernel, by decide +kernel⟩
  intro c hc
  simp at hc
  rcases hc with rfl | rfl | rfl <;> decide

/-! ### C45 -/

theorem dcval_double (s : Bytes) : DCVAL (doubleLoop s) = s := by
  induction s with
  | nil => rfl
  | cons c s ih =>
    simp only [doubleLoop, List.flatMap_cons] at ih ⊢
    by_cases hq : quoteOrAmp c = true
    · simp [hq, DCVAL, ih]
    · have hq' : quoteOrAmp c = false := by simpa using hq
      rw [hq']
      simp only [Bool.false_eq_true, if_false, List.cons_append, List.nil_append]
      generalize hr : s.flatMap (fun c => if quoteOrAmp c = true then [c, c] else [c]) = r at *
      cases r with
      | nil => rw [DCVAL]; rw [DCVAL] at ih; rw [ih]
      | cons d t => rw [DCVAL, hq']; simp [ih]

/-- C45: what DOUBLE doubles, DCVAL takes back. -/
theorem C45_double (s d : Bytes) (h : DOUBLE s = some d) : DCVAL d = s := by
  unfold DOUBLE at h
  by_cases hl : (doubleLoop s).length > MAX_STR_SIZE
  · rw [if_pos hl] at h; cases h
  · rw [if_neg hl] at h; cases h; exact dcval_double s

/-- C45: DOUBLE succeeds exactly if the result is not too long; the result has one more character for each quote and ampersand. -/
theorem C45_double_length (s : Bytes) : (doubleLoop s).length = s.length + s.countP quoteOrAmp ∧
    (DOUBLE s = none ↔ s.length + s.countP quoteOrAmp > MAX_STR_SIZE) := by
  have h : (doubleLoop s).length = s.length + s.countP quoteOrAmp := by
    induction s with
    | nil => rfl
    | cons c s ih =>
      simp only [doubleLoop, List.flatMap_cons, List.length_append, List.countP_cons, List.length_cons] at ih ⊢
      rw [ih]
      by_cases hq : quoteOrAmp c = true
      · simp [hq]; omega
      · simp [hq]; omega
  refine ⟨h, ?_⟩
  unfold DOUBLE
  rw [h]
  by_cases hl : s.length + s.countP quoteOrAmp > MAX_STR_SIZE
  · simp [hl]
  · simp [hl]

/-- C45: DCLEN is the length of DCVAL. -/
theorem C45_dclen (s : Bytes) : DCLEN s = (DCVAL s).length := by
  induction hn : s.length using Nat.strongRecOn generalizing s with
  | _ n ih =>
    match s, hn with
    | [], _ => rfl
    | [c], _ => rfl
    | c :: d :: t, hn =>
      rw [DCLEN, DCVAL]
      by_cases h : (quoteOrAmp c && decide (c = d)) = true
      · rw [if_pos h, if_pos h, ih t.length (by simp at hn; omega) t rfl]; rfl
      · rw [if_neg h, if_neg h, ih (d :: t).length (by simp at hn ⊢; omega) (d :: t) rfl]; rfl

example : DOUBLE [97, 39, 38] = some [97, 39, 39, 38, 38] ∧ DCVAL [39, 39, 39] = [39, 39] := by decide +kernel

/-! ### C82: the tests agree with the conversions -/

theorem span_all {base : Nat} (s : Bytes) : (spanDigits base s).2 = [] ↔ ∀ c ∈ s, (digitVal base c).isSome := by
  induction s with
  | nil => simp [spanDigits]
  | cons c s ih =>
    rw [spanDigits]
    cases h : digitVal base c with
    | none => simp [h]
    | some v => simp [h, ih]

theorem span_digits_lt {base : Nat} (s : Bytes) : ∀ d ∈ (spanDigits base s).1, d < base := by
  induction s with
  | nil => simp [spanDigits]
  | cons c s ih =>
    rw [spanDigits]
    cases h : digitVal base c with
    | none => simp
    | some v =>
      intro d hd
      simp only [List.mem_cons] at hd
      rcases hd with rfl | hd
      · exact digitVal_lt h
      · exact ih d hd

theorem span_length {base : Nat} (s : Bytes) : (spanDigits base s).1.length ≤ s.length := by
  induction s with
  | nil => simp [spanDigits]
  | cons c s ih =>
    rw [spanDigits]
    cases h : digitVal base c with
    | none => simp
    | some v => simp; omega

theorem digitsVal_lt {base : Nat} (ds : List Nat) (h : ∀ d ∈ ds, d < base) : digitsVal base ds < base ^ ds.length := by
  induction ds using List.reverseRec with
  | nil => simp [digitsVal]
  | append_singleton l d ih =>
    rw [digitsVal_snoc, List.length_append, List.length_singleton, Nat.pow_succ]
    have h1 := ih (fun x hx => h x (by simp [hx]))
    have h2 := h d (by simp)
    have : (digitsVal base l + 1) * base ≤ base ^ l.length * base := Nat.mul_le_mul_right _ h1
    rw [Nat.add_mul] at this
    omega

theorem fromCharsU_isSome {base max : Nat} (s : Bytes) (hb : 0 < base) (hs : s ≠ []) (hm : base ^ s.length ≤ max + 1) :
    (fromCharsU base max s).isSome ↔ ∀ c ∈ s, (digitVal base c).isSome := by
  rw [← span_all]
  unfold fromCharsU
  have h1 := span_digits_lt (base := base) s
  have h2 := span_length (base := base) s
  have hne : (spanDigits base s).2 = [] → (spanDigits base s).1 ≠ [] := by
    cases s with
    | nil => exact absurd rfl hs
    | cons c s =>
      rw [spanDigits]
      cases h : digitVal base c <;> simp
  generalize spanDigits base s = r at *
  obtain ⟨ds, rest⟩ := r
  cases rest with
  | nil =>
    have hlt := digitsVal_lt ds h1
    have : base ^ ds.length ≤ base ^ s.length := Nat.pow_le_pow_right hb h2
    simp only at *
    rw [if_neg (by simp [hne]; omega)]
    simp
  | cons x xs => simp

/-- C82: ISBIN is true exactly for the non-empty strings B2A converts. -/
theorem C82_bin (p : Bytes) (hp : p ≠ []) : ISBIN p = some (B2A p).isSome := by
  unfold ISBIN B2A
  rw [if_neg hp, if_neg hp]
  by_cases hl : p.length > 32
  · simp [hl]
  · have hd : ∀ c : UInt8, (decide (c = 48) || decide (c = 49)) = (digitVal 2 c).isSome := forall_byte _ (by decide +kernel)
    have h := fromCharsU_isSome (base := 2) (max := 4294967295) p (by decide) hp
      (by calc 2 ^ p.length ≤ 2 ^ 32 := Nat.pow_le_pow_right (by decide) (by omega)
               _ ≤ _ := by decide)
    rw [if_neg hl]
    simp only [Option.isSome_map, Option.some.injEq, hd]
    rw [Bool.eq_iff_iff, h]
    simp; omega

/-- C82: ISHEX is true exactly for the non-empty strings X2A converts. -/
theorem C82_hex (p : Bytes) (hp : p ≠ []) : ISHEX p = some (X2A p).isSome := by
  unfold ISHEX X2A
  rw [if_neg hp, if_neg hp]
  by_cases hl : p.length > 8
  · simp [hl]
  · have h := fromCharsU_isSome (base := 16) (max := 4294967295) p (by decide) hp
      (by calc 16 ^ p.length ≤ 16 ^ 8 := Nat.pow_le_pow_right (by decide) (by omega)
               _ ≤ _ := by decide)
    rw [if_neg hl]
    simp only [Option.isSome_map, Option.some.injEq]
    rw [Bool.eq_iff_iff, h]
    simp; omega

/-- C82: a string for which ISDEC is true is converted by D2A. -/
theorem C82_dec (p : Bytes) (h : ISDEC p = some true) : (D2A p).isSome := by
  unfold ISDEC at h
  by_cases hp : p = []
  · rw [if_pos hp] at h; cases h
  · rw [if_neg hp] at h
    by_cases hl : p.length > 10 ∨ p.headD 0 = 45
    · rw [if_pos hl] at h; cases h
    · rw [if_neg hl] at h
      simp only [Option.some.injEq] at h
      cases p with
      | nil => exact absurd rfl hp
      | cons c t =>
        have h45 : c ≠ 45 := fun e => hl (Or.inr (by simp [e]))
        have hI : fromCharsI 10 (c :: t) = (fromCharsU 10 2147483647 (c :: t)).map fun n => (n : Int) := by
          unfold fromCharsI
          split
          · rename_i t' he
            simp only [List.cons.injEq] at he
            exact absurd he.1 h45
          · rfl
        have hdig : (digitVal 10 c).isSome := by
          rw [hI, Option.isSome_map] at h
          unfold fromCharsU at h
          rw [spanDigits] at h
          cases hd : digitVal 10 c with
          | none => rw [hd] at h; simp at h
          | some v => rfl
        have h43 : c ≠ 43 := by
          rintro rfl
          revert hdig
          decide
        unfold D2A
        rw [if_neg hp, if_neg (by simp at hl ⊢; omega), if_neg (by simp [h45, h43])]
        have : ¬ ((c :: t).headD 0 = (43 : UInt8)) := by simpa using h43
        rw [if_neg this, Option.isSome_map]
        exact h

example : ISBIN [48, 50] = some false ∧ ISHEX [65] = some true ∧ ISDEC [57, 57] = some true := by decide +kernel

/-! ### C83: searching -/

/-- C83: FIND gives the position of the first character of the first string that occurs in the second one, 0 if there is none. -/
theorem C83_find (l r : Bytes) :
    (FIND l r = 0 → ∀ c ∈ l, c ∉ r) ∧ ∀ i, FIND l r = i + 1 → ∃ c, l[i]? = some c ∧ c ∈ r ∧ ∀ (j : Nat) d, j < i → l[j]? = some d → d ∉ r := by
  unfold FIND findFirstOf
  constructor
  · intro h c hc hr
    cases he : l.findIdx? (r.contains ·) with
    | none =>
      rw [List.findIdx?_eq_none_iff] at he
      have := he c hc
      simp at this
      exact this hr
    | some i => rw [he] at h; simp at h
  · intro i h
    cases he : l.findIdx? (r.contains ·) with
    | none => rw [he] at h; simp at h
    | some k =>
      rw [he] at h
      simp only [Nat.add_right_cancel_iff] at h
      subst h
      rw [List.findIdx?_eq_some_iff_getElem] at he
      obtain ⟨hk, h1, h2⟩ := he
      refine ⟨l[k], by simp [hk], by simpa using h1, ?_⟩
      intro j d hj hd hr
      have := h2 j hj
      have hjl : j < l.length := by omega
      rw [List.getElem?_eq_getElem hjl] at hd
      cases hd
      simp at this
      exact this hr

theorem findStr_spec (l r : Bytes) : (findStr l r = none → ∀ i, ¬ r <+: l.drop i) ∧
    ∀ i, findStr l r = some i → i ≤ l.length ∧ r <+: l.drop i ∧ ∀ j, j < i → ¬ r <+: l.drop j := by
  induction l with
  | nil =>
    unfold findStr
    by_cases h : r = []
    · simp [h]
    · simp [h]
  | cons x l ih =>
    unfold findStr
    by_cases h : r.isPrefixOf (x :: l) = true
    · rw [if_pos h]
      rw [List.isPrefixOf_iff_prefix] at h
      refine ⟨by simp, ?_⟩
      intro i hi
      cases hi
      exact ⟨by simp, by simpa using h, by omega⟩
    · rw [if_neg h]
      have h0 : ¬ r <+: x :: l := by rwa [List.isPrefixOf_iff_prefix] at h
      constructor
      · intro hn i
        have hn' : findStr l r = none := by simpa using hn
        cases i with
        | zero => simpa using h0
        | succ i => simpa using ih.1 hn' i
      · intro i hi
        obtain ⟨k, hk, rfl⟩ := Option.map_eq_some_iff.1 hi
        obtain ⟨a1, a2, a3⟩ := ih.2 k hk
        refine ⟨by simp; omega, by simpa using a2, ?_⟩
        intro j hj
        cases j with
        | zero => simpa using h0
        | succ j => simpa using a3 j (by omega)

/-- C83: INDEX gives the position of the first occurrence of the second string in the first one, 0 if there is none. -/
theorem C83_index (l r : Bytes) :
    (INDEX l r = 0 → ∀ i, ¬ r <+: l.drop i) ∧ ∀ i, INDEX l r = i + 1 → i ≤ l.length ∧ r <+: l.drop i ∧ ∀ j, j < i → ¬ r <+: l.drop j := by
  unfold INDEX
  obtain ⟨h1, h2⟩ := findStr_spec l r
  constructor
  · intro h
    cases he : findStr l r with
    | none => exact h1 he
    | some i => rw [he] at h; simp at h
  · intro i h
    cases he : findStr l r with
    | none => rw [he] at h; simp at h
    | some k =>
      rw [he] at h
      simp only [Nat.add_right_cancel_iff] at h
      subst h
      exact h2 k he

example : FIND [97, 98, 99] [99, 98] = 2 ∧ INDEX [97, 98, 97, 99] [97, 99] = 3 := by decide +kernel

/-! ### Bytes of characters -/

theorem translateLt_utf8 (cs : List Char) : translateLt (utf8 cs) = cs.map ebcdicOf := by
  induction cs with
  | nil => simp [utf8_nil, translateLt]
  | cons c cs ih =>
    obtain ⟨h1, h2⟩ := pseudo_char c (utf8 cs)
    obtain ⟨a, bs, he, _⟩ := encode_ne c
    rw [utf8_cons]
    generalize hl : String.utf8EncodeChar c ++ utf8 cs = l at *
    have hl' : l = a :: (bs ++ utf8 cs) := by rw [← hl, he]; rfl
    have hd : l.drop ((toPseudoascii l).2 + 1) = utf8 cs := by rw [h2, ← hl]; simp
    rw [hl', translateLt, ← hl', h1, hd, ih]
    rfl

/-- The number with the given bytes, the highest one first. -/
theorem bytes_number (v : Nat) (h : v < 2 ^ 32) :
    ((fixedDigits 256 4 v).map UInt8.ofNat).foldl (fun (ret : A) b => (ret <<< 8) + BitVec.ofNat 32 b.toNat) 0 = BitVec.ofNat 32 v := by
  have key : ∀ (l : List UInt8) (n : Nat),
      l.foldl (fun (ret : A) b => (ret <<< 8) + BitVec.ofNat 32 b.toNat) (BitVec.ofNat 32 n) =
        BitVec.ofNat 32 ((l.map UInt8.toNat).foldl (fun a d => a * 256 + d) n) := by
    intro l
    induction l with
    | nil => intro n; rfl
    | cons b l ih =>
      intro n
      simp only [List.foldl_cons, List.map_cons]
      rw [← ih]
      congr 1
      apply BitVec.eq_of_toNat_eq
      simp [BitVec.toNat_add, BitVec.toNat_shiftLeft, Nat.shiftLeft_eq]
  have h0 : (0 : A) = BitVec.ofNat 32 0 := rfl
  rw [h0, key]
  have hm : ((fixedDigits 256 4 v).map UInt8.ofNat).map UInt8.toNat = fixedDigits 256 4 v := by
    rw [List.map_map]
    conv_rhs => rw [← List.map_id (fixedDigits 256 4 v)]
    apply List.map_congr_left
    intro d hd
    have := fixed_lt (base := 256) (by decide) 4 v d hd
    simp; omega
  rw [hm]
  have := fixed_val 256 4 v
  unfold digitsVal at this
  rw [this, Nat.mod_eq_of_lt (by simpa using h)]

/-- C44: the characters of a number are its four bytes, the highest one first. -/
theorem C44_a2c_bytes (v : A) : translate false (A2C v) =
    some [UInt8.ofNat (v.toNat / 2 ^ 24), UInt8.ofNat (v.toNat / 2 ^ 16), UInt8.ofNat (v.toNat / 2 ^ 8), UInt8.ofNat v.toNat] := by
  have h : A2C v = ((fixedDigits 256 4 v.toNat).map UInt8.ofNat).flatMap toAscii := by
    unfold A2C; rw [List.flatMap_map]
  rw [h, translate_toAscii]
  have hmod : ∀ n : Nat, UInt8.ofNat (n % 256) = UInt8.ofNat n := by
    intro n; apply UInt8.toNat_inj.1; simp
  simp [fixedDigits, hmod, Nat.div_div_eq_div_mul]

/-- C44: a number converted to characters and back. The characters must not take more than four bytes in UTF-8, see
`C44_witness_c2a`. -/
theorem C44_a2c_c2a_partial (v : A) (h : (A2C v).length ≤ 4) : C2A (A2C v) = some v := by
  have he : A2C v = utf8 (((fixedDigits 256 4 v.toNat).map UInt8.ofNat).map charOf) := by
    rw [← toAscii_utf8]; unfold A2C; rw [List.flatMap_map]
  have ht : translateLt (A2C v) = (fixedDigits 256 4 v.toNat).map UInt8.ofNat := by
    rw [he, translateLt_utf8, List.map_map]
    conv_rhs => rw [← List.map_id ((fixedDigits 256 4 v.toNat).map UInt8.ofNat)]
    exact List.map_congr_left fun b _ => (toAscii_charOf b).2
  have hne : A2C v ≠ [] := by
    intro h0
    rw [h0] at ht
    have := congrArg List.length ht
    simp [translateLt, fixed_length] at this
  unfold C2A
  rw [if_neg hne, if_neg (by omega), ht, bytes_number _ v.isLt]
  simp

/-- Eight binary digits are a byte. -/
theorem bits8 (b : UInt8) : bitsVal ((fixedDigits 2 8 b.toNat).map digitChar) = some b := by
  revert b
  exact forall_byte _ (by decide +kernel)

def b2cStep (g : Bytes) : Option Bytes := (bitsVal g).map toAscii

theorem b2c_groups (bs : Bytes) : (chunks 8 bs.length (bs.flatMap fun b => (fixedDigits 2 8 b.toNat).map digitChar)).mapM b2cStep =
    some (bs.map toAscii) := by
  induction bs with
  | nil => rfl
  | cons b bs ih =>
    have hl : ((fixedDigits 2 8 b.toNat).map digitChar).length = 8 := by rw [List.length_map, fixed_length]
    rw [List.flatMap_cons, List.length_cons, chunks, List.take_left' hl, List.drop_left' hl]
    rw [List.mapM_cons, ih, b2cStep, bits8]
    rfl

theorem flat8_length (bs : Bytes) : (bs.flatMap fun b => (fixedDigits 2 8 b.toNat).map digitChar).length = 8 * bs.length := by
  induction bs with
  | nil => rfl
  | cons b bs ih => rw [List.flatMap_cons, List.length_append, ih, List.length_map, fixed_length, List.length_cons]; omega

theorem b2c_flat (bs : Bytes) : B2C (bs.flatMap fun b => (fixedDigits 2 8 b.toNat).map digitChar) = some (bs.flatMap toAscii) := by
  cases bs with
  | nil => rfl
  | cons b bs =>
    have hl := flat8_length (b :: bs)
    generalize hx : ((b :: bs).flatMap fun b => (fixedDigits 2 8 b.toNat).map digitChar) = x at *
    have hne : x ≠ [] := by intro h0; rw [h0] at hl; simp at hl
    have hp : padTo 8 x = x := by
      unfold padTo; rw [if_neg (by rw [hl]; omega)]; rfl
    unfold B2C
    rw [if_neg hne]
    simp only [hp, hl]
    rw [Nat.mul_div_cancel_left _ (by decide), ← hx]
    have := b2c_groups (b :: bs)
    unfold b2cStep at this
    rw [this]
    simp [List.flatMap]

/-- C44: characters (of Latin-1) to binary digits and back. -/
theorem C44_c2b_b2c (cs : List Char) (h : ∀ c ∈ cs, c.toNat < 256) (hl : (utf8 cs).length * 8 ≤ MAX_STR_SIZE) :
    ∃ x, C2B (utf8 cs) = .ok x ∧ x.length = 8 * cs.length ∧ IsBin x ∧ B2C x = some (utf8 cs) := by
  refine ⟨(cs.map ebcdicOf).flatMap fun b => (fixedDigits 2 8 b.toNat).map digitChar, ?_, ?_, ?_, ?_⟩
  · unfold C2B
    by_cases h0 : utf8 cs = []
    · rw [if_pos h0]
      have : cs = [] := by
        cases cs with
        | nil => rfl
        | cons c cs =>
          obtain ⟨a, bs, he, _⟩ := encode_ne c
          rw [utf8_cons, he] at h0; simp at h0
      subst this; rfl
    · rw [if_neg h0, if_neg (by omega), C48_string_partial false _ (by simp)]
  · rw [flat8_length, List.length_map]
  · intro c hc
    obtain ⟨b, _, hb⟩ := List.mem_flatMap.1 hc
    obtain ⟨d, hd, rfl⟩ := List.mem_map.1 hb
    have := fixed_lt (base := 2) (by decide) 8 b.toNat d hd
    have hd2 : d = 0 ∨ d = 1 := by omega
    rcases hd2 with rfl | rfl
    · left; decide
    · right; decide
  · rw [b2c_flat, C48_latin1 cs h]

/-- Eight binary digits and the byte they denote. -/
theorem bin8 (g : Bytes) (hl : g.length = 8) (hb : IsBin g) : ∃ b : UInt8, g = (fixedDigits 2 8 b.toNat).map digitChar := by
  match g, hl with
  | [a, b, c, d, e, f, g, h], _ =>
    have key : ∀ x ∈ [a, b, c, d, e, f, g, h], x = 48 ∨ x = 49 := hb
    clear hb
    simp only [List.mem_cons, List.not_mem_nil, or_false, forall_eq_or_imp, forall_eq] at key
    obtain ⟨ha, hb, hc, hd, he, hf, hg, hh⟩ := key
    refine ⟨(bitsVal [a, b, c, d, e, f, g, h]).getD 0, ?_⟩
    rcases ha with rfl | rfl <;> rcases hb with rfl | rfl <;> rcases hc with rfl | rfl <;> rcases hd with rfl | rfl <;>
      rcases he with rfl | rfl <;> rcases hf with rfl | rfl <;> rcases hg with rfl | rfl <;> rcases hh with rfl | rfl <;> decide +kernel

theorem bin_bytes (k : Nat) (l : Bytes) (hl : l.length = 8 * k) (hb : IsBin l) :
    ∃ bs : Bytes, bs.length = k ∧ l = bs.flatMap fun b => (fixedDigits 2 8 b.toNat).map digitChar := by
  induction k generalizing l with
  | zero => exact ⟨[], rfl, by simpa using hl⟩
  | succ k ih =>
    obtain ⟨b, hg⟩ := bin8 (l.take 8) (by rw [List.length_take]; omega) (fun c hc => hb c (List.mem_of_mem_take hc))
    obtain ⟨bs, h1, h2⟩ := ih (l.drop 8) (by rw [List.length_drop]; omega) (fun c hc => hb c (List.mem_of_mem_drop hc))
    refine ⟨b :: bs, by simp [h1], ?_⟩
    rw [List.flatMap_cons, ← hg, ← h2, List.take_append_drop]

/-- C44: binary digits to characters and back: the same digits, padded with zeros in front to a multiple of eight. -/
theorem C44_b2c_c2b (p : Bytes) (h : IsBin p) :
    ∃ s, B2C p = some s ∧ (s.length * 8 ≤ MAX_STR_SIZE → C2B s = .ok (padTo 8 p)) := by
  by_cases hp : p = []
  · subst hp; exact ⟨[], rfl, fun _ => by simp [C2B, padTo]⟩
  have hlen := pad_length 8 (by decide) p
  obtain ⟨bs, h1, h2⟩ := bin_bytes _ _ hlen (pad_bin h)
  have hpp : padTo 8 (padTo 8 p) = padTo 8 p := by
    generalize padTo 8 p = q at *
    unfold padTo
    rw [if_neg (by rw [hlen]; omega)]; rfl
  have hB : B2C p = B2C (padTo 8 p) := by
    unfold B2C
    rw [if_neg hp, if_neg (pad_ne hp), hpp]
  refine ⟨bs.flatMap toAscii, by rw [hB, h2, b2c_flat], ?_⟩
  intro hs
  unfold C2B
  have hne : bs.flatMap toAscii ≠ [] := by
    intro h0
    have ht := translate_toAscii bs
    rw [h0] at ht
    simp [translate] at ht
    rw [ht] at h2
    exact pad_ne hp h2
  rw [if_neg hne, if_neg (by omega), translate_toAscii, h2]

example : C2A (A2C 0xC1C2C3C4#32) = some 0xC1C2C3C4#32 ∧ A2C 0xC1C2C3C4#32 = [65, 66, 67, 68] := by decide +kernel
example : IsBin [49, 49, 48, 48, 48, 48, 48, 49] ∧ B2C [49, 49, 48, 48, 48, 48, 48, 49] = some [65] := by
  refine ⟨?_, by decide +kernel⟩
  unfold IsBin
  decide

/-! ### Quotes -/

/-- C45: DOUBLE writes every quote and every ampersand twice and everything else once, in the same order. -/
theorem C45_double_exact (s : Bytes) (c : UInt8) :
    doubleLoop [] = [] ∧ doubleLoop (c :: s) = (if c = 39 ∨ c = 38 then [c, c] else [c]) ++ doubleLoop s := by
  refine ⟨rfl, ?_⟩
  unfold doubleLoop quoteOrAmp
  rw [List.flatMap_cons]
  by_cases h1 : c = 39 <;> by_cases h2 : c = 38 <;> simp [h1, h2]

def dropQuote (p : Bytes) : Bytes := if p ≠ [] ∧ p.getLastD 0 = 39 then p.dropLast else p

theorem dequote_cons (c : UInt8) (t : Bytes) : DEQUOTE (c :: t) = dropQuote (if c = 39 then t else c :: t) := by
  simp only [DEQUOTE, dropQuote, reduceCtorEq, if_false]
  rfl

/-- C45: DEQUOTE takes away one quote at the beginning and one at the end, and nothing else. -/
theorem C45_dequote (s : Bytes) : DEQUOTE (39 :: s ++ [39]) = s ∧
    (s.head? ≠ some 39 → s.getLast? ≠ some 39 → DEQUOTE s = s) ∧
    (s ≠ [] → s.getLast? ≠ some 39 → DEQUOTE (39 :: s) = s) ∧ (s.head? ≠ some 39 → DEQUOTE (s ++ [39]) = s) ∧ DEQUOTE [39] = [] := by
  refine ⟨?_, ?_, ?_, ?_, by decide⟩
  · simp [DEQUOTE]
  · intro h1 h2
    cases s with
    | nil => rfl
    | cons c t =>
      simp at h1
      have hl : (c :: t).getLastD 0 ≠ 39 := by
        rw [List.getLastD_eq_getLast?]
        intro h; apply h2
        cases hx : (c :: t).getLast? with
        | none => simp at hx
        | some x => rw [hx] at h; simp at h; rw [h]
      have hl' : ¬ ((c :: t) ≠ [] ∧ (c :: t).getLastD 0 = 39) := fun h => hl h.2
      rw [dequote_cons, if_neg h1, dropQuote, if_neg hl']
  · intro h1 h2
    have hl : s.getLastD 0 ≠ 39 := by
      rw [List.getLastD_eq_getLast?]
      intro h; apply h2
      cases hx : s.getLast? with
      | none => simp at hx; exact absurd hx h1
      | some x => rw [hx] at h; simp at h; rw [h]
    rw [dequote_cons, if_pos rfl, dropQuote, if_neg (fun h => hl h.2)]
  · intro h1
    cases s with
    | nil => decide
    | cons c t =>
      simp at h1
      rw [List.cons_append, dequote_cons, if_neg h1, dropQuote, if_pos ⟨by simp, by rw [List.getLastD_eq_getLast?, ← List.cons_append, List.getLast?_concat]; rfl⟩]
      rw [← List.cons_append, List.dropLast_concat]

/-- C45: DCVAL on a text without quotes and ampersands, and on one pair. -/
theorem C45_dcval_plain (s : Bytes) (h : ∀ c ∈ s, c ≠ 39 ∧ c ≠ 38) : DCVAL s = s ∧ ∀ q : UInt8, q = 39 ∨ q = 38 → DCVAL (q :: q :: s) = q :: s := by
  have hq : ∀ c : UInt8, c ≠ 39 ∧ c ≠ 38 → quoteOrAmp c = false := by intro c hc; simp [quoteOrAmp, hc.1, hc.2]
  have hs : DCVAL s = s := by
    induction s with
    | nil => rfl
    | cons c s ih =>
      cases s with
      | nil => rfl
      | cons d t =>
        rw [DCVAL, hq c (h c (by simp))]
        simp only [Bool.false_and, Bool.false_eq_true, if_false]
        rw [ih (fun x hx => h x (by simp [hx]))]
  refine ⟨hs, fun q hqq => ?_⟩
  have : quoteOrAmp q = true := by rcases hqq with rfl | rfl <;> rfl
  rw [DCVAL, this]
  simp [hs]

end Verif.Ca
