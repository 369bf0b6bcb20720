import Verif.Ca.Str
import Verif.Ca.FuncProps
/-!
C46: substring and duplication. C49: concatenation.
-/
namespace Verif.Ca
open Verif.TextSync

/-! ### C46 -/

theorem dup_fold (value : Bytes) (n k : Nat) (acc : Bytes) : (List.range' k n).foldl (fun acc _ => acc ++ value) acc = acc ++ (List.replicate n value).flatten := by
  induction n generalizing k acc with
  | zero => simp
  | succ n ih => rw [List.range'_succ, List.foldl_cons, ih, List.replicate_succ, List.flatten_cons, List.append_assoc]

/-- C46: duplication. A negative factor is reported, a result that would be too long is reported, otherwise the result is the value repeated
that many times. -/
theorem C46_duplicate (n : A) (value : Bytes) :
    (n.toInt < 0 → duplicate (some n) value = .err .CE010) ∧
    (0 ≤ n.toInt → n.toInt * value.length > MAX_STR_SIZE → duplicate (some n) value = .err .CE011) ∧
    (0 ≤ n.toInt → n.toInt * value.length ≤ MAX_STR_SIZE → duplicate (some n) value = .ok (List.replicate n.toInt.toNat value).flatten) := by
  have hc : ∀ (h : 0 ≤ n.toInt), (n.toInt * value.length > MAX_STR_SIZE ↔ value.length * n.toInt.toNat > MAX_STR_SIZE) := by
    intro h
    obtain ⟨k, hk⟩ := Int.eq_ofNat_of_zero_le h
    rw [hk]
    simp only [Int.toNat_natCast]
    rw [Nat.mul_comm]
    exact_mod_cast Iff.rfl
  refine ⟨fun h => by simp [duplicate, h], fun h0 h => ?_, fun h0 h => ?_⟩
  · unfold duplicate
    simp only
    rw [if_neg (by omega), if_pos ((hc h0).1 h)]
  · unfold duplicate
    simp only
    rw [if_neg (by omega), if_neg (by rw [← hc h0]; omega)]
    by_cases hz : n.toInt = 0 ∨ value = []
    · rw [if_pos hz]
      rcases hz with hz | hz
      · simp [hz]
      · simp [hz]
    · rw [if_neg hz, dup_fold]
      congr 1
      have : n.toInt.toNat = (n.toInt.toNat - 1) + 1 := by omega
      rw [this, List.replicate_succ, List.flatten_cons]
      simp

/-- What the user expects from `'s'(b,c)`: bytes `b` to `b + c - 1`, as far as they exist. -/
def IsSubstring (s : Bytes) (b c : Int) (r : Bytes) : Prop :=
  (∀ i : Nat, i < c.toNat → r[i]? = s[b.toNat - 1 + i]?) ∧ r.length = min c.toNat (s.length - (b.toNat - 1))

/-- C46 (partial): a substring with a start inside of the string and a count is exactly the bytes from the start on, at most as many as
requested; anything else is reported. Without a count it is the rest of the string. Partial: bytes are counted, not characters, and a
missing count is undefined behaviour for some negative starts. -/
theorem C46_substring_partial (s : Bytes) (b : A) (c : Option A) (hs : s.length ≤ MAX_STR_SIZE) :
    let n : Int := subCount s b c
    (n ≤ 2147483647) →
    ((1 ≤ b.toInt ∧ b.toInt ≤ s.length ∧ 0 ≤ n → ∃ r, evalString none s (some b) c = .ok r ∧ IsSubstring s b.toInt n r) ∧
     (b.toInt = 0 ∧ n = 0 → evalString none s (some b) c = .ok []) ∧
     (b.toInt < 0 ∨ n < 0 ∨ (b.toInt = 0 ∧ n > 0) → evalString none s (some b) c = .err .CE008) ∧
     (b.toInt > s.length → 0 ≤ n → evalString none s (some b) c = .err .CE009)) := by
  intro n hn
  unfold evalString
  have h0 : ¬ s.length > MAX_STR_SIZE := by omega
  simp only [h0, if_false]
  have hn' : subCount s b c = n := rfl
  rw [hn']
  clear_value n
  have h1 : ¬ n > 2147483647 := by omega
  rw [if_neg h1]
  refine ⟨?_, ?_, ?_, ?_⟩
  · rintro ⟨h2, h3, h4⟩
    rw [if_neg (by omega), if_neg (by omega)]
    refine ⟨_, rfl, ?_⟩
    by_cases hz : n = 0
    · subst hz
      constructor
      · intro i hi; simp at hi
      · simp
    · rw [if_pos hz]
      constructor
      · intro i hi
        rw [List.getElem?_take_of_lt hi, List.getElem?_drop]
      · simp [List.length_take]
  · rintro ⟨h2, rfl⟩
    rw [if_neg (by omega), if_neg (by omega)]
    simp [duplicate]
  · intro h2
    rw [if_pos h2]
  · intro h2 h3
    rw [if_neg (by omega), if_pos h2]

/-- C46: the value of a character term is never longer than the maximum. -/
theorem C46_bounded (dupl : Option A) (s : Bytes) (start count : Option A) (r : Bytes) (h : evalString dupl s start count = .ok r) : r.length ≤ MAX_STR_SIZE := by
  have hd : ∀ v : Bytes, v.length ≤ MAX_STR_SIZE → duplicate dupl v = .ok r → r.length ≤ MAX_STR_SIZE := by
    intro v hv hr
    cases dupl with
    | none => simp only [duplicate, StrRes.ok.injEq] at hr; rw [← hr]; exact hv
    | some n =>
      obtain ⟨h1, h2, h3⟩ := C46_duplicate n v
      by_cases hn : n.toInt < 0
      · rw [h1 hn] at hr; cases hr
      · by_cases hm : n.toInt * v.length > MAX_STR_SIZE
        · rw [h2 (by omega) hm] at hr; cases hr
        · rw [h3 (by omega) (by omega)] at hr
          cases hr
          obtain ⟨k, hk⟩ := Int.eq_ofNat_of_zero_le (show 0 ≤ n.toInt by omega)
          rw [hk] at hm ⊢
          simp only [Int.toNat_natCast, List.length_flatten, List.map_replicate, List.sum_replicate_nat]
          have : ¬ (k * v.length > MAX_STR_SIZE) := by exact_mod_cast hm
          omega
  unfold evalString at h
  by_cases h0 : s.length > MAX_STR_SIZE
  · rw [if_pos h0] at h; cases h
  · rw [if_neg h0] at h
    cases start with
    | none => exact hd s (by omega) h
    | some b =>
      simp only at h
      generalize subCount s b count = n at h
      by_cases h1 : n > 2147483647
      · rw [if_pos h1] at h; cases h
      · rw [if_neg h1] at h
        by_cases h2 : b.toInt < 0 ∨ n < 0 ∨ (b.toInt = 0 ∧ n > 0)
        · rw [if_pos h2] at h; cases h
        · rw [if_neg h2] at h
          by_cases h3 : b.toInt > s.length
          · rw [if_pos h3] at h; cases h
          · rw [if_neg h3] at h
            refine hd _ ?_ h
            by_cases h4 : n ≠ 0
            · rw [if_pos h4]; simp; omega
            · rw [if_neg h4]; simp

/-- A missing count with the smallest start: the computation overflows before the start is checked. -/
theorem C46_witness_overflow : evalString none [97] (some 0x80000000#32) none = .ub := by decide +kernel

/-- The first "character" of the text `é` is one half of it. -/
theorem C46_witness_character : evalString none (utf8 ['é']) (some 1#32) (some 1#32) = .ok [0xC3] ∧ ∀ c, utf8 [c] ≠ [0xC3] := by
  refine ⟨by decide +kernel, fun c h => ?_⟩
  have he : utf8 [c] = String.utf8EncodeChar c := by rw [utf8_cons, utf8_nil, List.append_nil]
  rw [he] at h
  rcases encode_cases c with ⟨h1, e⟩ | ⟨_, _, x, y, e, _⟩ | ⟨_, _, x, y, z, e, _⟩ | ⟨_, x, y, z, w, e, _⟩
  · rw [e] at h
    simp only [List.cons.injEq, and_true] at h
    have := congrArg UInt8.toNat h
    rw [UInt8.toNat_ofNat'] at this
    have h2 : (0xC3 : UInt8).toNat = 195 := rfl
    rw [h2] at this
    omega
  all_goals (rw [e] at h; simp at h)

example : evalString (some 2#32) [97, 98, 99] (some 2#32) (some 5#32) = .ok [98, 99, 98, 99] := by decide +kernel

/-! ### C49 -/

mutual
/-- The text a chain stands for when nothing is dropped. -/
inductive Text : List Conc → Bytes → Prop
  | nil : Text [] []
  | str {s t r} : Text t r → Text (.str s :: t) (s ++ r)
  | dot {t r} : Text t r → Text (.dot :: t) (46 :: r)
  | equ {t r} : Text t r → Text (.equ :: t) (61 :: r)
  | var {v t r} : Text t r → Text (.var v :: t) (v ++ r)
  | sub {l t b r} : Texts l b → Text t r → Text (.sub l :: t) (40 :: (b ++ 41 :: r))
/-- The elements of a sublist separated by commas, the separating dots inside of them dropped. -/
inductive Texts : List (List Conc) → Bytes → Prop
  | nil : Texts [] []
  | one {c c' r} : Drops c c' → Text c' r → Texts [c] r
  | cons {c c' d t r rs} : Drops c c' → Text c' r → Texts (d :: t) rs → Texts (c :: d :: t) (r ++ 44 :: rs)
/-- Dropping the dots that immediately follow a variable symbol, and only those. -/
inductive Drops : List Conc → List Conc → Prop
  | nil : Drops [] []
  | varDot {v t t'} : Drops t t' → Drops (.var v :: .dot :: t) (.var v :: t')
  | varEnd {v} : Drops [.var v] [.var v]
  | varOther {v x t t'} : x ≠ .dot → Drops (x :: t) t' → Drops (.var v :: x :: t) (.var v :: t')
  | other {x t t'} : (∀ v, x ≠ .var v) → Drops t t' → Drops (x :: t) (x :: t')
end

mutual
theorem concEval_spec : ∀ c : List Conc, (∃ c', Drops c c' ∧ Text c' (concEval false c)) ∧
    (∃ c', (match c with
      | .dot :: t => Drops t c'
      | _ => Drops c c') ∧ Text c' (concEval true c))
  | [] => ⟨⟨[], .nil, by rw [concEval]; exact .nil⟩, ⟨[], .nil, by rw [concEval]; exact .nil⟩⟩
  | .dot :: t => by
    obtain ⟨⟨c', h1, h2⟩, _⟩ := concEval_spec t
    refine ⟨⟨.dot :: c', .other (by intro v; simp) h1, ?_⟩, ⟨c', h1, ?_⟩⟩
    · rw [concEval]; simp only [Bool.false_eq_true, if_false]; exact .dot h2
    · rw [concEval]; simpa using h2
  | .equ :: t => by
    obtain ⟨⟨c', h1, h2⟩, _⟩ := concEval_spec t
    have hd : Drops (.equ :: t) (.equ :: c') := .other (by intro v; simp) h1
    exact ⟨⟨.equ :: c', hd, by rw [concEval]; exact .equ h2⟩, ⟨.equ :: c', hd, by rw [concEval]; exact .equ h2⟩⟩
  | .str s :: t => by
    obtain ⟨⟨c', h1, h2⟩, _⟩ := concEval_spec t
    have hd : Drops (.str s :: t) (.str s :: c') := .other (by intro v; simp) h1
    exact ⟨⟨.str s :: c', hd, by rw [concEval]; exact .str h2⟩, ⟨.str s :: c', hd, by rw [concEval]; exact .str h2⟩⟩
  | .sub l :: t => by
    obtain ⟨⟨c', h1, h2⟩, _⟩ := concEval_spec t
    have hl := subEval_spec l
    have hd : Drops (.sub l :: t) (.sub l :: c') := .other (by intro v; simp) h1
    exact ⟨⟨.sub l :: c', hd, by rw [concEval]; exact .sub hl h2⟩, ⟨.sub l :: c', hd, by rw [concEval]; exact .sub hl h2⟩⟩
  | .var v :: t => by
    obtain ⟨_, ⟨c', h1, h2⟩⟩ := concEval_spec t
    have hd : Drops (.var v :: t) (.var v :: c') := by
      cases t with
      | nil => cases h1; exact .varEnd
      | cons x t =>
        cases x with
        | dot => exact .varDot h1
        | str s => exact .varOther (by simp) h1
        | equ => exact .varOther (by simp) h1
        | var w => exact .varOther (by simp) h1
        | sub l => exact .varOther (by simp) h1
    exact ⟨⟨.var v :: c', hd, by rw [concEval]; exact .var h2⟩, ⟨.var v :: c', hd, by rw [concEval]; exact .var h2⟩⟩
theorem subEval_spec : ∀ l : List (List Conc), Texts l (subEval l)
  | [] => by rw [subEval]; exact .nil
  | [c] => by
    obtain ⟨⟨c', h1, h2⟩, _⟩ := concEval_spec c
    rw [subEval]; exact .one h1 h2
  | c :: d :: t => by
    obtain ⟨⟨c', h1, h2⟩, _⟩ := concEval_spec c
    rw [subEval]; exact .cons h1 h2 (subEval_spec (d :: t))
end

/-- C49: the value of a chain is the text of the chain without the dots that follow a variable symbol. -/
theorem C49_concatenation (c : List Conc) : ∃ c', Drops c c' ∧ Text c' (evaluateChain c) := (concEval_spec c).1

theorem drops_det {c a : List Conc} (h : Drops c a) : ∀ {b}, Drops c b → a = b := by
  intro b hb
  induction hn : c.length using Nat.strongRecOn generalizing c a b with
  | _ n ih =>
    cases h with
    | nil => cases hb; rfl
    | varDot h =>
      cases hb with
      | varDot h' => rw [ih _ (by simp at hn; omega) h h' rfl]
      | varOther hx _ => exact absurd rfl hx
      | other hx _ => exact absurd rfl (hx _)
    | varEnd =>
      cases hb with
      | varEnd => rfl
      | other hx _ => exact absurd rfl (hx _)
    | varOther hx h =>
      cases hb with
      | varDot h' => exact absurd rfl hx
      | varOther _ h' => rw [ih _ (by simp at hn ⊢; omega) h h' rfl]
      | other hx _ => exact absurd rfl (hx _)
    | other hx h =>
      cases hb with
      | varDot h' => exact absurd rfl (hx _)
      | varEnd => exact absurd rfl (hx _)
      | varOther _ h' => exact absurd rfl (hx _)
      | other _ h' => rw [ih _ (by simp at hn; omega) h h' rfl]

/-- C49: at most one dot is dropped per variable symbol, everything else stays; in particular a chain without variable symbols is unchanged. -/
theorem C49_no_variable (c : List Conc) (h : ∀ x ∈ c, ∀ v, x ≠ .var v) : Text c (evaluateChain c) := by
  have hd : ∀ c : List Conc, (∀ x ∈ c, ∀ v, x ≠ .var v) → Drops c c := by
    intro c
    induction c with
    | nil => intro _; exact .nil
    | cons x t ih => intro h; exact .other (h x (by simp)) (ih (fun y hy => h y (by simp [hy])))
  obtain ⟨c', h1, h2⟩ := C49_concatenation c
  rw [← drops_det (hd c h) h1] at h2
  exact h2

/-- C49: the number substituted for a SETA symbol is its absolute value; for the smallest number this is undefined behaviour. -/
theorem C49_seta (v : A) (h : v.toInt ≠ -2147483648) : ∃ ds : List Nat, varA v = some (ds.map digitChar) ∧ digitsVal 10 ds = v.toInt.natAbs :=
  ⟨decDigits v.toInt.natAbs, by simp [varA, h], dec_val _⟩

example : evaluateChain [.str [97], .dot, .var [98], .dot, .dot, .var [99], .equ, .sub [[.var [100], .dot], [.dot]]] =
    [97, 46, 98, 46, 99, 61, 40, 100, 44, 46, 41] := by decide +kernel

/-- C46: without a count the substring reaches to the end of the string. -/
theorem C46_rest (str : Bytes) (b : A) (hl : str.length ≤ MAX_STR_SIZE) (h1 : 1 ≤ b.toInt) (h2 : b.toInt ≤ str.length) :
    evalString none str (some b) none = .ok (str.drop (b.toInt.toNat - 1)) := by
  have hm : MAX_STR_SIZE = 4064 := rfl
  have hc : subCount str b none = (str.length : Int) - b.toInt + 1 := rfl
  simp only [evalString]
  generalize subCount str b none = c at *
  rw [if_neg (by omega), if_neg (by omega), if_neg (by omega), if_neg (by omega), if_pos (by omega)]
  simp only [duplicate]
  rw [List.take_of_length_le (by rw [List.length_drop]; omega)]

example : evalString none [65, 66, 67] (some 2) none = .ok [66, 67] := by decide +kernel

end Verif.Ca
