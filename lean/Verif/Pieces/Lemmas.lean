import Verif.Pieces.Model
import Verif.Pieces.Spec
import Verif.Framing.Lemmas
/-!
Facts about searching in a prefix, and about the header of a message.
-/
namespace Verif.Pieces
open Verif
open Verif.Framing (CR LF decimal)
open Spec

theorem name_eq : name = label := by decide

theorem number_eq (n : Nat) : number n = decimal n := by
  fun_induction decimal n with
  | case1 n h =>
    rw [number, Nat.toDigits_of_lt_base h]
    have : n = 0 ∨ n = 1 ∨ n = 2 ∨ n = 3 ∨ n = 4 ∨ n = 5 ∨ n = 6 ∨ n = 7 ∨ n = 8 ∨ n = 9 := by omega
    rcases this with rfl | rfl | rfl | rfl | rfl | rfl | rfl | rfl | rfl | rfl <;> decide
  | case2 n h ih =>
    rw [number, Nat.toDigits_of_base_le (by decide) (by omega), List.map_append, ← ih, number]
    congr 1
    have : n % 10 < 10 := by omega
    generalize n % 10 = k at this ⊢
    have : k = 0 ∨ k = 1 ∨ k = 2 ∨ k = 3 ∨ k = 4 ∨ k = 5 ∨ k = 6 ∨ k = 7 ∨ k = 8 ∨ k = 9 := by omega
    rcases this with rfl | rfl | rfl | rfl | rfl | rfl | rfl | rfl | rfl | rfl <;> decide

theorem indexOf_prefix_self (p x : Bytes) (h : p <+: x) : indexOf p x = some 0 := by
  cases x with
  | nil => simp at h; simp [indexOf, h]
  | cons c t => simp [indexOf, List.isPrefixOf_iff_prefix.mpr h]

theorem indexOf_zero (p x : Bytes) : indexOf p x = some 0 ↔ p <+: x := by
  constructor
  · intro h
    cases x with
    | nil =>
      simp only [indexOf] at h
      split at h
      · next e => simp [e]
      · simp at h
    | cons c t =>
      simp only [indexOf] at h
      split at h
      · next e => exact List.isPrefixOf_iff_prefix.mp e
      · cases hh : indexOf p t <;> simp [hh] at h
  · exact indexOf_prefix_self p x

/-- Searching in a part: what is found in the whole is found in the part if it lies in it, otherwise nothing is. -/
theorem indexOf_part (p : Bytes) : ∀ (x z : Bytes) (i : Nat), indexOf p (x ++ z) = some i →
    indexOf p x = if i + p.length ≤ x.length then some i else none := by
  intro x
  induction x with
  | nil =>
    intro z i h
    by_cases hp : p = []
    · subst hp
      rw [indexOf_prefix_self _ _ (by simp)] at h
      cases h
      simp [indexOf]
    · have : 0 < p.length := by cases p <;> simp_all
      rw [if_neg (by simp; intro _; exact hp)]
      simp [indexOf, hp]
  | cons c t ih =>
    intro z i h
    by_cases h0 : p <+: (c :: t) ++ z
    · rw [indexOf_prefix_self _ _ h0] at h
      cases h
      by_cases hl : p.length ≤ (c :: t).length
      · rw [if_pos (by omega)]
        exact indexOf_prefix_self _ _ (List.prefix_of_prefix_length_le h0 (List.prefix_append _ _) hl)
      · rw [if_neg (by omega)]
        cases hx : indexOf p (c :: t) with
        | none => rfl
        | some j =>
          exfalso
          have : ∀ (y : Bytes) (j : Nat), indexOf p y = some j → j + p.length ≤ y.length := by
            intro y
            induction y with
            | nil => intro j hj; simp only [indexOf] at hj; split at hj <;> simp_all
            | cons a y ihy =>
              intro j hj
              simp only [indexOf] at hj
              split at hj
              · next e =>
                cases hj
                have := (List.isPrefixOf_iff_prefix.mp e).length_le
                omega
              · cases hh : indexOf p y with
                | none => simp [hh] at hj
                | some k =>
                  simp [hh] at hj
                  have := ihy k hh
                  simp
                  omega
          have := this _ _ hx
          omega
    · have h1 : ¬ p <+: c :: t := fun hh => h0 (hh.trans (List.prefix_append _ _))
      simp only [List.cons_append, indexOf] at h ⊢
      rw [if_neg (by rw [List.isPrefixOf_iff_prefix]; exact h0)] at h
      rw [if_neg (by rw [List.isPrefixOf_iff_prefix]; exact h1)]
      cases hh : indexOf p (t ++ z) with
      | none => simp [hh] at h
      | some k =>
        simp [hh] at h
        subst h
        rw [ih z k hh]
        by_cases hk : k + p.length ≤ t.length
        · rw [if_pos hk, if_pos (by simp; omega)]; rfl
        · rw [if_neg hk, if_neg (by simp; omega)]; rfl

/-- What begins with CR is not found before the first CR. -/
theorem indexOf_skip (p : Bytes) (l y : Bytes) (hl : CR ∉ l) :
    indexOf (CR :: p) (l ++ y) = (indexOf (CR :: p) y).map (· + l.length) := by
  induction l with
  | nil => simp
  | cons c l ih =>
    have hc : c ≠ CR := fun h => hl (by simp [h])
    have hcl : CR ∉ l := fun h => hl (by simp [h])
    simp only [List.cons_append, indexOf]
    rw [if_neg (by simp [List.isPrefixOf]; intro h; exact absurd h.symm hc), ih hcl]
    cases indexOf (CR :: p) y <;> simp [Nat.add_assoc]

theorem indexOf_crlf (l y : Bytes) (hl : CR ∉ l) : indexOf [CR, LF] (l ++ CR :: LF :: y) = some l.length := by
  rw [indexOf_skip _ _ _ hl, indexOf_prefix_self [CR, LF] (CR :: LF :: y) ⟨y, rfl⟩]
  simp

/-- The empty line after lines that are not empty. -/
theorem indexOf_end (y : Bytes) : ∀ (ls : List Bytes) (l : Bytes), CR ∉ l → (∀ m ∈ ls, m ≠ [] ∧ CR ∉ m) →
    indexOf [CR, LF, CR, LF] (line l ++ (ls.map line).flatten ++ line [] ++ y)
      = some (l.length + (ls.map line).flatten.length) := by
  intro ls
  induction ls with
  | nil =>
    intro l hl _
    simp only [line, List.map_nil, List.flatten_nil, List.append_nil, List.nil_append, List.append_assoc, List.length_nil]
    rw [indexOf_skip _ _ _ hl, indexOf_prefix_self _ _ ⟨y, by simp⟩]
    simp
  | cons m ls ih =>
    intro l hl hm
    obtain ⟨h1, h2⟩ := hm m (by simp)
    have ihm := ih m h2 (fun m' hm' => hm m' (by simp [hm']))
    have e : line l ++ ((m :: ls).map line).flatten ++ line [] ++ y
        = l ++ (CR :: LF :: (line m ++ (ls.map line).flatten ++ line [] ++ y)) := by
      simp [line]
    rw [e, indexOf_skip _ _ _ hl]
    generalize hy : line m ++ (ls.map line).flatten ++ line [] ++ y = w at ihm
    have hw : ¬ [CR, LF, CR, LF].isPrefixOf (CR :: LF :: w) = true := by
      cases m with
      | nil => exact absurd rfl h1
      | cons c m =>
        have hc : c ≠ CR := fun h => h2 (by simp [h])
        rw [← hy]
        simp [line, List.isPrefixOf]
        intro h; exact absurd h.symm hc
    have hw2 : ¬ [CR, LF, CR, LF].isPrefixOf (LF :: w) = true := by
      simp [List.isPrefixOf, CR, LF]
    simp only [indexOf]
    rw [if_neg hw, if_neg hw2, ihm]
    simp [line]
    omega

theorem decimal_no_cr (n : Nat) : CR ∉ decimal n := by
  intro h
  have := Framing.decimal_digits n _ h
  revert this
  decide

theorem isDigit_eq (c : UInt8) : isDigit c = Framing.isDigit c := rfl

theorem dropWhile_digits (l : Bytes) (h : ∀ c ∈ l, isDigit c = true) : l.dropWhile isSpace = l := by
  cases l with
  | nil => rfl
  | cons c t =>
    have hc := h c (by simp)
    have : isSpace c = false := by
      simp only [isDigit, Bool.and_eq_true, decide_eq_true_eq] at hc
      simp only [isSpace, Bool.or_eq_false_iff, decide_eq_false_iff_not, Bool.and_eq_false_iff]
      refine ⟨?_, Or.inr (by omega)⟩
      intro h; subst h; simp at hc
    simp [List.dropWhile, this]

theorem toNumber_decimal (n : Nat) : toNumber (decimal n) = .int n := by
  have hd : ∀ c ∈ decimal n, isDigit c = true := Framing.decimal_digits n
  have ht : trim (decimal n) = decimal n := by
    rw [trim, dropWhile_digits _ hd, dropWhile_digits _ (fun c hc => hd c (List.mem_reverse.mp hc)), List.reverse_reverse]
  rw [toNumber, ht]
  cases he : decimal n with
  | nil => exact absurd he (Framing.decimal_ne n)
  | cons c t =>
    rw [he] at hd
    simp only
    rw [if_pos (by simpa using hd)]
    have := Framing.decimal_value n
    rw [he] at this
    simp only [digits, this]

end Verif.Pieces
