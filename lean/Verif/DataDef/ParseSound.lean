import Verif.DataDef.ParseProps

/-
  The converse of C89: what is read without a diagnostic is written as a data definition.
-/

namespace Verif.DataDef.Parsing

open Verif.DataDef (Text isDigit)
open Spec

variable {α : Type}

/-! ### No undefined behaviour -/

theorem Fits.drop {a rest : Text} {es : List α} {n : Option (Nom α)} (h : Fits (a ++ rest) es n)
    (ha : ∀ c ∈ a, c ≠ '&' ∧ c ≠ ' ') : Fits rest es n := by
  refine ⟨?_, ?_, ?_, ?_⟩
  · rw [← h.count, List.count_append, List.count_eq_zero.2 (fun hc => (ha _ hc).1 rfl), Nat.zero_add]
  · rw [← h.blank, List.mem_append]
    constructor
    · exact Or.inr
    · rintro (hc | hc)
      · exact absurd rfl (ha _ hc).2
      · exact hc
  · intro hc
    cases rest with
    | nil => simp at hc
    | cons c r =>
      apply h.last
      rw [List.dropLast_append_of_ne_nil (by simp)]
      exact List.mem_append.2 (Or.inr hc)
  · intro hc
    cases rest with
    | nil => simp at hc
    | cons c r => apply h.amp; rw [List.getLast?_append, hc]; rfl

theorem Fits.tail {c : Char} {rest : Text} {es : List α} {n : Option (Nom α)} (h : Fits (c :: rest) es n)
    (h1 : c ≠ '&') (h2 : c ≠ ' ') : Fits rest es n :=
  Fits.drop (a := [c]) h (by simpa using ⟨h1, h2⟩)

theorem Fits.amp_tail {rest : Text} {es : List α} {n : Option (Nom α)} (h : Fits ('&' :: rest) es n) :
    ∃ e es', es = e :: es' ∧ Fits rest es' n ∧ rest ≠ [] := by
  have hne : rest ≠ [] := by
    rintro rfl
    exact h.amp rfl
  cases es with
  | nil => have := h.count; simp at this
  | cons e es' =>
    refine ⟨e, es', rfl, ⟨?_, ?_, ?_, ?_⟩, hne⟩
    · have := h.count; simpa using this
    · rw [← h.blank]; simp
    · intro hc
      apply h.last
      cases rest with
      | nil => simp at hc
      | cons c r => simpa [List.dropLast] using hc
    · intro hc
      apply h.amp
      cases rest with
      | nil => exact absurd rfl hne
      | cons c r => simpa [List.getLast?_cons] using hc

theorem Fits.blank_tail {rest : Text} {es : List α} {n : Option (Nom α)} (h : Fits (' ' :: rest) es n) :
    rest = [] ∧ es = [] ∧ ∃ m, n = some m := by
  have hr : rest = [] := by
    cases rest with
    | nil => rfl
    | cons c r => exact absurd (by simp [List.dropLast]) h.last
  subst hr
  refine ⟨rfl, ?_, ?_⟩
  · have := h.count
    simp at this
    exact List.length_eq_zero_iff.1 this.symm
  · have := h.blank.1 (by simp)
    exact Option.isSome_iff_exists.1 this

theorem Fits.nil {es : List α} {n : Option (Nom α)} (h : Fits [] es n) : es = [] ∧ n = none := by
  refine ⟨?_, ?_⟩
  · have := h.count
    simp at this
    exact List.length_eq_zero_iff.1 this.symm
  · cases n with
    | none => rfl
    | some n => have := h.blank.2 rfl; simp at this

/-! ### What `stoi` accepts -/

theorem mem_takeWhile {p : Char → Bool} {l : Text} {c : Char} (h : c ∈ l.takeWhile p) : p c = true := by
  induction l with
  | nil => simp at h
  | cons d r ih =>
    rw [List.takeWhile_cons] at h
    split at h
    · rcases List.mem_cons.1 h with rfl | h
      · assumption
      · exact ih h
    · simp at h

theorem stoi_ok {s rest : Text} {v : Int} (h : stoi s = .ok v rest) : ∃ t, s = t ++ rest ∧ Numeral t v := by
  have hsplit : ∀ r : Text, r = r.takeWhile isDigit ++ r.dropWhile isDigit := fun r => (List.takeWhile_append_dropWhile ..).symm
  have hdig : ∀ (r : Text) c, c ∈ r.takeWhile isDigit → '0' ≤ c ∧ c ≤ '9' := fun r c hc =>
    isDigit_iff.1 (mem_takeWhile hc)
  unfold stoi at h
  by_cases hneg : (s.head? == some '-') = true
  · obtain ⟨r, rfl⟩ : ∃ r, s = '-' :: r := by
      cases s with
      | nil => simp at hneg
      | cons c r => simp at hneg; exact ⟨r, by rw [hneg]⟩
    simp only [List.head?_cons, beq_self_eq_true, if_true, List.tail_cons] at h
    by_cases he : (r.takeWhile isDigit).isEmpty = true
    · rw [if_pos he] at h; cases h
    · rw [if_neg he] at h
      split at h
      · rename_i hv
        injection h with h1 h2
        subst h1 h2
        refine ⟨'-' :: r.takeWhile isDigit, by rw [List.cons_append, ← hsplit], r.takeWhile isDigit, ?_, hdig r, Or.inr ⟨rfl, rfl⟩, hv⟩
        intro hnil; rw [hnil] at he; exact he rfl
      · cases h
  · simp only [hneg, Bool.false_eq_true, if_false] at h
    by_cases he : (s.takeWhile isDigit).isEmpty = true
    · rw [if_pos he] at h; cases h
    · rw [if_neg he] at h
      split at h
      · rename_i hv
        injection h with h1 h2
        subst h1 h2
        refine ⟨s.takeWhile isDigit, hsplit s, s.takeWhile isDigit, ?_, hdig s, Or.inl ⟨rfl, rfl⟩, hv⟩
        intro hnil; rw [hnil] at he; exact he rfl
      · cases h

theorem numeral_plain {t : Text} {v : Int} (h : Numeral t v) : ∀ c ∈ t, c ≠ '&' ∧ c ≠ ' ' := by
  obtain ⟨ds, -, hd, hcase, -, -⟩ := h
  have hp : ∀ c ∈ ds, c ≠ '&' ∧ c ≠ ' ' := by
    intro c hc
    have := isDigit_iff.2 (hd c hc)
    constructor <;> (rintro rfl; exact absurd this (by decide))
  rcases hcase with ⟨rfl, -⟩ | ⟨rfl, -⟩
  · exact hp
  · intro c hc
    rcases List.mem_cons.1 hc with rfl | hc
    · decide
    · exact hp c hc

theorem numberChars_plain (t : Text) : ∀ c ∈ t.takeWhile isNumberChar, c ≠ '&' ∧ c ≠ ' ' := by
  intro c hc
  have := mem_takeWhile hc
  constructor <;> (rintro rfl; exact absurd this (by decide))

/-- There is an expression for every `&` to come and a nominal value if there is a blank to come. -/
def State.Safe (s : State α) : Prop := s.rest.count '&' ≤ s.exprs.length ∧ (' ' ∈ s.rest → s.nominal.isSome)

theorem State.Safe.sub {s s' : State α} (h : s.Safe) (hr : List.Sublist s'.rest s.rest) (he : s'.exprs = s.exprs)
    (hn : s'.nominal = s.nominal) : s'.Safe :=
  ⟨by rw [he]; exact Nat.le_trans (hr.count_le _) h.1, fun hb => by rw [hn]; exact h.2 (hr.subset hb)⟩

theorem moveNext_safe {s : State α} (h : s.Safe) {r : Text} (hr : s.rest = '&' :: r) :
    ∃ e s', moveNext s = .ok (e, s') ∧ s'.Safe := by
  obtain ⟨rest, es, n, rem, res⟩ := s
  simp only at hr
  subst hr
  cases es with
  | nil => have := h.1; simp at this
  | cons e es =>
    refine ⟨e, _, rfl, ?_, ?_⟩
    · have := h.1; simpa using this
    · intro hb; exact h.2 (by simp at hb; simp [hb])

theorem parseNumber_safe {s : State α} (h : s.Safe) : (parseNumber s).2.Safe := by
  unfold parseNumber
  split
  · rename_i v r hst
    obtain ⟨t, ht, -⟩ := stoi_ok hst
    exact h.sub (by rw [ht]; exact List.sublist_append_right _ _) rfl rfl
  · exact h.sub (List.dropWhile_sublist _) rfl rfl
  · exact h.sub (List.dropWhile_sublist _) rfl rfl

theorem modifierValue_safe {s : State α} (h : s.Safe) : ∃ o s', modifierValue s = .ok (o, s') ∧ s'.Safe := by
  unfold modifierValue
  cases hr : s.rest with
  | nil =>
    have h1 : isNumberChar '\x00' = false := by decide
    have h2 : ('\x00' == '&') = false := by decide
    have h3 : ('\x00' == ' ') = false := by decide
    simp only [List.headD_nil, h1, h2, h3, Bool.false_eq_true, if_false]
    exact ⟨_, _, rfl, h⟩
  | cons c r =>
    simp only [List.headD_cons]
    by_cases h1 : isNumberChar c = true
    · simp only [h1, if_true]
      exact ⟨_, _, rfl, parseNumber_safe h⟩
    · simp only [h1, Bool.false_eq_true, if_false]
      by_cases h2 : (c == '&') = true
      · simp only [h2, if_true]
        have : c = '&' := by simpa using h2
        subst this
        obtain ⟨e, s', h4, h5⟩ := moveNext_safe h hr
        exact ⟨_, _, by rw [h4]; rfl, h5⟩
      · simp only [h2, Bool.false_eq_true, if_false]
        by_cases h3 : (c == ' ') = true
        · simp only [h3, if_true]
          have : c = ' ' := by simpa using h3
          subst this
          obtain ⟨m, hm⟩ := Option.isSome_iff_exists.1 (h.2 (by rw [hr]; simp))
          split
          · rename_i hn; rw [hm] at hn; cases hn
          · exact ⟨_, _, rfl, h.sub (by rw [hr]; simp) rfl rfl⟩
          · exact ⟨_, _, rfl, h.sub (by rw [hr]; simp [State.diag]) rfl rfl⟩
        · simp only [h3, Bool.false_eq_true, if_false]
          exact ⟨_, _, rfl, h⟩

theorem finishModifier_safe (c : Char) {s : State α} (h : s.Safe) : ∃ s', finishModifier c s = .ok s' ∧ s'.Safe := by
  obtain ⟨o, s', h1, h2⟩ := modifierValue_safe h
  unfold finishModifier
  rw [h1]
  refine ⟨_, rfl, ?_⟩
  by_cases hc : s'.remaining.contains c = true
  · simp only [hc, if_true]
    exact h2
  · simp only [hc, Bool.false_eq_true, if_false]
    exact h2

theorem parseModifier_safe (c : Char) {s : State α} (h : s.Safe) : ∃ s', parseModifier c s = .ok s' ∧ s'.Safe := by
  unfold parseModifier
  split
  · exact ⟨_, rfl, h⟩
  · rename_i r hr
    have hs : ∀ res, (State.mk r s.exprs s.nominal s.remaining res).Safe := fun res =>
      h.sub (by rw [hr]; simp) rfl rfl
    by_cases hc : (c == 'L') = true
    · simp only [hc, if_true]
      split
      · exact ⟨_, rfl, hs _⟩
      · exact finishModifier_safe c (hs _)
    · simp only [hc, Bool.false_eq_true, if_false]
      split
      · exact ⟨_, rfl, hs _⟩
      · exact finishModifier_safe c (hs _)
  · exact finishModifier_safe c h

theorem parseLoop_safe : ∀ (k : Nat) {s : State α}, s.Safe → ∃ s', parseLoop k s = .ok s'
  | 0, s, _ => ⟨s, rfl⟩
  | k + 1, s, h => by
    unfold parseLoop
    split
    · exact ⟨_, rfl⟩
    · rename_i c r hr
      split
      · obtain ⟨s', h1, h2⟩ := parseModifier_safe c (s := { s with rest := r }) (h.sub (by rw [hr]; simp) rfl rfl)
        obtain ⟨s'', h3⟩ := parseLoop_safe k h2
        exact ⟨s'', by rw [h1]; exact h3⟩
      · split
        · exact ⟨_, rfl⟩
        · exact parseLoop_safe k (h.sub (List.dropWhile_sublist _) rfl rfl)

theorem parseDupl_safe {s : State α} (h : s.Safe) : ∃ s', parseDupl s = .ok s' ∧ s'.Safe := by
  unfold parseDupl
  by_cases h1 : isNumberChar (s.rest.headD '\x00') = true
  · simp only [h1, if_true]
    exact ⟨_, rfl, parseNumber_safe h⟩
  · simp only [h1, Bool.false_eq_true, if_false]
    by_cases h2 : (s.rest.headD '\x00' == '&') = true
    · simp only [h2, if_true]
      obtain ⟨r, hr⟩ : ∃ r, s.rest = '&' :: r := by
        cases hr : s.rest with
        | nil => rw [hr] at h2; simp at h2
        | cons c r => rw [hr] at h2; simp at h2; exact ⟨r, by rw [h2]⟩
      obtain ⟨e, s', h4, h5⟩ := moveNext_safe h hr
      exact ⟨{ s' with res := { s'.res with dupl := .expr e } }, by rw [h4]; rfl, h5⟩
    · simp only [h2, Bool.false_eq_true, if_false]
      exact ⟨_, rfl, h⟩

theorem toUpper_eq_iff {c d : Char} (hd : d < 'A') : c.toUpper = d ↔ c = d := by
  unfold Char.toUpper
  split
  · rename_i h
    obtain ⟨h1, h2⟩ := h
    have hd' : d.val.toNat < 65 := hd
    have h1' : 97 ≤ c.val.toNat := h1
    have h2' : c.val.toNat ≤ 122 := h2
    constructor
    · rintro rfl
      exfalso
      revert hd'
      have hk : ('A'.val - 'a'.val).toNat = 4294967264 := by decide
      simp only [UInt32.toNat_add, hk]
      omega
    · intro h
      subst h
      omega
  · rfl

/-! ### Diagnostics stay -/

theorem parseNumber_diags {s : State α} (h : (parseNumber s).2.res.diags = []) :
    ∃ v t rest, (parseNumber s) = (some v, { s with rest := rest }) ∧ s.rest = t ++ rest ∧ Numeral t v := by
  unfold parseNumber at h ⊢
  split at h
  · rename_i v r hst
    obtain ⟨t, ht, hn⟩ := stoi_ok hst
    exact ⟨v, t, r, rfl, ht, hn⟩
  · cases h
  · cases h

/-- What a value read without a diagnostic can be: a number or an expression; the expression that was taken for the nominal
value; or nothing. -/
theorem modifierValue_sound {s s' : State α} {o : Option (Src α)} (h : modifierValue s = .ok (o, s'))
    (hd : s'.res.diags = []) (hne : s.rest ≠ []) :
    (∃ v x rest es, o = some x ∧ Reads v x ∧ s.rest = v.text ++ rest ∧ s.exprs = v.exprs ++ es ∧
      s' = { s with rest := rest, exprs := es }) ∨
    (∃ e r, o = some (.expr e) ∧ s.rest = ' ' :: r ∧ s.nominal = some (.exprs [.inl e]) ∧ s' = { s with rest := r }) ∨
    (o = none ∧ s' = s ∧ ∃ c r, s.rest = c :: r ∧ isNumberChar c = false ∧ c ≠ '&' ∧ c ≠ ' ') := by
  obtain ⟨c, r, hr⟩ : ∃ c r, s.rest = c :: r := by
    cases hr : s.rest with
    | nil => exact absurd hr hne
    | cons c r => exact ⟨c, r, rfl⟩
  unfold modifierValue at h
  rw [hr] at h
  simp only [List.headD_cons] at h
  by_cases h1 : isNumberChar c = true
  · simp only [h1, if_true] at h
    injection h with h
    injection h with h2 h3
    subst h3
    obtain ⟨v, t, rest, hp, ht, hn⟩ := parseNumber_diags hd
    left
    refine ⟨.num t, .num v, rest, s.exprs, ?_, .num hn, ht, rfl, ?_⟩
    · rw [← h2, hp]; rfl
    · rw [hp]
  · simp only [h1, Bool.false_eq_true, if_false] at h
    by_cases h2 : (c == '&') = true
    · simp only [h2, if_true] at h
      have : c = '&' := by simpa using h2
      subst this
      unfold moveNext at h
      cases he : s.exprs with
      | nil => rw [he] at h; cases h
      | cons e es =>
        rw [he] at h
        injection h with h
        injection h with h3 h4
        left
        refine ⟨.expr e, .expr e, r, es, h3.symm, .expr e, hr, rfl, ?_⟩
        rw [← h4]
        simp [hr]
    · simp only [h2, Bool.false_eq_true, if_false] at h
      by_cases h3 : (c == ' ') = true
      · simp only [h3, if_true] at h
        have : c = ' ' := by simpa using h3
        subst this
        split at h
        · cases h
        · rename_i e hn
          injection h with h
          injection h with h4 h5
          right; left
          exact ⟨e, r, h4.symm, hr, hn, by rw [← h5]; simp⟩
        · injection h with h
          injection h with h4 h5
          subst h5
          cases hd
      · simp only [h3, Bool.false_eq_true, if_false] at h
        injection h with h
        injection h with h4 h5
        right; right
        refine ⟨h4.symm, h5.symm, c, r, hr, by simpa using h1, ?_, ?_⟩
        · rintro rfl; exact h2 (by simp)
        · rintro rfl; exact h3 (by simp)

theorem finishModifier_sound {c : Char} {s s' : State α} (h : finishModifier c s = .ok s') (hd : s'.res.diags = []) :
    ∃ o s1, modifierValue s = .ok (o, s1) ∧ s1.res.diags = [] ∧ s1.remaining.contains c = true ∧
      s' = { s1 with remaining := afterModifier s1.remaining c, res := assign s1.res c o } := by
  unfold finishModifier at h
  cases hm : modifierValue s with
  | error e => rw [hm] at h; cases h
  | ok p =>
    obtain ⟨o, s1⟩ := p
    rw [hm] at h
    simp only [bind, Except.bind] at h
    injection h with h
    subst h
    by_cases hc : s1.remaining.contains c = true
    · simp only [hc, if_true] at hd ⊢
      rw [assign_diags] at hd
      exact ⟨o, s1, rfl, hd, hc, rfl⟩
    · simp only [hc, Bool.false_eq_true, if_false] at hd
      rw [assign_diags] at hd
      cases hd

theorem modifierValue_diags {s s' : State α} {o : Option (Src α)} (h : modifierValue s = .ok (o, s'))
    (hd : s'.res.diags = []) : s.res.diags = [] := by
  by_cases hne : s.rest = []
  · unfold modifierValue at h
    rw [hne] at h
    have h1 : isNumberChar '\x00' = false := by decide
    have h2 : ('\x00' == '&') = false := by decide
    have h3 : ('\x00' == ' ') = false := by decide
    simp only [List.headD_nil, h1, h2, h3, Bool.false_eq_true, if_false] at h
    injection h with h
    injection h with h4 h5
    rw [h5]; exact hd
  · rcases modifierValue_sound h hd hne with ⟨v, x, rest, es, -, -, -, -, rfl⟩ | ⟨e, r, -, -, -, rfl⟩ | ⟨-, rfl, -⟩
    · exact hd
    · exact hd
    · exact hd

theorem finishModifier_diags {c : Char} {s s' : State α} (h : finishModifier c s = .ok s') (hd : s'.res.diags = []) :
    s.res.diags = [] := by
  obtain ⟨o, s1, h1, h2, -, -⟩ := finishModifier_sound h hd
  exact modifierValue_diags h1 h2

/-- A modifier read without a diagnostic. -/
theorem parseModifier_sound {c : Char} {s s' : State α} (h : parseModifier c s = .ok s') (hd : s'.res.diags = []) :
    s.res.diags = [] ∧ ∃ (b : Bool) (r : Text), s.rest = (if b then ['.'] else []) ++ r ∧ r ≠ [] ∧ (b = true → c = 'L') ∧
      finishModifier c { s with rest := r, res := { s.res with bit := s.res.bit || b } } = .ok s' := by
  unfold parseModifier at h
  split at h
  · injection h with h
    subst h
    cases hd
  · rename_i r hr
    by_cases hc : (c == 'L') = true
    · simp only [hc, if_true] at h
      split at h
      · injection h with h
        subst h
        cases hd
      · rename_i he
        refine ⟨?_, true, r, hr, ?_, fun _ => by simpa using hc, ?_⟩
        · have := finishModifier_diags h hd; exact this
        · rintro rfl; exact he rfl
        · simpa using h
    · simp only [hc, Bool.false_eq_true, if_false] at h
      split at h
      · injection h with h
        subst h
        cases hd
      · have := finishModifier_diags h hd
        cases this
  · rename_i h1 h2
    refine ⟨finishModifier_diags h hd, false, s.rest, rfl, ?_, by simp, by simpa using h⟩
    intro h0
    exact h1 h0

theorem parseLoop_diags : ∀ (k : Nat) {s s' : State α}, parseLoop k s = .ok s' → s'.res.diags = [] → s.res.diags = []
  | 0, s, s', h, hd => by injection h with h; rw [h]; exact hd
  | k + 1, s, s', h, hd => by
    unfold parseLoop at h
    split at h
    · injection h with h; rw [h]; exact hd
    · rename_i c r hr
      split at h
      · cases hm : parseModifier c { s with rest := r } with
        | error e => rw [hm] at h; cases h
        | ok s1 =>
          rw [hm] at h
          exact (parseModifier_sound hm (parseLoop_diags k h hd)).1
      · split at h
        · injection h with h; subst h; exact hd
        · have := parseLoop_diags k h hd
          cases this

/-! ### The converse -/

theorem Bare.append {t : Text} (h : Bare t) (p : Text) : Bare (p ++ t) := by
  obtain ⟨a, c, x, d, b, rfl, h⟩ := h
  exact ⟨p ++ a, c, x, d, b, by simp, h⟩

theorem after_length {rem : Text} {c : Char} (h : rem.contains c = true) : (afterModifier rem c).length < rem.length := by
  induction rem with
  | nil => simp at h
  | cons d r ih =>
    unfold afterModifier
    rw [List.dropWhile_cons]
    by_cases hd : (d != c) = true
    · rw [if_pos hd]
      have : r.contains c = true := by
        simp at hd h ⊢
        rcases h with h | h
        · exact absurd h.symm hd
        · exact h
      have := ih this
      unfold afterModifier at this
      simp only [List.length_cons]
      omega
    · rw [if_neg hd]
      simp

theorem sublist_after {c : Char} {cs rem : Text} (h : List.Sublist cs (afterModifier rem c)) (hc : rem.contains c = true) :
    List.Sublist (c :: cs) rem := by
  induction rem with
  | nil => simp at hc
  | cons d r ih =>
    unfold afterModifier at h
    rw [List.dropWhile_cons] at h
    by_cases hd : (d != c) = true
    · rw [if_pos hd] at h
      have : r.contains c = true := by
        simp at hd hc ⊢
        rcases hc with hc | hc
        · exact absurd hc.symm hd
        · exact hc
      exact (ih h this).cons d
    · rw [if_neg hd] at h
      have : d = c := by simpa using hd
      subst this
      exact List.Sublist.cons_cons d h

theorem modLetter_mem {c : Char} (h : isModifierOrProg c = true) : c ∈ ['P', 'L', 'S', 'E'] := by
  simp only [isModifierOrProg, Bool.or_eq_true, beq_iff_eq] at h
  simp only [List.mem_cons, List.not_mem_nil, or_false]
  rcases h with ((h | h) | h) | h <;> simp [h]

theorem modLetter_plain {c : Char} (h : isModifierOrProg c = true) : c ≠ '&' ∧ c ≠ ' ' := by
  constructor <;> (rintro rfl; exact absurd h (by decide))

theorem loop_sound : ∀ (k : Nat) {s s' : State α}, parseLoop k s = .ok s' → s'.res.diags = [] →
    Fits s.rest s.exprs s.nominal → s.remaining.length < k → s.res.nominal = none →
    (∃ n mods vals, List.Forall₂ (fun (m : Modifier α) v => Reads m.value v) mods vals ∧
      List.Sublist (mods.map (·.letter)) s.remaining ∧ (∀ m ∈ mods, GoodMod m) ∧
      s.rest = (render mods n).1 ∧ s.exprs = (render mods n).2.1 ∧ s.nominal = (render mods n).2.2 ∧
      s'.res = { applyAll s.res mods vals with nominal := n }) ∨ Bare s.rest
  | 0, s, s', h, hd, hf, hk, h0 => by omega
  | k + 1, s, s', h, hd, hf, hk, h0 => by
    unfold parseLoop at h
    split at h
    · rename_i hr
      injection h with h
      subst h
      rw [hr] at hf
      obtain ⟨he, hn⟩ := hf.nil
      left
      refine ⟨none, [], [], .nil, List.nil_sublist _, by simp, hr, he, hn, ?_⟩
      simp only [applyAll, ← h0]
    · rename_i c r hr
      rw [hr] at hf
      split at h
      · rename_i hc
        cases hm : parseModifier c { s with rest := r } with
        | error e => rw [hm] at h; cases h
        | ok s1 =>
        rw [hm] at h
        have h : parseLoop k s1 = .ok s' := h
        have hd1 := parseLoop_diags k h hd
        obtain ⟨-, b, q, hq, hqne, hbL, hfin⟩ := parseModifier_sound hm hd1
        have hq : r = (if b then ['.'] else []) ++ q := hq
        obtain ⟨o, s2, hv, hd2, hrem, hs1⟩ := finishModifier_sound hfin hd1
        have hf1 : Fits q s.exprs s.nominal := by
          have := hf.tail (modLetter_plain hc).1 (modLetter_plain hc).2
          rw [hq] at this
          exact this.drop (by intro d hd; split at hd <;> simp at hd; subst hd; decide)
        rcases modifierValue_sound hv hd2 hqne with ⟨v, x, rest, es, rfl, hreads, hq', he', rfl⟩ | ⟨e, r', rfl, hq', hn', rfl⟩ |
            ⟨rfl, rfl, d, r', hq', hd1', hd2', hd3'⟩
        · -- a value
          have hq' : q = v.text ++ rest := hq'
          have he' : s.exprs = v.exprs ++ es := he'
          have hrem : s.remaining.contains c = true := hrem
          have hf2 : Fits rest es s.nominal ∧ (∀ e, v = .expr e → rest ≠ []) := by
            cases hreads with
            | num hn =>
              refine ⟨?_, by intro e he; cases he⟩
              rw [hq'] at hf1
              have := hf1.drop (numeral_plain hn)
              rw [he'] at this
              exact this
            | expr e =>
              rw [hq'] at hf1
              obtain ⟨e2, es2, h1, h2, h3⟩ := Fits.amp_tail hf1
              rw [he'] at h1
              injection h1 with h4 h5
              subst h5
              exact ⟨h2, fun _ _ => h3⟩
          subst hs1
          have hlen := after_length hrem
          rcases loop_sound k h hd hf2.1 (by show (afterModifier s.remaining c).length < k; omega)
            (by show (assign _ _ _).nominal = none; rw [assign_nominal]; exact h0) with
            ⟨n, mods, vals, g1, g2, g3, g4, g5, g6, g7⟩ | hb
          · left
            have hgood : GoodMod (Modifier.mk c b v) := ⟨modLetter_mem hc, hbL⟩
            have g4 : rest = (render mods n).1 := g4
            have g5 : es = (render mods n).2.1 := g5
            have hren : render (Modifier.mk c b v :: mods) n =
                ((Modifier.mk c b v).head ++ v.text ++ (render mods n).1, v.exprs ++ (render mods n).2.1, (render mods n).2.2) := by
              rcases render_cons (Modifier.mk c b v) mods n with ⟨e, hve, rfl, rfl, -⟩ | hren
              · have hve : v = .expr e := hve
                exact absurd g4 (hf2.2 e hve)
              · exact hren
            refine ⟨n, Modifier.mk c b v :: mods, x :: vals, .cons hreads g1, ?_, ?_, ?_, ?_, ?_, ?_⟩
            · exact sublist_after g2 hrem
            · intro m hm
              rcases List.mem_cons.1 hm with rfl | hm
              · exact hgood
              · exact g3 m hm
            · rw [hren, hr, hq, hq', g4]
              simp [Modifier.head]
            · rw [hren, he', g5]
            · rw [hren]; exact g6
            · exact g7
          · right
            have hb : Bare rest := hb
            rw [hr, hq, hq']
            have := hb.append (c :: ((if b then ['.'] else []) ++ v.text))
            simpa using this
        · -- the nominal value
          have hq' : q = ' ' :: r' := hq'
          have hn' : s.nominal = some (.exprs [.inl e]) := hn'
          have hrem : s.remaining.contains c = true := hrem
          rw [hq'] at hf1
          obtain ⟨rfl, he, -⟩ := hf1.blank_tail
          subst hs1
          rw [parseLoop_nil k _ rfl] at h
          injection h with h
          left
          refine ⟨none, [Modifier.mk c b (.expr e)], [.expr e], .cons (.expr e) .nil, ?_, ?_, ?_, ?_, ?_, ?_⟩
          · exact sublist_after (List.nil_sublist _) hrem
          · intro m hm
            simp at hm
            subst hm
            exact ⟨modLetter_mem hc, hbL⟩
          · rw [hr, hq, hq']
            simp [render, Modifier.head]
          · rw [he]; simp [render]
          · rw [hn']; simp [render]
          · rw [← h]
            have : (assign ({ s.res with bit := s.res.bit || b }) c (some (.expr e))).nominal = none := by
              rw [assign_nominal]; exact h0
            simp only [applyAll, stepResult, ← this]
        · -- no value
          have hq' : q = d :: r' := hq'
          right
          cases k with
          | zero =>
            have := after_length hrem
            have hk : s.remaining.length < 1 := hk
            have hl : (afterModifier s.remaining c).length < s.remaining.length := this
            omega
          | succ k =>
            subst hs1
            unfold parseLoop at h
            have hrest : (State.mk q s.exprs s.nominal (afterModifier s.remaining c)
                (assign { s.res with bit := s.res.bit || b } c none)).rest = d :: r' := hq'
            simp only [hq'] at h
            by_cases hdm : isModifierOrProg d = true
            · refine ⟨[], c, if b then ['.'] else [], d, r', ?_, modLetter_mem hc, modLetter_mem hdm, ?_⟩
              · rw [hr, hq, hq']; simp
              · cases b <;> simp
            · simp only [hdm, Bool.false_eq_true, if_false] at h
              have : (d == ' ') = false := by simpa using hd3'
              simp only [this, Bool.false_eq_true, if_false] at h
              have := parseLoop_diags k h hd
              cases this
      · split at h
        · rename_i hc hb
          have : c = ' ' := by simpa using hb
          subst this
          injection h with h
          obtain ⟨rfl, he, m, hm⟩ := hf.blank_tail
          left
          refine ⟨some m, [], [], .nil, List.nil_sublist _, by simp, by rw [hr]; simp [render], by rw [he]; simp [render],
            by rw [hm]; simp [render], ?_⟩
          rw [← h, hm]
          rfl
        · have := parseLoop_diags k h hd
          cases this

end Verif.DataDef.Parsing
