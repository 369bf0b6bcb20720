import Verif.DataDef.ParseSpec
import Mathlib.Data.List.Forall2

/-
  Reading back what is written: the lemmas.
-/

namespace Verif.DataDef.Parsing

open Verif.DataDef (Text isDigit)
open Spec

variable {α : Type}

theorem isDigit_iff {c : Char} : isDigit c = true ↔ '0' ≤ c ∧ c ≤ '9' := by
  simp [isDigit]

theorem digitsValue_eq (ds : Text) : digitsValue ds = natural ds := rfl

/-- Nothing that would prolong a number. -/
def Sep (rest : Text) : Prop := ∀ c, rest.head? = some c → isDigit c = false

theorem takeWhile_digits {ds rest : Text} (h : ∀ c ∈ ds, isDigit c = true) (hs : Sep rest) :
    (ds ++ rest).takeWhile isDigit = ds ∧ (ds ++ rest).dropWhile isDigit = rest := by
  have hr : rest.takeWhile isDigit = [] ∧ rest.dropWhile isDigit = rest := by
    cases rest with
    | nil => exact ⟨rfl, rfl⟩
    | cons c r =>
      have := hs c rfl
      simp [List.takeWhile, List.dropWhile, this]
  rw [List.takeWhile_append_of_pos h, List.dropWhile_append_of_pos h, hr.1, hr.2]
  simp

theorem stoi_numeral {t rest : Text} {v : Int} (h : Numeral t v) (hs : Sep rest) :
    stoi (t ++ rest) = .ok v rest := by
  obtain ⟨ds, hne, hd, hcase, hlo, hhi⟩ := h
  have hd' : ∀ c ∈ ds, isDigit c = true := fun c hc => isDigit_iff.2 (hd c hc)
  have hw := takeWhile_digits hd' hs
  have hemp : ds.isEmpty = false := by cases ds <;> simp_all
  rcases hcase with ⟨rfl, hv⟩ | ⟨rfl, hv⟩
  · cases t with
    | nil => exact absurd rfl hne
    | cons c r =>
      have hc : (some c == some '-') = false := by
        have := hd' c (by simp)
        cases hcc : (some c == some '-') with
        | false => rfl
        | true =>
          have : c = '-' := by simpa using hcc
          subst this
          exact absurd (hd' '-' (by simp)) (by decide)
      unfold stoi
      simp only [List.cons_append, List.head?_cons, hc, Bool.false_eq_true, if_false]
      simp only [List.cons_append] at hw
      rw [hw.1, hw.2, hemp]
      simp only [Bool.false_eq_true, if_false, digitsValue_eq, ← hv]
      rw [if_pos ⟨hlo, hhi⟩]
  · unfold stoi
    simp only [List.cons_append, List.head?_cons, beq_self_eq_true, if_true, List.tail_cons]
    rw [hw.1, hw.2, hemp]
    simp only [Bool.false_eq_true, if_false, digitsValue_eq, ← hv]
    rw [if_pos ⟨hlo, hhi⟩]

theorem numeral_head {t : Text} {v : Int} (h : Numeral t v) :
    ∃ c r, t = c :: r ∧ isNumberChar c = true := by
  obtain ⟨ds, hne, hd, hcase, -, -⟩ := h
  rcases hcase with ⟨rfl, -⟩ | ⟨rfl, -⟩
  · cases t with
    | nil => exact absurd rfl hne
    | cons c r => exact ⟨c, r, rfl, by simp [isNumberChar, isDigit_iff.2 (hd c (by simp))]⟩
  · exact ⟨'-', ds, rfl, by decide⟩

/-- Reading a value that stands in front of something else. -/
theorem modifierValue_reads {v : Val α} {x : Src α} (h : Reads v x) {s : State α} {rest : Text} {es : List α}
    (hr : s.rest = v.text ++ rest) (he : s.exprs = v.exprs ++ es) (hs : Sep rest) :
    modifierValue s = .ok (some x, { s with rest := rest, exprs := es }) := by
  cases h with
  | @num t v hn =>
    obtain ⟨c, r, rfl, hc⟩ := numeral_head hn
    have hst := stoi_numeral hn hs
    simp only [Val.text] at hr
    simp only [Val.exprs, List.nil_append] at he
    unfold modifierValue
    rw [hr]
    simp only [List.cons_append, List.headD_cons, hc, if_true, parseNumber]
    rw [hr, hst]
    simp [← he]
  | expr e =>
    simp only [Val.text] at hr
    simp only [Val.exprs] at he
    unfold modifierValue
    rw [hr]
    have h1 : isNumberChar '&' = false := by decide
    simp only [List.cons_append, List.nil_append, List.headD_cons, h1, Bool.false_eq_true, if_false, beq_self_eq_true, if_true, moveNext, he,
      bind, Except.bind, hr, List.tail_cons]

theorem modifierValue_nominal {e : α} {s : State α} (hr : s.rest = [' ']) (hn : s.nominal = some (.exprs [.inl e])) :
    modifierValue s = .ok (some (.expr e), { s with rest := [] }) := by
  unfold modifierValue
  rw [hr]
  have h1 : isNumberChar ' ' = false := by decide
  have h2 : (' ' == '&') = false := by decide
  simp only [List.headD_cons, h1, h2, Bool.false_eq_true, if_false, beq_self_eq_true, if_true, hn, hr, List.tail_cons]

theorem after_sublist {c : Char} {cs rem : Text} (h : List.Sublist (c :: cs) rem) :
    List.Sublist cs (afterModifier rem c) ∧ rem.contains c = true := by
  induction rem with
  | nil => cases h
  | cons d r ih =>
    by_cases hd : d = c
    · subst hd
      refine ⟨?_, by simp⟩
      simp only [afterModifier, List.dropWhile_cons, bne_self_eq_false, Bool.false_eq_true, if_false, List.tail_cons]
      cases h with
      | cons _ h' => exact (List.sublist_cons_self _ _).trans h'
      | cons_cons _ h' => exact h'
    · cases h with
      | cons _ h' =>
        obtain ⟨h1, h2⟩ := ih h'
        have hne : (d != c) = true := by simp [hd]
        refine ⟨?_, by simp at h2; simp [h2]⟩
        simpa only [afterModifier, List.dropWhile_cons, hne, if_true] using h1
      | cons_cons _ h' => exact absurd rfl hd

/-- The effect of one modifier on the result. -/
def stepResult (r : Result α) (m : Modifier α) (v : Src α) : Result α :=
  assign { r with bit := r.bit || m.bit } m.letter (some v)

/-- The effect of all the modifiers. -/
def applyAll (r : Result α) : List (Modifier α) → List (Src α) → Result α
  | m :: ms, v :: vs => applyAll (stepResult r m v) ms vs
  | _, _ => r

/-- A modifier has one of the four letters, and only L has a bit length. -/
def GoodMod (m : Modifier α) : Prop := m.letter ∈ ['P', 'L', 'S', 'E'] ∧ (m.bit = true → m.letter = 'L')

theorem goodMod_letter {m : Modifier α} (h : GoodMod m) : isModifierOrProg m.letter = true := by
  have h1 := h.1
  simp only [List.mem_cons, List.not_mem_nil, or_false] at h1
  rcases h1 with h1 | h1 | h1 | h1 <;> rw [h1] <;> decide

theorem assign_nominal (r : Result α) (c : Char) (v : Option (Src α)) : (assign r c v).nominal = r.nominal := by
  unfold assign
  split <;> rfl

theorem assign_diags (r : Result α) (c : Char) (v : Option (Src α)) : (assign r c v).diags = r.diags := by
  unfold assign
  split <;> rfl

/-- A modifier whose value is read without a diagnostic. -/
theorem parseModifier_ok {m : Modifier α} {v : Src α} (hg : GoodMod m) {s : State α} {b rest : Text} {es : List α}
    (hs : s.rest = (if m.bit then ['.'] else []) ++ b) (hb : ∃ c r, b = c :: r ∧ c ≠ '.')
    (hrem : s.remaining.contains m.letter = true)
    (hv : ∀ s' : State α, s'.rest = b → s'.exprs = s.exprs → s'.nominal = s.nominal →
      modifierValue s' = .ok (some v, { s' with rest := rest, exprs := es })) :
    parseModifier m.letter s = .ok { s with
      rest := rest, exprs := es, remaining := afterModifier s.remaining m.letter, res := stepResult s.res m v } := by
  obtain ⟨c, r, rfl, hc⟩ := hb
  cases hbit : m.bit with
  | false =>
    rw [hbit] at hs
    simp only [Bool.false_eq_true, if_false, List.nil_append] at hs
    have : parseModifier m.letter s = finishModifier m.letter s := by
      unfold parseModifier
      rw [hs]
      split
      · rename_i h; cases h
      · rename_i h; injection h with h1 h2; exact absurd h1 hc
      · rfl
    rw [this]
    simp only [finishModifier, hv s hs rfl rfl, bind, Except.bind, hrem, if_true, stepResult, hbit, Bool.or_false]
  | true =>
    rw [hbit] at hs
    simp only [if_true, List.cons_append, List.nil_append] at hs
    have hL := hg.2 hbit
    have : parseModifier m.letter s = finishModifier m.letter
        { s with rest := c :: r, res := { s.res with bit := true } } := by
      unfold parseModifier
      rw [hs]
      simp [hL]
    rw [this]
    simp only [finishModifier, hv { s with rest := c :: r, res := { s.res with bit := true } } rfl rfl rfl, bind, Except.bind, hrem, if_true, stepResult, hbit, Bool.or_true]

theorem numeral_ne_dot {c : Char} (h : isNumberChar c = true) : c ≠ '.' := by
  rintro rfl
  exact absurd h (by decide)

theorem val_head {v : Val α} {x : Src α} (h : Reads v x) : ∃ c r, v.text = c :: r ∧ c ≠ '.' := by
  cases h with
  | num hn =>
    obtain ⟨c, r, rfl, hc⟩ := numeral_head hn
    exact ⟨c, r, rfl, numeral_ne_dot hc⟩
  | expr e => exact ⟨'&', [], rfl, by decide⟩

theorem render_cons (m : Modifier α) (r : List (Modifier α)) (n : Option (Nom α)) :
    (∃ e, m.value = .expr e ∧ r = [] ∧ n = none ∧ render (m :: r) n = (m.head ++ [' '], [], some (.exprs [.inl e])))
    ∨ render (m :: r) n = (m.head ++ m.value.text ++ (render r n).1, m.value.exprs ++ (render r n).2.1, (render r n).2.2) := by
  obtain ⟨l, b, v⟩ := m
  cases v with
  | num t => exact Or.inr (by simp [render])
  | expr e =>
    cases r with
    | nil =>
      cases n with
      | none => exact Or.inl ⟨e, rfl, rfl, rfl, by simp [render]⟩
      | some n => exact Or.inr (by simp [render])
    | cons m' r' => exact Or.inr (by simp [render])

theorem sep_render (r : List (Modifier α)) (n : Option (Nom α)) (hg : ∀ m ∈ r, GoodMod m) : Sep (render r n).1 := by
  cases r with
  | nil =>
    cases n with
    | none => intro c h; simp [render] at h
    | some n =>
      intro c h
      simp [render] at h
      subst h
      decide
  | cons m r =>
    have hl := (hg m (by simp)).1
    have : ∀ c, (render (m :: r) n).1.head? = some c → c = m.letter := by
      intro c h
      rcases render_cons m r n with ⟨e, -, -, -, hr⟩ | hr
      · rw [hr] at h; simpa [Modifier.head] using h.symm
      · rw [hr] at h; simpa [Modifier.head] using h.symm
    intro c h
    rw [this c h]
    simp only [List.mem_cons, List.not_mem_nil, or_false] at hl
    rcases hl with hl | hl | hl | hl <;> rw [hl] <;> decide

theorem parseLoop_nil (k : Nat) (s : State α) (h : s.rest = []) : parseLoop k s = .ok s := by
  cases k with
  | zero => rfl
  | succ k => simp [parseLoop, h]

theorem parseLoop_modifier {k : Nat} {s s' : State α} {c : Char} {r : Text} (h : s.rest = c :: r)
    (hc : isModifierOrProg c = true) (hp : parseModifier c { s with rest := r } = .ok s') :
    parseLoop (k + 1) s = parseLoop k s' := by
  simp only [parseLoop, h, hc, if_true, hp, bind, Except.bind]

theorem loop_render {n : Option (Nom α)} : ∀ (mods : List (Modifier α)) (vals : List (Src α)) (k : Nat) (s : State α),
    List.Forall₂ (fun m v => Reads m.value v) mods vals → List.Sublist (mods.map (·.letter)) s.remaining →
    (∀ m ∈ mods, GoodMod m) → s.rest = (render mods n).1 → s.exprs = (render mods n).2.1 →
    s.nominal = (render mods n).2.2 → mods.length < k → s.res.nominal = none →
    ∃ s', parseLoop k s = .ok s' ∧ s'.res = { applyAll s.res mods vals with nominal := n }
  | [], vals, k, s, hv, _, _, hr, _, hn, hk, h0 => by
    cases hv
    cases n with
    | none =>
      refine ⟨s, parseLoop_nil k s (by simpa [render] using hr), ?_⟩
      simp only [applyAll, ← h0]
    | some n =>
      obtain ⟨k, rfl⟩ : ∃ k', k = k' + 1 := ⟨k - 1, by simp at hk; omega⟩
      simp only [render] at hr hn
      have h1 : isModifierOrProg ' ' = false := by decide
      exact ⟨_, by simp only [parseLoop, hr, h1, Bool.false_eq_true, if_false, beq_self_eq_true, if_true]; rfl,
        by simp only [applyAll, hn]⟩
  | m :: r, vals, k, s, hv, hsub, hg, hr, he, hn, hk, h0 => by
    obtain ⟨k, rfl⟩ : ∃ k', k = k' + 1 := ⟨k - 1, by simp at hk; omega⟩
    cases hv with
    | @cons _ v _ vs hmv hvs =>
    have hgm := hg m (by simp)
    obtain ⟨hs1, hs2⟩ := after_sublist (by simpa using hsub)
    rcases render_cons m r n with ⟨e, hme, rfl, rfl, hre⟩ | hre
    · cases hvs
      rw [hme] at hmv
      cases hmv
      rw [hre] at hr he hn
      have hp := parseModifier_ok (v := .expr e) hgm (s := { s with rest := (if m.bit then ['.'] else []) ++ [' '] })
        (b := [' ']) (rest := []) (es := s.exprs) rfl ⟨' ', [], rfl, by decide⟩ hs2
        (by
          intro s' h1 h2 h3
          have h2' : s'.exprs = s.exprs := h2
          rw [modifierValue_nominal h1 (h3.trans hn), ← h2'])
      have hl := parseLoop_modifier (k := k) (s := s) (c := m.letter) (r := (if m.bit then ['.'] else []) ++ [' '])
        (by simpa [Modifier.head] using hr) (goodMod_letter hgm) hp
      refine ⟨_, hl.trans (parseLoop_nil _ _ rfl), ?_⟩
      simp only [applyAll]
      have : (stepResult s.res m (.expr e)).nominal = none := by rw [stepResult, assign_nominal, h0]
      rw [← this]
    · rw [hre] at hr he hn
      obtain ⟨c, t, hc1, hc2⟩ := val_head hmv
      have hp := parseModifier_ok (v := v) hgm
        (s := { s with rest := (if m.bit then ['.'] else []) ++ (m.value.text ++ (render r n).1) })
        (b := m.value.text ++ (render r n).1) (rest := (render r n).1) (es := (render r n).2.1) rfl
        ⟨c, t ++ (render r n).1, by rw [hc1]; rfl, hc2⟩ hs2
        (by
          intro s' h1 h2 h3
          exact modifierValue_reads hmv h1 (h2.trans he) (sep_render r n (fun m hm => hg m (by simp [hm]))))
      have hl := parseLoop_modifier (k := k) (s := s) (c := m.letter)
        (r := (if m.bit then ['.'] else []) ++ (m.value.text ++ (render r n).1))
        (by simpa [Modifier.head] using hr) (goodMod_letter hgm) hp
      rw [hl]
      refine (loop_render r vs k _ hvs hs1 (fun m hm => hg m (by simp [hm])) rfl rfl hn (by simp at hk; omega) ?_)
      show (stepResult s.res m v).nominal = none
      rw [stepResult, assign_nominal, h0]

end Verif.DataDef.Parsing
