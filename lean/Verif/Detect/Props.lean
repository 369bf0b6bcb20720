import Verif.Detect.Spec
/-! C124: regular expressions, wildcards, paths. -/
namespace Verif.Detect
open Spec

/-! ### The languages of regular expressions -/

/-- The texts matched by an expression. -/
inductive Re.Has : Re → Text → Prop
  | eps : Has .eps []
  | cls {p c} : p c = true → Has (.cls p) [c]
  | cat {a b s t} : Has a s → Has b t → Has (.cat a b) (s ++ t)
  | altL {a b t} : Has a t → Has (.alt a b) t
  | altR {a b t} : Has b t → Has (.alt a b) t
  | nil {a} : Has (.star a) []
  | more {a s t} : s ≠ [] → Has a s → Has (.star a) t → Has (.star a) (s ++ t)

theorem nullable_iff (r : Re) : r.nullable = true ↔ r.Has [] := by
  induction r with
  | none => simp only [Re.nullable]; constructor <;> intro h <;> cases h
  | eps => exact ⟨fun _ => .eps, fun _ => rfl⟩
  | cls p => simp only [Re.nullable]; constructor <;> intro h <;> cases h
  | cat a b iha ihb =>
    simp only [Re.nullable, Bool.and_eq_true, iha, ihb]
    constructor
    · intro h; simpa using Re.Has.cat h.1 h.2
    · intro h
      generalize ht : ([] : Text) = t at h
      cases h with
      | @cat _ _ s t h1 h2 =>
        have := List.append_eq_nil_iff.mp ht.symm
        obtain ⟨rfl, rfl⟩ := this
        exact ⟨h1, h2⟩
  | alt a b iha ihb =>
    simp only [Re.nullable, Bool.or_eq_true, iha, ihb]
    constructor
    · intro h; rcases h with h | h
      · exact .altL h
      · exact .altR h
    · intro h; cases h with
      | altL h => exact .inl h
      | altR h => exact .inr h
  | star a _ => exact ⟨fun _ => .nil, fun _ => rfl⟩

theorem deriv_iff (c : Nat) (r : Re) : ∀ t, (r.deriv c).Has t ↔ r.Has (c :: t) := by
  induction r with
  | none => intro t; simp only [Re.deriv]; constructor <;> intro h <;> cases h
  | eps => intro t; simp only [Re.deriv]; constructor <;> intro h <;> cases h
  | cls p =>
    intro t
    simp only [Re.deriv]
    split
    · next hp =>
      constructor
      · intro h; cases h; exact .cls hp
      · intro h; cases h; exact .eps
    · next hp =>
      constructor
      · intro h; cases h
      · intro h; cases h with
        | cls h => exact absurd h hp
  | cat a b iha ihb =>
    intro t
    have key : (Re.cat a b).Has (c :: t) ↔ (∃ s u, t = s ++ u ∧ a.Has (c :: s) ∧ b.Has u) ∨ (a.Has [] ∧ b.Has (c :: t)) := by
      constructor
      · intro h
        generalize hx : c :: t = x at h
        cases h with
        | @cat _ _ s u h1 h2 =>
          cases s with
          | nil => simp only [List.nil_append] at hx; subst hx; exact .inr ⟨h1, h2⟩
          | cons e s =>
            simp only [List.cons_append, List.cons.injEq] at hx
            obtain ⟨rfl, rfl⟩ := hx
            exact .inl ⟨s, u, rfl, h1, h2⟩
      · rintro (⟨s, u, rfl, h1, h2⟩ | ⟨h1, h2⟩)
        · exact .cat h1 h2
        · exact .cat h1 h2
    have key2 : ((a.deriv c).cat b).Has t ↔ ∃ s u, t = s ++ u ∧ a.Has (c :: s) ∧ b.Has u := by
      constructor
      · intro h
        cases h with
        | @cat _ _ s u h1 h2 => exact ⟨s, u, rfl, (iha s).mp h1, h2⟩
      · rintro ⟨s, u, rfl, h1, h2⟩
        exact .cat ((iha s).mpr h1) h2
    rw [key]
    simp only [Re.deriv]
    split
    · next hn =>
      constructor
      · intro h
        cases h with
        | altL h => exact .inl (key2.mp h)
        | altR h => exact .inr ⟨(nullable_iff a).mp hn, (ihb t).mp h⟩
      · rintro (h | h)
        · exact .altL (key2.mpr h)
        · exact .altR ((ihb t).mpr h.2)
    · next hn =>
      rw [key2]
      constructor
      · exact .inl
      · rintro (h | h)
        · exact h
        · exact absurd ((nullable_iff a).mpr h.1) hn
  | alt a b iha ihb =>
    intro t
    constructor
    · intro h; cases h with
      | altL h => exact .altL ((iha t).mp h)
      | altR h => exact .altR ((ihb t).mp h)
    · intro h; cases h with
      | altL h => exact .altL ((iha t).mpr h)
      | altR h => exact .altR ((ihb t).mpr h)
  | star a iha =>
    intro t
    constructor
    · intro h
      simp only [Re.deriv] at h
      cases h with
      | @cat _ _ s u h1 h2 => exact .more (s := c :: s) (by simp) ((iha s).mp h1) h2
    · intro h
      generalize hx : c :: t = x at h
      simp only [Re.deriv]
      cases h with
      | nil => simp at hx
      | @more _ s u hs h1 h2 =>
        cases s with
        | nil => exact absurd rfl hs
        | cons e s =>
          simp only [List.cons_append, List.cons.injEq] at hx
          obtain ⟨rfl, rfl⟩ := hx
          exact .cat ((iha s).mpr h1) h2

theorem testAll_iff : ∀ (t : Text) (r : Re), r.testAll t = true ↔ r.Has t
  | [], r => nullable_iff r
  | c :: t, r => by rw [Re.testAll, testAll_iff t, deriv_iff]

theorem testStart_iff : ∀ (t : Text) (r : Re), r.testStart t = true ↔ ∃ s u, t = s ++ u ∧ r.Has s
  | [], r => by
    rw [Re.testStart, nullable_iff]
    constructor
    · intro h; exact ⟨[], [], rfl, h⟩
    · rintro ⟨s, u, h, hs⟩
      have := List.append_eq_nil_iff.mp h.symm
      rw [this.1] at hs; exact hs
  | c :: t, r => by
    rw [Re.testStart, Bool.or_eq_true, nullable_iff, testStart_iff t]
    constructor
    · rintro (h | ⟨s, u, rfl, h⟩)
      · exact ⟨[], c :: t, rfl, h⟩
      · exact ⟨c :: s, u, rfl, (deriv_iff c r s).mp h⟩
    · rintro ⟨s, u, he, h⟩
      cases s with
      | nil => exact .inl h
      | cons e s =>
        simp only [List.cons_append, List.cons.injEq] at he
        obtain ⟨rfl, rfl⟩ := he
        exact .inr ⟨s, u, rfl, (deriv_iff _ r s).mpr h⟩

theorem has_cat (a b : Re) (t : Text) : (a.cat b).Has t ↔ ∃ s u, t = s ++ u ∧ a.Has s ∧ b.Has u := by
  constructor
  · intro h; cases h with
    | @cat _ _ s u h1 h2 => exact ⟨s, u, rfl, h1, h2⟩
  · rintro ⟨s, u, rfl, h1, h2⟩; exact .cat h1 h2

theorem has_cls (p : Nat → Bool) (t : Text) : (Re.cls p).Has t ↔ ∃ c, t = [c] ∧ p c = true := by
  constructor
  · intro h; cases h with
    | @cls _ c h => exact ⟨c, rfl, h⟩
  · rintro ⟨c, rfl, h⟩; exact .cls h

theorem has_alt (a b : Re) (t : Text) : (a.alt b).Has t ↔ a.Has t ∨ b.Has t := by
  constructor
  · intro h; cases h with
    | altL h => exact .inl h
    | altR h => exact .inr h
  · rintro (h | h)
    · exact .altL h
    · exact .altR h

theorem has_star_cls (p : Nat → Bool) : ∀ t, (Re.star (.cls p)).Has t ↔ ∀ c ∈ t, p c = true
  | [] => by simp [Re.Has.nil]
  | c :: t => by
    constructor
    · intro h
      generalize hx : c :: t = x at h
      cases h with
      | nil => simp at hx
      | @more _ s u hs h1 h2 =>
        rw [has_cls] at h1
        obtain ⟨e, rfl, he⟩ := h1
        simp only [List.cons_append, List.nil_append, List.cons.injEq] at hx
        obtain ⟨rfl, rfl⟩ := hx
        have := (has_star_cls p t).mp h2
        intro d hd
        rcases List.mem_cons.mp hd with rfl | hd
        · exact he
        · exact this d hd
    · intro h
      exact .more (s := [c]) (by simp) (.cls (h c (by simp))) ((has_star_cls p t).mpr fun d hd => h d (by simp [hd]))

theorem has_plus_cls (p : Nat → Bool) (t : Text) : (Re.plus (.cls p)).Has t ↔ t ≠ [] ∧ ∀ c ∈ t, p c = true := by
  rw [Re.plus, has_cat]
  constructor
  · rintro ⟨s, u, rfl, h1, h2⟩
    rw [has_cls] at h1
    obtain ⟨c, rfl, hc⟩ := h1
    rw [has_star_cls] at h2
    refine ⟨by simp, fun d hd => ?_⟩
    rcases List.mem_cons.mp hd with rfl | hd
    · exact hc
    · exact h2 d hd
  · rintro ⟨hne, h⟩
    cases t with
    | nil => exact absurd rfl hne
    | cons c t =>
      exact ⟨[c], t, rfl, .cls (h c (by simp)), (has_star_cls p t).mpr fun d hd => h d (by simp [hd])⟩

theorem has_lit (c : Nat) (t : Text) : (Re.lit c).Has t ↔ t = [c] := by
  rw [Re.lit, has_cls]
  constructor
  · rintro ⟨d, rfl, h⟩; simp only [beq_iff_eq] at h; rw [h]
  · rintro rfl; exact ⟨c, rfl, by simp⟩

theorem has_word : ∀ (w t : Text), (Re.word w).Has t ↔ t = w
  | [], t => by
    rw [Re.word]
    constructor
    · intro h; cases h; rfl
    · rintro rfl; exact .eps
  | c :: w, t => by
    rw [Re.word, has_cat]
    constructor
    · rintro ⟨s, u, rfl, h1, h2⟩
      rw [(has_lit c s).mp h1, (has_word w u).mp h2]; rfl
    · rintro rfl
      exact ⟨[c], w, rfl, (has_lit c _).mpr rfl, (has_word w w).mpr rfl⟩

theorem has_any : ∀ (ws : List Text) (t : Text), (Re.any (ws.map Re.word)).Has t ↔ t ∈ ws
  | [], t => by
    simp only [List.map_nil, Re.any, List.not_mem_nil, iff_false]
    intro h; cases h
  | w :: ws, t => by
    rw [List.map_cons, Re.any, has_alt, has_word, has_any ws, List.mem_cons]

/-! ### Wildcards -/

/-- The text of the expression for one character of a wildcard. -/
def piece (c : Nat) : Text :=
  if c = 42 then [46, 42, 63] else if c = 43 then [46, 43, 63] else if c = 63 then [46]
  else if c ∈ escaped then [92, c] else [c]

/-- Its meaning. -/
def pieceRe (c : Nat) : Re :=
  if c = 42 then .star .dot else if c = 43 then .plus .dot else if c = 63 then .dot else .lit c

/-- The expression of a wildcard. -/
def wildRe : Text → Re
  | [] => .eps
  | c :: w => .cat (pieceRe c) (wildRe w)

/-- The three replacements. -/
def replaced (w : Text) : Text :=
  ((w.flatMap fun c => if c ∈ escaped then [92, c] else [c]).map fun c => if c = 63 then 46 else c).flatMap
    fun c => if c = 42 ∨ c = 43 then [46, c, 63] else [c]

theorem replaced_one (c : Nat) : replaced [c] = piece c := by
  unfold replaced piece
  by_cases h1 : c = 42
  · subst h1; decide
  by_cases h2 : c = 43
  · subst h2; decide
  by_cases h3 : c = 63
  · subst h3; decide
  by_cases h4 : c ∈ escaped
  · simp [h4, h1, h2, h3]
  · simp [h4, h1, h2, h3]

theorem replaced_eq (w : Text) : replaced w = w.flatMap piece := by
  induction w with
  | nil => rfl
  | cons c w ih =>
    have : replaced (c :: w) = replaced [c] ++ replaced w := by simp [replaced]
    rw [this, ih, replaced_one]; simp

/-- A text that does not start with a quantifier. -/
def Calm (t : Text) : Prop := ∀ c r, t = c :: r → c ≠ 42 ∧ c ≠ 43 ∧ c ≠ 63 ∧ c ≠ 123

theorem calm_text (w : Text) : Calm (w.flatMap piece) := by
  intro c r h
  cases w with
  | nil => simp at h
  | cons d w =>
    rw [List.flatMap_cons] at h
    unfold piece at h
    by_cases h1 : d = 42
    · simp only [h1, if_true, List.cons_append, List.cons.injEq] at h; rw [← h.1]; decide
    by_cases h2 : d = 43
    · simp only [h2, if_true, List.cons_append] at h
      simp at h; rw [← h.1]; decide
    by_cases h3 : d = 63
    · simp [h3] at h; rw [← h.1]; decide
    by_cases h4 : d ∈ escaped
    · simp only [if_neg h1, if_neg h2, if_neg h3, if_pos h4, List.cons_append, List.cons.injEq] at h; rw [← h.1]; decide
    · simp only [if_neg h1, if_neg h2, if_neg h3, if_neg h4, List.cons_append, List.cons.injEq] at h
      rw [← h.1]
      refine ⟨h1, h2, h3, ?_⟩
      rintro rfl; exact h4 (by decide)

theorem parseQuant_calm (a : Re) (t : Text) (h : Calm t) : parseQuant a t = some (a, t) := by
  cases t with
  | nil => rfl
  | cons c r =>
    obtain ⟨h1, h2, h3, h4⟩ := h c r rfl
    simp [parseQuant, h1, h2, h3, h4]

theorem parse_piece (c : Nat) (t : Text) (h : Calm t) :
    ∃ a r, parseAtom (piece c ++ t) = some (a, r) ∧ parseQuant a r = some (pieceRe c, t) := by
  unfold piece pieceRe
  by_cases h1 : c = 42
  · subst h1; exact ⟨.dot, 42 :: 63 :: t, by simp [parseAtom], by simp [parseQuant, dropLazy]⟩
  by_cases h2 : c = 43
  · subst h2; exact ⟨.dot, 43 :: 63 :: t, by simp [parseAtom], by simp [parseQuant, dropLazy]⟩
  by_cases h3 : c = 63
  · subst h3; exact ⟨.dot, t, by simp [parseAtom], by simp [parseQuant_calm _ _ h]⟩
  by_cases h4 : c ∈ escaped
  · refine ⟨.lit c, t, ?_, by simp [h1, h2, h3, parseQuant_calm _ _ h]⟩
    have hw : ∀ c ∈ escaped, wordChar c = false := by decide
    simp [h1, h2, h3, h4, parseAtom, hw c h4]
  · refine ⟨.lit c, t, ?_, by simp [h1, h2, h3, parseQuant_calm _ _ h]⟩
    have hs : ∀ c ∈ syntaxChars, c ∈ escaped ∨ c = 42 ∨ c = 43 ∨ c = 63 := by decide
    have hs' : c ∉ syntaxChars := by
      intro hc; rcases hs c hc with h | h | h | h
      · exact h4 h
      · exact h1 h
      · exact h2 h
      · exact h3 h
    have hd : c ≠ 46 := by rintro rfl; exact h4 (by decide)
    have hb : c ≠ 92 := by rintro rfl; exact h4 (by decide)
    simp [h1, h2, h3, h4, parseAtom, hs', hd, hb]

theorem parse_text (w : Text) : ∀ n, w.length ≤ n → parseBody n (w.flatMap piece) = some (wildRe w) := by
  induction w with
  | nil => intro n _; cases n <;> rfl
  | cons c w ih =>
    intro n hn
    cases n with
    | zero => simp at hn
    | succ n =>
      obtain ⟨a, r, h1, h2⟩ := parse_piece c (w.flatMap piece) (calm_text w)
      have hne : ∃ e t, piece c ++ w.flatMap piece = e :: t := by
        cases hp : piece c ++ w.flatMap piece with
        | nil => rw [hp] at h1; simp [parseAtom] at h1
        | cons e t => exact ⟨e, t, rfl⟩
      obtain ⟨e, t, he⟩ := hne
      rw [List.flatMap_cons, he]
      rw [he] at h1
      simp only [parseBody, h1, h2]
      rw [ih n (by simpa using hn)]
      rfl

theorem convert_eq (w : Text) : convert w = some (wildRe w) := by
  have hlen : w.length ≤ (w.flatMap piece).length := by
    induction w with
    | nil => simp
    | cons c w ih =>
      have : 1 ≤ (piece c).length := by unfold piece; (repeat' split) <;> simp
      simp only [List.flatMap_cons, List.length_append, List.length_cons]; omega
  have ht : wildcardText w = 94 :: (replaced w ++ [36]) := rfl
  rw [convert, ht, parseRe, replaced_eq, if_pos (by simp), List.dropLast_concat, parse_text w _ (by rw [List.length_append]; omega)]

theorem not_lineEnd {s : Text} (h : NoLineEnd s) : ∀ c ∈ s, lineEnd c = false := by
  intro c hc
  obtain ⟨h1, h2, h3, h4⟩ := h c hc
  simp [lineEnd, h1, h2, h3, h4]

theorem wildRe_iff (w : Text) : ∀ s, NoLineEnd s → ((wildRe w).Has s ↔ Wild w s) := by
  induction w with
  | nil =>
    intro s _
    constructor
    · intro h; cases h; exact .nil
    · intro h; cases h; exact .eps
  | cons c w ih =>
    intro s hs
    have hsub : ∀ {a b : Text}, s = a ++ b → NoLineEnd b := fun e d hd => hs d (by rw [e]; simp [hd])
    rw [wildRe, has_cat]
    unfold pieceRe
    by_cases h1 : c = 42
    · subst h1
      simp only [if_true, Re.dot, has_star_cls]
      constructor
      · rintro ⟨a, b, rfl, _, hb⟩; exact .star ((ih b (hsub rfl)).mp hb)
      · intro h
        cases h with
        | @star _ a b h => exact ⟨a, b, rfl, fun d hd => by simp [not_lineEnd hs d (by simp [hd])], (ih b (hsub rfl)).mpr h⟩
        | lit hc => exact absurd rfl hc
    by_cases h2 : c = 43
    · subst h2
      simp only [if_true, Re.dot, has_plus_cls, show (43 : Nat) ≠ 42 by decide, if_false]
      constructor
      · rintro ⟨a, b, rfl, ha, hb⟩; exact .plus ha.1 ((ih b (hsub rfl)).mp hb)
      · intro h
        cases h with
        | @plus _ a b hne h => exact ⟨a, b, rfl, ⟨hne, fun d hd => by simp [not_lineEnd hs d (by simp [hd])]⟩, (ih b (hsub rfl)).mpr h⟩
        | lit _ hc => exact absurd rfl hc
    by_cases h3 : c = 63
    · subst h3
      simp only [if_true, Re.dot, has_cls, show (63 : Nat) ≠ 42 by decide, show (63 : Nat) ≠ 43 by decide, if_false]
      constructor
      · rintro ⟨a, b, rfl, ⟨d, rfl, _⟩, hb⟩; exact .quest ((ih b (hsub rfl)).mp hb)
      · intro h
        cases h with
        | @quest _ d b h => exact ⟨[d], b, rfl, ⟨d, rfl, by simp [not_lineEnd hs d (by simp)]⟩, (ih b (hsub (a := [d]) rfl)).mpr h⟩
        | lit _ _ hc => exact absurd rfl hc
    · simp only [if_neg h1, if_neg h2, if_neg h3, has_lit]
      constructor
      · rintro ⟨a, b, rfl, rfl, hb⟩; exact .lit h1 h2 h3 ((ih b (hsub rfl)).mp hb)
      · intro h
        cases h with
        | star => exact absurd rfl h1
        | plus => exact absurd rfl h2
        | quest => exact absurd rfl h3
        | @lit _ _ b _ _ _ h => exact ⟨[c], b, rfl, rfl, (ih b (hsub (a := [c]) rfl)).mpr h⟩

theorem wild_refl : ∀ w : Text, Wild w w
  | [] => .nil
  | c :: w => by
    by_cases h1 : c = 42
    · subst h1; exact .star (s1 := [42]) (wild_refl w)
    by_cases h2 : c = 43
    · subst h2; exact .plus (s1 := [43]) (by simp) (wild_refl w)
    by_cases h3 : c = 63
    · subst h3; exact .quest (wild_refl w)
    · exact .lit h1 h2 h3 (wild_refl w)

theorem wild_literal : ∀ (l w s : Text), Literal l → (Wild (l ++ w) s ↔ ∃ r, s = l ++ r ∧ Wild w r)
  | [], w, s, _ => by simp
  | c :: l, w, s, h => by
    obtain ⟨h1, h2, h3⟩ := h c (by simp)
    have hl : Literal l := fun d hd => h d (by simp [hd])
    constructor
    · intro hw
      cases hw with
      | star => exact absurd rfl h1
      | plus => exact absurd rfl h2
      | quest => exact absurd rfl h3
      | lit _ _ _ hw =>
        obtain ⟨r, rfl, hr⟩ := (wild_literal l w _ hl).mp hw
        exact ⟨r, rfl, hr⟩
    · rintro ⟨r, rfl, hr⟩
      exact .lit h1 h2 h3 ((wild_literal l w _ hl).mpr ⟨r, rfl, hr⟩)

theorem wild_star_only (s : Text) : Wild [42] s := by
  have := Wild.star (s1 := s) .nil
  simpa using this

/-! ### Texts split and glued -/

theorem split_ne (sep : Nat) : ∀ t, split sep t ≠ []
  | [] => by simp [split]
  | c :: t => by
    rw [split]
    split
    · simp
    · split <;> simp

theorem glue_cons (sep : Nat) (l : Text) {ls : List Text} (h : ls ≠ []) : glue sep (l :: ls) = l ++ sep :: glue sep ls := by
  cases ls with
  | nil => exact absurd rfl h
  | cons a as => rfl

theorem glue_head (sep c : Nat) (l : Text) (ls : List Text) : glue sep ((c :: l) :: ls) = c :: glue sep (l :: ls) := by
  cases ls <;> rfl

theorem glue_split (sep : Nat) : ∀ t, glue sep (split sep t) = t
  | [] => rfl
  | c :: t => by
    rw [split]
    split
    · next h => rw [glue_cons _ _ (split_ne sep t), glue_split sep t, h]; rfl
    · next h =>
      have ih := glue_split sep t
      split
      · next he => exact absurd he (split_ne sep t)
      · next l ls he => rw [he] at ih; rw [glue_head, ih]

theorem split_clean (sep : Nat) : ∀ t, ∀ l ∈ split sep t, sep ∉ l
  | [], l, h => by simp [split] at h; simp [h]
  | c :: t, l, h => by
    rw [split] at h
    have ih := split_clean sep t
    split at h
    · rcases List.mem_cons.mp h with rfl | h
      · simp
      · exact ih l h
    · next hc =>
      split at h
      · next he => exact absurd he (split_ne sep t)
      · next l0 ls he =>
        rw [he] at ih
        rcases List.mem_cons.mp h with rfl | h
        · have := ih l0 (by simp)
          simp only [List.mem_cons, not_or]
          exact ⟨fun e => hc e.symm, this⟩
        · exact ih l (by simp [h])

theorem split_append (sep : Nat) (b : Text) : ∀ a, split sep (a ++ sep :: b) = split sep a ++ split sep b
  | [] => by simp [split]
  | c :: a => by
    rw [List.cons_append, split, split, split_append sep b a]
    split
    · rfl
    · cases h : split sep a with
      | nil => exact absurd h (split_ne sep a)
      | cons x xs => rfl

theorem split_single (sep : Nat) : ∀ l, sep ∉ l → split sep l = [l]
  | [], _ => rfl
  | c :: l, h => by
    simp only [List.mem_cons, not_or] at h
    rw [split, if_neg (fun e => h.1 e.symm), split_single sep l h.2]

theorem split_glue (sep : Nat) : ∀ ls, ls ≠ [] → (∀ l ∈ ls, sep ∉ l) → split sep (glue sep ls) = ls
  | [], h, _ => absurd rfl h
  | [l], _, h => split_single sep l (h l (by simp))
  | l :: m :: ls, _, h => by
    rw [glue_cons _ _ (by simp), split_append, split_single sep l (h l (by simp)),
      split_glue sep (m :: ls) (by simp) fun x hx => h x (by simp [hx])]
    rfl

theorem glue_append (sep : Nat) : ∀ (a b : List Text), a ≠ [] → b ≠ [] → glue sep (a ++ b) = glue sep a ++ sep :: glue sep b
  | [], _, h, _ => absurd rfl h
  | [l], b, _, hb => by rw [List.singleton_append, glue_cons _ _ hb]; rfl
  | l :: m :: a, b, _, hb => by
    rw [List.cons_append, glue_cons _ l (ls := m :: a ++ b) (by simp), glue_append sep (m :: a) b (by simp) hb,
      glue_cons _ l (ls := m :: a) (by simp)]
    simp

/-! ### Paths -/

theorem normStep_fold : ∀ (l acc : List Text), (∀ s ∈ l, s = [] ∨ s = [46] ∨ Segment s) →
    l.foldl normStep acc = acc ++ l.filter (fun s => s ≠ [] ∧ s ≠ [46])
  | [], acc, _ => by simp
  | s :: l, acc, h => by
    rw [List.foldl_cons, normStep_fold l _ fun x hx => h x (by simp [hx])]
    rcases h s (by simp) with rfl | rfl | ⟨h1, h2, h3, _⟩
    · simp [normStep]
    · simp [normStep]
    · simp [normStep, h1, h2, h3]

theorem normalize_eq (t : Text) (segs : List Text) (hs : segs ≠ []) (hf : (split 47 t).filter (fun s => s ≠ [] ∧ s ≠ [46]) = segs)
    (hg : ∀ s ∈ segs, Segment s) (hl : t.getLast? ≠ some 47) : normalize t = at_ segs := by
  have hall : ∀ s ∈ split 47 t, s = [] ∨ s = [46] ∨ Segment s := by
    intro s h
    by_cases he : s = []
    · exact .inl he
    · by_cases hd : s = [46]
      · exact .inr (.inl hd)
      · exact .inr (.inr (hg s (by rw [← hf]; simp [h, he, hd])))
  rw [normalize, normStep_fold _ _ hall, List.nil_append, hf]
  cases segs with
  | nil => exact absurd rfl hs
  | cons a as => simp [hl, at_]

theorem glue_last (sep : Nat) : ∀ segs : List Text, segs ≠ [] → (∀ s ∈ segs, s ≠ [] ∧ sep ∉ s) → (glue sep segs).getLast? ≠ some sep ∧ glue sep segs ≠ []
  | [], h, _ => absurd rfl h
  | [s], _, h => by
    obtain ⟨h1, h2⟩ := h s (by simp)
    refine ⟨?_, h1⟩
    intro he
    exact h2 (List.mem_of_getLast? he)
  | s :: m :: r, _, h => by
    have ih := glue_last sep (m :: r) (by simp) fun x hx => h x (by simp [hx])
    rw [glue_cons _ _ (by simp)]
    refine ⟨?_, by simp⟩
    rw [List.getLast?_append, List.getLast?_cons]
    cases hg : (glue sep (m :: r)).getLast? with
    | none => rw [List.getLast?_eq_none_iff] at hg; exact absurd hg ih.2
    | some c =>
      have := ih.1
      rw [hg] at this
      simpa using this

theorem at_append (a b : List Text) (ha : a ≠ []) (hb : b ≠ []) : at_ (a ++ b) = at_ a ++ 47 :: glue 47 b := by
  rw [at_, at_, glue_append 47 a b ha hb]; rfl

theorem split_at (segs : List Text) (h : segs ≠ []) (hg : ∀ s ∈ segs, Segment s) : split 47 (at_ segs) = [] :: segs := by
  rw [at_, split, if_pos rfl, split_glue 47 segs h fun s hs => (hg s hs).2.2.2]

theorem filter_segs (segs : List Text) (hg : ∀ s ∈ segs, Segment s) : segs.filter (fun s => s ≠ [] ∧ s ≠ [46]) = segs :=
  List.filter_eq_self.mpr fun s hs => by simpa using ⟨(hg s hs).1, (hg s hs).2.1⟩

/-- Names as they are written: also `.`. -/
theorem name_ok {s : Text} (h : s = [46] ∨ Segment s) : s ≠ [] ∧ 47 ∉ s := by
  rcases h with rfl | h
  · exact ⟨by decide, by decide⟩
  · exact ⟨h.1, h.2.2.2⟩

theorem filter_names (segs : List Text) (hg : ∀ s ∈ segs, s = [46] ∨ Segment s) :
    segs.filter (fun s => s ≠ [] ∧ s ≠ [46]) = segs.filter (· ≠ [46]) :=
  List.filter_congr fun s hs => by simp [(name_ok (hg s hs)).1]

theorem segs_of_names (segs : List Text) (hg : ∀ s ∈ segs, s = [46] ∨ Segment s) : ∀ s ∈ segs.filter (· ≠ [46]), Segment s := by
  intro s hs
  rw [List.mem_filter] at hs
  exact (hg s hs.1).resolve_left (by simpa using hs.2)

theorem ne_of_filter {ps : List Text} (h : ps.filter (· ≠ [46]) ≠ []) : ps ≠ [] := by
  rintro rfl; exact h rfl

theorem join_names (fs ps : List Text) (hf : fs ≠ []) (hfg : ∀ s ∈ fs, Segment s) (hp : ps.filter (· ≠ [46]) ≠ [])
    (hpg : ∀ s ∈ ps, s = [46] ∨ Segment s) : join [at_ fs, glue 47 ps] = at_ (fs ++ ps.filter (· ≠ [46])) := by
  have hpn := ne_of_filter hp
  have hlast := glue_last 47 ps hpn fun s hs => name_ok (hpg s hs)
  have e : glue 47 ([at_ fs, glue 47 ps].filter (· ≠ [])) = at_ fs ++ 47 :: glue 47 ps := by
    have : [at_ fs, glue 47 ps].filter (· ≠ []) = [at_ fs, glue 47 ps] := by simp [at_, hlast.2]
    rw [this]; rfl
  rw [join, e]
  apply normalize_eq
  · simp [hf]
  · rw [split_append, split_at fs hf hfg, split_glue 47 ps hpn fun s hs => (name_ok (hpg s hs)).2, List.filter_append, filter_names ps hpg,
      List.filter_cons_of_neg (by simp), filter_segs fs hfg]
  · intro s hs
    rcases List.mem_append.mp hs with h | h
    · exact hfg s h
    · exact segs_of_names ps hpg s h
  · rw [List.getLast?_append, List.getLast?_cons]
    cases hg : (glue 47 ps).getLast? with
    | none => rw [List.getLast?_eq_none_iff] at hg; exact absurd hg hlast.2
    | some c =>
      have := hlast.1
      rw [hg] at this
      simpa using this

theorem join_two (fs ps : List Text) (hf : fs ≠ []) (hfg : ∀ s ∈ fs, Segment s) (hp : ps ≠ []) (hpg : ∀ s ∈ ps, Segment s) :
    join [at_ fs, glue 47 ps] = at_ (fs ++ ps) := by
  have e : ps.filter (· ≠ [46]) = ps := List.filter_eq_self.mpr fun s hs => by simpa using (hpg s hs).2.1
  rw [join_names fs ps hf hfg (by rw [e]; exact hp) fun s hs => .inr (hpg s hs), e]

theorem join_lib (fs ds : List Text) (l : Text) (hf : fs ≠ []) (hfg : ∀ s ∈ fs, Segment s) (hd : ds.filter (· ≠ [46]) ≠ [])
    (hdg : ∀ s ∈ ds, s = [46] ∨ Segment s) (hl : l = glue 47 ds ∨ l = glue 47 ds ++ [47]) :
    join [at_ fs, l, [42]] = at_ (fs ++ ds.filter (· ≠ [46]) ++ [[42]]) := by
  have hdn := ne_of_filter hd
  have hlast := glue_last 47 ds hdn fun s hs => name_ok (hdg s hs)
  have hlne : l ≠ [] := by
    rcases hl with h | h
    · rw [h]; exact hlast.2
    · rw [h]; simp
  have e : glue 47 ([at_ fs, l, [42]].filter (· ≠ [])) = at_ fs ++ 47 :: (l ++ 47 :: [42]) := by
    have : [at_ fs, l, [42]].filter (· ≠ []) = [at_ fs, l, [42]] := by simp [at_, hlne]
    rw [this]; rfl
  have hs : (split 47 l).filter (fun s => s ≠ [] ∧ s ≠ [46]) = ds.filter (· ≠ [46]) := by
    rcases hl with h | h
    · rw [h, split_glue 47 ds hdn fun s hs => (name_ok (hdg s hs)).2, filter_names ds hdg]
    · rw [h, split_append, split_glue 47 ds hdn fun s hs => (name_ok (hdg s hs)).2, List.filter_append, filter_names ds hdg]
      simp [split]
  have h42 : split 47 [42] = [[42]] := by decide
  rw [join, e]
  apply normalize_eq
  · simp
  · rw [split_append, split_append, split_at fs hf hfg, h42, List.filter_append, List.filter_append, hs,
      List.filter_cons_of_neg (by simp), filter_segs fs hfg, List.append_assoc]
    simp
  · intro s hs
    rcases List.mem_append.mp hs with h | h
    · rcases List.mem_append.mp h with h | h
      · exact hfg s h
      · exact segs_of_names ds hdg s h
    · rw [List.mem_singleton.mp h]; exact ⟨by decide, by decide, by decide, by decide⟩
  · simp [List.getLast?_append, List.getLast?_cons]

end Verif.Detect
