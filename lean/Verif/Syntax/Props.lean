import Verif.Syntax.Spec
import Mathlib.Tactic.ByContra
/-!
C111: the messages about syntax errors.
-/
namespace Verif.Syntax

open Lexing (Ty)

/-! ### parentheses -/

/-- Left minus right parentheses. -/
def weight (t : Ty) : Int := if t = .lpar then 1 else if t = .rpar then -1 else 0

/-- Left minus right parentheses of a text. -/
def depth : List Ty → Int
  | [] => 0
  | t :: ts => weight t + depth ts

theorem depth_append (a b : List Ty) : depth (a ++ b) = depth a + depth b := by
  induction a with
  | nil => simp [depth]
  | cons t a ih => simp only [List.cons_append, depth, ih]; omega

/-- No beginning of the text has more right than left parentheses. -/
def Sound (ts : List Ty) : Prop := ∀ a b, ts = a ++ b → 0 ≤ depth a

theorem Sound.left {a b : List Ty} (h : Sound (a ++ b)) : Sound a := by
  intro c d e
  exact h c (d ++ b) (by rw [e, List.append_assoc])

theorem Balanced.facts {ts : List Ty} (h : Balanced ts) : depth ts = 0 ∧ Sound ts := by
  induction h with
  | nil =>
    refine ⟨rfl, fun a b e => ?_⟩
    have : a = [] := by cases a with | nil => rfl | cons x a => cases e
    subst this; exact Int.le_refl 0
  | word t ts hl hr h ih =>
    refine ⟨by simp [depth, weight, hl, hr, ih.1], fun a b e => ?_⟩
    cases a with
    | nil => exact Int.le_refl 0
    | cons x a =>
      injection e with e1 e2
      subst e1
      have := ih.2 a b e2
      simp only [depth, weight, hl, hr]
      simpa using this
  | pair a b ha hb iha ihb =>
    have hw : weight .lpar = 1 ∧ weight .rpar = -1 := by decide
    refine ⟨by simp only [depth, depth_append, hw.1, hw.2, iha.1, ihb.1]; omega, fun c d e => ?_⟩
    cases c with
    | nil => exact Int.le_refl 0
    | cons x c =>
      injection e with e1 e2
      subst e1
      simp only [depth, hw.1]
      rcases List.append_eq_append_iff.1 e2.symm with ⟨k, h1, h2⟩ | ⟨k, h1, h2⟩
      · have := iha.2 c k h1
        omega
      · cases k with
        | nil =>
          rw [List.append_nil] at h1
          subst h1
          rw [iha.1]; decide
        | cons y k =>
          injection h2 with h3 h4
          subst h3
          rw [h1, depth_append, iha.1]
          simp only [depth, hw.2]
          have := ihb.2 k d h4
          omega

theorem Balanced.append {a b : List Ty} (ha : Balanced a) (hb : Balanced b) : Balanced (a ++ b) := by
  induction ha with
  | nil => exact hb
  | word t ts hl hr _ ih => exact .word t _ hl hr ih
  | pair c d hc _ _ ih =>
    rw [List.cons_append, List.append_assoc, List.cons_append]
    exact .pair c _ hc ih

theorem open_left : ∀ (n : Nat) (a : List Ty), a.length = n → Sound a → 1 ≤ depth a → ∃ c d, a = c ++ .lpar :: d ∧ Balanced d := by
  intro n
  induction n using Nat.strongRecOn with
  | ind n ih =>
    intro a hn hs hd
    rcases List.eq_nil_or_concat a with rfl | ⟨a', x, rfl⟩
    · simp [depth] at hd
    · rw [List.concat_eq_append] at *
      have hs' : Sound a' := hs.left
      have hlen : a'.length < n := by rw [← hn]; simp
      rw [depth_append] at hd
      by_cases hl : x = .lpar
      · subst hl
        exact ⟨a', [], rfl, .nil⟩
      · by_cases hr : x = .rpar
        · subst hr
          have h1 : depth [Ty.rpar] = -1 := by decide
          rw [h1] at hd
          obtain ⟨c, d, rfl, hb⟩ := ih _ hlen a' rfl hs' (by omega)
          have hc : 1 ≤ depth c := by
            rw [depth_append] at hd
            simp only [depth, hb.facts.1] at hd
            have : weight Ty.lpar = 1 := by decide
            omega
          obtain ⟨c', d', rfl, hb'⟩ := ih c.length (by simp at hlen; omega) c rfl hs'.left hc
          refine ⟨c', d' ++ .lpar :: (d ++ [.rpar]), by simp, hb'.append (.pair d [] hb .nil)⟩
        · have h0 : depth [x] = 0 := by simp [depth, weight, hl, hr]
          rw [h0] at hd
          obtain ⟨c, d, rfl, hb⟩ := ih _ hlen a' rfl hs' (by omega)
          exact ⟨c, d ++ [x], by simp, hb.append (.word x [] hl hr .nil)⟩

theorem balanced_of : ∀ (n : Nat) (a : List Ty), a.length = n → Sound a → depth a = 0 → Balanced a := by
  intro n
  induction n using Nat.strongRecOn with
  | ind n ih =>
    intro a hn hs hd
    rcases List.eq_nil_or_concat a with rfl | ⟨a', x, rfl⟩
    · exact .nil
    · rw [List.concat_eq_append] at *
      have hs' : Sound a' := hs.left
      have hlen : a'.length < n := by rw [← hn]; simp
      rw [depth_append] at hd
      by_cases hl : x = .lpar
      · subst hl
        have h1 : depth [Ty.lpar] = 1 := by decide
        have := hs' a' [] (by simp)
        omega
      · by_cases hr : x = .rpar
        · subst hr
          have h1 : depth [Ty.rpar] = -1 := by decide
          rw [h1] at hd
          obtain ⟨c, d, rfl, hb⟩ := open_left _ a' rfl hs' (by omega)
          rw [depth_append] at hd
          have hw : weight Ty.lpar = 1 := by decide
          simp only [depth, hb.facts.1] at hd
          have hbc := ih c.length (by simp at hlen; omega) c rfl hs'.left (by omega)
          rw [List.append_assoc, List.cons_append]
          exact hbc.append (.pair d [] hb .nil)
        · have h0 : depth [x] = 0 := by simp [depth, weight, hl, hr]
          exact (ih _ hlen a' rfl hs' (by omega)).append (.word x [] hl hr .nil)

/-- If the text is not sound, it is a balanced text and a right parenthesis more. -/
theorem first_right : ∀ (n : Nat) (a : List Ty), a.length = n → ¬ Sound a → ∃ c d, a = c ++ .rpar :: d ∧ Balanced c := by
  intro n
  induction n using Nat.strongRecOn with
  | ind n ih =>
    intro a hn hs
    rcases List.eq_nil_or_concat a with rfl | ⟨a', x, rfl⟩
    · exact absurd Balanced.nil.facts.2 hs
    · rw [List.concat_eq_append] at *
      have hlen : a'.length < n := by rw [← hn]; simp
      by_cases hs' : Sound a'
      · have hd : depth (a' ++ [x]) < 0 := by
          by_contra hc
          apply hs
          intro c d e
          rcases List.eq_nil_or_concat d with rfl | ⟨d', y, rfl⟩
          · rw [List.append_nil] at e; rw [← e]; omega
          · rw [List.concat_eq_append, ← List.append_assoc] at e
            exact hs' c d' (List.append_inj_left' e rfl)
        have h0 : 0 ≤ depth a' := hs' a' [] (by simp)
        rw [depth_append] at hd
        have hx : x = .rpar := by
          by_contra hx
          have : 0 ≤ depth [x] := by
            simp only [depth, weight, hx]
            split <;> simp
          omega
        subst hx
        have h1 : depth [Ty.rpar] = -1 := by decide
        exact ⟨a', [], rfl, balanced_of _ a' rfl hs' (by omega)⟩
      · obtain ⟨c, d, rfl, hb⟩ := ih _ hlen a' rfl hs'
        exact ⟨c, d ++ [x], by simp, hb⟩

theorem rightAlone_iff (ts : List Ty) : RightAlone ts ↔ ¬ Sound ts := by
  have hw : weight Ty.lpar = 1 ∧ weight Ty.rpar = -1 := by decide
  constructor
  · rintro ⟨a, b, rfl, h⟩ hs
    apply h
    refine open_left _ a rfl hs.left ?_
    have := hs (a ++ [.rpar]) b (by simp)
    rw [depth_append] at this
    simp only [depth, hw.2] at this
    omega
  · intro hs
    obtain ⟨c, d, rfl, hb⟩ := first_right _ ts rfl hs
    refine ⟨c, d, rfl, ?_⟩
    rintro ⟨e, f, rfl, hf⟩
    have h1 := hb.facts.1
    rw [depth_append] at h1
    simp only [depth, hw.1, hf.facts.1] at h1
    have := hb.facts.2 e (.lpar :: f) rfl
    omega

theorem leftAlone_iff (ts : List Ty) (hs : Sound ts) : LeftAlone ts ↔ 1 ≤ depth ts := by
  have hw : weight Ty.lpar = 1 ∧ weight Ty.rpar = -1 := by decide
  constructor
  · rintro ⟨a, b, rfl, h⟩
    have h0 := hs a (.lpar :: b) rfl
    by_contra hc
    rw [depth_append] at hc
    simp only [depth, hw.1] at hc
    apply h
    apply first_right _ b rfl
    intro hb
    have := hb b [] (by simp)
    omega
  · intro hd
    obtain ⟨c, d, rfl, hb⟩ := open_left _ ts rfl hs hd
    refine ⟨c, d, rfl, ?_⟩
    rintro ⟨e, f, rfl, he⟩
    have := hb.facts.2 (e ++ [.rpar]) f (by simp)
    rw [depth_append] at this
    simp only [depth, hw.2, he.facts.1] at this
    omega

/-! ### the loop -/

theorem signs_iff (t : Ty) : isSign t = true ↔ t ∈ signs := by cases t <;> decide
theorem beginnings_iff (t : Ty) : canFollow t = true ↔ t ∈ beginnings := by cases t <;> decide
theorem endings_iff (t : Ty) : canPrecede t = true ↔ t ∈ endings := by cases t <;> decide

theorem walk_par (ts : List Ty) : ∀ (prev : Option Ty) (f : Flags), (walk prev f ts).par = f.par - depth ts := by
  induction ts with
  | nil => intro prev f; simp [walk, depth]
  | cons t ts ih =>
    intro prev f
    rw [walk, ih, depth]
    unfold Flags.step Flags.word weight
    dsimp only
    split
    · simp only; omega
    · split
      · simp only; omega
      · simp only; omega

theorem walk_right (ts : List Ty) : ∀ (prev : Option Ty) (f : Flags),
    (walk prev f ts).rightPrec = true ↔ f.rightPrec = true ∨ ∃ a b, ts = a ++ b ∧ a ≠ [] ∧ f.par - depth a > 0 := by
  induction ts with
  | nil =>
    intro prev f
    simp only [walk]
    constructor
    · exact .inl
    · rintro (h | ⟨a, b, h, hn, -⟩)
      · exact h
      · cases a with
        | nil => exact absurd rfl hn
        | cons x a => cases h
  | cons t ts ih =>
    intro prev f
    have hp : (f.step prev ts.head? t).par = f.par - weight t := by
      unfold Flags.step Flags.word weight
      dsimp only
      split
      · rfl
      · split
        · simp only; omega
        · simp only; omega
    have hr : (f.step prev ts.head? t).rightPrec = (f.rightPrec || decide (f.par - weight t > 0)) := by
      rw [← hp]
      unfold Flags.step Flags.word
      dsimp only
      split
      · rfl
      · split <;> rfl
    rw [walk, ih, hr, hp]
    constructor
    · rintro (h | ⟨a, b, h1, h2, h3⟩)
      · rw [Bool.or_eq_true, decide_eq_true_eq] at h
        rcases h with h | h
        · exact .inl h
        · exact .inr ⟨[t], ts, rfl, by simp, by simp only [depth]; omega⟩
      · exact .inr ⟨t :: a, b, by rw [h1]; rfl, by simp, by simp only [depth]; omega⟩
    · rintro (h | ⟨a, b, h1, h2, h3⟩)
      · exact .inl (by simp [h])
      · cases a with
        | nil => exact absurd rfl h2
        | cons x a =>
          injection h1 with e1 e2
          subst e1
          cases a with
          | nil =>
            simp only [depth] at h3
            exact .inl (by simp; omega)
          | cons y a => exact .inr ⟨y :: a, b, e2, by simp, by simp only [depth] at h3 ⊢; omega⟩

theorem walk_only (ts : List Ty) : ∀ (prev : Option Ty) (f : Flags), (walk prev f ts).onlyPar = true ↔ f.onlyPar = true ∧ OnlyParens ts := by
  induction ts with
  | nil => intro prev f; simp [walk, OnlyParens]
  | cons t ts ih =>
    intro prev f
    rw [walk, ih]
    unfold Flags.step Flags.word OnlyParens
    dsimp only
    split
    · rename_i h; simp [h]
    · split
      · rename_i h; simp [h]
      · rename_i h1 h2; simp [h1, h2]

theorem next_iff (ts : List Ty) : (!(ts.head?.any canFollow)) = true ↔ ∀ n, ts.head? = some n → n ∉ beginnings := by
  cases ts with
  | nil => simp
  | cons x ts => simp [← beginnings_iff]

theorem prev_iff (p : Option Ty) : (!(p.any canPrecede)) = true ↔ ∀ n, p = some n → n ∉ endings := by
  cases p with
  | none => simp
  | some x => simp [← endings_iff]

theorem loose_cons (types : List Ty) (t : Ty) (ts : List Ty) :
    Loose types (t :: ts) ↔ (t ∈ types ∧ ∀ n, ts.head? = some n → n ∉ beginnings) ∨ Loose types ts := by
  constructor
  · rintro ⟨a, x, b, h1, h2, h3⟩
    cases a with
    | nil => injection h1 with e1 e2; subst e1 e2; exact .inl ⟨h2, h3⟩
    | cons y a => injection h1 with e1 e2; exact .inr ⟨a, x, b, e2, h2, h3⟩
  · rintro (⟨h1, h2⟩ | ⟨a, x, b, rfl, h2, h3⟩)
    · exact ⟨[], t, ts, rfl, h1, h2⟩
    · exact ⟨t :: a, x, b, rfl, h2, h3⟩

theorem walk_sign (ts : List Ty) : ∀ (prev : Option Ty) (f : Flags),
    (walk prev f ts).signFollowed = false ↔ f.signFollowed = false ∨ Loose signs ts := by
  induction ts with
  | nil =>
    intro prev f
    have : ¬ Loose signs [] := by rintro ⟨a, x, b, h, -⟩; cases a <;> cases h
    simp [walk, this]
  | cons t ts ih =>
    intro prev f
    rw [walk, ih, loose_cons, ← next_iff, ← signs_iff]
    unfold Flags.step Flags.word
    dsimp only
    split
    · rename_i h; subst h; simp [isSign, isComparison]
    · split
      · rename_i h; subst h; simp [isSign, isComparison]
      · dsimp only
        split
        · rename_i h
          rw [Bool.and_eq_true] at h
          simp [h.1, h.2]
        · rename_i h
          rw [Bool.and_eq_true] at h
          simp only [h, false_or]

theorem walk_amp (ts : List Ty) : ∀ (prev : Option Ty) (f : Flags),
    (walk prev f ts).ampFollowed = false ↔ f.ampFollowed = false ∨ Loose [.ampersand] ts := by
  induction ts with
  | nil =>
    intro prev f
    have : ¬ Loose [.ampersand] [] := by rintro ⟨a, x, b, h, -⟩; cases a <;> cases h
    simp [walk, this]
  | cons t ts ih =>
    intro prev f
    rw [walk, ih, loose_cons, ← next_iff, List.mem_singleton]
    unfold Flags.step Flags.word
    dsimp only
    split
    · rename_i h; subst h; simp
    · split
      · rename_i h; subst h; simp
      · dsimp only
        split
        · rename_i h
          rw [Bool.and_eq_true, decide_eq_true_eq] at h
          simp [h.1, h.2]
        · rename_i h
          rw [Bool.and_eq_true, decide_eq_true_eq] at h
          simp only [h, false_or]

theorem binary_iff (t : Ty) : (isSign t && t ≠ .plus && t ≠ .minus) = true ↔ t ∈ binary := by cases t <;> decide

/-- As `Headless`, with something before the text. -/
def HeadlessAfter (prev : Option Ty) (ts : List Ty) : Prop :=
  ∃ a t b, ts = a ++ t :: b ∧ t ∈ binary ∧ ∀ n, (a.getLast?.or prev) = some n → n ∉ endings

theorem headless_cons (prev : Option Ty) (t : Ty) (ts : List Ty) :
    HeadlessAfter prev (t :: ts) ↔ (t ∈ binary ∧ ∀ n, prev = some n → n ∉ endings) ∨ HeadlessAfter (some t) ts := by
  constructor
  · rintro ⟨a, x, b, h1, h2, h3⟩
    cases a with
    | nil => injection h1 with e1 e2; subst e1 e2; exact .inl ⟨h2, h3⟩
    | cons y a =>
      injection h1 with e1 e2
      subst e1
      refine .inr ⟨a, x, b, e2, h2, fun n hn => h3 n ?_⟩
      rw [List.getLast?_cons]
      cases h : a.getLast? with
      | none => rw [h] at hn; simpa using hn
      | some z => rw [h] at hn; simpa using hn
  · rintro (⟨h1, h2⟩ | ⟨a, x, b, rfl, h2, h3⟩)
    · exact ⟨[], t, ts, rfl, h1, h2⟩
    · refine ⟨t :: a, x, b, rfl, h2, fun n hn => h3 n ?_⟩
      rw [List.getLast?_cons] at hn
      cases h : a.getLast? with
      | none => rw [h] at hn; simpa using hn
      | some z => rw [h] at hn; simpa using hn

theorem walk_head (ts : List Ty) : ∀ (prev : Option Ty) (f : Flags),
    (walk prev f ts).signPreceding = false ↔ f.signPreceding = false ∨ HeadlessAfter prev ts := by
  induction ts with
  | nil =>
    intro prev f
    have : ¬ HeadlessAfter prev [] := by rintro ⟨a, x, b, h, -⟩; cases a <;> cases h
    simp [walk, this]
  | cons t ts ih =>
    intro prev f
    rw [walk, ih, headless_cons, ← prev_iff, ← binary_iff]
    unfold Flags.step Flags.word
    dsimp only
    split
    · rename_i h; subst h; simp [isSign, isComparison]
    · split
      · rename_i h; subst h; simp [isSign, isComparison]
      · dsimp only
        split
        · rename_i h
          rw [Bool.and_eq_true] at h
          simp only [h.1, h.2, and_self, true_or, or_true]
        · rename_i h
          rw [Bool.and_eq_true] at h
          simp only [h, false_or]

theorem walk_unexpected (ts : List Ty) : ∀ (prev : Option Ty) (f : Flags),
    (walk prev f ts).unexpected = true ↔ f.unexpected = true ∨ ∃ t ∈ ts, t ∈ comparisons := by
  have hc : ∀ t, isComparison t = true ↔ t ∈ comparisons := by intro t; cases t <;> decide
  induction ts with
  | nil => intro prev f; simp [walk]
  | cons t ts ih =>
    intro prev f
    rw [walk, ih]
    unfold Flags.step Flags.word
    dsimp only
    split
    · rename_i h; subst h; simp [comparisons]
    · split
      · rename_i h; subst h; simp [comparisons]
      · simp [hc, or_assoc]

theorem walk_apos (ts : List Ty) : ∀ (prev : Option Ty) (f : Flags), (walk prev f ts).apos = f.apos + ts.count .apostrophe := by
  induction ts with
  | nil => intro prev f; simp [walk]
  | cons t ts ih =>
    intro prev f
    rw [walk, ih, List.count_cons]
    unfold Flags.step Flags.word
    dsimp only
    split
    · rename_i h; subst h; simp
    · split
      · rename_i h; subst h; simp
      · dsimp only
        by_cases h : t = .apostrophe
        · simp [h]; omega
        · simp [h]

/-! ### the statement -/

theorem skip_spaces (n : Nat) (k : Nat) (ts : List Ty) (h : ts ≠ []) (hs : ts.head? ≠ some .space) :
    skip k (List.replicate n .space ++ ts) = some (k + n, ts) := by
  induction n generalizing k with
  | zero =>
    cases ts with
    | nil => exact absurd rfl h
    | cons t ts =>
      have : t ≠ .space := fun e => hs (by rw [e]; rfl)
      simp [skip, this]
  | succ n ih =>
    rw [List.replicate_succ, List.cons_append, skip, if_pos rfl, ih]
    congr 2; omega

theorem range_statement (k : Nat) (ts rest : List Ty) (h : .eolln ∉ ts) (hk : k ≠ 0 ∨ ts ≠ []) : range k (ts ++ .eolln :: rest) = ts := by
  have hr : ¬ (k = 0 ∧ (ts ++ .eolln :: rest).head? = some .eolln) := by
    rintro ⟨rfl, e⟩
    cases ts with
    | nil => rcases hk with hk | hk <;> exact hk rfl
    | cons t ts =>
      injection e with e
      exact h (by rw [e]; exact List.mem_cons_self)
  unfold range
  rw [if_pos ⟨by simp, hr⟩, List.takeWhile_append_of_pos]
  · simp
  · intro a ha
    simp only [ne_eq, decide_eq_true_eq]
    rintro rfl
    exact h ha

theorem report_statement (before : Nat) (tokens ts : List Ty) (expected : Bool) (column : Nat) (h : IsStatement tokens ts)
    (hb : before ≠ 0 ∨ tokens.head? ≠ some .eolln) :
    report (.noViable before tokens expected column) = .message (choose (iterate ts) expected column) := by
  obtain ⟨n, rest, rfl, h1, h2⟩ := h
  unfold report
  dsimp only
  rw [skip_spaces n before _ (by simp)]
  · dsimp only
    rw [range_statement _ _ _ h2]
    by_cases hn : n = 0
    · subst hn
      rcases hb with hb | hb
      · exact .inl (by omega)
      · refine .inr fun e => hb ?_
        rw [e]; rfl
    · exact .inl (by omega)
  · cases ts with
    | nil => simp
    | cons t ts => exact h1

theorem sound_right (ts : List Ty) : (iterate ts).rightPrec = true ↔ RightAlone ts := by
  rw [rightAlone_iff]
  unfold iterate
  dsimp only
  rw [walk_right]
  constructor
  · rintro (h | ⟨a, b, rfl, -, h⟩) hs
    · cases h
    · have := hs a b rfl
      dsimp only at h
      omega
  · intro hs
    refine .inr ?_
    by_contra hc
    apply hs
    intro a b e
    by_contra hn
    refine hc ⟨a, b, e, ?_, by dsimp only; omega⟩
    rintro rfl
    exact hn (Int.le_refl 0)

theorem flag_left (ts : List Ty) (h : ¬ RightAlone ts) : (iterate ts).leftPrec = true ↔ LeftAlone ts := by
  have hs : Sound ts := by
    by_contra hc
    exact h ((rightAlone_iff ts).2 hc)
  rw [leftAlone_iff ts hs]
  unfold iterate
  dsimp only
  rw [walk_par, decide_eq_true_eq]
  dsimp only
  omega

theorem claims (ts : List Ty) (expected : Bool) (column : Nat) (c : Code) :
    choose (iterate ts) expected column = c ↔
      ∃ a b, order = a ++ c :: b ∧ Claim ts expected column c ∧ ∀ d ∈ a, ¬ Claim ts expected column d := by
  have h12 := sound_right ts
  have h11 := flag_left ts
  have h10 : (iterate ts).onlyPar = true ↔ OnlyParens ts := by unfold iterate; dsimp only; rw [walk_only]; simp
  have h9 : (iterate ts).signFollowed = false ↔ Loose signs ts := by unfold iterate; dsimp only; rw [walk_sign]; simp
  have h8 : (iterate ts).ampFollowed = false ↔ Loose [.ampersand] ts := by unfold iterate; dsimp only; rw [walk_amp]; simp
  have h7 : (iterate ts).signPreceding = false ↔ Headless binary ts := by
    unfold iterate; dsimp only; rw [walk_head]; simp [HeadlessAfter, Headless]
  have h6 : (iterate ts).unexpected = true ↔ ∃ t ∈ ts, t ∈ comparisons := by
    unfold iterate; dsimp only; rw [walk_unexpected]; simp
  have h5 : (iterate ts).odd = true ↔ OddQuotes ts := by
    unfold iterate; dsimp only; rw [walk_apos]; simp [OddQuotes]
  have key : ∀ {pre post : List Code} {x y : Code}, order = pre ++ x :: post → Claim ts expected column x →
      (∀ d ∈ pre, ¬ Claim ts expected column d) →
      (x = y ↔ ∃ a b, order = a ++ y :: b ∧ Claim ts expected column y ∧ ∀ d ∈ a, ¬ Claim ts expected column d) := by
    intro pre post x y e hx hpre
    constructor
    · rintro rfl; exact ⟨pre, post, e, hx, hpre⟩
    · rintro ⟨a, b, e2, hy, ha⟩
      rw [e] at e2
      rcases List.append_eq_append_iff.1 e2 with ⟨k, k1, k2⟩ | ⟨k, k1, k2⟩
      · cases k with
        | nil => injection k2
        | cons z k =>
          injection k2 with k3 k4
          subst k3
          exact absurd hx (ha x (by rw [k1]; simp))
      · cases k with
        | nil => injection k2 with k3; exact k3.symm
        | cons z k =>
          injection k2 with k3 k4
          subst k3
          exact absurd hy (hpre y (by rw [k1]; simp))
  unfold choose
  by_cases c12 : RightAlone ts
  · rw [if_pos (h12.2 c12)]
    exact key (pre := []) rfl c12 (by simp)
  rw [if_neg (fun h => c12 (h12.1 h))]
  by_cases c11 : LeftAlone ts
  · rw [if_pos ((h11 c12).2 c11)]
    exact key (pre := [.S0012]) rfl c11 (by simp [Claim, c12])
  rw [if_neg (fun h => c11 ((h11 c12).1 h))]
  by_cases c10 : OnlyParens ts
  · rw [if_pos (h10.2 c10)]
    exact key (pre := [.S0012, .S0011]) rfl c10 (by simp [Claim, c12, c11])
  rw [if_neg (fun h => c10 (h10.1 h))]
  by_cases c9 : Loose signs ts
  · rw [if_pos (by rw [h9.2 c9]; rfl)]
    exact key (pre := [.S0012, .S0011, .S0010]) rfl c9 (by simp [Claim, c12, c11, c10])
  rw [if_neg (fun h => c9 (h9.1 (by simpa using h)))]
  by_cases c8 : Loose [.ampersand] ts
  · rw [if_pos (by rw [h8.2 c8]; rfl)]
    exact key (pre := [.S0012, .S0011, .S0010, .S0009]) rfl c8 (by simp [Claim, c12, c11, c10, c9])
  rw [if_neg (fun h => c8 (h8.1 (by simpa using h)))]
  by_cases c7 : Headless binary ts
  · rw [if_pos (by rw [h7.2 c7]; rfl)]
    exact key (pre := [.S0012, .S0011, .S0010, .S0009, .S0008]) rfl c7 (by simp [Claim, c12, c11, c10, c9, c8])
  rw [if_neg (fun h => c7 (h7.1 (by simpa using h)))]
  by_cases c6 : ∃ t ∈ ts, t ∈ comparisons
  · rw [if_pos (h6.2 c6)]
    exact key (pre := [.S0012, .S0011, .S0010, .S0009, .S0008, .S0007]) rfl c6 (by simp [Claim, c12, c11, c10, c9, c8, c7])
  rw [if_neg (fun h => c6 (h6.1 h))]
  have m6 : ¬ Claim ts expected column .S0006 := c6
  by_cases c5 : OddQuotes ts ∧ expected = true
  · rw [if_pos (by rw [Bool.and_eq_true]; exact ⟨h5.2 c5.1, c5.2⟩)]
    refine key (pre := [.S0012, .S0011, .S0010, .S0009, .S0008, .S0007, .S0006]) rfl c5 ?_
    intro d hd
    simp only [List.mem_cons, List.not_mem_nil, or_false] at hd
    rcases hd with rfl | rfl | rfl | rfl | rfl | rfl | rfl <;> assumption
  rw [if_neg (fun h => c5 (by rw [Bool.and_eq_true] at h; exact ⟨h5.1 h.1, h.2⟩))]
  by_cases c4 : column = 0
  · rw [if_pos c4]
    refine key (pre := [.S0012, .S0011, .S0010, .S0009, .S0008, .S0007, .S0006, .S0005]) rfl c4 ?_
    intro d hd
    simp only [List.mem_cons, List.not_mem_nil, or_false] at hd
    rcases hd with rfl | rfl | rfl | rfl | rfl | rfl | rfl | rfl <;> assumption
  rw [if_neg c4]
  refine key (pre := [.S0012, .S0011, .S0010, .S0009, .S0008, .S0007, .S0006, .S0005, .S0004]) rfl trivial ?_
  intro d hd
  simp only [List.mem_cons, List.not_mem_nil, or_false] at hd
  rcases hd with rfl | rfl | rfl | rfl | rfl | rfl | rfl | rfl | rfl <;> assumption

/-! ### the theorems -/

/-- C111: for every statement the parser can make nothing of, the message is the first one in the order whose claim holds of the
statement. -/
theorem C111_first (before : Nat) (tokens ts : List Ty) (expected : Bool) (column : Nat) (c : Code) (h : IsStatement tokens ts)
    (hb : before ≠ 0 ∨ tokens.head? ≠ some .eolln) :
    report (.noViable before tokens expected column) = .message c ↔
      ∃ a b, order = a ++ c :: b ∧ Claim ts expected column c ∧ ∀ d ∈ a, ¬ Claim ts expected column d := by
  rw [report_statement before tokens ts expected column h hb, ← claims]
  simp

/-- `A+B(` -/
example : IsStatement [.space, .ordsymbol, .plus, .ordsymbol, .lpar, .eolln, .ordsymbol] [.ordsymbol, .plus, .ordsymbol, .lpar]
    ∧ report (.noViable 1 [.space, .ordsymbol, .plus, .ordsymbol, .lpar, .eolln, .ordsymbol] false 5) = .message .S0011 :=
  ⟨⟨1, [.ordsymbol], by decide, by decide, by decide⟩, by decide⟩
/-- `A(B+)` -/
example : report (.noViable 3 [.ordsymbol, .lpar, .ordsymbol, .plus, .rpar, .eolln] false 5) = .message .S0009 := by decide
example : report (.noViable 3 [.ordsymbol, .comma, .asterisk, .ordsymbol, .eolln] false 5) = .message .S0007 := by decide
example : report (.noViable 3 [.ordsymbol, .lt, .ordsymbol, .eolln] false 5) = .message .S0006 := by decide
example : report (.noViable 3 [.ordsymbol, .ampersand, .comma, .eolln] false 5) = .message .S0008 := by decide
example : report (.noViable 3 [.ordsymbol, .apostrophe, .comma, .eolln] true 5) = .message .S0005 := by decide
example : report (.noViable 3 [.ordsymbol, .apostrophe, .comma, .eolln] false 5) = .message .S0002 := by decide
example : report (.noViable 0 [.ordsymbol, .apostrophe, .comma, .eolln] false 0) = .message .S0004 := by decide

/-- C111: without a message about parentheses, all of them have their partners; and with one, they do not. -/
theorem C111_balanced (before : Nat) (tokens ts : List Ty) (expected : Bool) (column : Nat) (h : IsStatement tokens ts)
    (hb : before ≠ 0 ∨ tokens.head? ≠ some .eolln) :
    Balanced ts ↔ report (.noViable before tokens expected column) ≠ .message .S0012
      ∧ report (.noViable before tokens expected column) ≠ .message .S0011 := by
  have e12 : report (.noViable before tokens expected column) = .message .S0012 ↔ RightAlone ts := by
    rw [C111_first _ _ _ _ _ _ h hb]
    constructor
    · rintro ⟨a, b, -, hc, -⟩; exact hc
    · intro hc; exact ⟨[], _, rfl, hc, by simp⟩
  have e11 : report (.noViable before tokens expected column) = .message .S0011 ↔ LeftAlone ts ∧ ¬ RightAlone ts := by
    rw [C111_first _ _ _ _ _ _ h hb]
    constructor
    · rintro ⟨a, b, he, hc, ha⟩
      refine ⟨hc, ?_⟩
      cases a with
      | nil => injection he with e1; cases e1
      | cons x a =>
        injection he with e1 e2
        subst e1
        exact ha .S0012 (by simp)
    · rintro ⟨hc, hn⟩; exact ⟨[.S0012], _, rfl, hc, by simpa [Claim] using hn⟩
  rw [Ne, Ne, e12, e11]
  constructor
  · intro hB
    have hr : ¬ RightAlone ts := fun hr => (rightAlone_iff ts).1 hr hB.facts.2
    refine ⟨hr, fun hl => ?_⟩
    have := (leftAlone_iff ts hB.facts.2).1 hl.1
    have := hB.facts.1
    omega
  · rintro ⟨hr, hl⟩
    have hs : Sound ts := by
      by_contra hc
      exact hr ((rightAlone_iff ts).2 hc)
    refine balanced_of _ ts rfl hs ?_
    have h0 := hs ts [] (by simp)
    by_contra hc
    exact hl ⟨(leftAlone_iff ts hs).2 (by omega), hr⟩

example : Balanced [.lpar, .ordsymbol, .rpar, .ordsymbol] := .pair [.ordsymbol] [.ordsymbol] (.word _ _ (by decide) (by decide) .nil)
  (.word _ _ (by decide) (by decide) .nil)

/-- C111: if everything fetched consists of spaces, the handler itself throws; this cannot happen at the end of a statement. Otherwise
every error of the parser has exactly one message, and only those it reports without an exception have none. -/
theorem C111_reported (k : Cause) :
    (report k = .crash ↔ ∃ before tokens expected column, k = .noViable before tokens expected column ∧ ∀ t ∈ tokens, t = .space)
    ∧ (report k = .silence ↔ k = .nothing) := by
  have hk : ∀ (ts : List Ty) (n : Nat), skip n ts = none ↔ ∀ t ∈ ts, t = .space := by
    intro ts
    induction ts with
    | nil => intro n; simp [skip]
    | cons t ts ih =>
      intro n
      unfold skip
      split
      · rename_i h; rw [ih]; simp [h]
      · rename_i h; simp [h]
  cases k with
  | noViable before tokens expected column =>
    unfold report
    dsimp only
    cases h : skip before tokens with
    | none => exact ⟨⟨fun _ => ⟨before, tokens, expected, column, rfl, (hk _ _).1 h⟩, fun _ => rfl⟩, by simp⟩
    | some p =>
      refine ⟨⟨by simp, ?_⟩, by simp⟩
      rintro ⟨b, t, e, c, he, hall⟩
      injection he with e1 e2
      subst e1 e2
      rw [(hk _ _).2 hall] at h
      cases h
  | mismatch t => simp [report]
  | other => simp [report]
  | nothing => simp [report]

/-- C111: a token the parser did not expect is called the end of the statement exactly if it is that. -/
theorem C111_mismatch (t : Ty) :
    (report (.mismatch t) = .message .S0003 ↔ t = .eolln) ∧ (report (.mismatch t) = .message .S0002 ↔ t ≠ .eolln) := by
  unfold report
  by_cases h : t = .eolln <;> simp [h]

/-- C111: the claims are about tokens. A parenthesis inside of a string counts, a number is not counted as the beginning of an
expression, `*` is always taken for a multiplication and `=` for a comparison, and a statement without anything in it has "only
parentheses": `DC C'(',,'`, `A 1,A+2,'`, `A 1,*'`, `L 1,=A(B)'`, and nothing but spaces. -/
theorem C111_tokens_witness :
    report (.noViable 3 [.ordsymbol, .apostrophe, .lpar, .apostrophe, .comma, .comma, .apostrophe, .eolln] false 4) = .message .S0011
    ∧ report (.noViable 3 [.num, .comma, .ordsymbol, .plus, .num, .comma, .apostrophe, .eolln] false 4) = .message .S0009
    ∧ report (.noViable 3 [.num, .comma, .ordsymbol, .minus, .minus, .ordsymbol, .apostrophe, .eolln] false 4) = .message .S0009
    ∧ report (.noViable 3 [.num, .comma, .asterisk, .apostrophe, .eolln] false 4) = .message .S0009
    ∧ report (.noViable 3 [.num, .comma, .equals, .ordsymbol, .lpar, .ordsymbol, .rpar, .apostrophe, .eolln] false 4) = .message .S0007
    ∧ report (.noViable 3 [.space, .space, .eolln] false 4) = .message .S0010 := by decide

end Verif.Syntax
