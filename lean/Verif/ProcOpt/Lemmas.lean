import Verif.ProcOpt.Spec
import Verif.AsmCheck.Props

/-!
Lemmas on numbers and loops for the options of `*PROCESS`.
-/
namespace Verif.ProcOpt

open AsmCheck (AOp Decimal OneOf Digits FlagParam hexDigit isSpaceChar allDigits powerOfTwo isDigit_iff allDigits_iff)

/-! ### Digits -/

theorem hexDigit_lt {c : Char} {d : Nat} (h : hexDigit c = some d) : d < 16 := by
  unfold hexDigit at h
  simp only [Char.le_def, UInt32.le_iff_toNat_le] at h
  have e (x : Char) : x.val.toNat = x.toNat := rfl
  simp only [e] at h
  have a0 : 'a'.toNat = 97 := rfl
  have a1 : 'f'.toNat = 102 := rfl
  have a2 : 'A'.toNat = 65 := rfl
  have a3 : 'F'.toNat = 70 := rfl
  have a4 : '0'.toNat = 48 := rfl
  have a5 : '9'.toNat = 57 := rfl
  simp only [a0, a1, a2, a3, a4, a5] at h
  split at h <;> [skip; split at h <;> [skip; split at h]] <;> cases h <;> omega

theorem hexDigit_isDigit {c : Char} {d : Nat} (h : hexDigit c = some d) : d < 10 ↔ c.isDigit = true := by
  rw [isDigit_iff]
  unfold hexDigit at h
  simp only [Char.le_def, UInt32.le_iff_toNat_le] at h ⊢
  have e (x : Char) : x.val.toNat = x.toNat := rfl
  simp only [e] at h ⊢
  have a0 : 'a'.toNat = 97 := rfl
  have a1 : 'f'.toNat = 102 := rfl
  have a2 : 'A'.toNat = 65 := rfl
  have a3 : 'F'.toNat = 70 := rfl
  have a4 : '0'.toNat = 48 := rfl
  have a5 : '9'.toNat = 57 := rfl
  simp only [a0, a1, a2, a3, a4, a5] at h ⊢
  split at h <;> [skip; split at h <;> [skip; split at h]] <;> cases h <;> omega

theorem isDigit_hex {c : Char} (h : c.isDigit = true) : ∃ d, hexDigit c = some d := by
  rw [isDigit_iff] at h
  exact ⟨_, by unfold hexDigit; rw [if_pos h]⟩

def DigitOf (base : Nat) (c : Char) : Prop := ∃ d, hexDigit c = some d ∧ d < base

theorem digit10 (c : Char) : DigitOf 10 c ↔ c.isDigit = true := by
  constructor
  · rintro ⟨d, h, hd⟩; exact (hexDigit_isDigit h).1 hd
  · intro h; obtain ⟨d, hd⟩ := isDigit_hex h; exact ⟨d, hd, (hexDigit_isDigit hd).2 h⟩

theorem digit16 (c : Char) : DigitOf 16 c ↔ hexChar c = true := by
  unfold hexChar
  constructor
  · rintro ⟨d, h, -⟩; simp [h]
  · intro h; rw [Option.isSome_iff_exists] at h; obtain ⟨d, hd⟩ := h; exact ⟨d, hd, hexDigit_lt hd⟩

theorem number_snoc (b : Nat) (l : List Char) (c : Char) : number b (l ++ [c]) = b * number b l + (hexDigit c).getD 0 := by
  simp [number, List.foldl_append]

theorem numeral_of (b : Nat) : ∀ (n : Nat) (l : List Char), l.length = n → l ≠ [] → (∀ c ∈ l, DigitOf b c) → Numeral b l (number b l)
  | 0, l, hn, hl, _ => absurd (List.length_eq_zero_iff.1 hn) hl
  | n + 1, l, hn, hl, h => by
    obtain ⟨r, c, rfl⟩ : ∃ r c, l = r ++ [c] := ⟨l.dropLast, l.getLast hl, (List.dropLast_append_getLast hl).symm⟩
    obtain ⟨d, hd, hb⟩ := h c (by simp)
    by_cases hr : r = []
    · subst hr
      have : number b ([] ++ [c]) = d := by simp [number, hd]
      rw [this]; exact .one c d hd hb
    · rw [number_snoc, hd]
      exact .more r _ c d (numeral_of b n r (by simpa using hn) hr (fun x hx => h x (by simp [hx]))) hd hb

theorem numeral_iff {b : Nat} {l : List Char} {n : Nat} :
    Numeral b l n ↔ l ≠ [] ∧ (∀ c ∈ l, DigitOf b c) ∧ number b l = n := by
  constructor
  · intro h
    induction h with
    | one c d hd hb =>
      refine ⟨by simp, ?_, by simp [number, hd]⟩
      intro x hx; rw [List.mem_singleton] at hx; subst hx; exact ⟨d, hd, hb⟩
    | more l n c d _ hd hb ih =>
      refine ⟨by simp, ?_, by rw [number_snoc, ih.2.2, hd]; rfl⟩
      intro x hx; rw [List.mem_append, List.mem_singleton] at hx
      rcases hx with hx | rfl
      · exact ih.2.1 x hx
      · exact ⟨d, hd, hb⟩
  · rintro ⟨h1, h2, rfl⟩; exact numeral_of b _ l rfl h1 h2

theorem numeral10 {l : List Char} {n : Nat} : Numeral 10 l n ↔ l ≠ [] ∧ l.all Char.isDigit = true ∧ number 10 l = n := by
  rw [numeral_iff, List.all_eq_true]; simp only [digit10]

theorem numeral16 {l : List Char} {n : Nat} : Numeral 16 l n ↔ l ≠ [] ∧ l.all hexChar = true ∧ number 16 l = n := by
  rw [numeral_iff, List.all_eq_true]; simp only [digit16]

/-! ### `stoi` -/

theorem mem_takeWhile {p : Char → Bool} {c : Char} : ∀ {l : List Char}, c ∈ l.takeWhile p → p c = true
  | [], h => by simp at h
  | x :: r, h => by
    rw [List.takeWhile_cons] at h
    split at h
    · rw [List.mem_cons] at h
      rcases h with rfl | h
      · assumption
      · exact mem_takeWhile h
    · simp at h

theorem begins_of {l : List Char} :
    let s := signed (l.dropWhile isSpaceChar)
    let d := s.2.takeWhile Char.isDigit
    d ≠ [] → Begins l (if s.1 then -(number 10 d : Int) else number 10 d) := by
  intro s d hd
  have hl : l = l.takeWhile isSpaceChar ++ l.dropWhile isSpaceChar := (List.takeWhile_append_dropWhile).symm
  have hs : ∃ sign, l.dropWhile isSpaceChar = sign ++ s.2 ∧
      ((s.1 = true ∧ sign = ['-']) ∨ (s.1 = false ∧ (sign = [] ∨ sign = ['+']))) := by
    show ∃ sign, l.dropWhile isSpaceChar = sign ++ (signed (l.dropWhile isSpaceChar)).2 ∧ _
    generalize hq : l.dropWhile isSpaceChar = q
    have : s = signed q := by simp only [s, hq]
    rw [this]
    unfold signed
    split
    · exact ⟨['-'], by simp⟩
    · exact ⟨['+'], by simp⟩
    · exact ⟨[], by simp⟩
  obtain ⟨sign, hsign, hk⟩ := hs
  have hall : d.all Char.isDigit = true := by
    rw [List.all_eq_true]; intro c hc; exact mem_takeWhile hc
  refine ⟨l.takeWhile isSpaceChar, sign, d, s.2.dropWhile Char.isDigit, number 10 d, ?_, ?_, numeral10.2 ⟨hd, hall, rfl⟩, ?_, ?_⟩
  · rw [List.append_assoc, List.append_assoc, List.takeWhile_append_dropWhile, ← hsign, ← hl]
  · intro c hc; exact mem_takeWhile hc
  · intro c r hr hc
    have := List.head?_dropWhile_not Char.isDigit s.2
    rw [hr] at this
    simp only [List.head?_cons] at this
    rw [(isDigit_iff c).2 hc] at this
    cases this
  · rcases hk with ⟨h1, h2⟩ | ⟨h1, h2 | h2⟩ <;> rw [h1] <;> simp [h2]

theorem digit_plain {c : Char} (h : c.isDigit = true) : isSpaceChar c = false ∧ c ≠ '-' ∧ c ≠ '+' := by
  rw [isDigit_iff] at h
  simp only [Char.le_def, UInt32.le_iff_toNat_le] at h
  have e (x : Char) : x.val.toNat = x.toNat := rfl
  have a4 : '0'.toNat = 48 := rfl
  have a5 : '9'.toNat = 57 := rfl
  simp only [e, a4, a5] at h
  refine ⟨?_, ?_, ?_⟩
  · unfold isSpaceChar
    rw [decide_eq_false_iff_not]
    rintro (rfl | h')
    · have : ' '.toNat = 32 := rfl
      omega
    · omega
  · rintro rfl; have : '-'.toNat = 45 := rfl
    omega
  · rintro rfl; have : '+'.toNat = 43 := rfl
    omega

theorem begins_unique {l : List Char} {v : Int} (h : Begins l v) :
    let s := signed (l.dropWhile isSpaceChar)
    let d := s.2.takeWhile Char.isDigit
    d ≠ [] ∧ v = (if s.1 then -(number 10 d : Int) else number 10 d) := by
  obtain ⟨blanks, sign, digits, rest, n, rfl, hb, hn, hr, hk⟩ := h
  obtain ⟨hn1, hn2, rfl⟩ := numeral10.1 hn
  rw [List.all_eq_true] at hn2
  have htake : (digits ++ rest).takeWhile Char.isDigit = digits := by
    rw [List.takeWhile_append_of_pos hn2]
    cases rest with
    | nil => simp
    | cons c r =>
      have := hr c r rfl
      rw [← isDigit_iff] at this
      rw [List.takeWhile_cons_of_neg this]; simp
  obtain ⟨c, ds, rfl⟩ : ∃ c ds, digits = c :: ds := List.exists_cons_of_ne_nil hn1
  obtain ⟨p1, p2, p3⟩ := digit_plain (hn2 c (by simp))
  have hdrop : ∀ x q, isSpaceChar x = false → (blanks ++ x :: q).dropWhile isSpaceChar = x :: q := by
    intro x q hx
    rw [List.dropWhile_append_of_pos hb, List.dropWhile_cons_of_neg (by simp [hx])]
  rcases hk with ⟨rfl, rfl⟩ | ⟨rfl, rfl⟩ | ⟨rfl, rfl⟩
  · have e : (blanks ++ [] ++ (c :: ds) ++ rest).dropWhile isSpaceChar = c :: (ds ++ rest) := by
      simpa using hdrop c (ds ++ rest) p1
    have e2 : signed (c :: (ds ++ rest)) = (false, c :: (ds ++ rest)) := by
      unfold signed; split
      · rename_i h; cases h; exact absurd rfl p2
      · rename_i h; cases h; exact absurd rfl p3
      · rfl
    intro s d
    have : s = (false, c :: (ds ++ rest)) := by simp only [s, e, e2]
    have hd : d = c :: ds := by simp only [d, this]; exact htake
    rw [this, hd]; simp
  · have e : (blanks ++ ['+'] ++ (c :: ds) ++ rest).dropWhile isSpaceChar = '+' :: (c :: (ds ++ rest)) := by
      simpa using hdrop '+' (c :: (ds ++ rest)) (by decide)
    intro s d
    have : s = (false, c :: (ds ++ rest)) := by simp only [s, e, signed]
    have hd : d = c :: ds := by simp only [d, this]; exact htake
    rw [this, hd]; simp
  · have e : (blanks ++ ['-'] ++ (c :: ds) ++ rest).dropWhile isSpaceChar = '-' :: (c :: (ds ++ rest)) := by
      simpa using hdrop '-' (c :: (ds ++ rest)) (by decide)
    intro s d
    have : s = (true, c :: (ds ++ rest)) := by simp only [s, e, signed]
    have hd : d = c :: ds := by simp only [d, this]; exact htake
    rw [this, hd]; simp

theorem fitsInt_iff (v : Int) : fitsInt v = true ↔ IntRange v := by simp [fitsInt, IntRange]

theorem stoi_iff {l : List Char} {v : Int} : stoi l = some v ↔ Begins l v ∧ IntRange v := by
  constructor
  · intro h
    unfold stoi at h
    simp only at h
    split at h
    · cases h
    · rename_i hd
      rw [List.isEmpty_iff] at hd
      have hb := begins_of (l := l) hd
      generalize (if (signed (l.dropWhile isSpaceChar)).1 = true then
        -(number 10 ((signed (l.dropWhile isSpaceChar)).2.takeWhile Char.isDigit) : Int)
        else (number 10 ((signed (l.dropWhile isSpaceChar)).2.takeWhile Char.isDigit) : Int)) = w at hb h
      by_cases hf : fitsInt w = true
      · rw [if_pos hf] at h
        cases h
        exact ⟨hb, (fitsInt_iff _).1 hf⟩
      · rw [if_neg hf] at h
        cases h
  · rintro ⟨h, hr⟩
    obtain ⟨h1, h2⟩ := begins_unique h
    unfold stoi
    simp only
    rw [if_neg (by rw [List.isEmpty_iff]; exact h1), ← h2, if_pos ((fitsInt_iff v).2 hr)]

theorem stoi_none {l : List Char} : stoi l = none ↔ ∀ v, Begins l v → ¬ IntRange v := by
  constructor
  · intro h v hb hr; rw [stoi_iff.2 ⟨hb, hr⟩] at h; cases h
  · intro h
    cases e : stoi l with
    | none => rfl
    | some v => exact absurd (stoi_iff.1 e).2 (h v (stoi_iff.1 e).1)

/-- A numeral is the number it begins with. -/
theorem Numeral.begins {l : List Char} {n : Nat} (h : Numeral 10 l n) : Begins l n :=
  ⟨[], [], l, [], n, by simp, by simp, h, by simp, Or.inl ⟨rfl, rfl⟩⟩

theorem begins_eq {l : List Char} {v w : Int} (h : Begins l v) (h' : Begins l w) : v = w := by
  rw [(begins_unique h).2, (begins_unique h').2]

theorem Numeral.unique {b : Nat} {l : List Char} {n m : Nat} (h : Numeral b l n) (h' : Numeral b l m) : n = m := by
  rw [← (numeral_iff.1 h).2.2, ← (numeral_iff.1 h').2.2]

/-! ### `X'…'` -/

theorem hexForm_iff (l : List Char) :
    (l.length ≥ 3 ∧ l.head? = some 'X' ∧ l[1]? = some '\'' ∧ l.getLast? = some '\'') ↔
      l = 'X' :: '\'' :: ((l.drop 2).dropLast ++ ['\'']) := by
  constructor
  · rintro ⟨h1, h2, h3, h4⟩
    match l, h1, h2, h3, h4 with
    | x :: y :: z :: r, _, h2, h3, h4 =>
      simp only [List.head?_cons, Option.some.injEq] at h2
      simp only [List.getElem?_cons_succ, List.getElem?_cons_zero, Option.some.injEq] at h3
      subst h2 h3
      rw [List.getLast?_cons_cons, List.getLast?_cons_cons, List.getLast?_eq_some_getLast (by simp), Option.some.injEq] at h4
      show _ = 'X' :: '\'' :: ((z :: r).dropLast ++ ['\''])
      rw [← h4, List.dropLast_append_getLast]
  · intro h
    rw [h]
    refine ⟨by simp, rfl, rfl, ?_⟩
    rw [← List.cons_append, ← List.cons_append]
    exact List.getLast?_concat

theorem hexForm_digits {t : String} {d : List Char} (h : HexForm t d) : (t.toList.drop 2).dropLast = d := by
  unfold HexForm at h
  rw [h]; simp

theorem hexForm_spec {t : String} {d : List Char} : HexForm t d ↔
    (t.toList.length ≥ 3 ∧ t.toList.head? = some 'X' ∧ t.toList[1]? = some '\'' ∧ t.toList.getLast? = some '\'') ∧
      (t.toList.drop 2).dropLast = d := by
  rw [hexForm_iff]
  constructor
  · intro h; have := hexForm_digits h; rw [this]; exact ⟨h, rfl⟩
  · rintro ⟨h, rfl⟩; exact h

theorem hexForm_unique {t : String} {d e : List Char} (h : HexForm t d) (h' : HexForm t e) : d = e := by
  rw [← hexForm_digits h, ← hexForm_digits h']

theorem hexBody_iff {t : String} {d : List Char} : hexBody t.toList = some d ↔ HexForm t d ∧ d ≠ [] ∧ d.all hexChar = true := by
  unfold hexBody
  rw [hexForm_spec]
  split
  · rename_i h
    rw [Option.some.injEq]
    constructor
    · rintro rfl; exact ⟨⟨⟨h.1, h.2.1, h.2.2.1, h.2.2.2.1⟩, rfl⟩, h.2.2.2.2.1, h.2.2.2.2.2⟩
    · rintro ⟨⟨-, h⟩, -⟩; exact h
  · rename_i h
    constructor
    · intro e; cases e
    · rintro ⟨⟨⟨h1, h2, h3, h4⟩, rfl⟩, h5, h6⟩
      exact absurd ⟨h1, h2, h3, h4, h5, h6⟩ h

theorem hexBody_none {t : String} : hexBody t.toList = none ↔ ∀ d n, ¬ (HexForm t d ∧ Numeral 16 d n) := by
  constructor
  · rintro h d n ⟨h1, h2⟩
    obtain ⟨h3, h4, -⟩ := numeral16.1 h2
    rw [hexBody_iff.2 ⟨h1, h3, h4⟩] at h; cases h
  · intro h
    cases e : hexBody t.toList with
    | none => rfl
    | some d =>
      obtain ⟨h1, h2, h3⟩ := hexBody_iff.1 e
      exact absurd ⟨h1, numeral16.2 ⟨h2, h3, rfl⟩⟩ (h d _)

theorem hexForm_not_begins {t : String} {d : List Char} {v : Int} (h : HexForm t d) : ¬ Begins t.toList v := by
  intro hb
  have := (begins_unique hb).1
  unfold HexForm at h
  rw [h] at this
  exact this (by rfl)

/-! ### Loops -/

/-- What is known of the outcome of a check: `T` says that it is taken, `F` that it ends the program, `C` what the last message is, `N` which
messages there are when it is taken. -/
def Says (f : R) (T : Prop) (F : Bad → Prop) (C : Msg → Prop) (N : List Msg) : Prop :=
  match f with
  | .ok ⟨true, m⟩ => T ∧ (∀ b, ¬ F b) ∧ m = N
  | .ok ⟨false, m⟩ => ¬ T ∧ (∀ b, ¬ F b) ∧ ∃ pre d, m = pre ++ [d] ∧ (∀ x ∈ pre, x.code = 211) ∧ C d
  | .error b => F b ∧ ¬ T ∧ ∀ b', F b' → b' = b

theorem says_fine {T : Prop} {F : Bad → Prop} {C : Msg → Prop} (h : T) (hf : ∀ b, ¬ F b) : Says fine T F C [] := ⟨h, hf, rfl⟩

theorem says_stop {T : Prop} {F : Bad → Prop} {C : Msg → Prop} {N : List Msg} {c : Nat} {p : Place} (h : ¬ T) (hf : ∀ b, ¬ F b)
    (hc : C ⟨c, p⟩) : Says (stop c p) T F C N := ⟨h, hf, [], _, rfl, by simp, hc⟩

theorem says_ite {T : Prop} {F : Bad → Prop} {C : Msg → Prop} {N : List Msg} {c : Prop} [Decidable c] {a b : R}
    (h1 : c → Says a T F C N) (h2 : ¬ c → Says b T F C N) : Says (if c then a else b) T F C N := by
  by_cases h : c
  · rw [if_pos h]; exact h1 h
  · rw [if_neg h]; exact h2 h

theorem Says.mono {f : R} {T T' : Prop} {F F' : Bad → Prop} {C C' : Msg → Prop} {N N' : List Msg} (h : Says f T F C N) (hT : T ↔ T')
    (hF : ∀ b, F b ↔ F' b) (hC : ¬ T → ∀ m, C m → C' m) (hN : N = N') : Says f T' F' C' N' := by
  subst hN
  unfold Says at *
  split at h <;> simp only [← hT, ← hF]
  · exact h
  · obtain ⟨h1, h2, pre, d, h3, h4, h5⟩ := h
    exact ⟨h1, h2, pre, d, h3, h4, hC h1 d h5⟩
  · exact h

/-- The messages of a loop. -/
def noises (N : Nat → AOp → List Msg) : Nat → List AOp → List Msg
  | _, [] => []
  | i, o :: r => N i o ++ noises N (i + 1) r

/-- The first element of which something holds, behind ones that are taken. -/
def FirstOf (T : AOp → Prop) (P : AOp → Prop) (l : List AOp) : Prop := ∃ pre o post, l = pre ++ o :: post ∧ (∀ q ∈ pre, T q) ∧ P o

theorem firstOf_cons {T P : AOp → Prop} {o : AOp} {r : List AOp} : FirstOf T P (o :: r) ↔ P o ∨ (T o ∧ FirstOf T P r) := by
  constructor
  · rintro ⟨pre, x, post, h, ht, hp⟩
    cases pre with
    | nil => cases h; exact Or.inl hp
    | cons y pre =>
      rw [List.cons_append, List.cons.injEq] at h
      obtain ⟨rfl, h⟩ := h
      exact Or.inr ⟨ht _ (by simp), pre, x, post, h, fun q hq => ht q (by simp [hq]), hp⟩
  · rintro (h | ⟨h, pre, x, post, rfl, ht, hp⟩)
    · exact ⟨[], o, r, rfl, by simp, h⟩
    · refine ⟨o :: pre, x, post, rfl, ?_, hp⟩
      intro q hq; rw [List.mem_cons] at hq; rcases hq with rfl | hq
      · exact h
      · exact ht q hq

theorem says_each {f : Nat → AOp → R} {T : AOp → Prop} {F : Bad → AOp → Prop} {C : Nat → AOp → Msg → Prop} {N : Nat → AOp → List Msg}
    (hN : ∀ i o m, m ∈ N i o → m.code = 211)
    (h : ∀ i o, Says (f i o) (T o) (fun b => F b o) (C i o) (N i o)) : ∀ (l : List AOp) (i : Nat),
    Says (each f i l) (∀ o ∈ l, T o) (fun b => FirstOf T (F b) l)
      (fun m => ∃ j o, l[j]? = some o ∧ ¬ T o ∧ (∀ k q, k < j → l[k]? = some q → T q) ∧ C (i + j) o m) (noises N i l)
  | [], i => ⟨by simp, by rintro b ⟨pre, o, post, h, -⟩; simp at h, rfl⟩
  | o :: r, i => by
    have ho := h i o
    have ih := says_each hN h r (i + 1)
    rw [each]
    match hf : f i o with
    | .error b =>
      rw [hf] at ho
      obtain ⟨h1, h2, h3⟩ := ho
      refine ⟨firstOf_cons.2 (Or.inl h1), fun hall => h2 (hall o (by simp)), ?_⟩
      intro b' hb'
      rcases firstOf_cons.1 hb' with hb' | hb'
      · exact h3 b' hb'
      · exact absurd hb'.1 h2
    | .ok ⟨false, m⟩ =>
      rw [hf] at ho
      obtain ⟨h1, h2, pre, d, h3, h4, h5⟩ := ho
      refine ⟨fun hall => h1 (hall o (by simp)), ?_, pre, d, h3, h4, 0, o, rfl, h1, by omega, h5⟩
      intro b hb
      rcases firstOf_cons.1 hb with hb | hb
      · exact h2 b hb
      · exact absurd hb.1 h1
    | .ok ⟨true, m⟩ =>
      rw [hf] at ho
      obtain ⟨h1, h2, rfl⟩ := ho
      simp only
      match hr : each f (i + 1) r with
      | .error b =>
        rw [hr] at ih
        obtain ⟨g1, g2, g3⟩ := ih
        refine ⟨firstOf_cons.2 (Or.inr ⟨h1, g1⟩), fun hall => g2 (fun q hq => hall q (by simp [hq])), ?_⟩
        intro b' hb'
        rcases firstOf_cons.1 hb' with hb' | hb'
        · exact absurd hb' (h2 b')
        · exact g3 b' hb'.2
      | .ok ⟨false, m⟩ =>
        rw [hr] at ih
        obtain ⟨g1, g2, pre, d, g3, g4, j, q, g5, g6, g7, g8⟩ := ih
        refine ⟨fun hall => g1 (fun q hq => hall q (by simp [hq])), ?_, N i o ++ pre, d, by rw [g3, List.append_assoc], ?_, j + 1, q,
          by simpa using g5, g6, ?_, ?_⟩
        · intro b hb
          rcases firstOf_cons.1 hb with hb | hb
          · exact h2 b hb
          · exact g2 b hb.2
        · intro x hx
          rw [List.mem_append] at hx
          rcases hx with hx | hx
          · exact hN i o x hx
          · exact g4 x hx
        · intro k x hk hx
          cases k with
          | zero => simp only [List.getElem?_cons_zero, Option.some.injEq] at hx; exact hx ▸ h1
          | succ k => exact g7 k x (by omega) (by simpa using hx)
        · have : i + 1 + j = i + (j + 1) := by omega
          rw [← this]; exact g8
      | .ok ⟨true, m⟩ =>
        rw [hr] at ih
        obtain ⟨g1, g2, rfl⟩ := ih
        refine ⟨?_, ?_, rfl⟩
        · intro q hq; rw [List.mem_cons] at hq
          rcases hq with rfl | hq
          · exact h1
          · exact g1 q hq
        · intro b hb
          rcases firstOf_cons.1 hb with hb | hb
          · exact h2 b hb
          · exact g2 b hb.2

theorem noises_nil (i : Nat) (l : List AOp) : noises (fun _ _ => []) i l = [] := by
  induction l generalizing i with
  | nil => rfl
  | cons o r ih => rw [noises, ih]; rfl

/-- A loop without messages and without an end of the program. -/
theorem says_quiet {f : Nat → AOp → R} {T : AOp → Prop} {C : Nat → AOp → Msg → Prop}
    (h : ∀ i o, Says (f i o) (T o) (fun _ => False) (C i o) []) (l : List AOp) :
    Says (each f 0 l) (∀ o ∈ l, T o) (fun _ => False)
      (fun m => ∃ j o, l[j]? = some o ∧ ¬ T o ∧ (∀ k q, k < j → l[k]? = some q → T q) ∧ C j o m) [] := by
  refine (says_each (F := fun _ _ => False) (N := fun _ _ => []) (by simp) h l 0).mono Iff.rfl ?_ ?_ (noises_nil 0 l)
  · intro b; exact ⟨by rintro ⟨_, _, _, _, _, h⟩; exact h, False.elim⟩
  · rintro - m ⟨j, o, h1, h2, h3, h4⟩; exact ⟨j, o, h1, h2, h3, by simpa using h4⟩

end Verif.ProcOpt
