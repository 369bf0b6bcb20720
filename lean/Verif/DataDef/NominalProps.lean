import Verif.DataDef.NominalSpec

/-
  The scanners accept exactly the comma-separated lists of well-formed values.
-/

namespace Verif.DataDef

open Spec (values Digit)

/-! ### splitting at commas -/

theorem values_ne_nil : ∀ s : Text, values s ≠ []
  | [] => by simp [values]
  | c :: r => by
    rw [values]
    split
    · simp
    · split <;> simp

theorem values_noComma : ∀ v : Text, ',' ∉ v → values v = [v]
  | [], _ => rfl
  | c :: r, h => by
    have hc : c ≠ ',' := fun e => h (by simp [e])
    have hr : ',' ∉ r := fun e => h (by simp [e])
    rw [values, if_neg hc, values_noComma r hr]

theorem values_append : ∀ (v t : Text), ',' ∉ v → values (v ++ ',' :: t) = v :: values t
  | [], t, _ => by simp [values]
  | c :: r, t, h => by
    have hc : c ≠ ',' := fun e => h (by simp [e])
    have hr : ',' ∉ r := fun e => h (by simp [e])
    rw [List.cons_append, values, if_neg hc, values_append r t hr]

/-- Every text is a value without comma, alone or followed by a comma. -/
theorem comma_split : ∀ s : Text, ∃ v w, s = v ++ w ∧ ',' ∉ v ∧ (w = [] ∨ ∃ t, w = ',' :: t)
  | [] => ⟨[], [], rfl, by simp, .inl rfl⟩
  | c :: r => by
    by_cases hc : c = ','
    · exact ⟨[], c :: r, rfl, by simp, .inr ⟨r, by rw [hc]⟩⟩
    · obtain ⟨v, w, h1, h2, h3⟩ := comma_split r
      refine ⟨c :: v, w, by rw [h1]; rfl, ?_, h3⟩
      simp only [List.mem_cons, not_or]
      exact ⟨fun e => hc e.symm, h2⟩

theorem comma_split_unique : ∀ (u v r w : Text), u ++ r = v ++ w → ',' ∉ u → ',' ∉ v →
    (r = [] ∨ ∃ t, r = ',' :: t) → (w = [] ∨ ∃ t, w = ',' :: t) → u = v ∧ r = w
  | [], [], r, w, h, _, _, _, _ => ⟨rfl, h⟩
  | [], c :: v, r, w, h, _, hv, hr, _ => by
    rcases hr with rfl | ⟨t, rfl⟩
    · simp at h
    · simp only [List.nil_append, List.cons_append, List.cons.injEq] at h
      exact absurd (by simp [← h.1]) hv
  | c :: u, [], r, w, h, hu, _, _, hw => by
    rcases hw with rfl | ⟨t, rfl⟩
    · simp at h
    · simp only [List.nil_append, List.cons_append, List.cons.injEq] at h
      exact absurd (by simp [h.1]) hu
  | c :: u, d :: v, r, w, h, hu, hv, hr, hw => by
    simp only [List.cons_append, List.cons.injEq] at h
    obtain ⟨h1, h2⟩ := comma_split_unique u v r w h.2 (fun e => hu (by simp [e])) (fun e => hv (by simp [e])) hr hw
    exact ⟨by rw [h.1, h1], h2⟩

/-! ### lists scanned value by value -/

/-- A scanner of one value reads exactly the values `P` describes. -/
structure Scans (turn : Text → Option Text) (P : Text → Prop) : Prop where
  sound : ∀ s r, turn s = some r → ∃ u, s = u ++ r ∧ P u
  complete : ∀ v w, P v → (w = [] ∨ ∃ t, w = ',' :: t) → turn (v ++ w) = some w
  noComma : ∀ v, P v → ',' ∉ v

/-- The text is read value by value to its end. -/
inductive Scanned (turn : Text → Option Text) : Text → Prop
  | last {s : Text} : turn s = some [] → Scanned turn s
  | more {s t : Text} : turn s = some (',' :: t) → Scanned turn t → Scanned turn s

theorem scanned_iff {turn : Text → Option Text} {P : Text → Prop} (h : Scans turn P) (s : Text) :
    Scanned turn s ↔ ∀ v ∈ values s, P v := by
  constructor
  · intro hs
    induction hs with
    | last he =>
      obtain ⟨u, h1, h2⟩ := h.sound _ _ he
      rw [List.append_nil] at h1
      subst h1
      rw [values_noComma _ (h.noComma _ h2)]
      simpa using h2
    | more he _ ih =>
      obtain ⟨u, h1, h2⟩ := h.sound _ _ he
      subst h1
      rw [values_append _ _ (h.noComma _ h2)]
      simpa using ⟨h2, ih⟩
  · generalize hn : s.length = n
    induction n using Nat.strongRecOn generalizing s with
    | _ n ih =>
      intro hv
      obtain ⟨v, w, h1, h2, h3⟩ := comma_split s
      subst h1
      rcases h3 with rfl | ⟨t, rfl⟩
      · rw [List.append_nil] at hv ⊢
        rw [values_noComma _ h2] at hv
        have := h.complete v [] (hv v (by simp)) (.inl rfl)
        rw [List.append_nil] at this
        exact .last this
      · rw [values_append _ _ h2] at hv
        have := h.complete v (',' :: t) (hv v (by simp)) (.inr ⟨t, rfl⟩)
        refine .more this (ih t.length ?_ t rfl fun x hx => hv x (by simp [hx]))
        simp at hn
        omega

/-! ### numbers -/

theorem isDigit_iff (c : Char) : isDigit c = true ↔ Digit c := by
  simp [isDigit, Digit]

/-- The characters at which the scanner of numbers stops are none of those a number consists of. -/
structure EndOk (sp : NumberSpec) : Prop where
  digit : ∀ c, Digit c → sp.isEnd c = false
  dot : sp.isEnd '.' = false
  blank : sp.isEnd ' ' = false
  comma : sp.isEnd ',' = true
  sdigit : ∀ c, Digit c → sp.isSignCh c = false
  sdot : sp.isSignCh '.' = false
  sblank : sp.isSignCh ' ' = false
  scomma : sp.isSignCh ',' = false

theorem digit_ne {c d : Char} (h : Digit c) (hd : ¬ Digit d) : c ≠ d := fun e => hd (e ▸ h)

theorem not_digit_of {d : Char} (h : isDigit d = false) : ¬ Digit d := fun e => by
  rw [(isDigit_iff d).mpr e] at h; cases h

theorem hf_endOk : EndOk hfSpec where
  digit c h := by
    have h1 := digit_ne h (not_digit_of (d := ',') (by decide))
    have h2 := digit_ne h (not_digit_of (d := 'E') (by decide))
    simp [hfSpec, h1, h2]
  dot := by decide
  blank := by decide
  comma := by decide
  sdigit c h := by
    have h1 := digit_ne h (not_digit_of (d := 'U') (by decide))
    have h2 := digit_ne h (not_digit_of (d := '+') (by decide))
    have h3 := digit_ne h (not_digit_of (d := '-') (by decide))
    simp [hfSpec, h1, h2, h3]
  sdot := by decide
  sblank := by decide
  scomma := by decide

theorem pz_endOk : EndOk pzSpec where
  digit c h := by
    have h1 := digit_ne h (not_digit_of (d := ',') (by decide))
    simp [pzSpec, h1]
  dot := by decide
  blank := by decide
  comma := by decide
  sdigit c h := by
    have h2 := digit_ne h (not_digit_of (d := '+') (by decide))
    have h3 := digit_ne h (not_digit_of (d := '-') (by decide))
    simp [pzSpec, h2, h3]
  sdot := by decide
  sblank := by decide
  scomma := by decide

theorem edl_endOk : EndOk edlSpec where
  digit c h := by
    have h1 := digit_ne h (not_digit_of (d := ',') (by decide))
    have h2 := digit_ne h (not_digit_of (d := 'E') (by decide))
    have h3 := digit_ne h (not_digit_of (d := 'R') (by decide))
    simp [edlSpec, h1, h2, h3]
  dot := by decide
  blank := by decide
  comma := by decide
  sdigit c h := by
    have h2 := digit_ne h (not_digit_of (d := '+') (by decide))
    have h3 := digit_ne h (not_digit_of (d := '-') (by decide))
    simp [edlSpec, h2, h3]
  sdot := by decide
  sblank := by decide
  scomma := by decide

/-- What the loop of `check_number` reads. -/
def Body (b : Text) : Prop := ∀ c ∈ b, Digit c ∨ c = '.' ∨ c = ' '

theorem numberLoop_sound (sp : NumberSpec) : ∀ (s : Text) (fd pd ft pt : Bool) (r : Text),
    numberLoop sp s fd pd ft pt = some r →
      ∃ b, s = b ++ r ∧ Body b ∧ (fd = true ∨ ∃ c ∈ b, Digit c) ∧ b.count '.' + (if ft then 1 else 0) ≤ 1
        ∧ (r = [] ∨ ∃ c t, r = c :: t ∧ sp.isEnd c = true)
  | [], fd, pd, ft, pt, r, h => by
    rw [numberLoop] at h
    have := numberEnd_eq h
    subst this
    refine ⟨[], rfl, by simp [Body], .inl ?_, ?_, .inl rfl⟩
    · unfold numberEnd at h
      cases fd <;> simp_all
    · cases ft <;> simp
  | c :: s, fd, pd, ft, pt, r, h => by
    rw [numberLoop] at h
    split at h
    · rename_i hc
      have := numberEnd_eq h
      subst this
      refine ⟨[], rfl, by simp [Body], .inl ?_, ?_, .inr ⟨c, s, rfl, hc⟩⟩
      · unfold numberEnd at h
        cases fd <;> simp_all
      · cases ft <;> simp
    · split at h
      · rename_i hdot
        simp only [beq_iff_eq] at hdot
        subst hdot
        split at h
        · cases h
        · rename_i hft
          obtain ⟨b, h1, h2, h3, h4, h5⟩ := numberLoop_sound sp s _ _ _ _ r h
          refine ⟨'.' :: b, by rw [h1]; rfl, ?_, ?_, ?_, h5⟩
          · intro x hx
            rcases List.mem_cons.mp hx with rfl | hx
            · simp
            · exact h2 x hx
          · rcases h3 with h3 | ⟨x, hx, hd⟩
            · exact .inl h3
            · exact .inr ⟨x, by simp [hx], hd⟩
          · simp at h4 ⊢
            simp [h4, hft]
      · rename_i hdot
        simp only [beq_iff_eq] at hdot
        split at h
        · rename_i hdig
          have hD := (isDigit_iff c).mp hdig
          obtain ⟨b, h1, h2, h3, h4, h5⟩ := numberLoop_sound sp s _ _ _ _ r h
          refine ⟨c :: b, by rw [h1]; rfl, ?_, .inr ⟨c, by simp, hD⟩, ?_, h5⟩
          · intro x hx
            rcases List.mem_cons.mp hx with rfl | hx
            · exact .inl hD
            · exact h2 x hx
          · rw [List.count_cons_of_ne hdot]; exact h4
        · split at h
          · cases h
          · rename_i hbl
            simp only [bne_iff_ne, ne_eq, Decidable.not_not] at hbl
            subst hbl
            obtain ⟨b, h1, h2, h3, h4, h5⟩ := numberLoop_sound sp s _ _ _ _ r h
            refine ⟨' ' :: b, by rw [h1]; rfl, ?_, ?_, ?_, h5⟩
            · intro x hx
              rcases List.mem_cons.mp hx with rfl | hx
              · simp
              · exact h2 x hx
            · rcases h3 with h3 | ⟨x, hx, hd⟩
              · exact .inl h3
              · exact .inr ⟨x, by simp [hx], hd⟩
            · rw [List.count_cons_of_ne (by decide)]; exact h4

theorem numberLoop_complete {sp : NumberSpec} (ok : EndOk sp) :
    ∀ (b r : Text) (fd pd ft pt : Bool), Body b → (fd = true ∨ ∃ c ∈ b, Digit c) →
      b.count '.' + (if ft then 1 else 0) ≤ 1 → (fd = true → pd = true ∨ pt = true) →
      (r = [] ∨ ∃ c t, r = c :: t ∧ sp.isEnd c = true) →
      numberLoop sp (b ++ r) fd pd ft pt = some r
  | [], r, fd, pd, ft, pt, _, hfd, _, hinv, hr => by
    have hfd : fd = true := by rcases hfd with h | ⟨_, h, _⟩; exact h; simp at h
    have hend : numberEnd fd pd pt r = some r := by
      unfold numberEnd
      rcases hinv hfd with h | h <;> simp [hfd, h]
    rw [List.nil_append]
    rcases hr with rfl | ⟨c, t, rfl, hc⟩
    · rw [numberLoop]; exact hend
    · rw [numberLoop, if_pos hc]; exact hend
  | c :: b, r, fd, pd, ft, pt, hb, hfd, hcnt, hinv, hr => by
    have hb' : Body b := fun x hx => hb x (by simp [hx])
    rw [List.cons_append, numberLoop]
    rcases hb c (by simp) with hD | rfl | rfl
    · have hne : c ≠ '.' := digit_ne hD (not_digit_of (by decide))
      have hdig := (isDigit_iff c).mpr hD
      simp only [ok.digit c hD, hdig, Bool.false_eq_true, if_false, if_true, beq_iff_eq, hne]
      rw [List.count_cons_of_ne hne] at hcnt
      exact numberLoop_complete ok b r _ _ _ _ hb' (.inl rfl) hcnt (fun _ => .inl rfl) hr
    · rw [List.count_cons_self] at hcnt
      have hft : ft = false := by cases ft <;> simp_all
      subst hft
      simp only [ok.dot, Bool.false_eq_true, if_false, beq_self_eq_true, if_true]
      refine numberLoop_complete ok b r _ _ _ _ hb' ?_ ?_ (fun _ => .inr rfl) hr
      · rcases hfd with h | ⟨x, hx, hd⟩
        · exact .inl h
        · rcases List.mem_cons.mp hx with rfl | hx
          · exact absurd hd (not_digit_of (by decide))
          · exact .inr ⟨x, hx, hd⟩
      · simp at hcnt ⊢
        simp [hcnt]
    · rw [List.count_cons_of_ne (by decide)] at hcnt
      have hd : isDigit ' ' = false := by decide
      simp only [ok.blank, hd, Bool.false_eq_true, if_false, beq_iff_eq, bne_self_eq_false]
      rw [if_neg (by decide)]
      refine numberLoop_complete ok b r _ _ _ _ hb' ?_ hcnt hinv hr
      rcases hfd with h | ⟨x, hx, hd⟩
      · exact .inl h
      · rcases List.mem_cons.mp hx with rfl | hx
        · exact absurd hd (not_digit_of (by decide))
        · exact .inr ⟨x, hx, hd⟩

/-- The signs a number may begin with. -/
def SignsAre (sp : NumberSpec) (signs : Text) : Prop := ∀ c, sp.isSignCh c = true ↔ c ∈ signs

theorem checkNumber_sound {sp : NumberSpec} {signs s r : Text} (hs : SignsAre sp signs)
    (h0 : sp.isSignCh '\x00' = false) (h : checkNumber sp s = some r) :
    (∃ u, s = u ++ r ∧ Spec.Number signs u) ∧ (r = [] ∨ ∃ c t, r = c :: t ∧ sp.isEnd c = true) := by
  unfold checkNumber at h
  split at h
  · cases h
  · split at h
    · rename_i hsg
      cases s with
      | nil => rw [show at0 [] = '\x00' from rfl, h0] at hsg; cases hsg
      | cons c s =>
        rw [show at0 (c :: s) = c from rfl] at hsg
        obtain ⟨b, h1, h2, h3, h4, h5⟩ := numberLoop_sound sp _ _ _ _ _ r h
        rw [List.tail_cons] at h1
        subst h1
        refine ⟨⟨c :: b, rfl, [c], b, rfl, .inr ⟨c, (hs c).mp hsg, rfl⟩, h2, ?_, by simpa using h4⟩, h5⟩
        rcases h3 with h3 | h3
        · cases h3
        · exact h3
    · obtain ⟨b, h1, h2, h3, h4, h5⟩ := numberLoop_sound sp _ _ _ _ _ r h
      subst h1
      refine ⟨⟨b, rfl, [], b, rfl, .inl rfl, h2, ?_, by simpa using h4⟩, h5⟩
      rcases h3 with h3 | h3
      · cases h3
      · exact h3

theorem checkNumber_complete {sp : NumberSpec} (ok : EndOk sp) {signs u r : Text} (hs : SignsAre sp signs)
    (hu : Spec.Number signs u) (hr : r = [] ∨ ∃ c t, r = c :: t ∧ sp.isEnd c = true) :
    checkNumber sp (u ++ r) = some r := by
  obtain ⟨sg, b, rfl, hsg, h2, h3, h4⟩ := hu
  unfold checkNumber
  have hfin : numberLoop sp (b ++ r) false false false false = some r :=
    numberLoop_complete ok b r _ _ _ _ h2 (.inr h3) (by simpa using h4) (fun e => by cases e) hr
  rcases hsg with rfl | ⟨c, hc, rfl⟩
  · cases b with
    | nil => obtain ⟨x, hx, _⟩ := h3; cases hx
    | cons d b =>
      rw [List.nil_append, List.cons_append, show at0 (d :: (b ++ r)) = d from rfl]
      have hd : d ≠ ',' ∧ sp.isSignCh d = false := by
        rcases h2 d (by simp) with h | rfl | rfl
        · exact ⟨digit_ne h (not_digit_of (by decide)), ok.sdigit d h⟩
        · exact ⟨by decide, ok.sdot⟩
        · exact ⟨by decide, ok.sblank⟩
      rw [if_neg (by simpa using hd.1), hd.2]
      exact hfin
  · rw [List.append_assoc, List.cons_append, List.nil_append, show at0 (c :: (b ++ r)) = c from rfl]
    have hcs := (hs c).mpr hc
    rw [if_neg, if_pos hcs]
    · exact hfin
    · intro e
      simp only [beq_iff_eq] at e
      rw [e, ok.scomma] at hcs
      cases hcs

theorem number_noComma {signs v : Text} (hs : ',' ∉ signs) (h : Spec.Number signs v) : ',' ∉ v := by
  obtain ⟨sg, b, rfl, hsg, h2, _, _⟩ := h
  intro hm
  rcases List.mem_append.mp hm with hm | hm
  · rcases hsg with rfl | ⟨c, hc, rfl⟩
    · cases hm
    · simp only [List.mem_singleton] at hm
      exact hs (hm ▸ hc)
  · rcases h2 _ hm with h | h | h
    · exact not_digit_of (by decide) h
    · exact absurd h (by decide)
    · exact absurd h (by decide)

/-! ### exponents -/

theorem digitsLoop_sound : ∀ (s : Text) (b : Bool), ∃ d, s = d ++ (digitsLoop s b).2 ∧ (∀ c ∈ d, Digit c)
    ∧ ((digitsLoop s b).1 = true → b = true ∨ d ≠ [])
  | [], b => ⟨[], rfl, by simp, fun h => .inl h⟩
  | c :: s, b => by
    rw [digitsLoop]
    split
    · rename_i hc
      obtain ⟨d, h1, h2, _⟩ := digitsLoop_sound s true
      refine ⟨c :: d, by rw [List.cons_append, ← h1], ?_, fun _ => .inr (by simp)⟩
      intro x hx
      rcases List.mem_cons.mp hx with rfl | hx
      · exact (isDigit_iff _).mp hc
      · exact h2 x hx
    · exact ⟨[], rfl, by simp, fun h => .inl h⟩

theorem digitsLoop_complete : ∀ (d r : Text) (b : Bool), (∀ c ∈ d, Digit c) → (b = true ∨ d ≠ []) →
    isDigit (at0 r) = false → digitsLoop (d ++ r) b = (true, r)
  | [], [], b, _, hb, _ => by simp_all [digitsLoop]
  | [], c :: r, b, _, hb, hr => by
    have : b = true := by rcases hb with h | h; exact h; exact absurd rfl h
    rw [show at0 (c :: r) = c from rfl] at hr
    simp [digitsLoop, hr, this]
  | c :: d, r, b, hd, _, hr => by
    have := digitsLoop_complete d r true (fun x hx => hd x (by simp [hx])) (.inl rfl) hr
    rw [List.cons_append, digitsLoop, if_pos ((isDigit_iff c).mpr (hd c (by simp)))]
    exact this

theorem checkExponent_sound {s r : Text} (hE : at0 s = 'E') (h : checkExponent s = some r) :
    ∃ e, s = e ++ r ∧ Spec.Exponent e := by
  cases s with
  | nil => exact absurd hE (by decide)
  | cons c s =>
    rw [show at0 (c :: s) = c from rfl] at hE
    subst hE
    unfold checkExponent at h
    dsimp only [List.tail_cons] at h
    split at h
    · rename_i r' heq
      injection h with h
      subst h
      split at heq
      · rename_i hsg
        cases s with
        | nil => exact absurd hsg (by decide)
        | cons c s =>
          rw [show at0 (c :: s) = c from rfl] at hsg
          rw [List.tail_cons] at heq
          obtain ⟨d, h1, h2, h3⟩ := digitsLoop_sound s false
          rw [heq] at h1 h3
          refine ⟨'E' :: ([c] ++ d), by rw [h1]; simp, [c], d, rfl, ?_, ?_, h2⟩
          · simp only [isSign, Bool.or_eq_true, beq_iff_eq] at hsg
            rcases hsg with rfl | rfl <;> simp
          · rcases h3 rfl with h | h
            · cases h
            · exact h
      · obtain ⟨d, h1, h2, h3⟩ := digitsLoop_sound s false
        rw [heq] at h1 h3
        refine ⟨'E' :: ([] ++ d), by rw [h1]; simp, [], d, rfl, .inl rfl, ?_, h2⟩
        rcases h3 rfl with h | h
        · cases h
        · exact h
    · cases h

theorem checkExponent_complete {e r : Text} (he : Spec.Exponent e) (hr : isDigit (at0 r) = false) :
    checkExponent (e ++ r) = some r := by
  obtain ⟨sg, d, rfl, hsg, hne, hd⟩ := he
  have hfin := digitsLoop_complete d r false hd (.inr hne) hr
  unfold checkExponent
  dsimp only [List.cons_append, List.tail_cons]
  have hif : (if isSign (at0 (sg ++ d ++ r)) = true then (sg ++ d ++ r).tail else sg ++ d ++ r) = d ++ r := by
    rcases hsg with rfl | rfl | rfl
    · cases d with
      | nil => exact absurd rfl hne
      | cons x d =>
        have hx := hd x (by simp)
        have h2 := digit_ne hx (not_digit_of (d := '+') (by decide))
        have h3 := digit_ne hx (not_digit_of (d := '-') (by decide))
        simp [at0, isSign, h2, h3]
    · simp [at0, isSign]
    · simp [at0, isSign]
  rw [hif, hfin]

theorem exponent_noComma {e : Text} (h : Spec.Exponent e) : ',' ∉ e := by
  obtain ⟨sg, d, rfl, hsg, _, hd⟩ := h
  intro hm
  have hdd : ',' ∉ d := fun hm => not_digit_of (by decide) (hd _ hm)
  rcases hsg with rfl | rfl | rfl <;> simp [hdd] at hm

theorem exponent_head {e : Text} (h : Spec.Exponent e) : ∃ t, e = 'E' :: t := by
  obtain ⟨sg, d, rfl, _⟩ := h
  exact ⟨_, rfl⟩

/-! ### one value of each type -/

theorem at0_end {w : Text} (h : w = [] ∨ ∃ t, w = ',' :: t) : at0 w = '\x00' ∨ at0 w = ',' := by
  rcases h with rfl | ⟨t, rfl⟩
  · exact .inl rfl
  · exact .inr rfl

theorem isDigit_end {w : Text} (h : w = [] ∨ ∃ t, w = ',' :: t) : isDigit (at0 w) = false := by
  rcases at0_end h with h | h <;> rw [h] <;> decide

/-- One turn of the loop of `data_def_type_H_F_FD::check`. -/
def hfTurn (s : Text) : Option Text :=
  match checkNumber hfSpec s with
  | none => none
  | some r => if at0 r == 'E' then checkExponent r else some r

theorem hf_signs : SignsAre hfSpec ['U', '+', '-'] := by
  intro c; simp [hfSpec, Bool.or_eq_true, or_assoc]

theorem pz_signs : SignsAre pzSpec ['+', '-'] := by
  intro c; simp [pzSpec]

theorem edl_signs : SignsAre edlSpec ['+', '-'] := by
  intro c; simp [edlSpec]

theorem hf_scans : Scans hfTurn Spec.FixedValue where
  sound s r h := by
    unfold hfTurn at h
    split at h
    · cases h
    · rename_i q hq
      obtain ⟨⟨u, h1, h2⟩, _⟩ := checkNumber_sound hf_signs (by decide) hq
      split at h
      · rename_i hE
        simp only [beq_iff_eq] at hE
        obtain ⟨e, h3, h4⟩ := checkExponent_sound hE h
        exact ⟨u ++ e, by rw [h1, h3, List.append_assoc], u, e, rfl, h2, .inr h4⟩
      · injection h with h
        subst h
        exact ⟨u, h1, u, [], by simp, h2, .inl rfl⟩
  complete v w hv hw := by
    obtain ⟨n, e, rfl, hn, he⟩ := hv
    have h1 : checkNumber hfSpec (n ++ (e ++ w)) = some (e ++ w) := by
      refine checkNumber_complete hf_endOk hf_signs hn ?_
      rcases he with rfl | he
      · rcases hw with rfl | ⟨t, rfl⟩
        · exact .inl rfl
        · exact .inr ⟨',', t, rfl, by decide⟩
      · obtain ⟨t, rfl⟩ := exponent_head he
        exact .inr ⟨'E', t ++ w, rfl, by decide⟩
    unfold hfTurn
    rw [List.append_assoc, h1]
    dsimp only
    rcases he with rfl | he
    · rw [List.nil_append, if_neg]
      rcases at0_end hw with h | h <;> rw [h] <;> decide
    · have hh := exponent_head he
      rw [if_pos, checkExponent_complete he (isDigit_end hw)]
      obtain ⟨t, rfl⟩ := hh
      rfl
  noComma v hv := by
    obtain ⟨n, e, rfl, hn, he⟩ := hv
    intro hm
    rcases List.mem_append.mp hm with hm | hm
    · exact number_noComma (by decide) hn hm
    · rcases he with rfl | he
      · cases hm
      · exact exponent_noComma he hm

theorem pz_scans : Scans (checkNumber pzSpec) Spec.DecimalValue where
  sound s r h := (checkNumber_sound pz_signs (by decide) h).1
  complete v w hv hw := by
    refine checkNumber_complete pz_endOk pz_signs hv ?_
    rcases hw with rfl | ⟨t, rfl⟩
    · exact .inl rfl
    · exact .inr ⟨',', t, rfl, by decide⟩
  noComma v hv := number_noComma (by decide) hv

theorem modes_eq (ext : Char) : roundModes ext = Spec.modes ext := by
  unfold roundModes Spec.modes
  simp only [Bool.or_eq_true, beq_iff_eq]
  split
  · rfl
  · split <;> rfl

theorem modes_digits (ext : Char) : ∀ m ∈ Spec.modes ext, ∀ c ∈ m, isDigit c = true := by
  unfold Spec.modes
  split
  · decide
  · split
    · decide
    · simp

/-- One turn of the loop of `data_def_type_E_D_L::check`. -/
def edlTurn (ext : Char) (s : Text) : Option Text :=
  match checkNumber edlSpec s with
  | none => none
  | some r =>
    if at0 r == 'E' then
      match checkExponent r with
      | none => none
      | some q => roundMode ext q
    else roundMode ext r

theorem roundMode_sound {ext : Char} {s r : Text} (h : roundMode ext s = some r) :
    ∃ m, s = m ++ r ∧ (m = [] ∨ Spec.Rounding (Spec.modes ext) m) := by
  unfold roundMode at h
  split at h
  · rename_i hR
    simp only [beq_iff_eq] at hR
    cases s with
    | nil => exact absurd hR (by decide)
    | cons c s =>
      rw [show at0 (c :: s) = c from rfl] at hR
      subst hR
      dsimp only [List.tail_cons] at h
      split at h
      · rename_i hm
        injection h with h
        subst h
        refine ⟨'R' :: s.takeWhile isDigit, by simp [List.takeWhile_append_dropWhile], .inr ⟨_, ?_, rfl⟩⟩
        rw [modes_eq] at hm
        simpa using hm
      · cases h
  · injection h with h
    subst h
    exact ⟨[], rfl, .inl rfl⟩

theorem takeWhile_digits : ∀ (d w : Text), (∀ c ∈ d, isDigit c = true) → isDigit (at0 w) = false →
    (d ++ w).takeWhile isDigit = d ∧ (d ++ w).dropWhile isDigit = w
  | [], [], _, _ => by simp
  | [], c :: w, _, h => by
    rw [show at0 (c :: w) = c from rfl] at h
    simp [h]
  | c :: d, w, hd, h => by
    obtain ⟨h1, h2⟩ := takeWhile_digits d w (fun x hx => hd x (by simp [hx])) h
    have := hd c (by simp)
    rw [List.cons_append, List.takeWhile_cons, List.dropWhile_cons, if_pos this, if_pos this, h1, h2]
    exact ⟨rfl, rfl⟩

theorem roundMode_complete {ext : Char} {m w : Text} (hm : m = [] ∨ Spec.Rounding (Spec.modes ext) m)
    (hw : w = [] ∨ ∃ t, w = ',' :: t) : roundMode ext (m ++ w) = some w := by
  unfold roundMode
  rcases hm with rfl | ⟨d, hd, rfl⟩
  · rw [List.nil_append, if_neg]
    rcases at0_end hw with h | h <;> rw [h] <;> decide
  · rw [if_pos (by rfl)]
    obtain ⟨h1, h2⟩ := takeWhile_digits d w (modes_digits ext d hd) (isDigit_end hw)
    dsimp only [List.cons_append, List.tail_cons]
    rw [h1, h2, modes_eq, if_pos (by simpa using hd)]

theorem edl_scans (ext : Char) : Scans (edlTurn ext) (Spec.FloatValue ext) where
  sound s r h := by
    unfold edlTurn at h
    split at h
    · cases h
    · rename_i q hq
      obtain ⟨⟨u, h1, h2⟩, _⟩ := checkNumber_sound edl_signs (by decide) hq
      split at h
      · rename_i hE
        simp only [beq_iff_eq] at hE
        split at h
        · cases h
        · rename_i p hp
          obtain ⟨e, h3, h4⟩ := checkExponent_sound hE hp
          obtain ⟨m, h5, h6⟩ := roundMode_sound h
          exact ⟨u ++ e ++ m, by rw [h1, h3, h5]; simp, u, e, m, rfl, h2, .inr h4, h6⟩
      · obtain ⟨m, h5, h6⟩ := roundMode_sound h
        exact ⟨u ++ [] ++ m, by rw [h1, h5]; simp, u, [], m, rfl, h2, .inl rfl, h6⟩
  complete v w hv hw := by
    obtain ⟨n, e, m, rfl, hn, he, hm⟩ := hv
    have hR : at0 (m ++ w) = 'R' ∨ at0 (m ++ w) = '\x00' ∨ at0 (m ++ w) = ',' := by
      rcases hm with rfl | ⟨d, _, rfl⟩
      · exact .inr (at0_end hw)
      · exact .inl rfl
    have h1 : checkNumber edlSpec (n ++ (e ++ (m ++ w))) = some (e ++ (m ++ w)) := by
      refine checkNumber_complete edl_endOk edl_signs hn ?_
      rcases he with rfl | he
      · rcases hm with rfl | ⟨d, _, rfl⟩
        · rcases hw with rfl | ⟨t, rfl⟩
          · exact .inl rfl
          · exact .inr ⟨',', t, rfl, by decide⟩
        · exact .inr ⟨'R', d ++ w, rfl, by decide⟩
      · obtain ⟨t, rfl⟩ := exponent_head he
        exact .inr ⟨'E', t ++ (m ++ w), rfl, by decide⟩
    unfold edlTurn
    rw [List.append_assoc, List.append_assoc, h1]
    dsimp only
    rcases he with rfl | he
    · rw [List.nil_append, if_neg]
      · exact roundMode_complete hm hw
      · rcases hR with h | h | h <;> rw [h] <;> decide
    · have hh := exponent_head he
      rw [if_pos]
      · rw [checkExponent_complete he]
        · exact roundMode_complete hm hw
        · rcases hR with h | h | h <;> rw [h] <;> decide
      · obtain ⟨t, rfl⟩ := hh
        rfl
  noComma v hv := by
    obtain ⟨n, e, m, rfl, hn, he, hm⟩ := hv
    intro hc
    rcases List.mem_append.mp hc with hc | hc
    · rcases List.mem_append.mp hc with hc | hc
      · exact number_noComma (by decide) hn hc
      · rcases he with rfl | he
        · cases hc
        · exact exponent_noComma he hc
    · rcases hm with rfl | ⟨d, hd, rfl⟩
      · cases hc
      · rcases List.mem_cons.mp hc with hc | hc
        · exact absurd hc (by decide)
        · exact absurd (modes_digits ext d hd _ hc) (by decide)

/-! ### the loops -/

theorem isEmpty_iff_nil (s : Text) : s.isEmpty = true ↔ s = [] := List.isEmpty_iff

theorem at0_comma {r : Text} (h : at0 r = ',') : ∃ t, r = ',' :: t := by
  cases r with
  | nil => exact absurd h (by decide)
  | cons c t => exact ⟨t, by rw [show at0 (c :: t) = c from rfl] at h; rw [h]⟩

/-- One turn of the loop, in terms of `hfTurn`. -/
theorem hfLoop_eq (s : Text) : hfLoop s =
    if s.isEmpty then none
    else match hfTurn s with
      | none => some false
      | some r => if r.isEmpty then some true else if at0 r != ',' then some false else hfLoop r.tail := by
  rw [hfLoop.eq_def]
  split
  · rfl
  · unfold hfTurn
    split
    · rename_i h; rw [h]
    · rename_i r h
      rw [h]
      dsimp only
      by_cases hr : r.isEmpty = true
      · have : at0 r = '\x00' := by rw [(isEmpty_iff_nil r).mp hr]; rfl
        rw [if_pos hr, this, if_neg (by decide)]
        dsimp only
        rw [if_pos hr]
      · rw [if_neg hr]
        by_cases hE : (at0 r == 'E') = true
        · rw [if_pos hE, if_pos hE]
          split
          · rename_i h'; rw [h']
          · rename_i q h'; rw [h']
        · rw [if_neg hE, if_neg hE]
          dsimp only
          rw [if_neg hr]

theorem scanned_ne_nil {turn : Text → Option Text} {P : Text → Prop} (h : Scans turn P) (hP : ¬ P []) {s : Text}
    (hs : Scanned turn s) : s ≠ [] := by
  rintro rfl
  have := (scanned_iff h []).mp hs [] (by simp [values])
  exact hP this

theorem hfLoop_iff (s : Text) : hfLoop s = some true ↔ Scanned hfTurn s := by
  have hP : ¬ Spec.FixedValue [] := by
    rintro ⟨n, e, h1, h2, _⟩
    have : n = [] := (List.append_eq_nil_iff.mp h1.symm).1
    subst this
    obtain ⟨sg, b, h3, _, _, ⟨c, hc, _⟩, _⟩ := h2
    rw [(List.append_eq_nil_iff.mp h3.symm).2] at hc
    cases hc
  generalize hn : s.length = n
  induction n using Nat.strongRecOn generalizing s with
  | _ n ih =>
    rw [hfLoop_eq]
    constructor
    · intro h
      split at h
      · cases h
      · rename_i hne
        split at h
        · cases h
        · rename_i r hr
          split at h
          · rename_i hre
            rw [(isEmpty_iff_nil r).mp hre] at hr
            exact .last hr
          · split at h
            · cases h
            · rename_i hc
              simp only [bne_iff_ne, ne_eq, Decidable.not_not] at hc
              obtain ⟨t, rfl⟩ := at0_comma hc
              refine .more hr ((ih t.length ?_ t rfl).mp h)
              obtain ⟨u, h1, _⟩ := hf_scans.sound _ _ hr
              rw [h1] at hn
              simp at hn
              omega
    · intro h
      have hne := scanned_ne_nil hf_scans hP h
      rw [if_neg (mt (isEmpty_iff_nil s).mp hne)]
      cases h with
      | last h => rw [h]; rfl
      | @more _ t h ht =>
        rw [h]
        have := (ih t.length ?_ t rfl).mpr ht
        · simpa [at0] using this
        · obtain ⟨u, h1, _⟩ := hf_scans.sound _ _ h
          rw [h1] at hn
          simp at hn
          omega

theorem back_tail {u t : Text} (ht : t ≠ []) : back0 (u ++ ',' :: t) = back0 t := by
  cases t with
  | nil => exact absurd rfl ht
  | cons x t =>
    have : (u ++ ',' :: x :: t).getLast? = (x :: t).getLast? := by
      rw [List.getLast?_append, List.getLast?_cons_cons, List.getLast?_eq_some_getLast (List.cons_ne_nil x t)]
      rfl
    rw [back0, back0, List.getLastD_eq_getLast?, List.getLastD_eq_getLast?, this]

/-- The loop is left at the end of the text only after a comma. -/
theorem hfLoop_none (s : Text) (h : hfLoop s = none) : s = [] ∨ back0 s = ',' := by
  generalize hn : s.length = n
  induction n using Nat.strongRecOn generalizing s with
  | _ n ih =>
    rw [hfLoop_eq] at h
    split at h
    · rename_i hs; exact .inl ((isEmpty_iff_nil s).mp hs)
    · split at h
      · cases h
      · rename_i r hr
        split at h
        · cases h
        · split at h
          · cases h
          · rename_i hc
            simp only [bne_iff_ne, ne_eq, Decidable.not_not] at hc
            obtain ⟨t, rfl⟩ := at0_comma hc
            obtain ⟨u, h1, _⟩ := hf_scans.sound _ _ hr
            subst h1
            right
            have hlt : t.length < n := by simp at hn; omega
            rcases ih t.length hlt t h rfl with rfl | hb
            · simp [back0, List.getLastD_eq_getLast?]
            · have ht : t ≠ [] := by rintro rfl; exact absurd hb (by decide)
              rw [back_tail ht]
              exact hb

theorem checkHF_iff (s : Text) : checkHF s = true ↔ ∀ v ∈ values s, Spec.FixedValue v := by
  rw [← scanned_iff hf_scans, ← hfLoop_iff]
  unfold checkHF
  split
  · rename_i h
    rw [(isEmpty_iff_nil s).mp h, hfLoop_eq]
    simp
  · rename_i h
    split
    · rename_i b hb
      rw [hb]
      simp
    · rename_i hb
      rw [hb]
      rcases hfLoop_none s hb with h' | h'
      · rw [h'] at h; exact absurd rfl h
      · simp [h']

theorem decimal_nil : ¬ Spec.DecimalValue [] := by
  rintro ⟨sg, b, h3, _, _, ⟨c, hc, _⟩, _⟩
  rw [(List.append_eq_nil_iff.mp h3.symm).2] at hc
  cases hc

theorem float_nil (ext : Char) : ¬ Spec.FloatValue ext [] := by
  rintro ⟨n, e, r, h1, h2, _⟩
  have : n = [] := (List.append_eq_nil_iff.mp (List.append_eq_nil_iff.mp h1.symm).1).1
  subst this
  exact decimal_nil h2

/-- A text that ends with a comma has an empty last value. -/
theorem values_back : ∀ s : Text, s ≠ [] → back0 s = ',' → [] ∈ values s := by
  intro s hne hb
  generalize hn : s.length = n
  induction n using Nat.strongRecOn generalizing s with
  | _ n ih =>
    obtain ⟨v, w, h1, h2, h3⟩ := comma_split s
    subst h1
    rcases h3 with rfl | ⟨t, rfl⟩
    · rw [List.append_nil] at hne hb
      exfalso
      apply h2
      have : back0 v ∈ v := by
        unfold back0
        rw [List.getLastD_eq_getLast?, List.getLast?_eq_some_getLast hne]
        exact List.getLast_mem hne
      rwa [hb] at this
    · rw [values_append _ _ h2]
      by_cases ht : t = []
      · subst ht
        simp [values]
      · refine List.mem_cons_of_mem _ (ih t.length ?_ t ht ?_ rfl)
        · simp at hn; omega
        · rw [back_tail ht] at hb
          exact hb

/-- A text of values none of which is empty does not end with a comma. -/
theorem back_of_values {P : Text → Prop} (hP : ¬ P []) {s : Text} (h : ∀ v ∈ values s, P v) :
    s ≠ [] ∧ back0 s ≠ ',' := by
  have hne : s ≠ [] := by
    rintro rfl
    exact hP (h [] (by simp [values]))
  exact ⟨hne, fun hb => hP (h [] (values_back s hne hb))⟩

theorem pzLoop_iff (s : Text) (hne : s ≠ []) (hb : back0 s ≠ ',') :
    pzLoop s = true ↔ Scanned (checkNumber pzSpec) s := by
  generalize hn : s.length = n
  induction n using Nat.strongRecOn generalizing s with
  | _ n ih =>
    rw [pzLoop.eq_def, if_neg (mt (isEmpty_iff_nil s).mp hne)]
    constructor
    · intro h
      split at h
      · cases h
      · rename_i r hr
        obtain ⟨⟨u, h1, _⟩, h2⟩ := checkNumber_sound pz_signs (by decide) hr
        rcases h2 with rfl | ⟨c, t, rfl, hc⟩
        · exact .last hr
        · have : c = ',' := by simpa [pzSpec] using hc
          subst this
          have ht : t ≠ [] := by
            rintro rfl
            apply hb
            rw [h1]
            simp [back0, List.getLastD_eq_getLast?]
          refine .more hr ((ih t.length ?_ t ht ?_ rfl).mp h)
          · rw [h1] at hn; simp at hn; omega
          · rw [h1, back_tail ht] at hb; exact hb
    · intro h
      cases h with
      | last h =>
        split
        · rename_i h'; rw [h] at h'; cases h'
        · rename_i r h'
          rw [h] at h'
          injection h' with h'
          subst h'
          rw [pzLoop.eq_def]
          rfl
      | @more _ t h ht =>
        obtain ⟨⟨u, h1, _⟩, h2⟩ := checkNumber_sound pz_signs (by decide) h
        have hte := scanned_ne_nil pz_scans decimal_nil ht
        have := (ih t.length ?_ t hte ?_ rfl).mpr ht
        · split
          · rename_i h'; rw [h] at h'; cases h'
          · rename_i r h'
            rw [h] at h'
            injection h' with h'
            subst h'
            exact this
        · rw [h1] at hn; simp at hn; omega
        · rw [h1, back_tail hte] at hb; exact hb

theorem checkPZ_iff (s : Text) : checkPZ s = true ↔ ∀ v ∈ values s, Spec.DecimalValue v := by
  constructor
  · intro h
    unfold checkPZ at h
    split at h
    · cases h
    · rename_i hne
      split at h
      · cases h
      · rename_i hl
        split at h
        · cases h
        · rename_i hb
          simp only [beq_iff_eq] at hb
          exact (scanned_iff pz_scans s).mp
            ((pzLoop_iff s (fun e => hne ((isEmpty_iff_nil s).mpr e)) hb).mp (by simpa using hl))
  · intro h
    obtain ⟨hne, hb⟩ := back_of_values decimal_nil h
    unfold checkPZ
    rw [if_neg (mt (isEmpty_iff_nil s).mp hne), (pzLoop_iff s hne hb).mpr ((scanned_iff pz_scans s).mpr h)]
    simp [hb]

/-- One turn of the loop, in terms of `edlTurn`. -/
theorem edlLoop_eq (ext : Char) (s : Text) : edlLoop ext s =
    if s.isEmpty then true
    else match edlTurn ext s with
      | none => false
      | some r => if !r.isEmpty && at0 r != ',' then false else edlLoop ext r.tail := by
  rw [edlLoop.eq_def]
  split
  · rfl
  · unfold edlTurn
    split
    · rename_i h; rw [h]
    · rename_i r h
      rw [h]
      dsimp only
      have key : ∀ q : Text, (match h'' : edlNext ext q with
            | .inl b => b
            | .inr t => edlLoop ext t)
          = match roundMode ext q with
            | none => false
            | some r => if !r.isEmpty && at0 r != ',' then false else edlLoop ext r.tail := by
        intro q
        generalize hx : edlNext ext q = x
        unfold edlNext at hx
        split at hx
        · rename_i hm; subst hx; rw [hm]
        · rename_i p hm
          rw [hm]
          dsimp only
          split at hx
          · rename_i hc; subst hx; rw [if_pos hc]
          · rename_i hc; subst hx; rw [if_neg hc]
      by_cases hE : (at0 r == 'E') = true
      · rw [if_pos hE, if_pos hE]
        split
        · rename_i h'; rw [h']
        · rename_i q h'
          rw [h']
          dsimp only
          split
          · rename_i hq
            rw [(isEmpty_iff_nil q).mp hq]
            simp [roundMode, at0, edlLoop]
          · exact key q
      · rw [if_neg hE, if_neg hE]
        exact key r

theorem edlLoop_iff (ext : Char) (s : Text) (hne : s ≠ []) (hb : back0 s ≠ ',') :
    edlLoop ext s = true ↔ Scanned (edlTurn ext) s := by
  generalize hn : s.length = n
  induction n using Nat.strongRecOn generalizing s with
  | _ n ih =>
    rw [edlLoop_eq, if_neg (mt (isEmpty_iff_nil s).mp hne)]
    constructor
    · intro h
      split at h
      · cases h
      · rename_i r hr
        obtain ⟨u, h1, _⟩ := (edl_scans ext).sound _ _ hr
        split at h
        · cases h
        · rename_i hc
          cases r with
          | nil => exact .last hr
          | cons c t =>
            have : c = ',' := by simpa [at0] using hc
            subst this
            have ht : t ≠ [] := by
              rintro rfl
              apply hb
              rw [h1]
              simp [back0, List.getLastD_eq_getLast?]
            refine .more hr ((ih t.length ?_ t ht ?_ rfl).mp h)
            · rw [h1] at hn; simp at hn; omega
            · rw [h1, back_tail ht] at hb; exact hb
    · intro h
      cases h with
      | last h => rw [h]; simp [edlLoop]
      | @more _ t h ht =>
        obtain ⟨u, h1, _⟩ := (edl_scans ext).sound _ _ h
        have hte := scanned_ne_nil (edl_scans ext) (float_nil ext) ht
        have := (ih t.length ?_ t hte ?_ rfl).mpr ht
        · rw [h]
          simpa [at0] using this
        · rw [h1] at hn; simp at hn; omega
        · rw [h1, back_tail hte] at hb; exact hb

theorem checkEDL_iff (ext : Char) (s : Text) :
    checkEDL ext s = true ↔ ∀ v ∈ values s, Spec.FloatValue ext v := by
  constructor
  · intro h
    unfold checkEDL at h
    split at h
    · cases h
    · rename_i hne
      split at h
      · cases h
      · rename_i hb
        simp only [beq_iff_eq] at hb
        exact (scanned_iff (edl_scans ext) s).mp
          ((edlLoop_iff ext s (fun e => hne ((isEmpty_iff_nil s).mpr e)) hb).mp h)
  · intro h
    obtain ⟨hne, hb⟩ := back_of_values (float_nil ext) h
    unfold checkEDL
    rw [if_neg (mt (isEmpty_iff_nil s).mp hne), if_neg (by simpa using hb)]
    exact (edlLoop_iff ext s hne hb).mpr ((scanned_iff (edl_scans ext) s).mpr h)

/-! ### bit strings -/

theorem commaLoop_value {valid : Char → Bool} (hv : valid ',' = false) : ∀ (v : Text) (last : Bool), ',' ∉ v →
    (commaLoop valid v last = true ↔ (last = true ∨ ∃ c ∈ v, valid c = true ∧ c ≠ ' ')
      ∧ ∀ c ∈ v, c = ' ' ∨ valid c = true)
    ∧ ∀ t, (commaLoop valid (v ++ ',' :: t) last = true ↔ ((last = true ∨ ∃ c ∈ v, valid c = true ∧ c ≠ ' ')
      ∧ ∀ c ∈ v, c = ' ' ∨ valid c = true) ∧ commaLoop valid t false = true)
  | [], last, _ => by
    constructor
    · simp [commaLoop]
    · intro t
      cases last <;> simp [commaLoop]
  | c :: v, last, h => by
    have hc : c ≠ ',' := fun e => h (by simp [e])
    have hr : ',' ∉ v := fun e => h (by simp [e])
    by_cases hb : c = ' '
    · subst hb
      obtain ⟨ih1, ih2⟩ := commaLoop_value hv v last hr
      constructor
      · rw [commaLoop, if_pos (by rfl), ih1]
        simp
      · intro t
        rw [List.cons_append, commaLoop, if_pos (by rfl), ih2]
        simp
    · by_cases hva : valid c = true
      · obtain ⟨ih1, ih2⟩ := commaLoop_value hv v true hr
        constructor
        · rw [commaLoop, if_neg (by simpa using hb), if_neg (by simpa using hc), if_pos hva, ih1]
          simp [hva, hb]
        · intro t
          rw [List.cons_append, commaLoop, if_neg (by simpa using hb), if_neg (by simpa using hc), if_pos hva, ih2]
          simp [hva, hb]
      · constructor
        · rw [commaLoop, if_neg (by simpa using hb), if_neg (by simpa using hc), if_neg hva]
          simp [hva, hb]
        · intro t
          rw [List.cons_append, commaLoop, if_neg (by simpa using hb), if_neg (by simpa using hc), if_neg hva]
          simp [hva, hb]

theorem checkCommaSeparated_iff {valid : Char → Bool} (hv : valid ',' = false) (hb : valid ' ' = false) (s : Text) :
    checkCommaSeparated valid s = true ↔ ∀ v ∈ values s, Spec.BitString (fun c => valid c = true) v := by
  have hne : ∀ c, (valid c = true ∧ c ≠ ' ') ↔ valid c = true := by
    intro c
    constructor
    · exact fun h => h.1
    · intro h
      refine ⟨h, ?_⟩
      rintro rfl
      rw [hb] at h
      cases h
  unfold checkCommaSeparated
  generalize hn : s.length = n
  induction n using Nat.strongRecOn generalizing s with
  | _ n ih =>
    obtain ⟨v, w, h1, h2, h3⟩ := comma_split s
    subst h1
    obtain ⟨c1, c2⟩ := commaLoop_value hv v false h2
    simp only [hne] at c1 c2
    rcases h3 with rfl | ⟨t, rfl⟩
    · rw [List.append_nil, values_noComma _ h2, c1]
      simp [Spec.BitString]
    · have ih' := ih t.length (by simp at hn; omega) t rfl
      rw [values_append _ _ h2, c2, List.forall_mem_cons]
      exact and_congr (by simp [Spec.BitString]) ih'

theorem isHex_iff (c : Char) : isHex c = true ↔ Spec.HexDigit c := by
  simp [isHex, Spec.HexDigit, Digit, or_assoc]

theorem isBinary_iff (c : Char) : isBinary c = true ↔ Spec.BinDigit c := by
  simp [isBinary, Spec.BinDigit]

theorem checkX_iff (s : Text) :
    checkCommaSeparated isHex s = true ↔ ∀ v ∈ values s, Spec.BitString Spec.HexDigit v := by
  rw [checkCommaSeparated_iff (by decide) (by decide)]
  simp only [isHex_iff]

theorem checkB_iff (s : Text) :
    checkCommaSeparated isBinary s = true ↔ ∀ v ∈ values s, Spec.BitString Spec.BinDigit v := by
  rw [checkCommaSeparated_iff (by decide) (by decide)]
  simp only [isBinary_iff]

end Verif.DataDef
