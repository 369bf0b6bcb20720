import Verif.DataDef.ParseSound

/-
  C91: what is not written as a data definition is reported.  C89: reading never has undefined behaviour.
-/

namespace Verif.DataDef.Parsing

open Verif.DataDef (Text isDigit)
open Spec

variable {α : Type}

theorem count_upper (f : Text) : (f.map Char.toUpper).count '&' = f.count '&' := by
  induction f with
  | nil => rfl
  | cons c r ih =>
    rw [List.map_cons, List.count_cons, List.count_cons, ih]
    congr 1
    have := toUpper_eq_iff (c := c) (d := '&') (by decide)
    by_cases h : c = '&'
    · rw [if_pos (by simpa using this.2 h), if_pos (by simpa using h)]
    · rw [if_neg (by simpa using fun h' => h (this.1 h')), if_neg (by simpa using h)]

theorem blank_upper (f : Text) : ' ' ∈ f.map Char.toUpper ↔ ' ' ∈ f := by
  rw [List.mem_map]
  constructor
  · rintro ⟨c, hc, h⟩
    rw [← (toUpper_eq_iff (by decide)).1 h]
    exact hc
  · intro h
    exact ⟨' ', h, by decide⟩

theorem Fits.upper {f : Text} {es : List α} {n : Option (Nom α)} (h : Fits f es n) : Fits (f.map Char.toUpper) es n := by
  refine ⟨by rw [count_upper]; exact h.count, by rw [blank_upper]; exact h.blank, ?_, ?_⟩
  · rw [← List.map_dropLast, blank_upper]
    exact h.last
  · intro hc
    rw [List.getLast?_map] at hc
    cases hl : f.getLast? with
    | none => rw [hl] at hc; cases hc
    | some c =>
      rw [hl] at hc
      injection hc with hc
      apply h.amp
      rw [hl, (toUpper_eq_iff (by decide)).1 hc]

/-- A list of modifiers in the right order is that of an operand. -/
theorem split_mods {c : Char} {cs : Text} {mods : List (Modifier α)} (h : List.Sublist (mods.map (·.letter)) (c :: cs)) :
    ∃ (o : Option (Bool × Val α)) (r : List (Modifier α)),
      mods = (o.map fun p => Modifier.mk c p.1 p.2).toList ++ r ∧ List.Sublist (r.map (·.letter)) cs := by
  cases mods with
  | nil => exact ⟨none, [], rfl, List.nil_sublist _⟩
  | cons m r =>
    rw [List.map_cons] at h
    cases h with
    | cons _ h => exact ⟨none, m :: r, rfl, h⟩
    | cons_cons _ h => exact ⟨some (m.bit, m.value), r, by cases m; rfl, h⟩

theorem mods_written {mods : List (Modifier α)} (h : List.Sublist (mods.map (·.letter)) ['P', 'L', 'S', 'E'])
    (hg : ∀ m ∈ mods, GoodMod m) (d : Option (Val α)) (t : Char) (x : Option Char) (n : Option (Nom α)) :
    ∃ p l b s e, (Written.mk d t x p l b s e n).modifiers = mods := by
  obtain ⟨o1, r1, rfl, h1⟩ := split_mods h
  obtain ⟨o2, r2, rfl, h2⟩ := split_mods h1
  obtain ⟨o3, r3, rfl, h3⟩ := split_mods h2
  obtain ⟨o4, r4, rfl, h4⟩ := split_mods h3
  have hr4 : r4 = [] := by
    have := List.sublist_nil.1 h4
    simpa using this
  subst hr4
  refine ⟨o1.map (·.2), o2.map (·.2), (o2.map (·.1)).getD false, o3.map (·.2), o4.map (·.2), ?_⟩
  have hb : ∀ {c : Char} {b : Bool} {v : Val α}, Modifier.mk c b v ∈ ((o1.map fun p => Modifier.mk 'P' p.1 p.2).toList ++
      ((o2.map fun p => Modifier.mk 'L' p.1 p.2).toList ++ ((o3.map fun p => Modifier.mk 'S' p.1 p.2).toList ++
      ((o4.map fun p => Modifier.mk 'E' p.1 p.2).toList ++ [])))) → c ≠ 'L' → b = false := by
    intro c b v hm hc
    cases b with
    | false => rfl
    | true => exact absurd ((hg _ hm).2 rfl) hc
  have e1 : (o1.map fun p => Modifier.mk 'P' p.1 p.2) = (o1.map (·.2)).map fun v => Modifier.mk (α := α) 'P' false v := by
    cases o1 with
    | none => rfl
    | some p => simp [hb (c := 'P') (b := p.1) (v := p.2) (by simp) (by decide)]
  have e3 : (o3.map fun p => Modifier.mk 'S' p.1 p.2) = (o3.map (·.2)).map fun v => Modifier.mk (α := α) 'S' false v := by
    cases o3 with
    | none => rfl
    | some p => simp [hb (c := 'S') (b := p.1) (v := p.2) (by simp) (by decide)]
  have e4 : (o4.map fun p => Modifier.mk 'E' p.1 p.2) = (o4.map (·.2)).map fun v => Modifier.mk (α := α) 'E' false v := by
    cases o4 with
    | none => rfl
    | some p => simp [hb (c := 'E') (b := p.1) (v := p.2) (by simp) (by decide)]
  rw [e1, e3, e4]
  unfold Written.modifiers
  cases o2 <;> simp

/-- A duplication factor read without a diagnostic. -/
theorem parseDupl_sound {s s' : State α} (h : parseDupl s = .ok s') (hd : s'.res.diags = []) (hs : s.res = {}) :
    (∃ v x rest es, Reads v x ∧ s.rest = v.text ++ rest ∧ s.exprs = v.exprs ++ es ∧
      s' = { s with rest := rest, exprs := es, res := { dupl := x } }) ∨ (s' = s) := by
  unfold parseDupl at h
  by_cases h1 : isNumberChar (s.rest.headD '\x00') = true
  · simp only [h1, if_true] at h
    injection h with h
    have hd' : (parseNumber s).2.res.diags = [] := by rw [← h] at hd; exact hd
    obtain ⟨v, t, rest, hp, ht, hn⟩ := parseNumber_diags hd'
    left
    refine ⟨.num t, .num v, rest, s.exprs, .num hn, ht, rfl, ?_⟩
    rw [← h, hp]
    simp [hs]
  · simp only [h1, Bool.false_eq_true, if_false] at h
    by_cases h2 : (s.rest.headD '\x00' == '&') = true
    · simp only [h2, if_true] at h
      obtain ⟨r, hr⟩ : ∃ r, s.rest = '&' :: r := by
        cases hr : s.rest with
        | nil => rw [hr] at h2; simp at h2
        | cons c r => rw [hr] at h2; simp at h2; exact ⟨r, by rw [h2]⟩
      unfold moveNext at h
      cases he : s.exprs with
      | nil => rw [he] at h; cases h
      | cons e es =>
        rw [he] at h
        simp only [bind, Except.bind] at h
        injection h with h
        left
        refine ⟨.expr e, .expr e, r, es, .expr e, hr, rfl, ?_⟩
        rw [← h]
        simp [hr, hs]
    · simp only [h2, Bool.false_eq_true, if_false] at h
      injection h with h
      right
      rw [← h]
      obtain ⟨a, b, c, d, e⟩ := s
      simp only at hs
      subst hs
      rfl

theorem noext {s : State α} (hx : s.res.ext = '\x00') :
    s = { s with rest := s.rest, res := { s.res with ext := (none : Option Char).getD '\x00' } } := by
  obtain ⟨a, b, c, d, r⟩ := s
  obtain ⟨r1, r2, r3, r4, r5, r6, r7, r8, r9, r10⟩ := r
  simp only at hx
  subst hx
  rfl

theorem numeral_det {t : Text} {v w : Int} (h : Numeral t v) (h' : Numeral t w) : v = w := by
  have h1 := stoi_numeral (rest := []) h (by intro c hc; simp at hc)
  have h2 := stoi_numeral (rest := []) h' (by intro c hc; simp at hc)
  rw [h1] at h2
  injection h2

theorem reads_det {v : Val α} {x y : Src α} (h : Reads v x) (h' : Reads v y) : x = y := by
  cases h with
  | num hn => cases h' with | num hn' => rw [numeral_det hn hn']
  | expr e => cases h' with | expr e => rfl

theorem assign_type (r : Result α) (c : Char) (v : Option (Src α)) : (assign r c v).type = r.type := by
  unfold assign
  split <;> rfl

theorem modifierValue_type {s s' : State α} {o : Option (Src α)} (h : modifierValue s = .ok (o, s')) :
    s'.res.type = s.res.type := by
  unfold modifierValue at h
  simp only at h
  split at h
  · injection h with h
    injection h with h1 h2
    rw [← h2]
    unfold parseNumber
    split <;> rfl
  · split at h
    · unfold moveNext at h
      cases he : s.exprs with
      | nil => rw [he] at h; cases h
      | cons e es =>
        rw [he] at h
        injection h with h
        injection h with h1 h2
        rw [← h2]
    · split at h
      · split at h
        · cases h
        · injection h with h
          injection h with h1 h2
          rw [← h2]
        · injection h with h
          injection h with h1 h2
          rw [← h2]
          rfl
      · injection h with h
        injection h with h1 h2
        rw [← h2]

theorem finishModifier_type {c : Char} {s s' : State α} (h : finishModifier c s = .ok s') : s'.res.type = s.res.type := by
  unfold finishModifier at h
  cases hm : modifierValue s with
  | error e => rw [hm] at h; cases h
  | ok p =>
    obtain ⟨o, s1⟩ := p
    rw [hm] at h
    simp only [bind, Except.bind] at h
    injection h with h
    rw [← h, ← modifierValue_type hm]
    simp only [assign_type]
    split <;> rfl

theorem parseModifier_type {c : Char} {s s' : State α} (h : parseModifier c s = .ok s') : s'.res.type = s.res.type := by
  unfold parseModifier at h
  split at h
  · injection h with h
    rw [← h]; rfl
  · by_cases hc : (c == 'L') = true
    · simp only [hc, if_true] at h
      split at h
      · injection h with h; rw [← h]; rfl
      · have := finishModifier_type h; exact this
    · simp only [hc, Bool.false_eq_true, if_false] at h
      split at h
      · injection h with h; rw [← h]; rfl
      · have := finishModifier_type h; exact this
  · exact finishModifier_type h

theorem parseLoop_type : ∀ (k : Nat) {s s' : State α}, parseLoop k s = .ok s' → s'.res.type = s.res.type
  | 0, s, s', h => by injection h with h; rw [h]
  | k + 1, s, s', h => by
    unfold parseLoop at h
    split at h
    · injection h with h; rw [h]
    · rename_i c r hr
      split at h
      · cases hm : parseModifier c { s with rest := r } with
        | error e => rw [hm] at h; cases h
        | ok s1 =>
          rw [hm] at h
          have h1 := parseLoop_type k h
          have h2 := parseModifier_type hm
          exact h1.trans h2
      · split at h
        · injection h with h; rw [← h]
        · have := parseLoop_type k h; exact this

/-- The type extension. -/
theorem parseExtension_sound (s : State α) (hx : s.res.ext = '\x00') : ∃ x : Option Char,
    (∀ c, x = some c → c ∈ ['A', 'E', 'U', 'H', 'B', 'D', 'Q', 'Y']) ∧
    s.rest = x.toList ++ (parseExtension s).rest ∧
    parseExtension s = { s with rest := (parseExtension s).rest, res := { s.res with ext := x.getD '\x00' } } := by
  unfold parseExtension
  split
  · rename_i c r hr
    by_cases hc : isTypeExtension c = true
    · rw [if_pos hc]
      refine ⟨some c, ?_, by rw [hr]; rfl, rfl⟩
      intro d hd
      injection hd with hd
      subst hd
      simpa [isTypeExtension] using hc
    · rw [if_neg hc]
      exact ⟨none, by simp, by simp, noext hx⟩
  · exact ⟨none, by simp, by simp, noext hx⟩

/-- The rest of a reading without a diagnostic, behind the duplication factor. -/
theorem tail_sound {f : Text} {es : List α} {n : Option (Nom α)} {x : Src α} {s' : State α} {t : Char}
    (hf : Fits (t :: f) es n) (ht : 'A' ≤ t ∧ t ≤ 'Z')
    (h : parseLoop 5 (parseExtension (parseType (State.mk (t :: f) es n ['P', 'L', 'S', 'E'] { dupl := x }))) = .ok s')
    (hd : s'.res.diags = []) (d : Option (Val α)) (hdv : ∀ v, d = some v → Reads v x) (hdn : d = none → x = .num 1) :
    (∃ w : Written α, w.Ok ∧ w.dupl = d ∧ w.type = t ∧ f = w.ext.toList ++ (render w.modifiers w.nominal).1 ∧
      es = (render w.modifiers w.nominal).2.1 ∧ n = (render w.modifiers w.nominal).2.2 ∧ ReadAs w s'.res) ∨
    (∃ e rest, f = e ++ rest ∧ e.length ≤ 1 ∧ Bare rest) := by
  obtain ⟨xo, hxm, hrest, hst⟩ := parseExtension_sound (parseType (State.mk (t :: f) es n ['P', 'L', 'S', 'E'] { dupl := x })) rfl
  generalize hg : (parseExtension (parseType (State.mk (t :: f) es n ['P', 'L', 'S', 'E'] { dupl := x }))).rest = rest at *
  rw [hst] at h
  have hrest : f = xo.toList ++ rest := hrest
  have hf1 : Fits f es n := by
    refine hf.tail ?_ ?_
    · rintro rfl; exact absurd ht.1 (by decide)
    · rintro rfl; exact absurd ht.1 (by decide)
  have hf2 : Fits rest es n := by
    rw [hrest] at hf1
    refine hf1.drop ?_
    intro c hc
    have := hxm c (by simpa using hc)
    simp only [List.mem_cons, List.not_mem_nil, or_false] at this
    rcases this with rfl | rfl | rfl | rfl | rfl | rfl | rfl | rfl <;> decide
  rcases loop_sound 5 h hd hf2 (by show 4 < 5; decide) rfl with ⟨nn, mods, vals, g1, g2, g3, g4, g5, g6, g7⟩ | hb
  · left
    obtain ⟨p, l, b, sc, e, hw⟩ := mods_written g2 g3 d t xo nn
    refine ⟨Written.mk d t xo p l b sc e nn, ?_, rfl, rfl, ?_, ?_, ?_, ?_⟩
    · have hreadable : ∀ m ∈ mods, Readable m.value := by
        intro m hm
        clear h hw g2 g3 g4 g5 g6 g7
        induction g1 with
        | nil => simp at hm
        | cons h _ ih =>
          rcases List.mem_cons.1 hm with rfl | hm
          · exact ⟨_, h⟩
          · exact ih hm
      rw [← hw] at hreadable
      refine ⟨ht, hxm, fun v hv => ⟨x, hdv v hv⟩, ?_, ?_, ?_, ?_⟩
      · rintro v hv
        have hv : p = some v := hv
        exact hreadable ⟨'P', false, v⟩ (by simp [Written.modifiers, hv])
      · rintro v hv
        have hv : l = some v := hv
        exact hreadable ⟨'L', b, v⟩ (by simp [Written.modifiers, hv])
      · rintro v hv
        have hv : sc = some v := hv
        exact hreadable ⟨'S', false, v⟩ (by simp [Written.modifiers, hv])
      · rintro v hv
        have hv : e = some v := hv
        exact hreadable ⟨'E', false, v⟩ (by simp [Written.modifiers, hv])
    · rw [hw, hrest]
      exact congrArg _ g4
    · rw [hw]; exact g5
    · rw [hw]; exact g6
    · -- the values read are those written
      have hreads : ∀ (wp wl ws we : Option (Val α)) (b : Bool) (vals : List (Src α)),
          List.Forall₂ (fun (m : Modifier α) v => Reads m.value v) (Written.mk d t xo wp wl b ws we nn).modifiers vals →
          ∃ p l s e, ReadsOpt wp p ∧ ReadsOpt wl l ∧ ReadsOpt ws s ∧ ReadsOpt we e ∧
            vals = p.toList ++ l.toList ++ s.toList ++ e.toList := by
        intro wp wl ws we b vals hv
        have key : ∀ (o : Option (Val α)) (c : Char) (b : Bool) (r : List (Modifier α)) (vals : List (Src α)),
            List.Forall₂ (fun (m : Modifier α) v => Reads m.value v) ((o.map fun v => Modifier.mk c b v).toList ++ r) vals →
            ∃ p vs, ReadsOpt o p ∧ vals = p.toList ++ vs ∧ List.Forall₂ (fun (m : Modifier α) v => Reads m.value v) r vs := by
          intro o c b r vals h
          cases o with
          | none => exact ⟨none, vals, trivial, rfl, h⟩
          | some v =>
            simp only [Option.map_some, Option.toList, List.cons_append, List.nil_append] at h
            cases h with
            | @cons _ y _ ys h1 h2 => exact ⟨some y, ys, h1, rfl, h2⟩
        simp only [Written.modifiers, List.append_assoc] at hv
        obtain ⟨p, v1, hp, e1, k1⟩ := key _ _ _ _ _ hv
        obtain ⟨l, v2, hl, e2, k2⟩ := key _ _ _ _ _ k1
        obtain ⟨s, v3, hs, e3, k3⟩ := key _ _ _ _ _ k2
        obtain ⟨e, v4, he, e4, k4⟩ := key we 'E' false [] v3 (by simpa using k3)
        cases k4
        exact ⟨p, l, s, e, hp, hl, hs, he, by simp [e1, e2, e3, e4]⟩
      rw [← hw] at g1
      obtain ⟨p', l', s'', e', hp, hl, hs, he, hvals⟩ := hreads p l sc e b vals g1
      obtain ⟨vals2, gg1, gg2⟩ := apply_modifiers (Written.mk d t xo p l b sc e nn)
        { dupl := x, type := t, ext := xo.getD '\x00' } ⟨rfl, rfl, rfl, rfl, rfl⟩ hp hl hs he
      have hdet : ∀ (ms : List (Modifier α)) (a b : List (Src α)), List.Forall₂ (fun (m : Modifier α) v => Reads m.value v) ms a →
          List.Forall₂ (fun (m : Modifier α) v => Reads m.value v) ms b → a = b := by
        intro ms a b ha
        induction ha generalizing b with
        | nil => intro hb; cases hb; rfl
        | @cons m v ms vs h1 _ ih =>
          intro hb
          cases hb with
          | @cons _ v2 _ vs2 h3 h4 =>
            rw [ih _ h4]
            congr 1
            exact reads_det h1 h3
      have := hdet _ _ _ g1 gg1
      subst this
      have g7 : s'.res = { applyAll { dupl := x, type := t, ext := xo.getD '\x00' } mods vals with nominal := nn } := g7
      rw [← hw, gg2] at g7
      rw [g7]
      refine ⟨?_, rfl, rfl, hp, hl, rfl, hs, he, rfl, rfl⟩
      cases d with
      | none => exact Or.inr ⟨rfl, hdn rfl⟩
      | some v => exact Or.inl (hdv v rfl)
  · right
    refine ⟨xo.toList, rest, hrest, by cases xo <;> simp, hb⟩

/-! ### The theorems -/

/-- Whatever the operand, reading it has no undefined behaviour: the grammar hands over an expression for every `&` and a
nominal value if there is a blank. -/
theorem C89_total (format : Text) (exprs : List α) (nominal : Option (Nom α)) (hc : format.count '&' ≤ exprs.length)
    (hb : ' ' ∈ format → nominal.isSome) : ∃ r, parse format exprs nominal = .ok r := by
  have hs : (State.mk (format.map Char.toUpper) exprs nominal ['P', 'L', 'S', 'E'] {}).Safe :=
    ⟨by rw [count_upper]; exact hc, fun h => hb ((blank_upper _).1 h)⟩
  obtain ⟨s1, h1, h2⟩ := parseDupl_safe hs
  have h3 : (parseType s1).Safe := h2.sub (List.tail_sublist _) rfl rfl
  have h4 : (parseExtension (parseType s1)).Safe := by
    unfold parseExtension
    split
    · rename_i c r hr
      split
      · exact h3.sub (by rw [hr]; simp) rfl rfl
      · exact h3
    · exact h3
  obtain ⟨s2, h5⟩ := parseLoop_safe 5 h4
  exact ⟨s2.res, by simp only [parse, h1, h5, bind, Except.bind]⟩

/-- Small letters are read like capital ones. -/
theorem C89_case (format format' : Text) (exprs : List α) (nominal : Option (Nom α))
    (h : format.map Char.toUpper = format'.map Char.toUpper) :
    parse format exprs nominal = parse format' exprs nominal := by
  unfold parse
  rw [h]

/-- An operand `DC FE4'1'`: an exponent modifier directly behind the type. -/
def exponentOperand : Written Unit :=
  { dupl := none, type := 'F', ext := none, program := none, length := none, bit := false, scale := none,
    exponent := some (.num ['4']), nominal := some (.str ['1']) }

theorem exponentOperand_ok : exponentOperand.Ok := by
  refine ⟨by decide, (fun _ h => by cases h), (fun _ h => by cases h), (fun _ h => by cases h), (fun _ h => by cases h),
    (fun _ h => by cases h), ?_⟩
  intro v h
  injection h with h
  subst h
  exact ⟨.num 4, .num ⟨['4'], by decide, by decide, Or.inl ⟨rfl, by decide⟩, by decide, by decide⟩⟩

/-- C89 does not hold of every well-formed operand: in `FE4'1'` the exponent modifier is taken for a type extension, its
value is reported (D006) and lost. -/
theorem C89_witness_exponent : exponentOperand.Ok ∧
    ¬ ∃ r, parse exponentOperand.text exponentOperand.exprs exponentOperand.handed = .ok r ∧ ReadAs exponentOperand r := by
  refine ⟨exponentOperand_ok, ?_⟩
  rintro ⟨r, h, hr⟩
  have : parse exponentOperand.text exponentOperand.exprs exponentOperand.handed =
      .ok { type := 'F', ext := 'E', nominal := some (.str ['1']), diags := [6] } := by decide +kernel
  rw [this] at h
  injection h with h
  have := hr.diags
  rw [← h] at this
  cases this

/-- What is read without a diagnostic is a well-formed operand, and its parts are those that are written — unless a
modifier without a value stands before another modifier.  (The type is assumed to be a letter; any other is refused later
as unknown.)  What is missing: the modifier without a value, which is not reported (`C91_witness_bare`). -/
theorem C91_reported_partial (format : Text) (exprs : List α) (nominal : Option (Nom α)) (hf : Fits format exprs nominal)
    (r : Result α) (h : parse format exprs nominal = .ok r) (hd : r.diags = []) (ht : 'A' ≤ r.type ∧ r.type ≤ 'Z') :
    (∃ w : Written α, w.Ok ∧ format.map Char.toUpper = w.text ∧ exprs = w.exprs ∧ nominal = w.handed ∧ ReadAs w r) ∨
    (∃ d t e rest, format.map Char.toUpper = d ++ t :: (e ++ rest) ∧ (d = [] ∨ d = ['&'] ∨ ∃ v, Numeral d v) ∧
      e.length ≤ 1 ∧ Bare rest) := by
  have hf := hf.upper
  unfold parse at h
  cases h1 : parseDupl { rest := format.map Char.toUpper, exprs := exprs, nominal := nominal } with
  | error e => rw [h1] at h; cases h
  | ok s1 =>
    rw [h1] at h
    have h : (parseLoop 5 (parseExtension (parseType s1)) >>= fun s => Except.ok s.res) = .ok r := h
    cases h2 : parseLoop 5 (parseExtension (parseType s1)) with
    | error e => rw [h2] at h; cases h
    | ok s2 =>
      rw [h2] at h
      have h : Except.ok s2.res = .ok r := h
      injection h with h
      subst h
      have hx1 : (parseExtension (parseType s1)).res.diags = s1.res.diags := by
        unfold parseExtension
        split
        · split <;> rfl
        · rfl
      have hd1 : s1.res.diags = [] := by rw [← hx1]; exact parseLoop_diags 5 h2 hd
      -- the type is the first letter behind the duplication factor
      have hty : ∀ (rest : Text) (es : List α) (x : Src α) (s2 : State α), Fits rest es nominal →
          parseLoop 5 (parseExtension (parseType (State.mk rest es nominal ['P', 'L', 'S', 'E'] { dupl := x }))) = .ok s2 →
          'A' ≤ s2.res.type ∧ s2.res.type ≤ 'Z' → ∃ f, rest = s2.res.type :: f := by
        intro rest es x s2 hfit hl ht2
        have hkeep : s2.res.type = rest.headD '\x00' := by
          have := parseLoop_type 5 hl
          rw [this]
          unfold parseExtension
          split
          · split <;> rfl
          · rfl
        cases rest with
        | nil => rw [hkeep] at ht2; exact absurd ht2.1 (by decide)
        | cons c f => exact ⟨f, by rw [hkeep]; rfl⟩
      rcases parseDupl_sound h1 hd1 rfl with ⟨v, x, rest, es, hv, hr, he, rfl⟩ | rfl
      · have hr : format.map Char.toUpper = v.text ++ rest := hr
        have he : exprs = v.exprs ++ es := he
        have hfit : Fits rest es nominal := by
          rw [hr, he] at hf
          cases hv with
          | num hn => exact hf.drop (numeral_plain hn)
          | expr e =>
            obtain ⟨e2, es2, k1, k2, -⟩ := Fits.amp_tail hf
            injection k1 with k3 k4
            subst k4
            exact k2
        obtain ⟨f, hrest⟩ := hty rest es x s2 hfit h2 ht
        subst hrest
        rcases tail_sound hfit ht h2 hd (some v) (by intro v' h'; injection h' with h'; subst h'; exact hv)
          (by intro h'; cases h') with ⟨w, w1, w2, w3, w4, w5, w6, w7⟩ | ⟨e, q, k1, k2, k3⟩
        · left
          refine ⟨w, w1, ?_, ?_, w6, w7⟩
          · rw [hr, Written.text, w2, w3, ← w4]; rfl
          · rw [he, Written.exprs, w2, ← w5]; rfl
        · right
          refine ⟨v.text, s2.res.type, e, q, by rw [hr, ← k1], ?_, k2, k3⟩
          cases hv with
          | num hn => exact Or.inr (Or.inr ⟨_, hn⟩)
          | expr e => exact Or.inr (Or.inl rfl)
      · obtain ⟨f, hrest⟩ := hty (format.map Char.toUpper) exprs (.num 1) s2 hf h2 ht
        rw [hrest] at hf
        have h2 : parseLoop 5 (parseExtension (parseType (State.mk (format.map Char.toUpper) exprs nominal
          ['P', 'L', 'S', 'E'] { dupl := .num 1 }))) = .ok s2 := h2
        rw [hrest] at h2
        rcases tail_sound hf ht h2 hd none (by intro v h'; cases h') (fun _ => rfl) with
          ⟨w, w1, w2, w3, w4, w5, w6, w7⟩ | ⟨e, q, k1, k2, k3⟩
        · left
          refine ⟨w, w1, ?_, ?_, w6, w7⟩
          · rw [hrest, Written.text, w2, w3, ← w4]; rfl
          · rw [Written.exprs, w2, ← w5]; rfl
        · right
          exact ⟨[], s2.res.type, e, q, by rw [hrest, ← k1]; rfl, Or.inl rfl, k2, k3⟩

/-- `DC FLS4'1'`, a length modifier without a value, is read without a diagnostic, as if the modifier were not there. -/
theorem C91_witness_bare : Fits (α := Unit) "FLS4 ".toList [] (some (.str ['1'])) ∧
    parse (α := Unit) "FLS4 ".toList [] (some (.str ['1'])) =
      .ok { type := 'F', scale := some (.num 4), nominal := some (.str ['1']) } :=
  ⟨⟨by decide, by decide, by decide, by decide⟩, by decide +kernel⟩

/-! ### Examples -/

/-- `DS 3FPL.5S(e)E-4'1'`, `DS 0AL(5)`, `DS (2)CL8`. -/
example : parse (α := Nat) "3fdL.5S&E-4 ".toList [7] (some (.str ['1'])) =
    .ok { dupl := .num 3, type := 'F', ext := 'D', length := some (.num 5), bit := true, scale := some (.expr 7),
          exponent := some (.num (-4)), nominal := some (.str ['1']) } := by decide +kernel

example : parse (α := Nat) "0AL ".toList [] (some (.exprs [.inl 5])) =
    .ok { dupl := .num 0, type := 'A', length := some (.expr 5) } := by decide +kernel

example : parse (α := Nat) "&CL8".toList [2] none =
    .ok { dupl := .expr 2, type := 'C', length := some (.num 8) } := by decide +kernel

/-- An expression that is skipped with other invalid characters goes to the next modifier, whose own is never used. -/
example : parse (α := Nat) "F&L& ".toList [3, 5] (some (.str ['1'])) =
    .ok { type := 'F', length := some (.expr 3), nominal := some (.str ['1']), diags := [6] } := by decide +kernel

/-- The hypotheses of `C89_read_partial` are met by an operand with all its parts. -/
example : ∃ w : Written Nat, w.Ok ∧ (w.ext = none → w.program = none → w.length = none → w.scale = none → w.exponent = none) ∧
    w.text = "12FDP&L.3S-1E2 ".toList := by
  have n : ∀ (t : Text) (v : Int), Numeral t v → Readable (α := Nat) (.num t) := fun t v h => ⟨_, .num h⟩
  refine ⟨{ dupl := some (.num ['1', '2']), type := 'F', ext := some 'D', program := some (.expr 9),
            length := some (.num ['3']), bit := true, scale := some (.num ['-', '1']), exponent := some (.num ['2']),
            nominal := some (.str ['1']) }, ⟨by decide, ?_, ?_, ?_, ?_, ?_, ?_⟩, (by intro h; cases h), by decide⟩
  · intro c h; injection h with h; subst h; decide
  · intro v h; injection h with h; subst h
    exact n _ 12 ⟨['1', '2'], by decide, by decide, Or.inl ⟨rfl, by decide⟩, by decide, by decide⟩
  · intro v h; injection h with h; subst h; exact ⟨_, .expr 9⟩
  · intro v h; injection h with h; subst h
    exact n _ 3 ⟨['3'], by decide, by decide, Or.inl ⟨rfl, by decide⟩, by decide, by decide⟩
  · intro v h; injection h with h; subst h
    exact n _ (-1) ⟨['1'], by decide, by decide, Or.inr ⟨rfl, by decide⟩, by decide, by decide⟩
  · intro v h; injection h with h; subst h
    exact n _ 2 ⟨['2'], by decide, by decide, Or.inl ⟨rfl, by decide⟩, by decide, by decide⟩

/-- The hypotheses of `C91_reported_partial` are met by the operand of the second example. -/
example : Fits (α := Nat) "0AL ".toList [] (some (.exprs [.inl 5])) := ⟨by decide, by decide, by decide, by decide⟩

end Verif.DataDef.Parsing
