import Verif.DataDef.ParseLemmas

/-
  C89: a data definition is taken apart the way it is written.
-/

namespace Verif.DataDef.Parsing

open Verif.DataDef (Text isDigit)
open Spec

variable {α : Type}

theorem toUpper_of_le {c : Char} (h : c ≤ 'Z') : c.toUpper = c := by
  unfold Char.toUpper
  have h1 : c.val ≤ 90 := h
  have : ¬ (c.val ≥ 97 ∧ c.val ≤ 122) := by
    rintro ⟨h2, -⟩
    have h1' : c.val.toNat ≤ 90 := h1
    have h2' : 97 ≤ c.val.toNat := h2
    omega
  simp [this]

theorem map_toUpper {t : Text} (h : ∀ c ∈ t, c ≤ 'Z') : t.map Char.toUpper = t := by
  induction t with
  | nil => rfl
  | cons c r ih =>
    rw [List.map_cons, toUpper_of_le (h c (by simp)), ih (fun d hd => h d (by simp [hd]))]

theorem numeral_le {t : Text} {v : Int} (h : Numeral t v) : ∀ c ∈ t, c ≤ 'Z' := by
  obtain ⟨ds, -, hd, hcase, -, -⟩ := h
  have hle : ∀ c ∈ ds, c ≤ 'Z' := fun c hc => Char.le_trans (hd c hc).2 (by decide)
  rcases hcase with ⟨rfl, -⟩ | ⟨rfl, -⟩
  · exact hle
  · intro c hc
    rcases List.mem_cons.1 hc with rfl | hc
    · decide
    · exact hle c hc

theorem val_le {v : Val α} (h : Readable v) : ∀ c ∈ v.text, c ≤ 'Z' := by
  obtain ⟨s, h⟩ := h
  cases h with
  | num h => exact numeral_le h
  | expr e => intro c hc; simp [Val.text] at hc; subst hc; decide

theorem head_le {m : Modifier α} (h : GoodMod m) : ∀ c ∈ m.head, c ≤ 'Z' := by
  intro c hc
  rcases List.mem_cons.1 hc with rfl | hc
  · have hl := h.1
    simp only [List.mem_cons, List.not_mem_nil, or_false] at hl
    rcases hl with hl | hl | hl | hl <;> rw [hl] <;> decide
  · split at hc
    · simp at hc; subst hc; decide
    · simp at hc

theorem render_le (n : Option (Nom α)) : ∀ mods : List (Modifier α), (∀ m ∈ mods, GoodMod m) →
    (∀ m ∈ mods, Readable m.value) → ∀ c ∈ (render mods n).1, c ≤ 'Z'
  | [], _, _, c, hc => by
    cases n with
    | none => simp [render] at hc
    | some n => simp [render] at hc; subst hc; decide
  | m :: r, hg, hv, c, hc => by
    have hh := head_le (hg m (by simp))
    rcases render_cons m r n with ⟨e, -, -, -, hr⟩ | hr
    · rw [hr] at hc
      rcases List.mem_append.1 hc with hc | hc
      · exact hh c hc
      · simp at hc; subst hc; decide
    · rw [hr] at hc
      rcases List.mem_append.1 hc with hc | hc
      · rcases List.mem_append.1 hc with hc | hc
        · exact hh c hc
        · exact val_le (hv m (by simp)) c hc
      · exact render_le n r (fun m hm => hg m (by simp [hm])) (fun m hm => hv m (by simp [hm])) c hc

theorem modifiers_good (w : Written α) : ∀ m ∈ w.modifiers, GoodMod m := by
  intro m hm
  simp only [Written.modifiers, List.mem_append, Option.mem_toList, Option.map_eq_some_iff] at hm
  rcases hm with ((⟨v, -, rfl⟩ | ⟨v, -, rfl⟩) | ⟨v, -, rfl⟩) | ⟨v, -, rfl⟩ <;> simp [GoodMod]

theorem modifiers_readable {w : Written α} (h : w.Ok) : ∀ m ∈ w.modifiers, Readable m.value := by
  intro m hm
  simp only [Written.modifiers, List.mem_append, Option.mem_toList, Option.map_eq_some_iff] at hm
  rcases hm with ((⟨v, hv, rfl⟩ | ⟨v, hv, rfl⟩) | ⟨v, hv, rfl⟩) | ⟨v, hv, rfl⟩
  · exact h.program v hv
  · exact h.length v hv
  · exact h.scale v hv
  · exact h.exponent v hv

theorem ext_le {w : Written α} (h : w.Ok) : ∀ c ∈ w.ext.toList, c ≤ 'Z' := by
  intro c hc
  have := h.ext c (by simpa using hc)
  simp only [List.mem_cons, List.not_mem_nil, or_false] at this
  rcases this with rfl | rfl | rfl | rfl | rfl | rfl | rfl | rfl <;> decide

theorem text_le {w : Written α} (h : w.Ok) : ∀ c ∈ w.text, c ≤ 'Z' := by
  intro c hc
  unfold Written.text at hc
  rcases List.mem_append.1 hc with hc | hc
  · cases hd : w.dupl with
    | none => simp [hd] at hc
    | some v => rw [hd] at hc; exact val_le (h.dupl v hd) c (by simpa using hc)
  · rcases List.mem_cons.1 hc with rfl | hc
    · exact h.type.2
    · rcases List.mem_append.1 hc with hc | hc
      · exact ext_le h c hc
      · exact render_le _ _ (modifiers_good w) (modifiers_readable h) c hc

theorem modifiers_sublist (w : Written α) : List.Sublist (w.modifiers.map (·.letter)) ['P', 'L', 'S', 'E'] := by
  unfold Written.modifiers
  cases w.program <;> cases w.length <;> cases w.scale <;> cases w.exponent <;>
    (simp only [Option.map_none, Option.map_some, Option.toList, List.nil_append, List.append_nil, List.cons_append, List.map_cons, List.map_nil]; decide)

theorem modifiers_length (w : Written α) : w.modifiers.length < 5 := by
  unfold Written.modifiers
  cases w.program <;> cases w.length <;> cases w.scale <;> cases w.exponent <;> simp

/-- What is read of an optional part. -/
def Chosen (o : Option (Val α)) (x : Option (Src α)) : Prop := ReadsOpt o x

theorem chosen_exists {o : Option (Val α)} (h : ∀ v, o = some v → Readable v) : ∃ x, ReadsOpt o x := by
  cases o with
  | none => exact ⟨none, trivial⟩
  | some v => obtain ⟨s, hs⟩ := h v rfl; exact ⟨some s, hs⟩

theorem readsOpt_none {x : Option (Src α)} (h : ReadsOpt none x) : x = none := by
  cases x with
  | none => rfl
  | some _ => exact h.elim

theorem readsOpt_some {v : Val α} {x : Option (Src α)} (h : ReadsOpt (some v) x) : ∃ s, x = some s ∧ Reads v s := by
  cases x with
  | none => exact h.elim
  | some s => exact ⟨s, rfl, h⟩

/-- Applying the modifiers of an operand gives exactly its parts. -/
theorem apply_modifiers (w : Written α) (r : Result α) (hr : r.program = none ∧ r.length = none ∧ r.scale = none ∧
    r.exponent = none ∧ r.bit = false) {p l s e : Option (Src α)} (hp : ReadsOpt w.program p)
    (hl : ReadsOpt w.length l) (hs : ReadsOpt w.scale s) (he : ReadsOpt w.exponent e) :
    ∃ vals, List.Forall₂ (fun m v => Reads m.value v) w.modifiers vals ∧
      applyAll r w.modifiers vals = { r with
        program := p, length := l, scale := s, exponent := e, bit := w.bit && w.length.isSome } := by
  obtain ⟨d, ty, x, wp, wl, wb, ws, we, wn⟩ := w
  obtain ⟨rd, rt, rx, rp, rl, rs, re, rb, rn, rg⟩ := r
  obtain ⟨h1, h2, h3, h4, h5⟩ := hr
  simp only at h1 h2 h3 h4 h5 hp hl hs he
  subst h1 h2 h3 h4 h5
  refine ⟨p.toList ++ l.toList ++ s.toList ++ e.toList, ?_⟩
  simp only [Written.modifiers]
  cases wp with
  | none =>
    cases readsOpt_none hp
    cases wl with
    | none =>
      cases readsOpt_none hl
      cases ws with
      | none =>
        cases readsOpt_none hs
        cases we with
        | none => cases readsOpt_none he; simp [applyAll]
        | some v => obtain ⟨x4, rfl, g4⟩ := readsOpt_some he; simp [applyAll, stepResult, assign, g4]
      | some v =>
        obtain ⟨x3, rfl, g3⟩ := readsOpt_some hs
        cases we with
        | none => cases readsOpt_none he; simp [applyAll, stepResult, assign, g3]
        | some v => obtain ⟨x4, rfl, g4⟩ := readsOpt_some he; simp [applyAll, stepResult, assign, g3, g4]
    | some v =>
      obtain ⟨x2, rfl, g2⟩ := readsOpt_some hl
      cases ws with
      | none =>
        cases readsOpt_none hs
        cases we with
        | none => cases readsOpt_none he; simp [applyAll, stepResult, assign, g2]
        | some v => obtain ⟨x4, rfl, g4⟩ := readsOpt_some he; simp [applyAll, stepResult, assign, g2, g4]
      | some v =>
        obtain ⟨x3, rfl, g3⟩ := readsOpt_some hs
        cases we with
        | none => cases readsOpt_none he; simp [applyAll, stepResult, assign, g2, g3]
        | some v => obtain ⟨x4, rfl, g4⟩ := readsOpt_some he; simp [applyAll, stepResult, assign, g2, g3, g4]
  | some v =>
    obtain ⟨x1, rfl, g1⟩ := readsOpt_some hp
    cases wl with
    | none =>
      cases readsOpt_none hl
      cases ws with
      | none =>
        cases readsOpt_none hs
        cases we with
        | none => cases readsOpt_none he; simp [applyAll, stepResult, assign, g1]
        | some v => obtain ⟨x4, rfl, g4⟩ := readsOpt_some he; simp [applyAll, stepResult, assign, g1, g4]
      | some v =>
        obtain ⟨x3, rfl, g3⟩ := readsOpt_some hs
        cases we with
        | none => cases readsOpt_none he; simp [applyAll, stepResult, assign, g1, g3]
        | some v => obtain ⟨x4, rfl, g4⟩ := readsOpt_some he; simp [applyAll, stepResult, assign, g1, g3, g4]
    | some v =>
      obtain ⟨x2, rfl, g2⟩ := readsOpt_some hl
      cases ws with
      | none =>
        cases readsOpt_none hs
        cases we with
        | none => cases readsOpt_none he; simp [applyAll, stepResult, assign, g1, g2]
        | some v => obtain ⟨x4, rfl, g4⟩ := readsOpt_some he; simp [applyAll, stepResult, assign, g1, g2, g4]
      | some v =>
        obtain ⟨x3, rfl, g3⟩ := readsOpt_some hs
        cases we with
        | none => cases readsOpt_none he; simp [applyAll, stepResult, assign, g1, g2, g3]
        | some v => obtain ⟨x4, rfl, g4⟩ := readsOpt_some he; simp [applyAll, stepResult, assign, g1, g2, g3, g4]

/-- Reading the duplication factor. -/
theorem parseDupl_reads {v : Val α} {x : Src α} (h : Reads v x) {s : State α} {rest : Text} {es : List α}
    (hr : s.rest = v.text ++ rest) (he : s.exprs = v.exprs ++ es) (hs : Sep rest) :
    parseDupl s = .ok { s with rest := rest, exprs := es, res := { s.res with dupl := x } } := by
  cases h with
  | @num t v hn =>
    obtain ⟨c, r, rfl, hc⟩ := numeral_head hn
    have hst := stoi_numeral hn hs
    simp only [Val.text] at hr
    simp only [Val.exprs, List.nil_append] at he
    unfold parseDupl
    rw [hr]
    simp only [List.cons_append, List.headD_cons, hc, if_true, parseNumber]
    rw [hr, hst]
    simp [← he]
  | expr e =>
    simp only [Val.text] at hr
    simp only [Val.exprs] at he
    unfold parseDupl
    rw [hr]
    have h1 : isNumberChar '&' = false := by decide
    simp only [List.cons_append, List.nil_append, List.headD_cons, h1, Bool.false_eq_true, if_false, beq_self_eq_true,
      if_true, moveNext, he, bind, Except.bind, hr, List.tail_cons]

theorem letter_plain {c : Char} (h : 'A' ≤ c ∧ c ≤ 'Z') :
    isNumberChar c = false ∧ (c == '&') = false ∧ isDigit c = false := by
  have h1 : 65 ≤ c.val.toNat := h.1
  have hd : isDigit c = false := by
    cases hd : isDigit c with
    | false => rfl
    | true =>
      have h2 : c.val.toNat ≤ 57 := (isDigit_iff.1 hd).2
      omega
  refine ⟨?_, ?_, hd⟩
  · simp only [isNumberChar, hd, Bool.false_or]
    cases hc : (c == '-') with
    | false => rfl
    | true =>
      have : c = '-' := by simpa using hc
      subst this
      exact absurd h1 (by decide)
  · cases hc : (c == '&') with
    | false => rfl
    | true =>
      have : c = '&' := by simpa using hc
      subst this
      exact absurd h1 (by decide)

theorem parseDupl_none {c : Char} {r : Text} (hc : 'A' ≤ c ∧ c ≤ 'Z') {s : State α} (hr : s.rest = c :: r) :
    parseDupl s = .ok { s with res := { s.res with dupl := .num 1 } } := by
  obtain ⟨h1, h2, -⟩ := letter_plain hc
  unfold parseDupl
  rw [hr]
  simp only [List.headD_cons, h1, h2, Bool.false_eq_true, if_false]

theorem render_head {w : Written α} (c : Char) (r : Text) (h : (render w.modifiers w.nominal).1 = c :: r) :
    c = ' ' ∨ c = 'P' ∨ c = 'L' ∨ c = 'S' ∨
      (c = 'E' ∧ w.program = none ∧ w.length = none ∧ w.scale = none ∧ w.exponent ≠ none) := by
  have key : ∀ m ms, w.modifiers = m :: ms → c = m.letter := by
    intro m ms hm
    rw [hm] at h
    rcases render_cons m ms w.nominal with ⟨e, -, -, -, hr⟩ | hr
    · rw [hr] at h; simp [Modifier.head] at h; exact h.1.symm
    · rw [hr] at h; simp [Modifier.head] at h; exact h.1.symm
  cases hp : w.program with
  | some v => exact Or.inr (Or.inl (key _ _ (by simp [Written.modifiers, hp]; exact ⟨rfl, rfl⟩)))
  | none =>
    cases hl : w.length with
    | some v => exact Or.inr (Or.inr (Or.inl (key _ _ (by simp [Written.modifiers, hp, hl]; exact ⟨rfl, rfl⟩))))
    | none =>
      cases hs : w.scale with
      | some v => exact Or.inr (Or.inr (Or.inr (Or.inl (key _ _ (by simp [Written.modifiers, hp, hl, hs]; exact ⟨rfl, rfl⟩)))))
      | none =>
        cases he : w.exponent with
        | some v =>
          exact Or.inr (Or.inr (Or.inr (Or.inr
            ⟨key _ _ (by simp [Written.modifiers, hp, hl, hs, he]; exact ⟨rfl, rfl⟩), rfl, rfl, rfl, by simp⟩)))
        | none =>
          have : w.modifiers = [] := by simp [Written.modifiers, hp, hl, hs, he]
          rw [this] at h
          cases hn : w.nominal with
          | none => rw [hn] at h; simp [render] at h
          | some n => rw [hn] at h; simp [render] at h; exact Or.inl h.1.symm

/-- Reading the extension. -/
theorem parseExtension_reads {w : Written α} (h : w.Ok)
    (hE : w.ext = none → w.program = none → w.length = none → w.scale = none → w.exponent = none) {s : State α}
    (hs : s.rest = w.ext.toList ++ (render w.modifiers w.nominal).1) (hx : s.res.ext = '\x00') :
    parseExtension s = { s with rest := (render w.modifiers w.nominal).1, res := { s.res with ext := w.ext.getD '\x00' } } := by
  cases hw : w.ext with
  | some c =>
    rw [hw] at hs
    simp only [Option.toList, List.cons_append, List.nil_append] at hs
    have hc : isTypeExtension c = true := by simpa [isTypeExtension] using h.ext c hw
    simp only [parseExtension, hs, hc, if_true, Option.getD]
  | none =>
    rw [hw] at hs
    simp only [Option.toList, List.nil_append] at hs
    cases ht : (render w.modifiers w.nominal).1 with
    | nil => simp only [parseExtension, hs, ht, Option.getD, ← hx]; rw [← ht, ← hs]
    | cons c r =>
      have hc : isTypeExtension c = false := by
        rcases render_head c r ht with rfl | rfl | rfl | rfl | ⟨-, h1, h2, h3, h4⟩
        · decide
        · decide
        · decide
        · decide
        · exact absurd (hE hw h1 h2 h3) h4
      simp only [parseExtension, hs, ht, hc, Bool.false_eq_true, if_false, Option.getD, ← hx]
      rw [← ht, ← hs]

/-! ### The theorems -/

/-- Every well-formed operand is read as exactly its parts, without a diagnostic, provided that a type extension or
another modifier stands between the type and an exponent modifier.  What is missing: an exponent modifier directly behind
the type, which is read as a type extension (`C89_witness_exponent`). -/
theorem C89_read_partial (w : Written α) (h : w.Ok)
    (hE : w.ext = none → w.program = none → w.length = none → w.scale = none → w.exponent = none) :
    ∃ r, parse w.text w.exprs w.handed = .ok r ∧ ReadAs w r := by
  obtain ⟨p, hp⟩ := chosen_exists h.program
  obtain ⟨l, hl⟩ := chosen_exists h.length
  obtain ⟨sc, hs⟩ := chosen_exists h.scale
  obtain ⟨e, he⟩ := chosen_exists h.exponent
  -- the part behind the duplication factor
  have tail : ∀ (x : Src α), ∃ r, (do
        let s' ← parseLoop 5 (parseExtension (parseType (State.mk (α := α)
          (w.type :: (w.ext.toList ++ (render w.modifiers w.nominal).1)) (render w.modifiers w.nominal).2.1
          (render w.modifiers w.nominal).2.2 ['P', 'L', 'S', 'E'] { dupl := x })))
        Except.ok s'.res) = (.ok r : Except Crash (Result α)) ∧
        r = { dupl := x, type := w.type, ext := w.ext.getD '\x00', program := p, length := l, scale := sc, exponent := e,
              bit := w.bit && w.length.isSome, nominal := w.nominal, diags := [] } := by
    intro x
    have hx := parseExtension_reads h hE (s := parseType (State.mk (α := α)
          (w.type :: (w.ext.toList ++ (render w.modifiers w.nominal).1)) (render w.modifiers w.nominal).2.1
          (render w.modifiers w.nominal).2.2 ['P', 'L', 'S', 'E'] { dupl := x })) rfl rfl
    rw [hx]
    obtain ⟨vals, hv, ha⟩ := apply_modifiers w { dupl := x, type := w.type, ext := w.ext.getD '\x00' }
      ⟨rfl, rfl, rfl, rfl, rfl⟩ hp hl hs he
    obtain ⟨s', h1, h2⟩ := loop_render (n := w.nominal) w.modifiers vals 5 (State.mk (α := α)
      (render w.modifiers w.nominal).1 (render w.modifiers w.nominal).2.1 (render w.modifiers w.nominal).2.2
      ['P', 'L', 'S', 'E'] { dupl := x, type := w.type, ext := w.ext.getD '\x00' }) hv (modifiers_sublist w)
      (modifiers_good w) rfl rfl rfl (modifiers_length w) rfl
    refine ⟨s'.res, ?_, ?_⟩
    · show (parseLoop 5 _ >>= _) = _
      simp only [parseType, List.headD_cons, List.tail_cons]
      rw [h1]
      rfl
    · rw [h2]
      simp only [ha]
  have sep : Sep (w.type :: (w.ext.toList ++ (render w.modifiers w.nominal).1)) := by
    intro c hc
    simp at hc
    subst hc
    exact (letter_plain h.type).2.2
  cases hd : w.dupl with
  | none =>
    obtain ⟨r, hr, hreq⟩ := tail (.num 1)
    refine ⟨r, ?_, ?_⟩
    rotate_left
    · subst hreq
      exact ⟨Or.inr ⟨hd, rfl⟩, rfl, rfl, hp, hl, rfl, hs, he, rfl, rfl⟩
    · rw [← hr]
      have htext : w.text = w.type :: (w.ext.toList ++ (render w.modifiers w.nominal).1) := by simp [Written.text, hd]
      have hex : w.exprs = (render w.modifiers w.nominal).2.1 := by simp [Written.exprs, hd]
      unfold parse
      rw [map_toUpper (text_le h), parseDupl_none h.type (by exact htext), hex, htext]
      rfl
  | some v =>
    obtain ⟨x, hx⟩ := h.dupl v hd
    obtain ⟨r, hr, hreq⟩ := tail x
    refine ⟨r, ?_, ?_⟩
    rotate_left
    · subst hreq
      exact ⟨Or.inl (by rw [hd]; exact hx), rfl, rfl, hp, hl, rfl, hs, he, rfl, rfl⟩
    · rw [← hr]
      have htext : w.text = v.text ++ (w.type :: (w.ext.toList ++ (render w.modifiers w.nominal).1)) := by
        simp [Written.text, hd]
      have hex : w.exprs = v.exprs ++ (render w.modifiers w.nominal).2.1 := by simp [Written.exprs, hd]
      unfold parse
      rw [map_toUpper (text_le h), parseDupl_reads hx htext hex sep]
      rfl

end Verif.DataDef.Parsing
