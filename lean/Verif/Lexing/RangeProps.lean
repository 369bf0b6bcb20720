import Verif.Lexing.Range
/-!
C73 (splitting of highlighted ranges), C74 (union of ranges), C75 (positions in re-parsed macro operands).
-/
namespace Verif.Lexing

/-! ### C74 -/

/-- Specification: the order of positions in a text. -/
def Pos.le (p q : Pos) : Prop := p.line < q.line ∨ (p.line = q.line ∧ p.col ≤ q.col)

/-- Specification: `r` contains `s`. -/
def Rng.contains (r s : Rng) : Prop := r.start.le s.start ∧ s.stop.le r.stop

/-- **C74.** The union contains both ranges, any range containing both contains it, and the order does not matter. -/
theorem C74_union (a b : Rng) :
    (unionRange a b).contains a ∧ (unionRange a b).contains b ∧
    (∀ r : Rng, r.contains a → r.contains b → r.contains (unionRange a b)) ∧ unionRange a b = unionRange b a := by
  obtain ⟨⟨al, ac⟩, ⟨al', ac'⟩⟩ := a
  obtain ⟨⟨bl, bc⟩, ⟨bl', bc'⟩⟩ := b
  rcases Nat.lt_trichotomy al bl with h | h | h <;> rcases Nat.lt_trichotomy al' bl' with h' | h' | h' <;>
    simp only [unionRange, Rng.contains, Pos.le, Rng.mk.injEq, h, h', if_true, Nat.ne_of_lt, Nat.ne_of_gt, if_false] <;> grind

example : unionRange ⟨⟨1, 20⟩, ⟨1, 30⟩⟩ ⟨⟨1, 5⟩, ⟨3, 2⟩⟩ = ⟨⟨1, 5⟩, ⟨3, 2⟩⟩ := by decide

/-! ### C73 -/

/-- Specification: the character at line `l`, column `c` belongs to the highlighted range, taking into account that on
continued lines only the columns from `continueCol` to `continuationCol - 1` hold statement text. -/
def Highlighted (ci : ContInfo) (r : Rng) (l c : Nat) : Prop :=
  r.start.line ≤ l ∧ l ≤ r.stop.line ∧
  (if l = r.start.line then r.start.col ≤ c else ci.continueCol ≤ c) ∧
  (if l = r.stop.line then c < r.stop.col else c < ci.continuationCol)

/-- The character at line `l`, column `c` lies in a token that does not span lines. -/
def InTok (t : HlTok) (l c : Nat) : Prop :=
  t.range.start.line = l ∧ t.range.stop.line = l ∧ t.range.start.col ≤ c ∧ c < t.range.stop.col

theorem splitHl_line (ci : ContInfo) (t : HlTok) (h : t.range.start.line < t.range.stop.line) : splitHl ci t =
    { t with range := ⟨t.range.start, ⟨t.range.start.line, ci.continuationCol⟩⟩ } ::
      splitHl ci { t with range := ⟨⟨t.range.start.line + 1, ci.continueCol⟩, t.range.stop⟩ } := by
  rw [splitHl, if_pos h]
theorem splitHl_one (ci : ContInfo) (t : HlTok) (h : ¬ t.range.start.line < t.range.stop.line) : splitHl ci t =
    if t.range.start ≠ t.range.stop then [t] else [] := by
  rw [splitHl, if_neg h]

theorem split_ind (ci : ContInfo) (P : HlTok → Prop)
    (one : ∀ t, ¬ t.range.start.line < t.range.stop.line → P t)
    (more : ∀ t, t.range.start.line < t.range.stop.line →
      P { t with range := ⟨⟨t.range.start.line + 1, ci.continueCol⟩, t.range.stop⟩ } → P t) (t : HlTok) : P t := by
  induction hn : t.range.stop.line - t.range.start.line using Nat.strongRecOn generalizing t with
  | _ n ih =>
    by_cases h : t.range.start.line < t.range.stop.line
    · exact more t h (ih _ (by dsimp only; omega) _ rfl)
    · exact one t h

/-- **C73 (coverage).** Exactly the characters of the highlighted range are covered by the tokens it is split into, each
token lies on one line and carries the scope of the range. -/
theorem C73_coverage (ci : ContInfo) (t : HlTok) (h : t.range.start.line ≤ t.range.stop.line) :
    (∀ x ∈ splitHl ci t, x.range.start.line = x.range.stop.line ∧ x.scope = t.scope) ∧
    (∀ l c, (∃ x ∈ splitHl ci t, InTok x l c) ↔ Highlighted ci t.range l c) := by
  induction t using split_ind ci with
  | one t hl =>
    have e : t.range.start.line = t.range.stop.line := by omega
    rw [splitHl_one _ _ hl]
    split <;> rename_i hs
    · refine ⟨by simp [e], fun l c => ?_⟩
      simp only [List.mem_singleton, exists_eq_left, InTok, Highlighted]
      split <;> split <;> omega
    · refine ⟨by simp, fun l c => ?_⟩
      have hs : t.range.start = t.range.stop := Decidable.not_not.mp hs
      simp only [List.not_mem_nil, false_and, exists_false, Highlighted, hs, false_iff]
      split <;> omega
  | more t hl ih =>
    rw [splitHl_line _ _ hl]
    obtain ⟨i1, i2⟩ := ih (by simp only []; omega)
    refine ⟨?_, fun l c => ?_⟩
    · intro x hx
      rcases List.mem_cons.mp hx with rfl | hx
      · exact ⟨rfl, rfl⟩
      · exact i1 x hx
    · have := i2 l c
      have e : ∀ (a : HlTok) (as : List HlTok), (∃ x, x ∈ a :: as ∧ InTok x l c) ↔ InTok a l c ∨ ∃ x, x ∈ as ∧ InTok x l c := by
        intro a as; simp
      rw [e, this]
      simp only [Highlighted, InTok]
      (repeat' split) <;> omega

/-- **C73 (order, one per line).** There is one token for each line the range touches, in the order of the lines, except
that nothing is emitted for the last line if the range ends where its text would begin. -/
theorem C73_lines (ci : ContInfo) (t : HlTok) (h : t.range.start.line ≤ t.range.stop.line) :
    (splitHl ci t).map (·.range.start.line) =
      (List.range (t.range.stop.line - t.range.start.line +
        (if t.range.stop = ⟨t.range.stop.line, if t.range.start.line = t.range.stop.line then t.range.start.col else ci.continueCol⟩
          then 0 else 1))).map (t.range.start.line + ·) := by
  induction t using split_ind ci with
  | one t hl =>
    have e : t.range.start.line = t.range.stop.line := by omega
    obtain ⟨⟨⟨sl, sc⟩, ⟨el, ec⟩⟩, k⟩ := t
    simp only at e; subst e
    rw [splitHl_one _ _ hl]
    by_cases hc : ec = sc
    · subst hc; simp
    · simp [hc, Ne.symm hc]
  | more t hl ih =>
    obtain ⟨⟨⟨sl, sc⟩, ⟨el, ec⟩⟩, k⟩ := t
    simp only at hl h ih
    rw [splitHl_line _ _ hl, List.map_cons, ih (by omega)]
    simp only [show ¬ sl = el by omega, if_false]
    have : el - sl + (if (⟨el, ec⟩ : Pos) = ⟨el, ci.continueCol⟩ then 0 else 1)
        = (el - (sl + 1) + (if (⟨el, ec⟩ : Pos) = ⟨el, ci.continueCol⟩ then 0 else 1)) + 1 := by omega
    rw [this, List.range_succ_eq_map, List.map_cons, List.map_map]
    simp only [Nat.add_zero, List.cons.injEq, true_and]
    have e2 : (if (⟨el, ec⟩ : Pos) = ⟨el, if sl + 1 = el then ci.continueCol else ci.continueCol⟩ then (0 : Nat) else 1)
        = (if (⟨el, ec⟩ : Pos) = ⟨el, ci.continueCol⟩ then 0 else 1) := by split <;> split <;> simp_all
    rw [e2]
    apply List.map_congr_left
    intro a _
    simp only [Function.comp]
    omega

/-- **C73 (non-empty), partial.** If the range begins in the statement columns and, when it spans several lines, ends after
the column where continued text begins, every token is non-empty. What is missing: ranges outside these columns
(`C73_witness`). -/
theorem C73_nonempty_partial (ci : ContInfo) (hci : ci.continueCol < ci.continuationCol) (t : HlTok)
    (h : t.range.start.line < t.range.stop.line ∧ t.range.start.col < ci.continuationCol ∧ ci.continueCol ≤ t.range.stop.col ∨
      t.range.start.line = t.range.stop.line ∧ t.range.start.col ≤ t.range.stop.col) :
    ∀ x ∈ splitHl ci t, x.range.start.col < x.range.stop.col := by
  induction t using split_ind ci with
  | one t hl =>
    obtain ⟨⟨⟨sl, sc⟩, ⟨el, ec⟩⟩, k⟩ := t
    rw [splitHl_one _ _ hl]
    simp only at h hl
    intro x hx
    split at hx <;> rename_i hs
    · simp only [List.mem_singleton] at hx
      subst hx
      simp only [ne_eq, Pos.mk.injEq] at hs ⊢
      omega
    · simp at hx
  | more t hl ih =>
    obtain ⟨⟨⟨sl, sc⟩, ⟨el, ec⟩⟩, k⟩ := t
    simp only at h hl ih
    rw [splitHl_line _ _ hl]
    intro x hx
    rcases List.mem_cons.mp hx with rfl | hx
    · simp only; omega
    · exact ih (by omega) x hx

/-- **C73 (non-empty, negation).** A range that ends before the continue column yields a token whose end precedes its
start, one that begins at the continuation column yields an empty one. -/
theorem C73_witness :
    splitHl {} ⟨⟨⟨0, 3⟩, ⟨1, 10⟩⟩, 1⟩ = [⟨⟨⟨0, 3⟩, ⟨0, 71⟩⟩, 1⟩, ⟨⟨⟨1, 15⟩, ⟨1, 10⟩⟩, 1⟩] ∧
    splitHl {} ⟨⟨⟨0, 71⟩, ⟨1, 16⟩⟩, 1⟩ = [⟨⟨⟨0, 71⟩, ⟨0, 71⟩⟩, 1⟩, ⟨⟨⟨1, 15⟩, ⟨1, 16⟩⟩, 1⟩] := by
  decide +kernel

/-- A range over three lines meets the hypotheses. -/
example : splitHl {} ⟨⟨⟨4, 60⟩, ⟨6, 20⟩⟩, 9⟩ =
    [⟨⟨⟨4, 60⟩, ⟨4, 71⟩⟩, 9⟩, ⟨⟨⟨5, 15⟩, ⟨5, 71⟩⟩, 9⟩, ⟨⟨⟨6, 15⟩, ⟨6, 20⟩⟩, 9⟩] := by decide +kernel

/-! ### C75 -/

/-- Specification: the place of the next character of an operand, whose text runs up to column 70 and goes on at column 15 of
the next line. -/
def Pos.next (p : Pos) : Pos := if p.col + 1 < 71 then ⟨p.line, p.col + 1⟩ else ⟨p.line + 1, 15⟩

/-- Specification: the place of the `k`-th character of an operand that begins at `p`. -/
def Pos.place (p : Pos) : Nat → Pos
  | 0 => p
  | k + 1 => (p.place k).next

/-- The two names of the boundary between two lines of a continued operand: the end of the one and the beginning of the other. -/
def Pos.canon (p : Pos) : Pos := if p.col = 71 then ⟨p.line + 1, 15⟩ else p

/-- Specification: an operand of `n` characters that lies on one line. -/
def OneLine (r : Rng) (n : Nat) : Prop := r.stop = ⟨r.start.line, r.start.col + n⟩

/-- Specification: where the character `j` of operand `i` is found in the joined operands (`a,b,c`). -/
def joinedIndex : List Nat → Nat → Nat → Nat
  | _, 0, j => j
  | [], _ + 1, j => j
  | n :: ns, i + 1, j => n + 1 + joinedIndex ns i j

theorem sub64_eq {a b : Nat} (h : b ≤ a) (ha : a < 2 ^ 64) : sub64 a b = a - b := by unfold sub64; omega

theorem place_add (p : Pos) (a b : Nat) : p.place (a + b) = (p.place a).place b := by
  induction b with
  | zero => rfl
  | succ b ih => rw [← Nat.add_assoc, Pos.place, ih]; rfl

theorem place_in_line (p : Pos) (k : Nat) (h : p.col + k < 71) : p.place k = ⟨p.line, p.col + k⟩ := by
  induction k with
  | zero => rfl
  | succ k ih => rw [Pos.place, ih (by omega), Pos.next, if_pos (by simp only; omega)]; rfl

theorem place_line (p : Pos) (h : p.col < 71) : p.place (71 - p.col) = ⟨p.line + 1, 15⟩ := by
  obtain ⟨k, hk⟩ : ∃ k, 71 - p.col = k + 1 := ⟨70 - p.col, by omega⟩
  rw [hk, Pos.place, place_in_line p k (by omega), Pos.next, if_neg (by simp only; omega)]

theorem walk_place (offset : Nat) : ∀ line col, col < 71 → (walk line col offset).canon = (Pos.place ⟨line, col⟩ offset).canon ∧
    (walk line col offset).col ≤ 71 := by
  induction offset using Nat.strongRecOn with
  | _ offset ih =>
    intro line col hc
    rw [walk]
    simp only [sub64_eq (show col ≤ 71 by omega) (by omega)]
    split <;> rename_i h
    · obtain ⟨k, rfl⟩ : ∃ k, offset = (71 - col) + k := ⟨offset - (71 - col), by omega⟩
      have := ih k (by omega) (line + 1) 15 (by omega)
      rw [place_add, place_line ⟨line, col⟩ hc]
      simpa [show 71 - col + k - (71 - col) = k by omega] using this
    · refine ⟨?_, by simp only; omega⟩
      by_cases he : col + offset < 71
      · rw [place_in_line _ _ he]
      · have : offset = 71 - col := by omega
        subst this
        rw [place_line ⟨line, col⟩ hc]
        simp [Pos.canon, show col + (71 - col) = 71 by omega]

theorem findOperand_hit (r : Rng) (rest : List Rng) (offset : Nat)
    (h : offset ≤ sub64 (r.stop.col + 72 * sub64 r.stop.line r.start.line) r.start.col) :
    findOperand r rest offset = some (r, offset) := by
  rw [findOperand.eq_def]; simp only; rw [if_pos h]

theorem findOperand_one {r r' : Rng} {n : Nat} (hr : OneLine r n) (hs : r.start.line < 2 ^ 64) (hb : r.start.col + n < 2 ^ 64) (rest : List Rng) (k : Nat)
    (hk : n + 1 + k < 2 ^ 64) : findOperand r (r' :: rest) (n + 1 + k) = findOperand r' rest k := by
  rw [findOperand.eq_def]
  have e1 : r.stop.line = r.start.line := by rw [hr]
  have e2 : r.stop.col = r.start.col + n := by rw [hr]
  simp only [e1, e2, sub64_eq (Nat.le_refl _) hs, Nat.sub_self, Nat.mul_zero, Nat.add_zero,
    sub64_eq (show r.start.col ≤ r.start.col + n by omega) hb, Nat.add_sub_cancel_left]
  rw [if_neg (by omega), sub64_eq (by omega) hk]
  congr 1
  omega

/-- The search ends in the operand the character belongs to, with the index of the character in it. -/
theorem findOperand_joined : ∀ (rs : List Rng) (ns : List Nat) (i j : Nat) (r : Rng),
    rs[i]? = some r → j ≤ sub64 (r.stop.col + 72 * sub64 r.stop.line r.start.line) r.start.col →
    (∀ m < i, ∃ r n, rs[m]? = some r ∧ ns[m]? = some n ∧ OneLine r n ∧ r.start.line < 2 ^ 64 ∧ r.start.col + n < 2 ^ 64) →
    joinedIndex ns i j < 2 ^ 64 →
    ∃ r0 rest, rs = r0 :: rest ∧ findOperand r0 rest (joinedIndex ns i j) = some (r, j)
  | [], _, _, _, _, h, _, _, _ => by simp at h
  | r0 :: rest, ns, 0, j, r, h, hj, _, _ => by
    simp only [List.getElem?_cons_zero, Option.some.injEq] at h
    subst h
    exact ⟨_, _, rfl, by cases ns <;> simpa [joinedIndex] using findOperand_hit _ rest j hj⟩
  | r0 :: rest, ns, i + 1, j, r, h, hj, hm, hb => by
    refine ⟨_, _, rfl, ?_⟩
    obtain ⟨r', n, hr', hn, ho, hl, hc⟩ := hm 0 (by omega)
    simp only [List.getElem?_cons_zero, Option.some.injEq] at hr'
    subst hr'
    cases ns with
    | nil => simp at hn
    | cons n' ns =>
      simp only [List.getElem?_cons_zero, Option.some.injEq] at hn
      subst hn
      simp only [joinedIndex] at hb ⊢
      obtain ⟨r1, rest', e, hf⟩ := findOperand_joined rest ns i j r (by simpa using h) hj
        (fun m hmi => by simpa using hm (m + 1) (by omega)) (by omega)
      subst e
      rw [findOperand_one ho hl hc rest' _ hb, hf]

theorem place_inv (p : Pos) (hp : p.col < 71) (k : Nat) : p.line ≤ (p.place k).line ∧ (p.place k).col < 71 ∧
    (p.place k).col + 56 * ((p.place k).line - p.line) = p.col + k := by
  induction k with
  | zero => simp [Pos.place, hp]
  | succ k ih =>
    obtain ⟨h1, h2, h3⟩ := ih
    rw [Pos.place, Pos.next]
    split
    · simp only; omega
    · simp only; omega

/-- The code does not underestimate the length of an operand. -/
theorem length_le (r : Rng) (n : Nat) (h : (r.stop).canon = (r.start.place n).canon) (h1 : r.stop.col ≤ 71)
    (h2 : r.start.line ≤ r.stop.line) (h3 : r.stop.line < 2 ^ 32) (hc : r.start.col < 71) :
    n ≤ sub64 (r.stop.col + 72 * sub64 r.stop.line r.start.line) r.start.col := by
  obtain ⟨i1, i2, i3⟩ := place_inv r.start hc n
  have e : (r.start.place n).canon = r.start.place n := by rw [Pos.canon, if_neg (by omega)]
  rw [e] at h
  rw [← h] at i1 i2 i3
  rw [sub64_eq h2 (by omega)]
  unfold Pos.canon at i1 i2 i3
  split at i1
  · simp only [*, if_true] at *
    rw [sub64_eq (by omega) (by omega)]
    omega
  · simp only [*, if_false] at *
    rw [sub64_eq (by omega) (by omega)]
    omega

/-- **C75, partial.** The position reported for the `j`-th character of operand `i` of a re-parsed macro call is the place of
that character in the source (or, where a continued line begins, the equivalent end of the line before), provided the
operands before it each lie on one line; `j` up to the length of the operand, so that its end is covered. Operand `i` itself
may run over any number of lines. What is missing: operands after one that is continued (`C75_witness_continued`). -/
theorem C75_position_partial (field : Rng) (rs : List Rng) (ns : List Nat) (r : Rng) (i j n : Nat) (line : Nat)
    (hi : rs[i]? = some r) (hn : ns[i]? = some n) (hj : j ≤ n)
    (hstop : (r.stop).canon = (r.start.place n).canon ∧ r.stop.col ≤ 71 ∧ r.start.line ≤ r.stop.line ∧ r.stop.line < 2 ^ 32)
    (hcol : r.start.col < 71)
    (before : ∀ m < i, ∃ r n, rs[m]? = some r ∧ ns[m]? = some n ∧ OneLine r n ∧ r.start.line < 2 ^ 32 ∧ r.start.col + n ≤ 71)
    (hb : joinedIndex ns i j < 2 ^ 32) :
    ∃ p, adjustPosition field rs ⟨line, (rs.headD r).start.col + joinedIndex ns i j⟩ = some p ∧
      p.canon = (r.start.place j).canon ∧ p.col ≤ 71 := by
  have hlen := length_le r n hstop.1 hstop.2.1 hstop.2.2.1 hstop.2.2.2 hcol
  obtain ⟨r0, rest, e, hf⟩ := findOperand_joined rs ns i j r hi (by omega)
    (fun m hm => by
      obtain ⟨r, n, h1, h2, h3, h4, h5⟩ := before m hm
      exact ⟨r, n, h1, h2, h3, by omega, by omega⟩) (by omega)
  subst e
  have hc0 : r0.start.col ≤ 71 := by
    cases i with
    | zero => simp at hi; rw [hi]; omega
    | succ i =>
      obtain ⟨r', n', h1, _, _, _, h5⟩ := before 0 (by omega)
      simp at h1; subst h1; omega
  refine ⟨walk r.start.line r.start.col j, ?_, walk_place j _ _ hcol⟩
  simp only [adjustPosition, List.headD_cons]
  rw [sub64_eq (by omega) (by omega), Nat.add_sub_cancel_left, hf]
  rfl

/-- **C75 (negation).** The length of an operand over two lines is overestimated by 16 columns: in `op1,op2` with `op1` from
column 60 of line 0 to column 20 of line 1 (16 characters) and `op2` on line 2, the first character of `op2` is reported on
line 1. -/
theorem C75_witness_continued :
    adjustPosition ⟨⟨0, 60⟩, ⟨2, 18⟩⟩ [⟨⟨0, 60⟩, ⟨1, 20⟩⟩, ⟨⟨2, 15⟩, ⟨2, 18⟩⟩] ⟨0, 60 + 17⟩ = some ⟨1, 21⟩ := by
  decide +kernel

/-- **C75 (negation).** The first character of the second line of an operand is reported in the continuation column of the
first line. -/
theorem C75_witness_boundary : adjustPosition ⟨⟨0, 60⟩, ⟨1, 20⟩⟩ [⟨⟨0, 60⟩, ⟨1, 20⟩⟩] ⟨0, 71⟩ = some ⟨0, 71⟩ ∧
    Pos.place ⟨0, 60⟩ 11 = ⟨1, 15⟩ := by decide +kernel

/-- The hypotheses are met by the fourth character of the second operand of `AB,` followed by an operand over two lines. -/
example : ∃ p, adjustPosition ⟨⟨0, 15⟩, ⟨1, 18⟩⟩ [⟨⟨0, 15⟩, ⟨0, 17⟩⟩, ⟨⟨0, 69⟩, ⟨1, 18⟩⟩] ⟨7, 15 + 6⟩ = some p ∧
    p.canon = (Pos.place ⟨0, 69⟩ 3).canon ∧ p.col ≤ 71 :=
  C75_position_partial _ _ [2, 5] ⟨⟨0, 69⟩, ⟨1, 18⟩⟩ 1 3 5 7 rfl rfl (by decide) (by decide +kernel) (by decide)
    (fun m hm => by
      obtain rfl : m = 0 := by omega
      exact ⟨_, _, rfl, rfl, rfl, by decide, by decide⟩) (by decide)

end Verif.Lexing
