import Verif.Lexing.Moved
/-!
Inserted records: lemmas about `ainsert` and `aread`.
-/
namespace Verif.Lexing

/-- `parser_impl::aread` (`parser_impl.cpp` 63-74): the record is cut or padded to 80, except for the empty string at the end of the
input. Simplification: the code counts bytes of UTF-8, the model characters, so this is for ASCII text. -/
def Lx.read80 (s : Lx) : Except Err (Option (List Nat) × Lx) := do
  let (r, s) ← s.aread
  pure (r.map fun l => l.take 80 ++ List.replicate (80 - l.length) 32, s)

/-- Replace the current stream. -/
def Lx.setCur (s : Lx) (i : Inp) : Lx := if s.inBuf then { s with buf := i } else { s with file := i }

theorem Lx.consume_eq (s : Lx) : s.consume = s.setCur s.cur.consume := by
  unfold Lx.consume Lx.setCur Lx.cur; split <;> rfl

theorem Lx.cur_setCur (s : Lx) (i : Inp) : (s.setCur i).cur = i := by
  unfold Lx.setCur Lx.cur; split <;> simp_all

theorem Lx.setCur_setCur (s : Lx) (i j : Inp) : (s.setCur i).setCur j = s.setCur j := by
  unfold Lx.setCur; split <;> simp_all

theorem Lx.setCur_cur (s : Lx) : s.setCur s.cur = s := by
  unfold Lx.setCur Lx.cur
  by_cases h : s.inBuf = true
  · rw [if_pos h, if_pos h]
  · rw [if_neg h, if_neg h]

theorem Lx.not_eof {s : Lx} (h : s.c ≠ none) : s.eof = false := by
  unfold Lx.eof
  unfold Lx.c Lx.cur at h
  split at h
  · cases hb : s.buf.cur with
    | none => exact absurd hb h
    | some c => simp
  · cases hb : s.file.cur with
    | none => exact absurd hb h
    | some c => simp

/-- Where a record ends. -/
def Inp.recEnd (i : Inp) : Inp := i.skip fun i => i.cur != some 13 && i.cur != some 10

theorem areadLoop_eq (s : Lx) (acc : List Nat) :
    areadLoop s acc = (acc ++ s.cur.inLine.takeWhile (· != 13), s.setCur s.cur.recEnd) := by
  generalize hi : s.cur = i
  induction i using Inp.line_induction generalizing s acc with
  | stop i h =>
    have e : i.recEnd = i := by
      rcases h with h | h
      · exact Inp.skip_stop (.inr h)
      · exact Inp.skip_stop (.inl (by simp [h]))
    rw [e, Inp.inLine_end h, ← hi, Lx.setCur_cur]
    have hc : s.c = i.cur := by rw [Lx.c, hi]
    rw [areadLoop]
    split
    · rename_i h1
      split
      · simp
      · rename_i c hc'
        rw [hc] at hc'
        rcases h with h | h
        · rw [h] at hc'; simp at hc'
        · rw [hc, h] at h1; simp at h1
    · simp
  | step i c h hc ih =>
    have hs : s.c = some c := by rw [Lx.c, hi, h]
    rw [areadLoop]
    by_cases h13 : c = 13
    · rw [if_neg (by rw [hs, h13]; simp)]
      have e : i.recEnd = i := Inp.skip_stop (.inl (by simp [h, h13]))
      rw [e, ← hi, Lx.setCur_cur, hi, Inp.inLine_cons h hc]
      simp [h13]
    · rw [if_pos (by rw [hs, Lx.not_eof (by rw [hs]; simp)]; simp [hc, h13])]
      have e : i.recEnd = i.consume.recEnd := Inp.skip_of (by simp [h, hc, h13]) (by simp [h])
      split
      · rename_i h'; rw [hs] at h'; simp at h'
      · rename_i d h'
        rw [hs] at h'
        obtain rfl : c = d := by simpa using h'
        rw [ih s.consume (acc ++ [c]) (by rw [Lx.consume_eq, Lx.cur_setCur, hi]), e, Inp.inLine_cons h hc, Lx.consume_eq, Lx.setCur_setCur]
        simp [h13]

/-- Carriage returns only before newlines. -/
def CrLf (text : List Nat) : Prop := ∀ n, text[n]? = some 13 → text[n + 1]? = some 10

theorem recEnd_strip {i : Inp} (h : CrLf i.data) : i.inLine.takeWhile (· != 13) = Spec.strip i.inLine ∧
    (i.recEnd.nextLine = i.nextLine) ∧
    ((i.recEnd.cur = none ∧ i.lineEnd.cur = none) ∨ (i.recEnd.cur = some 10) ∨ (i.recEnd.cur = some 13 ∧ i.recEnd.consume.cur = some 10)) := by
  induction i using Inp.line_induction with
  | stop i hs =>
    have e : i.recEnd = i := by
      rcases hs with h | h
      · exact Inp.skip_stop (.inr h)
      · exact Inp.skip_stop (.inl (by simp [h]))
    rw [e, Inp.inLine_end hs]
    refine ⟨rfl, rfl, ?_⟩
    rcases hs with h' | h'
    · left; exact ⟨h', by rw [Inp.lineEnd_end (.inl h')]; exact h'⟩
    · right; left; exact h'
  | step i c hcur hc ih =>
    obtain ⟨ih1, ih2, ih3⟩ := ih (by rw [Inp.consume_data]; exact h)
    by_cases h13 : c = 13
    · subst h13
      have e : i.recEnd = i := Inp.skip_stop (.inl (by simp [hcur]))
      have hn : i.consume.cur = some 10 := by
        rw [Inp.cur, Inp.consume_data, Inp.consume_p (by simp [hcur])]
        exact h _ hcur
      rw [e, Inp.inLine_cons hcur hc, Inp.inLine_end (.inr hn)]
      exact ⟨rfl, rfl, .inr (.inr ⟨hcur, hn⟩)⟩
    · have e : i.recEnd = i.consume.recEnd := Inp.skip_of (by simp [hcur, hc, h13]) (by simp [hcur])
      rw [e, Inp.inLine_cons hcur hc, strip_cons _ h13, Inp.nextLine_cons hcur hc, Inp.lineEnd_cons hcur hc]
      exact ⟨by simp [h13, ih1], ih2, ih3⟩

/-- `consume_new_line` after a record. -/
theorem newLine_eq {s : Lx} {i : Inp} (hs : s.cur = i)
    (h : (i.cur = none) ∨ (i.cur = some 10) ∨ (i.cur = some 13 ∧ i.consume.cur = some 10)) :
    (let s := if s.c = some 13 then s.consume else s
     if s.c = some 10 then s.consume else s) = s.setCur i.nextLine := by
  simp only
  have hc : s.c = i.cur := by rw [Lx.c, hs]
  rcases h with h | h | ⟨h, h'⟩
  · have h1 : s.c ≠ some 13 := by rw [hc, h]; simp
    have h2 : s.c ≠ some 10 := by rw [hc, h]; simp
    rw [if_neg h1, if_neg h2, Inp.nextLine, Inp.lineEnd_end (.inl h), Inp.consume_none h, ← hs, Lx.setCur_cur]
  · have h1 : s.c ≠ some 13 := by rw [hc, h]; simp
    rw [if_neg h1, if_pos (hc.trans h), Inp.nextLine, Inp.lineEnd_end (.inr h), Lx.consume_eq, hs]
  · rw [if_pos (hc.trans h)]
    have : s.consume.c = some 10 := by rw [Lx.c, Lx.consume_eq, Lx.cur_setCur, hs, h']
    rw [if_pos this, Inp.nextLine_cons h (by simp), Inp.nextLine, Inp.lineEnd_end (.inr h'), Lx.consume_eq s.consume, Lx.consume_eq s, Lx.cur_setCur,
      Lx.setCur_setCur, hs]

/-! ### The state between reads -/

/-- A text that is empty or ends with a newline. -/
def Terminated (text : List Nat) : Prop := text = [] ∨ text.getLast? = some 10

/-- A place in the file: the column counts back to the start of the line. -/
structure At (i : Inp) : Prop where
  bound : i.p ≤ i.data.length
  col : i.col ≤ i.p
  line : ∀ m, i.p - i.col ≤ m → m < i.p → i.data[m]? ≠ some 10

/-- The lines that are left, from the start of the current one. -/
def Inp.left (i : Inp) : List (List Nat) := (Spec.lines (i.data.drop (i.p - i.col))).dropLast

/-- A record as it is buffered. -/
def padded (r : List Nat) : List Nat := r ++ List.replicate (80 - r.length) 32

/-- A record without line ends. -/
def Record (r : List Nat) : Prop := r ≠ [] ∧ ∀ c ∈ r, c ≠ 10 ∧ c ≠ 13

theorem At.consume {i : Inp} (h : At i) : At i.consume := by
  cases hc : i.cur with
  | none => rw [Inp.consume_none hc]; exact h
  | some c =>
    have hb := Inp.bound_of_cur hc
    have hp := Inp.consume_p (i := i) (by simp [hc])
    by_cases h10 : c = 10
    · have hcol : i.consume.col = 0 := by simp [Inp.consume, hc, h10]
      refine ⟨by rw [hp, Inp.consume_data]; omega, by omega, ?_⟩
      intro m h1 h2
      rw [hcol] at h1; omega
    · have hcol := Inp.consume_col hc h10
      have := h.col
      refine ⟨by rw [hp, Inp.consume_data]; omega, by omega, ?_⟩
      intro m h1 h2
      rw [Inp.consume_data]
      rw [hp, hcol] at h1
      rw [hp] at h2
      by_cases hm : m = i.p
      · subst hm
        have : i.data[i.p]? = some c := hc
        rw [this]; simp [h10]
      · exact h.line m (by omega) (by omega)

theorem At.adv {i : Inp} (h : At i) (n : Nat) : At (i.adv n) := by
  induction n with
  | zero => exact h
  | succ n ih => exact ih.consume

theorem takeWhile_pre (l : List Nat) (n : Nat) (h : ∀ m, m < n → l[m]? ≠ some 10) (hn : n ≤ l.length) :
    Spec.lines l = match Spec.lines (l.drop n) with | [] => [] | x :: xs => (l.take n ++ x) :: xs := by
  induction n generalizing l with
  | zero =>
    simp only [List.drop_zero, List.take_zero, List.nil_append]
    split <;> simp_all
  | succ n ih =>
    cases l with
    | nil => simp at hn
    | cons c t =>
      have hc : c ≠ 10 := by
        have := h 0 (by omega)
        simpa using this
      have := ih t (fun m hm => by have := h (m + 1) (by omega); simpa using this) (by simpa using hn)
      rw [Spec.lines, if_neg hc, List.drop_succ_cons, List.take_succ_cons, this]
      rw [lines_eq (t.drop n)]
      simp

/-- Reading on does not change what is left of the lines, except at a newline. -/
theorem At.left_consume {i : Inp} (h : At i) : i.consume.left = i.left ∨ ∃ l, i.left = l :: i.consume.left := by
  cases hc : i.cur with
  | none => left; rw [Inp.consume_none hc]
  | some c =>
    have hp := Inp.consume_p (i := i) (by simp [hc])
    by_cases h10 : c = 10
    · right
      subst h10
      have hcol : i.consume.col = 0 := by simp [Inp.consume, hc]
      have hb := Inp.bound_of_cur hc
      have hcol' := h.col
      have := takeWhile_pre (i.data.drop (i.p - i.col)) i.col (by
        intro m hm
        rw [List.getElem?_drop]
        exact h.line _ (by omega) (by omega)) (by rw [List.length_drop]; omega)
      rw [List.drop_drop] at this
      have e : i.p - i.col + i.col = i.p := by omega
      rw [e] at this
      have hr := Inp.rem_cons hc
      rw [Inp.rem, Inp.rem, Inp.consume_data, hp] at hr
      refine ⟨(i.data.drop (i.p - i.col)).take i.col, ?_⟩
      rw [Inp.left, Inp.left, this, hcol, hp, Inp.consume_data, hr, Nat.sub_zero]
      have e2 : Spec.lines (10 :: i.data.drop (i.p + 1)) = [] :: Spec.lines (i.data.drop (i.p + 1)) := by simp [Spec.lines]
      rw [e2]
      simp only [List.append_nil]
      rw [lines_eq (i.data.drop (i.p + 1))]
      rw [List.dropLast_cons_of_ne_nil (by simp)]
    · left
      rw [Inp.left, Inp.left, Inp.consume_data, hp, Inp.consume_col hc h10]
      congr 3
      omega

theorem lineStart_eq {s : Lx} (h : At s.file) :
    ∃ s', s.lineStart = .ok s' ∧ s'.file.data = s.file.data ∧ s'.file.p = s.file.p - s.file.col ∧ s'.file.col = 0 ∧ s'.buf = s.buf ∧
      s'.inBuf = s.inBuf ∧ s'.recs = s.recs := by
  unfold Lx.lineStart
  by_cases hc : s.file.col = 0
  · rw [if_neg (by simpa using hc)]
    exact ⟨s, rfl, rfl, by omega, hc, rfl, rfl, rfl⟩
  · rw [if_pos hc]
    have h1 := h.bound
    have h2 := h.col
    unfold Lx.rewind
    rw [if_neg (by intro e; rw [e] at h1; simp at h1; omega)]
    simp only
    rw [if_neg (by omega)]
    exact ⟨_, rfl, rfl, rfl, rfl, rfl, rfl, rfl⟩

theorem areadEnd_eq (s : Lx) : Moved s s.areadEnd ∧ s.areadEnd.file = s.file ∧ s.areadEnd.buf = s.buf := by
  have hct : ∀ s : Lx, (s.createToken .eof).file = s.file ∧ (s.createToken .eof).buf = s.buf := by
    intro s
    unfold Lx.createToken
    simp only [if_true]
    rw [if_neg (by simp)]
    exact ⟨rfl, rfl⟩
  have h2 : ∃ s1 : Lx, s.areadEnd = (if s1.eof then s1.createToken .eof else s1) ∧ Moved s s1 ∧ s1.file = s.file ∧ s1.buf = s.buf := by
    refine ⟨if !s.inBuf then s.setLastLinePos s.cur.p s.start.line else s, rfl, ?_⟩
    split
    · exact ⟨.setLastLinePos _ _ _, rfl, rfl⟩
    · exact ⟨.refl s, rfl, rfl⟩
  obtain ⟨s1, e, m, a, b⟩ := h2
  rw [e]
  split
  · exact ⟨m.trans (.createToken _ _ _), (hct s1).1.trans a, (hct s1).2.trans b⟩
  · exact ⟨m, a, b⟩

theorem terminated_end {i : Inp} (ht : Terminated i.data) (h : At i) (hc : i.cur = none) : i.left = [] ∧ i.col = 0 := by
  have h1 := (Inp.cur_none_iff i).mp hc
  have h2 := h.bound
  have h3 := h.col
  have h0 : i.col = 0 := by
    rcases Nat.eq_zero_or_pos i.col with h0 | h0
    · exact h0
    · exfalso
      have hl := h.line (i.p - 1) (by omega) (by omega)
      rcases ht with ht | ht
      · rw [ht] at h2; simp at h2; omega
      · rw [List.getLast?_eq_getElem?] at ht
        have : i.data.length = i.p := by omega
        rw [this] at ht
        exact hl ht
  refine ⟨?_, h0⟩
  rw [Inp.left, h0, Nat.sub_zero, List.drop_eq_nil_of_le h1]
  rfl

/-- In such a text every line has an end. -/
theorem terminated_line {i : Inp} (ht : Terminated i.data) (hc : i.cur ≠ none) : i.lineEnd.cur ≠ none := by
  induction i using Inp.line_induction with
  | stop i h => rw [Inp.lineEnd_end h]; exact hc
  | step i c h h10 ih =>
    rw [Inp.lineEnd_cons h h10]
    refine ih (by rw [Inp.consume_data]; exact ht) ?_
    intro hn
    have h1 := (Inp.cur_none_iff i.consume).mp hn
    have h2 := Inp.bound_of_cur h
    rw [Inp.consume_data, Inp.consume_p hc] at h1
    rcases ht with ht | ht
    · rw [ht] at h2; simp at h2
    · rw [List.getLast?_eq_getElem?] at ht
      have : i.data.length - 1 = i.p := by omega
      rw [this] at ht
      have hx : i.data[i.p]? = some c := h
      rw [hx] at ht
      simp at ht
      exact h10 ht

/-- The line a record of the file is read from. -/
def fileRecord (l : List Nat) : List Nat := if Spec.strip l = [] then [32] else Spec.strip l

theorem At.zero {i : Inp} (hp : i.p ≤ i.data.length) (h0 : i.col = 0) : At i :=
  ⟨hp, by omega, fun m h1 h2 => by omega⟩

theorem left_line {i : Inp} (ht : Terminated i.data) (h : At i) (hc : i.cur ≠ none) :
    ∃ l ls, i.left = l :: ls := by
  have := takeWhile_pre (i.data.drop (i.p - i.col)) i.col (by
    intro m hm
    rw [List.getElem?_drop]
    have := h.col
    exact h.line _ (by omega) (by omega)) (by rw [List.length_drop]; have := h.bound; have := h.col; omega)
  rw [List.drop_drop, Nat.sub_add_cancel h.col] at this
  have hle := terminated_line ht hc
  rcases Inp.nextLine_rest i with ⟨g, _, _⟩ | ⟨_, g4, _⟩
  · exact absurd g hle
  · have e : Spec.lines (i.data.drop i.p) = i.inLine :: Spec.lines i.nextLine.rem := by
      have := Inp.lines_rem i
      rw [g4] at this
      exact this
    rw [e] at this
    refine ⟨(i.data.drop (i.p - i.col)).take i.col ++ i.inLine, (Spec.lines i.nextLine.rem).dropLast, ?_⟩
    rw [Inp.left, this]
    simp only
    rw [Inp.lines_rem i.nextLine, List.dropLast_cons_of_ne_nil (by simp)]

theorem Inp.left_rem {i : Inp} (h0 : i.col = 0) : i.left = (Spec.lines i.rem).dropLast := by
  rw [Inp.left, h0, Nat.sub_zero]; rfl

/-- Reading the line a stream is at the start of. -/
theorem read_line {s : Lx} {i : Inp} (hi : s.cur = i) (h0 : i.col = 0) (ht : Terminated i.data) (hcr : CrLf i.data) (hp : i.p ≤ i.data.length)
    (hc : i.cur ≠ none) :
    ∃ l, i.left = l :: i.nextLine.left ∧ areadLoop s [] = (Spec.strip l, s.setCur i.recEnd) ∧
      (s.setCur i.recEnd).newLine = s.setCur i.nextLine ∧ At i.nextLine ∧ i.nextLine.col = 0 := by
  obtain ⟨g1, g2, g3⟩ := recEnd_strip hcr
  have hle := terminated_line ht hc
  rcases Inp.nextLine_rest i with ⟨g, _, _⟩ | ⟨_, g4, g5⟩
  · exact absurd g hle
  refine ⟨i.inLine, ?_, ?_, ?_, .zero (Inp.nextLine_le hp).bound g5, g5⟩
  · rw [Inp.left_rem h0, Inp.left_rem g5, Inp.lines_rem, g4, Inp.lines_rem i.nextLine, List.dropLast_cons_of_ne_nil (by simp)]
  · rw [areadLoop_eq, hi, g1]; rfl
  · have hnl := newLine_eq (s := s.setCur i.recEnd) (i := i.recEnd) (Lx.cur_setCur _ _) (by
      rcases g3 with ⟨g, _⟩ | g | g
      · exact .inl g
      · exact .inr (.inl g)
      · exact .inr (.inr g))
    change Lx.newLine _ = _ at hnl
    rw [hnl, Lx.setCur_setCur, g2]

/-! ### The state between operations -/

/-- The tokeniser between two operations. `c` is the record being read, `rs` the records that wait. -/
structure Live (text : List Nat) (c rs : List (List Nat)) (s : Lx) : Prop where
  data : s.file.data = text
  at_ : At s.file
  bufAt : At s.buf
  bufTerm : Terminated s.buf.data
  bufCr : ∀ x ∈ s.buf.data, x ≠ 13
  mode : s.inBuf = false → s.buf.cur = none
  between : rs ≠ [] ∨ c ≠ [] → s.file.col = 0
  cur : s.buf.left = c.map padded
  one : c.length ≤ 1
  recs : s.recs = rs.map fun r => padded r ++ [10]
  good : ∀ r ∈ c ++ rs, Record r

theorem Live.noCur {text : List Nat} {c rs : List (List Nat)} {s : Lx} (h : Live text c rs s) : s.buf.cur = none ↔ c = [] := by
  constructor
  · intro hn
    have := (terminated_end h.bufTerm h.bufAt hn).1
    rw [h.cur] at this
    simpa using this
  · intro hc
    cases hn : s.buf.cur with
    | none => rfl
    | some x =>
      obtain ⟨l, ls, e⟩ := left_line h.bufTerm h.bufAt (by simp [hn])
      rw [h.cur, hc] at e
      simp at e

theorem Live.bufCrLf {text : List Nat} {c rs : List (List Nat)} {s : Lx} (h : Live text c rs s) : CrLf s.buf.data := by
  intro n hn
  exact absurd rfl (h.bufCr 13 (List.mem_of_getElem? hn))

theorem padded_clean {r : List Nat} (h : Record r) : ∀ x ∈ padded r, x ≠ 10 ∧ x ≠ 13 := by
  intro x hx
  rw [padded, List.mem_append, List.mem_replicate] at hx
  rcases hx with hx | hx
  · exact h.2 x hx
  · omega

theorem padded_ne {r : List Nat} (h : Record r) : padded r ≠ [] := by
  intro e
  rw [padded, List.append_eq_nil_iff] at e
  exact h.1 e.1

theorem strip_clean {l : List Nat} (h : ∀ x ∈ l, x ≠ 13) : Spec.strip l = l := by
  induction l with
  | nil => rfl
  | cons c t ih =>
    rw [strip_cons _ (h c (by simp)), ih (fun x hx => h x (by simp [hx]))]

theorem lines_record {l : List Nat} (h : ∀ x ∈ l, x ≠ 10) : Spec.lines (l ++ [10]) = [l, []] := by
  induction l with
  | nil => simp [Spec.lines]
  | cons c t ih =>
    rw [List.cons_append, Spec.lines, if_neg (h c (by simp)), ih (fun x hx => h x (by simp [hx]))]

/-- `switch_input_streams` takes the next record if none is being read. -/
theorem switch_live {text : List Nat} {c rs : List (List Nat)} {s : Lx} (h : Live text c rs s) :
    ∃ c' rs', Live text c' rs' s.switchStreams ∧ c' ++ rs' = c ++ rs ∧ rs' <:+ rs ∧ s.switchStreams.file = s.file ∧
      (s.switchStreams.inBuf = true ↔ c' ≠ []) ∧ (c' = [] → rs' = []) := by
  unfold Lx.switchStreams
  by_cases hb : s.buf.cur = none
  · rw [if_neg (by simpa using hb)]
    have hc := h.noCur.mp hb
    subst hc
    cases rs with
    | nil =>
      rw [h.recs]
      refine ⟨[], [], ⟨h.data, h.at_, h.bufAt, h.bufTerm, h.bufCr, fun _ => hb, by simp, h.cur, h.one, rfl, h.good⟩, rfl, ⟨[], rfl⟩, rfl, by simp, by simp⟩
    | cons r rs =>
      rw [h.recs]
      simp only [List.map_cons]
      have hr := h.good r (by simp)
      have hend := terminated_end h.bufTerm h.bufAt hb
      have hp : s.buf.p = s.buf.data.length := by
        have := (Inp.cur_none_iff _).mp hb
        have := h.bufAt.bound
        omega
      have hcur : ({ s.buf with data := s.buf.data ++ (padded r ++ [10]) } : Inp).cur ≠ none := by
        rw [Ne, Inp.cur_none_iff]
        simp only [List.length_append]
        simp
        omega
      rw [if_neg hcur]
      refine ⟨[r], rs, ⟨h.data, h.at_, ?_, ?_, ?_, by simp, fun _ => h.between (.inl (by simp)), ?_, by simp, rfl, h.good⟩, rfl, ⟨[r], rfl⟩, rfl, by simp, by simp⟩
      · exact .zero (by simp; omega) hend.2
      · right
        show (s.buf.data ++ (padded r ++ [10])).getLast? = some 10
        rw [← List.append_assoc, List.getLast?_concat]
      · intro x hx
        change x ∈ s.buf.data ++ (padded r ++ [10]) at hx
        simp only [List.mem_append, List.mem_singleton] at hx
        rcases hx with hx | hx | hx
        · exact h.bufCr x hx
        · exact (padded_clean hr x hx).2
        · omega
      · rw [Inp.left]
        simp only [hend.2, hp, Nat.sub_zero]
        rw [List.drop_left, lines_record fun x hx => (padded_clean hr x hx).1]
        rfl
  · rw [if_pos hb]
    have hc := mt h.noCur.mpr hb
    refine ⟨c, rs, h, rfl, ⟨[], rfl⟩, rfl, ?_, fun e => absurd e hc⟩
    refine ⟨fun _ => hc, fun _ => ?_⟩
    cases hi : s.inBuf with
    | true => rfl
    | false => exact absurd (h.mode hi) hb

/-- What reading leaves. -/
theorem left_adv {i : Inp} (h : At i) (n : Nat) : ∃ k, (i.adv n).left = i.left.drop k := by
  induction n with
  | zero => exact ⟨0, rfl⟩
  | succ n ih =>
    obtain ⟨k, hk⟩ := ih
    rcases (h.adv n).left_consume with e | ⟨l, e⟩
    · exact ⟨k, by rw [Inp.adv, e, hk]⟩
    · refine ⟨k + 1, ?_⟩
      rw [Inp.adv, ← List.drop_drop, ← hk, e]
      rfl

/-- Moving in the current stream. -/
theorem moved_live {text : List Nat} {c rs : List (List Nat)} {s s' : Lx} (h : Live text c rs s) (hm : Moved s s') (hi : s.inBuf = true ↔ c ≠ [])
    (he : c = [] → rs = []) :
    ∃ c' k, Live text c' rs s' ∧ c' <:+ c ∧ s'.file.left = s.file.left.drop k ∧ (c ≠ [] → k = 0) := by
  obtain ⟨n, hn⟩ := hm.cur
  by_cases hb : s.inBuf = true
  · rw [Lx.cur, Lx.cur, hm.inBuf, if_pos hb, if_pos hb] at hn
    have hf := hm.file hb
    obtain ⟨k, hk⟩ := left_adv h.bufAt n
    refine ⟨c.drop k, 0, ⟨?_, ?_, ?_, ?_, ?_, ?_, ?_, ?_, ?_, ?_, ?_⟩, List.drop_suffix _ _, by rw [hf]; rfl, fun _ => rfl⟩
    · rw [hf]; exact h.data
    · rw [hf]; exact h.at_
    · rw [hn]; exact h.bufAt.adv n
    · rw [hn, Inp.adv_data]; exact h.bufTerm
    · rw [hn, Inp.adv_data]; exact h.bufCr
    · intro e; rw [hm.inBuf, hb] at e; simp at e
    · intro _; rw [hf]; exact h.between (.inr (hi.mp hb))
    · rw [hn, hk, h.cur, List.map_drop]
    · have := h.one; rw [List.length_drop]; omega
    · rw [hm.recs]; exact h.recs
    · intro r hr
      rw [List.mem_append] at hr
      exact h.good r (List.mem_append.mpr (hr.imp List.mem_of_mem_drop id))
  · have hc : c = [] := by
      cases c with
      | nil => rfl
      | cons a t => exact absurd (hi.mpr (by simp)) hb
    have hr := he hc
    subst hc; subst hr
    rw [Lx.cur, Lx.cur, hm.inBuf, if_neg hb, if_neg hb] at hn
    have hbf := hm.buf (by simpa using hb)
    obtain ⟨k, hk⟩ := left_adv h.at_ n
    refine ⟨[], k, ⟨?_, ?_, ?_, ?_, ?_, ?_, ?_, ?_, ?_, ?_, ?_⟩, ⟨[], rfl⟩, by rw [hn, hk], by simp⟩
    · rw [hn, Inp.adv_data]; exact h.data
    · rw [hn]; exact h.at_.adv n
    · rw [hbf]; exact h.bufAt
    · rw [hbf]; exact h.bufTerm
    · rw [hbf]; exact h.bufCr
    · intro _; rw [hbf]; exact h.mode (by simpa using hb)
    · simp
    · rw [hbf]; exact h.cur
    · simp
    · rw [hm.recs]; exact h.recs
    · simp

/-- Change of what is not a stream. -/
theorem Live.same {text : List Nat} {c rs : List (List Nat)} {s s' : Lx} (h : Live text c rs s) (h1 : s'.inBuf = s.inBuf) (h2 : s'.recs = s.recs)
    (h3 : s'.file = s.file) (h4 : s'.buf = s.buf) : Live text c rs s' :=
  ⟨by rw [h3]; exact h.data, by rw [h3]; exact h.at_, by rw [h4]; exact h.bufAt, by rw [h4]; exact h.bufTerm, by rw [h4]; exact h.bufCr,
    by rw [h1, h4]; exact h.mode, by rw [h3]; exact h.between, by rw [h4]; exact h.cur, h.one, by rw [h2]; exact h.recs, h.good⟩

/-- What a token takes. -/
def Took (text : List Nat) (c rs : List (List Nat)) (s s' : Lx) : Prop :=
  ∃ c' rs' k, Live text c' rs' s' ∧ c' ++ rs' = (c ++ rs).drop k ∧ rs' <:+ rs ∧ s'.file.left = s.file.left.drop (k - (c ++ rs).length)

theorem step_live {text : List Nat} {c rs : List (List Nat)} {s s' : Lx} (h : Live text c rs s) (hs : s.step = .ok s') : Took text c rs s s' := by
  obtain ⟨c1, rs1, h1, e1, e2, e3, e4, e5⟩ := switch_live h
  obtain ⟨c', k, h2, f1, f2, f3⟩ := moved_live h1 (step_moves s s' hs) e4 e5
  rw [e3] at f2
  by_cases hc : c1 = []
  · have hr := e5 hc
    subst hc; subst hr
    simp only [List.append_nil] at e1
    obtain ⟨pre, hp⟩ := f1
    obtain ⟨_, rfl⟩ := List.append_eq_nil_iff.mp hp
    refine ⟨[], [], k, h2, ?_, e2, ?_⟩
    · rw [← e1]; simp
    · rw [← e1, f2]; simp
  · have hk := f3 hc
    subst hk
    obtain ⟨pre, hp⟩ := f1
    refine ⟨c', rs1, pre.length, h2, ?_, e2, ?_⟩
    · rw [← e1, ← hp, List.append_assoc, List.drop_left]
    · have : pre.length - (c ++ rs).length = 0 := by
        rw [← e1, ← hp]; simp
      rw [this, f2]

theorem Took.trans {text : List Nat} {c rs : List (List Nat)} {s s1 s2 : Lx} (h : Took text c rs s s1)
    (h' : ∀ c' rs', Live text c' rs' s1 → Took text c' rs' s1 s2) : Took text c rs s s2 := by
  obtain ⟨c1, rs1, k, l1, e1, e2, e3⟩ := h
  obtain ⟨c2, rs2, k', l2, f1, f2, f3⟩ := h' c1 rs1 l1
  refine ⟨c2, rs2, k + k', l2, ?_, f2.trans e2, ?_⟩
  · rw [f1, e1, List.drop_drop]
  · rw [f3, e3, e1, List.drop_drop, List.length_drop]
    congr 1
    omega

theorem Took.refl {text : List Nat} {c rs : List (List Nat)} {s s' : Lx} (h : Live text c rs s) (h1 : s'.inBuf = s.inBuf) (h2 : s'.recs = s.recs)
    (h3 : s'.file = s.file) (h4 : s'.buf = s.buf) : Took text c rs s s' :=
  ⟨c, rs, 0, h.same h1 h2 h3 h4, rfl, ⟨[], rfl⟩, by rw [h3]; simp⟩

/-- The end of `nextToken`. -/
theorem pop_same (s : Lx) (t : Tok) (q : List Tok) :
    ({ (if t.ty = .eolln then s.setLastLinePos t.stop t.line else s) with queue := q } : Lx).inBuf = s.inBuf ∧
    ({ (if t.ty = .eolln then s.setLastLinePos t.stop t.line else s) with queue := q } : Lx).recs = s.recs ∧
    ({ (if t.ty = .eolln then s.setLastLinePos t.stop t.line else s) with queue := q } : Lx).file = s.file ∧
    ({ (if t.ty = .eolln then s.setLastLinePos t.stop t.line else s) with queue := q } : Lx).buf = s.buf := by
  split
  · exact ⟨rfl, rfl, rfl, rfl⟩
  · exact ⟨rfl, rfl, rfl, rfl⟩

theorem token_live {text : List Nat} {c rs : List (List Nat)} {s s' : Lx} {t : Tok} (h : Live text c rs s) (hs : s.nextToken = .ok (t, s')) :
    Took text c rs s s' := by
  generalize hn : s.total = n
  induction n using Nat.strongRecOn generalizing s c rs with
  | _ n ih =>
    rw [Lx.nextToken.eq_def] at hs
    cases hq : s.queue with
    | cons t' q =>
      rw [hq] at hs
      simp only [Except.ok.injEq, Prod.mk.injEq] at hs
      obtain ⟨_, rfl⟩ := hs
      obtain ⟨a, b, c, d⟩ := pop_same s t' q
      exact Took.refl h a b c d
    | nil =>
      rw [hq] at hs
      simp only at hs
      cases hst : s.step with
      | error e => rw [hst] at hs; cases hs
      | ok s1 =>
        rw [hst] at hs
        simp only [bind, Except.bind] at hs
        have h1 := step_live h hst
        cases hq1 : s1.queue with
        | cons t' q =>
          rw [hq1] at hs
          simp only [Except.ok.injEq, Prod.mk.injEq] at hs
          obtain ⟨_, rfl⟩ := hs
          obtain ⟨a, b, c, d⟩ := pop_same s1 t' q
          exact h1.trans fun c' rs' l => Took.refl l a b c d
        | nil =>
          rw [hq1] at hs
          simp only at hs
          split at hs
          · rename_i hlt
            exact h1.trans fun c' rs' l => ih _ (hn ▸ hlt) l hs rfl
          · cases hs

/-- Inserting a record. -/
theorem ainsert_live {text : List Nat} {c rs : List (List Nat)} {s : Lx} {r : List Nat} (h : Live text c rs s) (hr : Record r) (front : Bool) :
    ∃ s', s.ainsert r front = .ok s' ∧ Live text c (if front then r :: rs else rs ++ [r]) s' ∧ s'.file.left = s.file.left := by
  unfold Lx.ainsert
  rw [if_neg hr.1]
  simp only
  obtain ⟨s1, e1, f1, f2, f3, f4, f5, f6⟩ := lineStart_eq (s := { s with recs := if front then (padded r ++ [10]) :: s.recs else s.recs ++ [padded r ++ [10]] }) h.at_
  have hb := h.at_.bound
  refine ⟨{ s1 with queue := [], eofGen := false }, ?_, ⟨f1.trans h.data, .zero ?_ f3, ?_, ?_, ?_, ?_, fun _ => f3, ?_, h.one, ?_, ?_⟩, ?_⟩
  · change (Lx.lineStart _ >>= _) = _
    unfold padded at e1
    rw [e1]; rfl
  · show s1.file.p ≤ s1.file.data.length
    rw [f1, f2]
    show s.file.p - s.file.col ≤ s.file.data.length
    omega
  · show At s1.buf
    rw [f4]; exact h.bufAt
  · show Terminated s1.buf.data
    rw [f4]; exact h.bufTerm
  · show ∀ x ∈ s1.buf.data, x ≠ 13
    rw [f4]; exact h.bufCr
  · show s1.inBuf = false → s1.buf.cur = none
    rw [f5, f4]; exact h.mode
  · show s1.buf.left = _
    rw [f4]; exact h.cur
  · show s1.recs = _
    rw [f6]
    cases front
    · simp [h.recs]
    · simp [h.recs]
  · intro x hx
    cases front
    · simp only [Bool.false_eq_true, if_false, List.mem_append, List.mem_singleton] at hx
      rcases hx with hx | hx | hx
      · exact h.good x (by simp [hx])
      · exact h.good x (by simp [hx])
      · rw [hx]; exact hr
    · simp only [if_true, List.mem_append, List.mem_cons] at hx
      rcases hx with hx | hx | hx
      · exact h.good x (by simp [hx])
      · rw [hx]; exact hr
      · exact h.good x (by simp [hx])
  · show s1.file.left = _
    rw [Inp.left, f3, f1, f2, Nat.sub_zero]; rfl

/-- Reading a record. -/
theorem aread_live {text : List Nat} {c rs : List (List Nat)} {s : Lx} (h : Live text c rs s) (ht : Terminated text) (hcr : CrLf text) :
    (∃ r rs' s', c ++ rs = r :: rs' ∧ s.aread = .ok (some (padded r), s') ∧ Live text [] rs' s' ∧ s'.file.left = s.file.left) ∨
    (c = [] ∧ rs = [] ∧ s.file.left = [] ∧ ∃ s', s.aread = .ok (none, s') ∧ Live text [] [] s' ∧ s'.file.left = []) ∨
    (∃ l s', c = [] ∧ rs = [] ∧ s.file.left = l :: s'.file.left ∧ s.aread = .ok (some (fileRecord l), s') ∧ Live text [] [] s') := by
  obtain ⟨c1, rs1, h1, e1, -, e3, e4, e5⟩ := switch_live h
  unfold Lx.aread
  simp only [bind, Except.bind, pure, Except.pure]
  rw [← e1, ← e3]
  generalize s.switchStreams = s1 at h1 e3 e4 e5 ⊢
  cases c1 with
  | cons r c2 =>
    left
    obtain rfl : c2 = [] := by
      have := h1.one
      simp only [List.length_cons] at this
      exact List.length_eq_zero_iff.mp (by omega)
    have hi := e4.mpr (by simp)
    have hb : s1.buf.cur ≠ none := by
      intro e; simpa using h1.noCur.mp e
    have hf0 := h1.between (.inr (by simp))
    have hr := h1.good r (by simp)
    have hls : s1.lineStart = .ok s1 := by unfold Lx.lineStart; rw [if_neg (by simpa using hf0)]
    rw [if_neg (by
      unfold Lx.eof
      cases hx : s1.buf.cur with
      | none => exact absurd hx hb
      | some _ => simp), hls]
    simp only
    -- the start of the record
    have hbs : ∃ s2, s1.bufStart.startToken = s2 ∧ s2.inBuf = true ∧ s2.recs = s1.recs ∧ s2.file = s1.file ∧ s2.buf.data = s1.buf.data ∧
        s2.buf.p = s1.buf.p - s1.buf.col ∧ s2.buf.col = 0 := by
      refine ⟨_, rfl, ?_⟩
      unfold Lx.bufStart
      by_cases hz : s1.buf.col = 0
      · rw [if_neg (by simp [hz])]
        refine ⟨hi, rfl, rfl, rfl, ?_, hz⟩
        show s1.buf.p = _
        omega
      · rw [if_pos ⟨hi, hz⟩]
        exact ⟨hi, rfl, rfl, rfl, rfl, rfl⟩
    obtain ⟨s2, g0, g1, g2, g3, g4, g5, g6⟩ := hbs
    rw [g0]
    have hpl := mt (Inp.cur_none_iff s1.buf).mpr hb
    have hleft : s2.buf.left = [padded r] := by
      rw [Inp.left, g6, Nat.sub_zero, g4, g5]
      exact h1.cur
    obtain ⟨l, k1, k2, k3, k4, k5⟩ := read_line (s := s2) (i := s2.buf) (by simp [Lx.cur, g1]) g6 (by rw [g4]; exact h1.bufTerm)
      (by rw [g4]; exact h1.bufCrLf) (by rw [g4, g5]; omega) (by rw [Ne, Inp.cur_none_iff, g4, g5]; omega)
    rw [hleft] at k1
    simp only [List.cons.injEq] at k1
    rw [k2]
    simp only
    rw [k3, ← k1.1, strip_clean fun x hx => (padded_clean hr x hx).2, if_neg (padded_ne hr)]
    have hset : s2.setCur s2.buf.nextLine = { s2 with buf := s2.buf.nextLine } := by unfold Lx.setCur; rw [if_pos g1]
    rw [hset]
    obtain ⟨a1, a2, a3⟩ := areadEnd_eq { s2 with buf := s2.buf.nextLine }
    have hl : Live text [] rs1 { s2 with buf := s2.buf.nextLine } := by
      refine ⟨?_, ?_, k4, ?_, ?_, ?_, ?_, ?_, by simp, ?_, ?_⟩
      · show s2.file.data = _; rw [g3]; exact h1.data
      · show At s2.file; rw [g3]; exact h1.at_
      · show Terminated s2.buf.nextLine.data; rw [Inp.nextLine_data, g4]; exact h1.bufTerm
      · show ∀ x ∈ s2.buf.nextLine.data, _; rw [Inp.nextLine_data, g4]; exact h1.bufCr
      · intro e; change s2.inBuf = false at e; rw [g1] at e; simp at e
      · intro _; show s2.file.col = 0; rw [g3]; exact hf0
      · show s2.buf.nextLine.left = _; rw [← k1.2]; rfl
      · show s2.recs = _; rw [g2]; exact h1.recs
      · intro x hx; exact h1.good x (by simp at hx; simp [hx])
    refine ⟨r, rs1, _, rfl, rfl, hl.same a1.inBuf a1.recs a2 a3, ?_⟩
    rw [a2]
    show s2.file.left = _
    rw [g3]
  | nil =>
    right
    have hr := e5 rfl
    subst hr
    have hcr0 : c ++ rs = [] := by rw [← e1]; rfl
    obtain ⟨hc, hrs⟩ := List.append_eq_nil_iff.mp hcr0
    have hb := h1.noCur.mpr rfl
    have hi : s1.inBuf = false := by
      cases hx : s1.inBuf with
      | false => rfl
      | true => exact absurd rfl (e4.mp hx)
    by_cases hn : s1.file.cur = none
    · left
      have hl := (terminated_end (by rw [h1.data]; exact ht) h1.at_ hn).1
      refine ⟨hc, hrs, hl, s1, ?_, h1, hl⟩
      rw [if_pos (by simp [Lx.eof, hb, hn])]
    · right
      rw [if_neg (by
        unfold Lx.eof
        cases hx : s1.file.cur with
        | none => exact absurd hx hn
        | some _ => simp)]
      obtain ⟨s2, g0, g1, g2, g3, g4, g5, g6⟩ := lineStart_eq h1.at_
      rw [g0]
      simp only
      have hbs : s2.bufStart = s2 := by unfold Lx.bufStart; rw [if_neg (by simp [g5, hi])]
      rw [hbs]
      have hpl := mt (Inp.cur_none_iff s1.file).mpr hn
      have hi2 : s2.startToken.inBuf = false := g5.trans hi
      obtain ⟨l, k1, k2, k3, k4, k5⟩ := read_line (s := s2.startToken) (i := s2.file) (by rw [Lx.cur, hi2]; rfl) g3 (by rw [g1, h1.data]; exact ht)
        (by rw [g1, h1.data]; exact hcr) (by rw [g1, g2]; omega) (by rw [Ne, Inp.cur_none_iff, g1, g2]; omega)
      rw [k2]
      simp only
      rw [k3]
      have hset : s2.startToken.setCur s2.file.nextLine = { s2.startToken with file := s2.file.nextLine } := by
        unfold Lx.setCur; rw [if_neg (by simp [hi2])]
      rw [hset]
      obtain ⟨a1, a2, a3⟩ := areadEnd_eq { s2.startToken with file := s2.file.nextLine }
      have hl : Live text [] [] { s2.startToken with file := s2.file.nextLine } := by
        refine ⟨?_, k4, ?_, ?_, ?_, ?_, by simp, ?_, by simp, ?_, by simp⟩
        · show s2.file.nextLine.data = _; rw [Inp.nextLine_data, g1]; exact h1.data
        · show At s2.buf; rw [g4]; exact h1.bufAt
        · show Terminated s2.buf.data; rw [g4]; exact h1.bufTerm
        · show ∀ x ∈ s2.buf.data, _; rw [g4]; exact h1.bufCr
        · intro _; show s2.buf.cur = none; rw [g4]; exact hb
        · show s2.buf.left = _; rw [g4]; exact h1.cur
        · show s2.recs = _; rw [g6]; exact h1.recs
      refine ⟨l, _, hc, hrs, ?_, rfl, hl.same a1.inBuf a1.recs a2 a3⟩
      rw [a2]
      show s1.file.left = l :: s2.file.nextLine.left
      rw [← k1, Inp.left, Inp.left, g3, g1, g2, Nat.sub_zero]

end Verif.Lexing
