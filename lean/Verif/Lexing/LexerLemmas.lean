import Verif.Lexing.Lexer
/-!
Lemmas about the tokeniser on the file alone (no inserted records).
-/
namespace Verif.Lexing

/-! ### Advancing in a stream -/

/-- Consume `n` characters. -/
def Inp.adv : Nat → Inp → Inp
  | 0, i => i
  | n + 1, i => (adv n i).consume

theorem Inp.consume_none {i : Inp} (h : i.cur = none) : i.consume = i := by simp [Inp.consume, h]

@[simp] theorem Inp.consume_data (i : Inp) : i.consume.data = i.data := by
  unfold Inp.consume; split <;> rfl

theorem Inp.consume_p {i : Inp} (h : i.cur ≠ none) : i.consume.p = i.p + 1 := by
  obtain ⟨c, hc⟩ := Option.ne_none_iff_exists'.mp h
  simp [Inp.consume, hc]

theorem Inp.cur_none_iff (i : Inp) : i.cur = none ↔ i.data.length ≤ i.p := by
  simp [Inp.cur]

@[simp] theorem Inp.adv_data (n : Nat) (i : Inp) : (i.adv n).data = i.data := by
  induction n with
  | zero => rfl
  | succ n ih => simp [Inp.adv, ih]

theorem Inp.adv_p (n : Nat) (i : Inp) (h : i.p + n ≤ i.data.length) : (i.adv n).p = i.p + n := by
  induction n with
  | zero => rfl
  | succ n ih =>
    have ih := ih (by omega)
    rw [Inp.adv, Inp.consume_p, ih]; · omega
    · rw [Ne, Inp.cur_none_iff, Inp.adv_data, ih]; omega

theorem Inp.adv_add (m n : Nat) (i : Inp) : i.adv (n + m) = (i.adv n).adv m := by
  induction m with
  | zero => rfl
  | succ m ih => rw [← Nat.add_assoc, Inp.adv, ih, Inp.adv]

theorem Inp.adv_succ' (n : Nat) (i : Inp) : i.adv (n + 1) = i.consume.adv n := by
  rw [Nat.add_comm, Inp.adv_add]; rfl

theorem Inp.adv_cur (n : Nat) (i : Inp) (h : i.p + n ≤ i.data.length) : (i.adv n).cur = i.data[i.p + n]? := by
  rw [Inp.cur, Inp.adv_data, Inp.adv_p n i h]

/-- `j` is a later position in the stream than `i`, or the same. -/
def Inp.Le (i j : Inp) : Prop := ∃ n, j = i.adv n ∧ i.p + n ≤ i.data.length

theorem Inp.Le.refl {i : Inp} (h : i.p ≤ i.data.length) : i.Le i := ⟨0, rfl, h⟩

theorem Inp.Le.trans {i j k : Inp} (h : i.Le j) (h' : j.Le k) : i.Le k := by
  obtain ⟨n, rfl, hn⟩ := h
  obtain ⟨m, rfl, hm⟩ := h'
  refine ⟨n + m, (Inp.adv_add m n i).symm, ?_⟩
  rw [Inp.adv_data, Inp.adv_p n i hn] at hm
  omega

theorem Inp.Le.consume {i : Inp} (h : i.cur ≠ none) : i.Le i.consume :=
  ⟨1, rfl, by rw [Ne, Inp.cur_none_iff] at h; omega⟩

theorem Inp.Le.data {i j : Inp} (h : i.Le j) : j.data = i.data := by
  obtain ⟨n, rfl, _⟩ := h; simp

theorem Inp.Le.p {i j : Inp} (h : i.Le j) : i.p ≤ j.p := by
  obtain ⟨n, rfl, hn⟩ := h; rw [Inp.adv_p n i hn]; omega

theorem Inp.Le.bound {i j : Inp} (h : i.Le j) : j.p ≤ j.data.length := by
  obtain ⟨n, rfl, hn⟩ := h; rw [Inp.adv_p n i hn, Inp.adv_data]; exact hn

theorem Inp.Le.eq {i j : Inp} (h : i.Le j) (hp : i.p = j.p) : i = j := by
  obtain ⟨n, rfl, hn⟩ := h
  rw [Inp.adv_p n i hn] at hp
  obtain rfl : n = 0 := by omega
  rfl

/-- A loop `while (P) consume()` that also stops at the end of the stream. -/
def Inp.skip (P : Inp → Bool) (i : Inp) : Inp :=
  if _h : P i = true ∧ i.cur ≠ none then Inp.skip P i.consume else i
termination_by i.data.length - i.p
decreasing_by exact Inp.consume_lt _h.2

theorem Inp.skip_of {P : Inp → Bool} {i : Inp} (h : P i = true) (hc : i.cur ≠ none) : i.skip P = i.consume.skip P := by
  rw [Inp.skip, dif_pos ⟨h, hc⟩]

theorem Inp.skip_stop {P : Inp → Bool} {i : Inp} (h : P i = false ∨ i.cur = none) : i.skip P = i := by
  rw [Inp.skip, dif_neg]
  rintro ⟨h1, h2⟩
  rcases h with h | h
  · simp [h] at h1
  · exact h2 h

theorem Inp.skip_le (P : Inp → Bool) (i : Inp) (hi : i.p ≤ i.data.length) : i.Le (i.skip P) := by
  fun_induction Inp.skip P i with
  | case1 i h ih =>
    refine (Inp.Le.consume h.2).trans (ih ?_)
    have := mt (Inp.cur_none_iff i).mpr h.2
    rw [Inp.consume_p h.2, Inp.consume_data]; omega
  | case2 i h => exact Inp.Le.refl hi

theorem Inp.skip_end (P : Inp → Bool) (i : Inp) : P (i.skip P) = false ∨ (i.skip P).cur = none := by
  fun_induction Inp.skip P i with
  | case1 i h ih => exact ih
  | case2 i h =>
    by_cases hp : P i = true
    · right
      by_cases hc : i.cur = none
      · exact hc
      · exact absurd ⟨hp, hc⟩ h
    · left; simpa using hp

/-! ### The tokeniser on the file alone -/

/-- No inserted records: the state of a tokeniser that has not seen AINSERT. -/
structure FileOnly (s : Lx) : Prop where
  inBuf : s.inBuf = false
  buf : s.buf.cur = none
  recs : s.recs = []
  bound : s.file.p ≤ s.file.data.length

namespace FileOnly
variable {s : Lx} (h : FileOnly s)
include h

theorem cur : s.cur = s.file := by simp [Lx.cur, h.inBuf]
theorem c : s.c = s.file.cur := by simp [Lx.c, h.cur]
theorem col : s.col = s.file.col := by simp [Lx.col, h.cur]
theorem eof : s.eof = s.file.cur.isNone := by simp [Lx.eof, h.buf]
theorem consume : s.consume = { s with file := s.file.consume } := by simp [Lx.consume, h.inBuf]
theorem left : s.left = s.file.data.length - s.file.p := by simp [Lx.left, h.cur]
theorem beforeEnd : s.beforeEnd = (decide (s.file.col < s.endCol) || (s.cfg.unlimited && s.file.cur != some 13 && s.file.cur != some 10)) := by
  simp [Lx.beforeEnd, h.col, h.c, h.inBuf]

theorem setFile {i : Inp} (hi : i.p ≤ i.data.length) : FileOnly { s with file := i } := ⟨h.inBuf, h.buf, h.recs, hi⟩

theorem consumed : FileOnly s.consume := by
  rw [h.consume]
  refine h.setFile ?_
  by_cases hc : s.file.cur = none
  · rw [Inp.consume_none hc]; exact h.bound
  · rw [Inp.consume_p hc, Inp.consume_data]
    have := mt (Inp.cur_none_iff _).mpr hc
    omega

end FileOnly

/-! ### Tokens -/

/-- The token from `i` to `j`. -/
def tok (ty : Ty) (hidden : Bool) (i j : Inp) : Tok := ⟨ty, hidden, false, i.p, j.p, i.line, i.col, i.col16, j.col16⟩

/-- What `create_token` puts in the queue. -/
def emit (ty : Ty) (hidden : Bool) (i j : Inp) : List Tok :=
  if i.p = j.p ∧ ty ≠ .eof ∧ ty ≠ .eolln then [] else [tok ty hidden i j]

/-- The state `s'` is reached from `s` with the file at `j`, the tokens `ts` having been added. -/
structure Out (s s' : Lx) (j : Inp) (ts : List Tok) : Prop where
  fo : FileOnly s'
  cfg : s'.cfg = s.cfg
  endCol : s'.endCol = s.endCol
  file : s'.file = j
  queue : s'.queue = s.queue ++ ts
  same : s'.buf = s.buf

/-- The start of the current token is at `i` in the file. -/
def StartAt (s : Lx) (i : Inp) : Prop := s.start = i ∧ s.startBuf = false

theorem Out.trans {s s' s'' : Lx} {j j' : Inp} {ts ts' : List Tok} (h : Out s s' j ts) (h' : Out s' s'' j' ts') :
    Out s s'' j' (ts ++ ts') :=
  ⟨h'.fo, h'.cfg.trans h.cfg, h'.endCol.trans h.endCol, h'.file, by rw [h'.queue, h.queue, List.append_assoc], h'.same.trans h.same⟩

theorem Out.refl {s : Lx} (h : FileOnly s) : Out s s s.file [] := ⟨h, rfl, rfl, rfl, by simp, rfl⟩

theorem startToken_out {s : Lx} (h : FileOnly s) : Out s s.startToken s.file [] ∧ StartAt s.startToken s.file :=
  ⟨⟨⟨h.inBuf, h.buf, h.recs, h.bound⟩, rfl, rfl, rfl, by simp [Lx.startToken], rfl⟩, by simp [StartAt, Lx.startToken, h.cur, h.inBuf]⟩

theorem consume_out {s : Lx} (h : FileOnly s) : Out s s.consume s.file.consume [] ∧ ∀ i, StartAt s i → StartAt s.consume i := by
  have := h.consumed
  rw [h.consume] at this ⊢
  exact ⟨⟨this, rfl, rfl, rfl, by simp, rfl⟩, fun i h => h⟩

theorem createToken_out {s : Lx} {i : Inp} (h : FileOnly s) (hs : StartAt s i) (ty : Ty) (hid : Bool) :
    Out s (s.createToken ty hid) s.file (emit ty hid i s.file) ∧ StartAt (s.createToken ty hid) i := by
  obtain ⟨rfl, hb⟩ := hs
  by_cases he : ty = .eof
  · subst he
    simp only [Lx.createToken, if_true, hb, emit]
    refine ⟨⟨⟨?_, ?_, ?_, ?_⟩, ?_, ?_, ?_, ?_, ?_⟩, ?_, ?_⟩ <;> simp [h.inBuf, h.buf, h.recs, h.bound, tok, Lx.cur, hb]
  · simp only [Lx.createToken, if_neg he, hb, emit]
    by_cases hp : s.start.p = s.file.p ∧ ty ≠ .eof ∧ ty ≠ .eolln
    · rw [if_pos (by simpa using hp), if_pos hp]
      exact ⟨⟨h, rfl, rfl, rfl, by simp, rfl⟩, rfl, hb⟩
    · rw [if_neg (by simpa using hp), if_neg hp]
      refine ⟨⟨⟨?_, ?_, ?_, ?_⟩, ?_, ?_, ?_, ?_, ?_⟩, ?_, ?_⟩ <;> simp [h.inBuf, h.buf, h.recs, h.bound, tok, Lx.cur, hb]

/-- On the file alone a loop that stops at the end of the input does not hang. -/
theorem skipWhile_out {cond : Lx → Bool} {P : Inp → Bool} {s : Lx} (h : FileOnly s)
    (hc : ∀ s' : Lx, FileOnly s' → s'.cfg = s.cfg → s'.endCol = s.endCol → cond s' = (P s'.file && s'.file.cur.isSome)) :
    ∃ s', skipWhile cond s = .ok s' ∧ Out s s' (s.file.skip P) [] ∧ ∀ i, StartAt s i → StartAt s' i := by
  generalize hn : s.file.data.length - s.file.p = n
  induction n using Nat.strongRecOn generalizing s with
  | _ n ih =>
    rw [skipWhile, hc s h rfl rfl]
    by_cases hs : P s.file = true ∧ s.file.cur ≠ none
    · rw [if_pos (by simpa [Option.isSome_iff_ne_none] using hs), dif_neg (by rw [h.c]; exact hs.2)]
      obtain ⟨o1, t1⟩ := consume_out h
      obtain ⟨s', e, o2, t2⟩ := ih _ (by rw [← hn]; rw [o1.file]; exact Inp.consume_lt hs.2) o1.fo
        (fun s' f c e => hc s' f (c.trans o1.cfg) (e.trans o1.endCol)) rfl
      refine ⟨s', e, ?_, fun i hi => t2 i (t1 i hi)⟩
      have := o1.trans o2
      rw [o1.file] at this
      rw [Inp.skip_of hs.1 hs.2]
      exact this
    · rw [if_neg (by simpa [Option.isSome_iff_ne_none] using hs), Inp.skip_stop]
      · exact ⟨s, rfl, Out.refl h, fun i h => h⟩
      · by_cases hp : P s.file = true
        · right
          by_cases hcur : s.file.cur = none
          · exact hcur
          · exact absurd ⟨hp, hcur⟩ hs
        · left; simpa using hp

/-- A loop followed by a token, as most of the functions are. -/
theorem skip_token {cond : Lx → Bool} {s : Lx} (P : Inp → Bool) (h : FileOnly s)
    (hc : ∀ s' : Lx, FileOnly s' → s'.cfg = s.cfg → s'.endCol = s.endCol → cond s' = (P s'.file && s'.file.cur.isSome)) :
    ∃ s', skipWhile cond s.startToken = .ok s' ∧ Out s s' (s.file.skip P) [] ∧ StartAt s' s.file ∧
      ∀ ty hid, Out s (s'.createToken ty hid) (s.file.skip P) (emit ty hid s.file (s.file.skip P)) ∧ StartAt (s'.createToken ty hid) s.file := by
  obtain ⟨o1, t1⟩ := startToken_out h
  obtain ⟨s', e, o2, t2⟩ := skipWhile_out (P := P) o1.fo (fun s' f c e => hc s' f (c.trans o1.cfg) (e.trans o1.endCol))
  have o := o1.trans o2
  rw [o1.file] at o
  refine ⟨s', e, o, t2 _ t1, fun ty hid => ?_⟩
  obtain ⟨o3, t3⟩ := createToken_out o.fo (t2 _ t1) ty hid
  have := o.trans o3
  rw [o.file] at this
  exact ⟨this, t3⟩

/-- The rest of the line: up to the newline or the end of the input. -/
def Inp.lineEnd (i : Inp) : Inp := i.skip fun i => i.cur != some 10

/-- Past the newline. -/
def Inp.nextLine (i : Inp) : Inp := i.lineEnd.consume

theorem Inp.lineEnd_le {i : Inp} (h : i.p ≤ i.data.length) : i.Le i.lineEnd := Inp.skip_le _ _ h

theorem Inp.nextLine_le {i : Inp} (h : i.p ≤ i.data.length) : i.Le i.nextLine := by
  have := Inp.lineEnd_le h
  by_cases hc : i.lineEnd.cur = none
  · rw [Inp.nextLine, Inp.consume_none hc]; exact this
  · exact this.trans (Inp.Le.consume hc)

/-- Tokens of `lex_end`: the line end (if asked for and the input goes on), then everything skipped as ignored. -/
def endToks (eolln : Bool) (i : Inp) : List Tok :=
  (if i.lineEnd.cur ≠ none ∧ eolln = true then [tok .eolln false i i.nextLine] else []) ++ emit .ignored true i i.nextLine

/-- `lex_end` reads to the next line. -/
theorem lexEnd_out {s : Lx} (h : FileOnly s) (e : Bool) :
    ∃ s', s.lexEnd e = .ok s' ∧ Out s s' s.file.nextLine (endToks e s.file) ∧ StartAt s' s.file := by
  unfold Lx.lexEnd
  obtain ⟨s1, e1, o1, t1, _⟩ := skip_token (s := s) (cond := fun s => s.c != some 10 && !s.eof && s.c != none)
    (fun i => i.cur != some 10) h (by
      intro s' f _ _; rw [f.c, f.eof]; cases s'.file.cur <;> simp)
  rw [e1]
  simp only [bind, Except.bind, pure, Except.pure]
  have hfile : s1.file = s.file.lineEnd := o1.file
  by_cases hc : s.file.lineEnd.cur = none
  · have hn : s.file.nextLine = s.file.lineEnd := by rw [Inp.nextLine, Inp.consume_none hc]
    rw [if_neg (by rw [o1.fo.eof, hfile]; simp [hc])]
    obtain ⟨o2, t2⟩ := createToken_out o1.fo t1 .ignored true
    have := o1.trans o2
    refine ⟨_, rfl, ⟨this.fo, this.cfg, this.endCol, ?_, ?_, this.same⟩, t2⟩
    · rw [this.file, hn]; exact hfile
    · rw [this.queue, endToks, if_neg (by simp [hc]), hn, hfile]
  · rw [if_pos (by rw [o1.fo.eof, hfile]; simp [Option.isSome_iff_ne_none, hc])]
    have h3 : FileOnly { s1 with lastLinePos := s1.col } := ⟨o1.fo.inBuf, o1.fo.buf, o1.fo.recs, o1.fo.bound⟩
    have t3 : StartAt { s1 with lastLinePos := s1.col } s.file := t1
    have o3 : Out s { s1 with lastLinePos := s1.col } s.file.lineEnd [] := ⟨h3, o1.cfg, o1.endCol, o1.file, o1.queue, o1.same⟩
    generalize ({ s1 with lastLinePos := s1.col } : Lx) = s2 at h3 t3 o3 ⊢
    obtain ⟨o4, t4⟩ := consume_out h3
    have t4 := t4 _ t3
    have o4 := o3.trans o4
    rw [o3.file] at o4
    cases e with
    | false =>
      obtain ⟨o5, t5⟩ := createToken_out o4.fo t4 .ignored true
      have := o4.trans o5
      refine ⟨_, rfl, ⟨this.fo, this.cfg, this.endCol, ?_, ?_, this.same⟩, t5⟩
      · exact this.file.trans o4.file
      · simp only [Bool.false_eq_true, if_false]
        rw [this.queue, endToks, if_neg (by simp), o4.file]; rfl
    | true =>
      simp only [if_true]
      obtain ⟨o5, t5⟩ := createToken_out o4.fo t4 .eolln false
      have o5 := o4.trans o5
      obtain ⟨o6, t6⟩ := createToken_out o5.fo t5 .ignored true
      have := o5.trans o6
      refine ⟨_, rfl, ⟨this.fo, this.cfg, this.endCol, ?_, ?_, this.same⟩, t6⟩
      · rw [this.file, o5.file, o4.file]; rfl
      · rw [this.queue, endToks, if_pos (by simp [hc]), o5.file, o4.file]
        simp [emit, Inp.nextLine]

/-- With begin column 0, `lex_begin` does nothing. -/
theorem lexBegin_out {s : Lx} (h : FileOnly s) (hb : s.cfg.beginCol = 0) : ∃ s', s.lexBegin = .ok s' ∧ Out s s' s.file [] := by
  unfold Lx.lexBegin
  obtain ⟨s', e1, _, _, o⟩ := skip_token (s := s) (cond := fun s => decide (s.col < s.cfg.beginCol) && !s.eof && s.c != some 10)
    (fun _ => false) h (by intro s' f c _; simp [c, hb])
  rw [e1]
  have o := (o .ignored true).1
  rw [Inp.skip_stop (.inl rfl)] at o
  refine ⟨_, rfl, ⟨o.fo, o.cfg, o.endCol, o.file, ?_, o.same⟩⟩
  rw [o.queue]; simp [emit]

/-- Past the continuation column. -/
def Inp.contChar (E : Nat) (i : Inp) : Inp := i.skip fun i => decide (i.col ≤ E)

/-- To the continue column of this line. -/
def Inp.toCont (K : Nat) (i : Inp) : Inp := i.skip fun i => decide (i.col < K) && i.cur != some 10

/-- Where reading goes on after a continuation. -/
def Inp.afterCont (E K : Nat) (i : Inp) : Inp := (i.contChar E).nextLine.toCont K

/-- Tokens of `lex_continuation`. -/
def contToks (E K : Nat) (i : Inp) : List Tok :=
  emit .continuation true i (i.contChar E) ++ endToks false (i.contChar E) ++
    emit .ignored true (i.contChar E).nextLine (i.afterCont E K)

/-- `lex_continuation` reads the continuation character, the rest of the line and the next line up to the continue column. -/
theorem lexContinuation_out {s : Lx} (h : FileOnly s) (hb : s.cfg.beginCol = 0) (he : s.endCol = s.cfg.endDefault) :
    ∃ s', s.lexContinuation = .ok s' ∧ Out s s' (s.file.afterCont s.cfg.endDefault s.cfg.contCol)
      (contToks s.cfg.endDefault s.cfg.contCol s.file) := by
  unfold Lx.lexContinuation
  obtain ⟨s1, e1, o1, t1, _⟩ := skip_token (s := s) (cond := fun s => decide (s.col ≤ s.cfg.endDefault) && !s.eof)
    (fun i => decide (i.col ≤ s.cfg.endDefault)) h (by
      intro s' f c _; rw [f.col, f.eof, c]; cases s'.file.cur <;> simp)
  rw [e1]
  simp only [bind, Except.bind, pure, Except.pure]
  have h2 : FileOnly { s1 with endCol := s1.cfg.endDefault } := ⟨o1.fo.inBuf, o1.fo.buf, o1.fo.recs, o1.fo.bound⟩
  have t2 : StartAt { s1 with endCol := s1.cfg.endDefault } s.file := t1
  have o2 : Out s { s1 with endCol := s1.cfg.endDefault } (s.file.contChar s.cfg.endDefault) [] :=
    ⟨h2, o1.cfg, by rw [he, ← o1.cfg], o1.file, o1.queue, o1.same⟩
  generalize ({ s1 with endCol := s1.cfg.endDefault } : Lx) = s2 at h2 t2 o2 ⊢
  obtain ⟨o3, t3⟩ := createToken_out h2 t2 .continuation true
  have o3 := o2.trans o3
  rw [o2.file] at o3
  obtain ⟨s4, e4, o4, _⟩ := lexEnd_out o3.fo false
  rw [e4]
  have o4 := o3.trans o4
  rw [o3.file] at o4
  simp only
  obtain ⟨s5, e5, o5⟩ := lexBegin_out o4.fo (by rw [o4.cfg]; exact hb)
  rw [e5]
  have o5 := o4.trans o5
  rw [o4.file] at o5
  simp only
  obtain ⟨s6, e6, _, _, o6⟩ := skip_token (s := s5) (cond := fun s => decide (s.col < s.cfg.contCol) && !s.eof && s.c != some 10)
    (fun i => decide (i.col < s.cfg.contCol) && i.cur != some 10) o5.fo (by
      intro s' f c _; rw [f.col, f.eof, f.c, c, o5.cfg]; cases s'.file.cur <;> simp)
  rw [e6]
  have o6 := o5.trans (o6 .ignored true).1
  rw [o5.file] at o6
  refine ⟨_, rfl, o6.fo, o6.cfg, o6.endCol, ?_, ?_, o6.same⟩
  · rw [o6.file]; rfl
  · rw [o6.queue]; simp [contToks, Inp.afterCont, Inp.toCont]

/-! ### Chains of tokens -/

/-- The tokens lead from `i` to `k` without gaps: each starts where the one before ended; only the part of a line after the end column
is covered twice, by the line end and by an ignored token. -/
inductive Chain : Inp → List Tok → Inp → Prop
  | nil (i : Inp) : Chain i [] i
  | tok {i j k : Inp} {ts : List Tok} (ty : Ty) (hid : Bool) : i.Le j → (i.p < j.p ∧ ty ≠ .eof) → Chain j ts k →
      Chain i (tok ty hid i j :: ts) k
  | line {i j k : Inp} {ts : List Tok} : i.Le j → i.p < j.p → Chain j ts k →
      Chain i (Lexing.tok .eolln false i j :: Lexing.tok .ignored true i j :: ts) k

theorem Chain.append {i j k : Inp} {ts us : List Tok} (h : Chain i ts j) (h' : Chain j us k) : Chain i (ts ++ us) k := by
  induction h with
  | nil => exact h'
  | tok ty hid h1 h2 _ ih => exact .tok ty hid h1 h2 (ih h')
  | line h1 h2 _ ih => exact .line h1 h2 (ih h')

theorem Chain.le {i k : Inp} {ts : List Tok} (h : Chain i ts k) (hi : i.p ≤ i.data.length) : i.Le k := by
  induction h with
  | nil i => exact .refl hi
  | tok ty hid h1 h2 _ ih => exact h1.trans (ih h1.bound)
  | line h1 h2 _ ih => exact h1.trans (ih h1.bound)

theorem emit_chain {i j : Inp} (h : i.Le j) (ty : Ty) (hid : Bool) (hy : ty ≠ .eof ∧ ty ≠ .eolln := by simp) :
    Chain i (emit ty hid i j) j := by
  unfold emit
  split <;> rename_i hc
  · obtain rfl := h.eq hc.1; exact .nil _
  · refine .tok ty hid h ?_ (.nil _)
    have := h.p
    have : i.p ≠ j.p := fun e => hc ⟨e, hy⟩
    exact ⟨by omega, hy.1⟩

theorem Inp.nextLine_lt {i : Inp} (hc : i.cur ≠ none) : i.p < i.nextLine.p := by
  have hb : i.p < i.data.length := by
    have := mt (Inp.cur_none_iff i).mpr hc; omega
  by_cases h10 : i.cur = some 10
  · have : i.lineEnd = i := Inp.skip_stop (.inl (by simp [h10]))
    rw [Inp.nextLine, this, Inp.consume_p hc]; omega
  · have : i.lineEnd = i.consume.lineEnd := Inp.skip_of (by simp [h10]) hc
    have h2 : i.nextLine = i.consume.nextLine := by rw [Inp.nextLine, this]; rfl
    have h3 : i.consume.p ≤ i.consume.data.length := by rw [Inp.consume_p hc, Inp.consume_data]; omega
    have := (Inp.nextLine_le h3).p
    rw [h2]
    rw [Inp.consume_p hc] at this
    omega

theorem endToks_chain {i : Inp} (e : Bool) (h : i.p ≤ i.data.length) : Chain i (endToks e i) i.nextLine := by
  unfold endToks
  split <;> rename_i hc
  · have hcur : i.cur ≠ none := by
      intro e1
      have : i.lineEnd = i := Inp.skip_stop (.inr e1)
      rw [this] at hc; exact hc.1 e1
    have hlt := Inp.nextLine_lt hcur
    have : emit .ignored true i i.nextLine = [tok .ignored true i i.nextLine] := by
      unfold emit; rw [if_neg]; omega
    rw [this]
    exact .line (Inp.nextLine_le h) hlt (.nil _)
  · exact emit_chain (Inp.nextLine_le h) _ _

theorem Inp.contChar_le {i : Inp} (E : Nat) (h : i.p ≤ i.data.length) : i.Le (i.contChar E) := Inp.skip_le _ _ h
theorem Inp.toCont_le {i : Inp} (K : Nat) (h : i.p ≤ i.data.length) : i.Le (i.toCont K) := Inp.skip_le _ _ h

theorem contToks_chain {i : Inp} (E K : Nat) (h : i.p ≤ i.data.length) : Chain i (contToks E K i) (i.afterCont E K) := by
  unfold contToks
  have h1 := Inp.contChar_le E h
  have h2 := Inp.nextLine_le h1.bound
  exact ((emit_chain h1 _ _).append (endToks_chain _ h1.bound)).append (emit_chain (Inp.toCont_le K h2.bound) _ _)

theorem Inp.afterCont_le {i : Inp} (E K : Nat) (h : i.p ≤ i.data.length) : i.Le (i.afterCont E K) :=
  (contToks_chain E K h).le h

/-- A continuation makes progress. -/
theorem Inp.afterCont_lt {i : Inp} (E K : Nat) (hc : i.cur ≠ none) : i.p < (i.afterCont E K).p := by
  have hb : i.p ≤ i.data.length := by
    have := mt (Inp.cur_none_iff i).mpr hc; omega
  have h1 := Inp.contChar_le E hb
  have h3 := Inp.toCont_le K (Inp.nextLine_le h1.bound).bound
  by_cases he : i.contChar E = i
  · have := Inp.nextLine_lt hc
    unfold Inp.afterCont
    rw [he] at h3 ⊢
    have := h3.p; omega
  · have : i.p ≠ (i.contChar E).p := fun e => he (h1.eq e).symm
    have := h1.p
    have := (Inp.nextLine_le h1.bound).p
    have := h3.p
    unfold Inp.afterCont
    omega

/-! ### Words and single characters -/

/-- A run of characters that are neither line ends nor past column `E` (unless lines are unlimited), nor at column 0 the start of a
comment. -/
inductive Run (u : Bool) (E : Nat) : Inp → Inp → Prop
  | refl (i : Inp) : Run u E i i
  | step {i j : Inp} (c : Nat) : i.cur = some c → c ≠ 10 → c ≠ 13 → (i.col < E ∨ u = true) →
      (i.col = 0 → c ≠ 42 ∧ ¬(c = 46 ∧ i.data[i.p + 1]? = some 42)) → Run u E i.consume j → Run u E i j

theorem Run.trans {u : Bool} {E : Nat} {i j k : Inp} (h : Run u E i j) (h' : Run u E j k) : Run u E i k := by
  induction h with
  | refl => exact h'
  | step c h1 h2 h3 h4 h5 _ ih => exact .step c h1 h2 h3 h4 h5 (ih h')

/-- Tokens on the default channel that are no line end. -/
def Plain (ts : List Tok) : Prop := ∀ t ∈ ts, t.hidden = false ∧ t.ty ≠ .eolln ∧ t.ty ≠ .eof

/-- What the functions for ordinary tokens do. -/
structure Ordinary (s s' : Lx) (j : Inp) (ts : List Tok) : Prop where
  out : Out s s' j ts
  chain : Chain s.file ts j
  lt : s.file.p < j.p
  plain : Plain ts
  run : Run s.cfg.unlimited s.endCol s.file j

theorem Run.le {u : Bool} {E : Nat} {i j : Inp} (h : Run u E i j) (hi : i.p ≤ i.data.length) : i.Le j := by
  induction h with
  | refl => exact .refl hi
  | step c h1 _ _ _ _ _ ih =>
    have := Inp.Le.consume (i := _) (by rw [h1]; exact Option.some_ne_none c)
    exact this.trans (ih this.bound)

theorem emit_plain {ty : Ty} {i j : Inp} (h1 : ty ≠ .eolln) (h2 : ty ≠ .eof) : Plain (emit ty false i j) := by
  unfold emit
  split
  · intro t ht; simp at ht
  · intro t ht; simp only [List.mem_singleton] at ht; subst ht; exact ⟨rfl, h1, h2⟩

/-- A loop over characters of which none is special is a run. -/
theorem skip_run {u : Bool} {E : Nat} (P : Inp → Bool) (i : Inp)
    (h0 : i.col = 0 → i.cur ≠ some 42 ∧ ¬(i.cur = some 46 ∧ i.data[i.p + 1]? = some 42))
    (hP : ∀ j, P j = true → j.cur ≠ none → j.cur ≠ some 10 ∧ j.cur ≠ some 13 ∧ (j.col < E ∨ u = true)) : Run u E i (i.skip P) := by
  fun_induction Inp.skip P i with
  | case1 i h ih =>
    obtain ⟨p1, p2, p3⟩ := hP i h.1 h.2
    obtain ⟨c, hc⟩ := Option.ne_none_iff_exists'.mp h.2
    refine .step c hc ?_ ?_ p3 ?_ (ih ?_)
    · rintro rfl; exact p1 hc
    · rintro rfl; exact p2 hc
    · intro e; have := h0 e; rw [hc] at this; simpa using this
    · intro e
      have : c ≠ 10 := by rintro rfl; exact p1 hc
      simp [Inp.consume, hc, this] at e
  | case2 i h => exact .refl i

theorem lexSpace_out {s : Lx} (h : FileOnly s) (hs : StartAt s s.file) (hc : s.file.cur = some 32) (hb : s.beforeEnd = true) :
    ∃ s' j ts, s.lexSpace = .ok s' ∧ Ordinary s s' j ts := by
  unfold Lx.lexSpace
  rw [h.beforeEnd] at hb
  let P : Inp → Bool := fun i => i.cur == some 32 && (decide (i.col < s.endCol) || (s.cfg.unlimited && i.cur != some 13 && i.cur != some 10))
  obtain ⟨s1, e1, o1, t1⟩ := skipWhile_out (s := s) (cond := fun s => s.c == some 32 && s.beforeEnd && !s.eof) (P := P) h (by
    intro s' f c e; rw [f.c, f.eof, f.beforeEnd, c, e]; cases hcur : s'.file.cur <;> simp [P, hcur])
  rw [e1]
  simp only [bind, Except.bind, pure, Except.pure]
  obtain ⟨o2, _⟩ := createToken_out o1.fo (t1 _ hs) .space false
  have o := o1.trans o2
  rw [o1.file] at o
  have hle := Inp.skip_le P s.file h.bound
  refine ⟨_, _, _, rfl, o, ?_, ?_, ?_, ?_⟩
  · exact emit_chain hle _ _
  · have hp : P s.file = true := by simpa [P, hc] using hb
    rw [Inp.skip_of hp (by simp [hc])]
    have h3 := h.consumed.bound
    rw [h.consume] at h3
    have h4 := (Inp.skip_le P s.file.consume h3).p
    rw [Inp.consume_p (by simp [hc])] at h4
    omega
  · exact emit_plain (by simp) (by simp)
  · refine skip_run _ _ (by intro _; simp [hc]) ?_
    intro j hj _
    simp [P] at hj
    refine ⟨by simp [hj.1], by simp [hj.1], hj.2.imp id fun h => h.1.1⟩

/-- The loop of `lex_word` on the file. -/
theorem wordLoop_out {s : Lx} (h : FileOnly s) (w : Word) (h0 : s.file.col = 0 → s.file.cur ≠ some 46) :
    ∃ s' w' b j, wordLoop s w = .ok (s', w', b) ∧ Out s s' j [] ∧ s.file.Le j ∧ (∀ i, StartAt s i → StartAt s' i) ∧
      (w.len = 0 → (!s.isSpaceChar && !s.eof && !s.divider && s.beforeEnd) = true → s.file.p < j.p) ∧
      Run s.cfg.unlimited s.endCol s.file j := by
  generalize hn : s.file.data.length - s.file.p = n
  induction n using Nat.strongRecOn generalizing s w with
  | _ n ih =>
    rw [wordLoop]
    by_cases hc : (!s.isSpaceChar && !s.eof && !s.divider && s.beforeEnd) = true
    · rw [if_pos hc]
      simp only
      split <;> rename_i hv
      · refine ⟨s, _, true, s.file, rfl, Out.refl h, .refl h.bound, fun _ h => h, ?_, .refl _⟩
        intro hl
        simp [hl] at hv
      · have hne : s.c ≠ none := by
          intro e
          rw [h.c] at e
          simp [h.eof, e] at hc
        rw [dif_neg hne]
        obtain ⟨o1, t1⟩ := consume_out h
        rw [h.c] at hne
        have hlt := Inp.consume_lt hne
        have hc' := hc
        simp only [Bool.and_eq_true, Bool.not_eq_true', Lx.isSpaceChar, Bool.or_eq_false_iff, beq_eq_false_iff_ne, ne_eq, h.c] at hc'
        obtain ⟨c, hcc⟩ := Option.ne_none_iff_exists'.mp hne
        have hn10 : c ≠ 10 := by rintro rfl; exact hc'.1.1.1.1.2 hcc
        obtain ⟨s', w', b, j, e, o2, l2, t2, _, r2⟩ := ih _ (by rw [← hn, o1.file]; exact hlt) o1.fo
          { ord := w.ord && ordChar s.c, num := w.num && digit s.c, lastAttr := dataAttr s.c, len := w.len + 1 } (by
            intro e; rw [o1.file] at e; simp [Inp.consume, hcc, hn10] at e) rfl
        refine ⟨s', w', b, j, e, ?_, ?_, fun i hi => t2 i (t1 i hi), ?_, ?_⟩
        · have := o1.trans o2; simpa using this
        · rw [o1.file] at l2; exact (Inp.Le.consume hne).trans l2
        · intro _ _
          rw [o1.file] at l2
          have := l2.p
          rw [Inp.consume_p hne] at this; omega
        · have hr := r2
          rw [o1.endCol, o1.file, o1.cfg] at hr
          have hbe := hc'.2
          rw [h.beforeEnd] at hbe
          simp only [Bool.or_eq_true, decide_eq_true_eq, Bool.and_eq_true] at hbe
          refine .step c hcc hn10 (by rintro rfl; exact hc'.1.1.1.2 hcc) (hbe.imp id fun h => h.1.1) ?_ hr
          intro e
          have hd := hc'.1.2
          simp only [Lx.divider, h.c, hcc] at hd
          refine ⟨by rintro rfl; simp at hd, ?_⟩
          rintro ⟨rfl, _⟩; exact h0 e hcc
    · rw [if_neg hc]
      exact ⟨s, w, false, s.file, rfl, Out.refl h, .refl h.bound, fun _ h => h, fun _ e => absurd e hc, .refl _⟩

theorem Run.col {u : Bool} {E : Nat} {i j : Inp} (h : Run u E i j) (hu : u = false) (hi : i.col ≤ E) : j.col ≤ E := by
  induction h with
  | refl => exact hi
  | step c h1 h2 _ h4 _ _ ih =>
    apply ih
    simp only [Inp.consume, h1, if_neg h2]
    rcases h4 with h4 | h4
    · omega
    · simp [hu] at h4

theorem Run.col_ne {u : Bool} {E : Nat} {i j : Inp} (h : Run u E i j) (hi : i.col ≠ 0 ∨ i.p < j.p) : j.col ≠ 0 := by
  induction h with
  | refl => rcases hi with h | h
            · exact h
            · omega
  | step c h1 h2 _ h4 _ _ ih =>
    apply ih
    left
    simp [Inp.consume, h1, if_neg h2]

theorem wordEnd_out {s : Lx} {i : Inp} (h : FileOnly s) (hs : StartAt s i) (hi : i.Le s.file) (w : Word)
    (hcol : s.cfg.unlimited = false → s.file.col ≤ s.endCol) :
    ∃ j ts, Out s (s.wordEnd w) j ts ∧ Chain i ts j ∧ s.file.Le j ∧ Plain ts ∧ Run s.cfg.unlimited s.endCol s.file j := by
  unfold Lx.wordEnd Lx.wordAttr
  have hy1 : wordTy w ≠ .eolln := by unfold wordTy; repeat' split
                                     all_goals simp
  have hy2 : wordTy w ≠ .eof := by unfold wordTy; repeat' split
                                   all_goals simp
  generalize wordTy w = ty at *
  obtain ⟨o1, t1⟩ := createToken_out h hs ty false
  generalize s.createToken ty = s1 at *
  have hfin : ∀ (s2 : Lx) (j : Inp) (ts : List Tok) (b : Bool), Out s s2 j ts → Out s (s2.wordFlag w b) j ts :=
    fun s2 j ts b o => ⟨⟨o.fo.inBuf, o.fo.buf, o.fo.recs, o.fo.bound⟩, o.cfg, o.endCol, o.file, o.queue, o.same⟩
  by_cases hg : (s1.c == some 39 && w.lastAttr && !s.creatingVar && decide (w.len = 1) && (s1.cfg.unlimited || decide (s1.col ≠ s1.endCol))) = true
  · rw [if_pos hg]
    simp only [Bool.and_eq_true, beq_iff_eq, o1.fo.c, o1.file, o1.fo.col, o1.endCol, o1.cfg] at hg
    have hc := hg.1.1.1.1
    obtain ⟨o2, t2⟩ := startToken_out o1.fo
    obtain ⟨o3, t3⟩ := consume_out o2.fo
    obtain ⟨o4, t4⟩ := createToken_out o3.fo (t3 _ t2) .attr false
    have o := ((o1.trans o2).trans o3).trans o4
    rw [o3.file, o2.file, o1.file] at o
    have hle : s.file.Le s.file.consume := .consume (by simp [hc])
    refine ⟨s.file.consume, _, hfin _ _ _ _ o, ?_, hle, ?_, ?_⟩
    · refine Chain.append (j := s.file) ?_ (emit_chain hle _ _)
      simpa using emit_chain hi ty false ⟨hy2, hy1⟩
    · intro t ht
      rcases List.mem_append.mp ht with ht | ht
      · exact emit_plain (j := s.file) (i := i) hy1 hy2 t (by simpa using ht)
      · exact emit_plain (by simp) (by simp) t ht
    · refine .step 39 hc (by omega) (by omega) ?_ (by simp) (.refl _)
      cases hu : s.cfg.unlimited with
      | true => right; rfl
      | false =>
        have h1 := hcol hu
        have h2 := hg.2
        rw [hu] at h2
        simp only [Bool.false_or, decide_eq_true_eq] at h2
        left; omega
  · rw [if_neg hg]
    exact ⟨s.file, _, hfin _ _ _ _ o1, emit_chain hi _ _ ⟨hy2, hy1⟩, .refl h.bound, emit_plain hy1 hy2, .refl _⟩

theorem lexWord_out {s : Lx} (h : FileOnly s) (hs : StartAt s s.file) (h0 : s.file.col = 0 → s.file.cur ≠ some 46)
    (hc : (!s.isSpaceChar && !s.eof && !s.divider && s.beforeEnd) = true) :
    ∃ s' j ts, s.lexWord = .ok s' ∧ Ordinary s s' j ts := by
  unfold Lx.lexWord
  obtain ⟨s1, w, b, j, e, o1, l1, t1, p1, r1⟩ := wordLoop_out h ⟨ordChar s.c && !digit s.c, digit s.c, false, 0⟩ h0
  rw [e]
  simp only [bind, Except.bind, pure, Except.pure]
  have hlt := p1 rfl hc
  have hbe : s.cfg.unlimited = false → s.file.col ≤ s.endCol := by
    intro hu
    simp only [Bool.and_eq_true] at hc
    have := hc.2
    rw [h.beforeEnd, hu] at this
    simp at this
    omega
  cases b with
  | true =>
    simp only [if_true]
    obtain ⟨o2, _⟩ := createToken_out o1.fo (t1 _ hs) .ordsymbol false
    have o := o1.trans o2
    rw [o1.file] at o
    exact ⟨_, j, _, rfl, o, emit_chain l1 _ _, hlt, emit_plain (by simp) (by simp), r1⟩
  | false =>
    simp only [Bool.false_eq_true, if_false]
    obtain ⟨k, ts, o2, c2, l2, p2, r2⟩ := wordEnd_out o1.fo (t1 _ hs) (by rw [o1.file]; exact l1) w (by
      intro hu
      rw [o1.cfg] at hu
      rw [o1.file, o1.endCol]
      exact r1.col hu (hbe hu))
    have o := o1.trans o2
    rw [o1.file] at l2
    refine ⟨_, k, _, rfl, o, by simpa using c2, ?_, by simpa using p2, ?_⟩
    · have := l2.p; omega
    · rw [o1.file, o1.endCol, o1.cfg] at r2
      exact r1.trans r2

theorem consume_token {s : Lx} (h : FileOnly s) (hs : StartAt s s.file) (ty : Ty) :
    Out s (s.consume.createToken ty) s.file.consume (emit ty false s.file s.file.consume) := by
  obtain ⟨o1, t1⟩ := consume_out h
  obtain ⟨o2, _⟩ := createToken_out o1.fo (t1 _ hs) ty false
  have := o1.trans o2
  rw [o1.file] at this
  exact this

theorem single_ne {c : Nat} {ty : Ty} (h : single c = some ty) : c ≠ 10 ∧ c ≠ 13 ∧ ty ≠ .eolln ∧ ty ≠ .eof := by
  unfold single at h
  split at h <;> simp at h <;> subst h <;> simp

/-- `lex_tokens` at an ordinary character. -/
theorem lexPlain_ordinary {s : Lx} (h : FileOnly s) (hs : StartAt s s.file) (hne : s.file.cur ≠ none)
    (h10 : s.file.cur ≠ some 10) (h13 : s.file.cur ≠ some 13) (hb : s.beforeEnd = true)
    (h0 : s.file.col = 0 → s.file.cur ≠ some 42 ∧ ¬(s.file.cur = some 46 ∧ s.file.data[s.file.p + 1]? = some 42)) :
    ∃ s' j ts, s.lexPlain = .ok s' ∧ Ordinary s s' j ts := by
  unfold Lx.lexPlain
  obtain ⟨c, hc⟩ := Option.ne_none_iff_exists'.mp hne
  rw [h.c, hc]
  simp only
  have hle : s.file.Le s.file.consume := .consume hne
  have hlt : s.file.p < s.file.consume.p := by rw [Inp.consume_p hne]; omega
  have hcol : s.file.col < s.endCol ∨ s.cfg.unlimited = true := by
    rw [h.beforeEnd] at hb
    simp only [Bool.or_eq_true, decide_eq_true_eq, Bool.and_eq_true] at hb
    exact hb.imp id fun h => h.1.1
  have run1 : Run s.cfg.unlimited s.endCol s.file s.file.consume := by
    refine .step c hc (by rintro rfl; exact h10 hc) (by rintro rfl; exact h13 hc) hcol ?_ (.refl _)
    intro e; have := h0 e; rw [hc] at this; simpa using this
  cases hsg : single c with
  | some ty =>
    simp only
    obtain ⟨_, _, y1, y2⟩ := single_ne hsg
    exact ⟨_, _, _, rfl, consume_token h hs ty, emit_chain hle _ _ ⟨y2, y1⟩, hlt, emit_plain y1 y2, run1⟩
  | none =>
    simp only
    by_cases e32 : c = 32
    · rw [if_pos e32]; subst e32; exact lexSpace_out h hs hc hb
    · rw [if_neg e32]
      by_cases e39 : c = 39
      · rw [if_pos e39]
        split
        · obtain ⟨o1, t1⟩ := consume_out h
          have o1' : Out s { s.consume with apostrophes := s.consume.apostrophes + 1 } s.file.consume [] :=
            ⟨⟨o1.fo.inBuf, o1.fo.buf, o1.fo.recs, o1.fo.bound⟩, o1.cfg, o1.endCol, o1.file, o1.queue, o1.same⟩
          obtain ⟨o2, _⟩ := createToken_out o1'.fo (i := s.file) (t1 _ hs) .apostrophe false
          have o := o1'.trans o2
          rw [o1'.file] at o
          exact ⟨_, _, _, rfl, o, emit_chain hle _ _, hlt, emit_plain (by simp) (by simp), run1⟩
        · exact ⟨_, _, _, rfl, consume_token h hs .attr, emit_chain hle _ _, hlt, emit_plain (by simp) (by simp), run1⟩
      · rw [if_neg e39, if_neg (by rintro rfl; exact h13 hc), if_neg (by rintro rfl; exact h10 hc)]
        have hd : s.divider = false := by
          simp only [Lx.divider, h.c, hc]
          unfold single at hsg
          split at hsg <;> simp_all
        refine lexWord_out h hs ?_ ?_
        · intro _ e
          rw [hc] at e
          simp only [Option.some.injEq] at e
          subst e
          simp [single] at hsg
        · rw [hd, hb, h.eof, hc]
          simp only [Lx.isSpaceChar, h.c, hc]
          have : c ≠ 10 := by rintro rfl; exact h10 hc
          have : c ≠ 13 := by rintro rfl; exact h13 hc
          simp [*]

/-- `lex_tokens` at a line end. -/
theorem lexPlain_newline {s : Lx} (h : FileOnly s) (hs : StartAt s s.file) (hc : s.file.cur = some 10) :
    ∃ s', s.lexPlain = .ok s' ∧ Out s s' s.file.consume [tok .eolln false s.file s.file.consume] := by
  unfold Lx.lexPlain
  rw [h.c, hc]
  refine ⟨_, rfl, ?_⟩
  have := consume_token h hs .eolln
  simpa [emit] using this

/-- Past `\r`, and `\n` if it follows. -/
def Inp.afterCr (i : Inp) : Inp := if i.consume.cur = some 10 then i.consume.consume else i.consume

theorem lexPlain_return {s : Lx} (h : FileOnly s) (hs : StartAt s s.file) (hc : s.file.cur = some 13) :
    ∃ s', s.lexPlain = .ok s' ∧ Out s s' s.file.afterCr [tok .eolln false s.file s.file.afterCr] := by
  unfold Lx.lexPlain
  rw [h.c, hc]
  refine ⟨_, rfl, ?_⟩
  obtain ⟨o1, t1⟩ := consume_out h
  by_cases h10 : s.file.consume.cur = some 10
  · rw [if_pos (by rw [o1.fo.c, o1.file]; exact h10)]
    obtain ⟨o2, t2⟩ := consume_out o1.fo
    obtain ⟨o3, _⟩ := createToken_out o2.fo (t2 _ (t1 _ hs)) .eolln false
    have o := (o1.trans o2).trans o3
    rw [o2.file, o1.file] at o
    rw [Inp.afterCr, if_pos h10]
    simpa [emit] using o
  · rw [if_neg (by rw [o1.fo.c, o1.file]; exact h10)]
    have := consume_token h hs .eolln
    rw [Inp.afterCr, if_neg h10]
    simpa [emit] using this

theorem Inp.afterCr_le {i : Inp} (hc : i.cur ≠ none) : i.Le i.afterCr ∧ i.p < i.afterCr.p := by
  have h1 : i.Le i.consume := .consume hc
  have h2 := Inp.consume_p hc
  unfold Inp.afterCr
  split <;> rename_i h
  · have h3 : i.consume.Le i.consume.consume := .consume (by rw [h]; simp)
    have := h3.p
    exact ⟨h1.trans h3, by omega⟩
  · exact ⟨h1, by omega⟩

/-! ### Comments -/

theorem Inp.skip_data (P : Inp → Bool) (i : Inp) : (i.skip P).data = i.data := by
  fun_induction Inp.skip P i with
  | case1 i h ih => rw [ih, Inp.consume_data]
  | case2 => rfl

theorem Inp.skip_p (P : Inp → Bool) (i : Inp) : i.p ≤ (i.skip P).p := by
  fun_induction Inp.skip P i with
  | case1 i h ih => rw [Inp.consume_p h.2] at ih; omega
  | case2 => exact Nat.le_refl _

theorem Inp.bound_of_cur {i : Inp} {c : Nat} (h : i.cur = some c) : i.p < i.data.length := by
  unfold Inp.cur at h
  exact (List.getElem?_eq_some_iff.mp h).1

theorem Inp.nextLine_data (i : Inp) : i.nextLine.data = i.data := by
  rw [Inp.nextLine, Inp.consume_data, Inp.lineEnd, Inp.skip_data]

theorem Inp.afterCont_data (E K : Nat) (i : Inp) : (i.afterCont E K).data = i.data := by
  rw [Inp.afterCont, Inp.toCont, Inp.skip_data, Inp.nextLine_data, Inp.contChar, Inp.skip_data]

/-- Blank, tab, newline and the like. -/
def blank (c : Nat) : Bool := c == 32 || (9 ≤ c && c ≤ 13)

/-- The text of a comment on this line. -/
def Inp.commentBody (E : Nat) (i : Inp) : Inp := i.skip fun i => decide (i.col < E) && i.cur != some 10

/-- Where reading goes on after a comment. -/
def Inp.afterComment (E K : Nat) (ce : Bool) (i : Inp) : Inp :=
  match _h : (i.commentBody E).cur with
  | some c => if !blank c && ce then ((i.commentBody E).afterCont E K).afterComment E K ce else (i.commentBody E).nextLine
  | none => i.commentBody E
termination_by i.data.length - i.p
decreasing_by
  have h1 := Inp.afterCont_lt (i := i.commentBody E) E K (by rw [_h]; simp)
  have h2 : i.p ≤ (i.commentBody E).p := Inp.skip_p _ _
  have h3 := Inp.bound_of_cur _h
  have h4 : (i.commentBody E).data = i.data := Inp.skip_data _ _
  rw [Inp.afterCont_data, h4]
  rw [h4] at h3
  omega

/-- All tokens are on the hidden channel. -/
def Hidden (ts : List Tok) : Prop := ∀ t ∈ ts, t.hidden = true

theorem Hidden.append {ts us : List Tok} (h : Hidden ts) (h' : Hidden us) : Hidden (ts ++ us) := by
  intro t ht
  rcases List.mem_append.mp ht with ht | ht
  · exact h t ht
  · exact h' t ht

theorem emit_hidden (ty : Ty) (i j : Inp) : Hidden (emit ty true i j) := by
  unfold emit
  split
  · intro t ht; simp at ht
  · intro t ht; simp only [List.mem_singleton] at ht; subst ht; rfl

theorem endToks_hidden (i : Inp) : Hidden (endToks false i) := by
  unfold endToks
  rw [if_neg (by simp)]
  exact emit_hidden _ _ _

theorem contToks_hidden (E K : Nat) (i : Inp) : Hidden (contToks E K i) :=
  ((emit_hidden _ _ _).append (endToks_hidden _)).append (emit_hidden _ _ _)

/-- A character above 255 in or after the end column, or among the seven characters after a `*` in the first column: the places where
the tokeniser leaves the tables of `isspace` and `toupper`. -/
def Outside (E : Nat) (i : Inp) : Prop :=
  ∃ j c, i.Le j ∧ j.cur = some c ∧ c > 255 ∧ (E ≤ j.col ∨ (j.col ≤ 7 ∧ j.data[j.p - j.col]? = some 42))

theorem isSpace_some (c : Nat) : isSpace (some c) = if c > 255 then .error .ub else .ok (blank c) := rfl

theorem lexComment_out {s : Lx} (h : FileOnly s) (hb : s.cfg.beginCol = 0) (he : s.endCol = s.cfg.endDefault) :
    (∃ s' ts, s.lexComment = .ok s' ∧ Out s s' (s.file.afterComment s.cfg.endDefault s.cfg.contCol s.cfg.contEnabled) ts ∧
      Chain s.file ts (s.file.afterComment s.cfg.endDefault s.cfg.contCol s.cfg.contEnabled) ∧ Hidden ts) ∨
    (s.lexComment = .error .ub ∧ Outside s.cfg.endDefault s.file) := by
  generalize hn : s.file.data.length - s.file.p = n
  induction n using Nat.strongRecOn generalizing s with
  | _ n ih =>
    rw [Lx.lexComment]
    obtain ⟨s1, e1, o1, t1, c1⟩ := skip_token (s := s) (cond := fun s => decide (s.col < s.endCol) && !s.eof && s.c != some 10)
      (fun i => decide (i.col < s.cfg.endDefault) && i.cur != some 10) h (by
        intro s' f c e; rw [f.col, f.eof, f.c, e, he]; cases s'.file.cur <;> simp)
    rw [e1]
    simp only [bind, Except.bind, pure, Except.pure]
    obtain ⟨c1, t1'⟩ := c1 .comment true
    change Out s _ (s.file.commentBody s.cfg.endDefault) (emit .comment true s.file (s.file.commentBody s.cfg.endDefault)) at c1
    generalize s1.createToken .comment true = s2 at c1 t1' ⊢
    have hle : s.file.Le (s.file.commentBody s.cfg.endDefault) := Inp.skip_le _ _ h.bound
    have hch := emit_chain hle .comment true
    have hhid := emit_hidden .comment s.file (s.file.commentBody s.cfg.endDefault)
    rw [c1.fo.c, c1.file, c1.fo.eof, c1.file, c1.cfg]
    rw [Inp.afterComment.eq_def]
    cases hcur : (s.file.commentBody s.cfg.endDefault).cur with
    | none =>
      left
      obtain ⟨s3, e3, o3, _⟩ := lexEnd_out c1.fo false
      have o := c1.trans o3
      rw [c1.file] at o
      simp only [isSpace, Option.isNone_none, Bool.not_true, Bool.and_false, Bool.false_and, Bool.false_eq_true, if_false, e3]
      have hn' : (s.file.commentBody s.cfg.endDefault).nextLine = s.file.commentBody s.cfg.endDefault := by
        have : (s.file.commentBody s.cfg.endDefault).lineEnd = s.file.commentBody s.cfg.endDefault := Inp.skip_stop (.inr hcur)
        rw [Inp.nextLine, this, Inp.consume_none hcur]
      have hend := endToks_chain false hle.bound
      rw [hn'] at o hend
      refine ⟨_, _, rfl, ⟨⟨o.fo.inBuf, o.fo.buf, o.fo.recs, o.fo.bound⟩, o.cfg, o.endCol, o.file, o.queue, o.same⟩, hch.append hend, ?_⟩
      exact hhid.append (endToks_hidden _)
    | some c =>
      rw [isSpace_some]
      simp only
      by_cases hbig : c > 255
      · right
        rw [if_pos hbig]
        refine ⟨rfl, _, c, hle, hcur, hbig, ?_⟩
        have hst := Inp.skip_end (fun i => decide (i.col < s.cfg.endDefault) && i.cur != some 10) s.file
        change _ ∨ (s.file.commentBody s.cfg.endDefault).cur = none at hst
        rw [hcur] at hst
        simp only [reduceCtorEq, or_false] at hst
        change (decide ((s.file.commentBody s.cfg.endDefault).col < s.cfg.endDefault) && (s.file.commentBody s.cfg.endDefault).cur != some 10) = false at hst
        rw [hcur] at hst
        have h10 : c ≠ 10 := by omega
        simp [h10] at hst
        exact .inl hst
      · rw [if_neg hbig]
        simp only [Option.isNone_some, Bool.not_false, Bool.and_true]
        by_cases hcont : (!blank c && s.cfg.contEnabled) = true
        · rw [if_pos hcont, if_pos hcont]
          obtain ⟨s3, e3, o3⟩ := lexContinuation_out c1.fo (by rw [c1.cfg]; exact hb) (by rw [c1.endCol, c1.cfg]; exact he)
          rw [e3]
          have o3 := c1.trans o3
          rw [c1.cfg, c1.file] at o3
          simp only
          have hlt := Inp.afterCont_lt (i := s.file.commentBody s.cfg.endDefault) s.cfg.endDefault s.cfg.contCol (by rw [hcur]; simp)
          have hlt2 := hle.p
          have hb3 := Inp.bound_of_cur hcur
          rw [hle.data] at hb3
          have hleft : s3.left < s.left := by
            rw [o3.fo.left, h.left, o3.file, Inp.afterCont_data, hle.data]; omega
          rw [dif_pos hleft]
          have hcc := hch.append (contToks_chain s.cfg.endDefault s.cfg.contCol hle.bound)
          rcases ih (s := s3) _ (by rw [← hn, o3.file, Inp.afterCont_data, hle.data]; omega) o3.fo (by rw [o3.cfg]; exact hb)
            (by rw [o3.endCol, o3.cfg]; exact he) rfl with ⟨s4, ts, e4, o4, ch4, hid4⟩ | ⟨e4, hout⟩
          · left
            rw [o3.cfg, o3.file] at o4 ch4
            refine ⟨s4, _, e4, o3.trans o4, hcc.append ch4, (hhid.append (contToks_hidden _ _ _)).append hid4⟩
          · right
            refine ⟨e4, ?_⟩
            rw [o3.cfg, o3.file] at hout
            obtain ⟨j, c', l1, l2⟩ := hout
            exact ⟨j, c', (hcc.le h.bound).trans l1, l2⟩
        · left
          rw [if_neg hcont, if_neg hcont]
          obtain ⟨s3, e3, o3, _⟩ := lexEnd_out c1.fo false
          have o := c1.trans o3
          rw [c1.file] at o
          rw [e3]
          refine ⟨_, _, rfl, ⟨⟨o.fo.inBuf, o.fo.buf, o.fo.recs, o.fo.bound⟩, o.cfg, o.endCol, o.file, o.queue, o.same⟩,
            hch.append (endToks_chain false hle.bound), hhid.append (endToks_hidden _)⟩

theorem Inp.afterComment_lt {i : Inp} (E K : Nat) (ce : Bool) (hc : i.cur ≠ none) : i.p < (i.afterComment E K ce).p := by
  generalize hn : i.data.length - i.p = n
  induction n using Nat.strongRecOn generalizing i with
  | _ n ih =>
    rw [Inp.afterComment.eq_def]
    have h1 : i.p ≤ (i.commentBody E).p := Inp.skip_p _ _
    have hd : (i.commentBody E).data = i.data := Inp.skip_data _ _
    obtain ⟨c0, hc0⟩ := Option.ne_none_iff_exists'.mp hc
    have hb := Inp.bound_of_cur hc0
    split
    · rename_i c hcur
      have hbc := Inp.bound_of_cur hcur
      rw [hd] at hbc
      split
      · have h2 := Inp.afterCont_lt (i := i.commentBody E) E K (by rw [hcur]; simp)
        by_cases h3 : ((i.commentBody E).afterCont E K).cur = none
        · have : (((i.commentBody E).afterCont E K).afterComment E K ce) = (i.commentBody E).afterCont E K := by
            rw [Inp.afterComment.eq_def]
            have : ((i.commentBody E).afterCont E K).commentBody E = (i.commentBody E).afterCont E K := Inp.skip_stop (.inr h3)
            rw [this]
            split
            · rename_i h4; rw [h3] at h4; simp at h4
            · rfl
          rw [this]; omega
        · have := ih _ (by rw [Inp.afterCont_data, hd]; omega) h3 rfl
          omega
      · have := Inp.nextLine_lt (i := i.commentBody E) (by rw [hcur]; simp)
        omega
    · rename_i hcur
      rw [Inp.cur_none_iff, hd] at hcur
      omega

/-! ### *PROCESS -/

/-- A run of `lex_space` wherever it starts. -/
theorem lexSpace_any {s : Lx} (h : FileOnly s) (hs : StartAt s s.file) :
    ∃ s' j ts, s.lexSpace = .ok s' ∧ Out s s' j ts ∧ Chain s.file ts j ∧ (s.file.col ≠ 0 → j.col ≠ 0) := by
  unfold Lx.lexSpace
  let P : Inp → Bool := fun i => i.cur == some 32 && (decide (i.col < s.endCol) || (s.cfg.unlimited && i.cur != some 13 && i.cur != some 10))
  obtain ⟨s1, e1, o1, t1⟩ := skipWhile_out (s := s) (cond := fun s => s.c == some 32 && s.beforeEnd && !s.eof) (P := P) h (by
    intro s' f c e; rw [f.c, f.eof, f.beforeEnd, c, e]; cases hcur : s'.file.cur <;> simp [P, hcur])
  rw [e1]
  simp only [bind, Except.bind, pure, Except.pure]
  obtain ⟨o2, _⟩ := createToken_out o1.fo (t1 _ hs) .space false
  have o := o1.trans o2
  rw [o1.file] at o
  refine ⟨_, _, _, rfl, o, emit_chain (Inp.skip_le P s.file h.bound) _ _, ?_⟩
  intro hcol
  have := skip_run (u := s.cfg.unlimited) (E := s.endCol) P s.file (fun e => absurd e hcol) (by
    intro j hj _
    simp [P] at hj
    refine ⟨by simp [hj.1], by simp [hj.1], hj.2.imp id fun h => h.1.1⟩)
  exact this.col_ne (.inl hcol)

theorem processLoop_out {s : Lx} (h : FileOnly s) (h0 : s.file.col ≠ 0) :
    ∃ s' j ts, processLoop s = .ok s' ∧ Out s s' j ts ∧ Chain s.file ts j := by
  generalize hn : s.file.data.length - s.file.p = n
  induction n using Nat.strongRecOn generalizing s with
  | _ n ih =>
    rw [processLoop]
    by_cases hc : (!s.eof && s.beforeEnd && s.c != some 10 && s.c != some 13 && (s.apostrophes % 2 == 1 || s.c != some 32)) = true
    · rw [if_pos hc]
      simp only [Bool.and_eq_true, Bool.not_eq_true', bne_iff_ne, ne_eq, h.eof, h.c] at hc
      obtain ⟨o1, t1⟩ := startToken_out h
      have hne : s.file.cur ≠ none := by
        intro e; rw [e] at hc; simp at hc
      obtain ⟨s2, j, ts, e2, ord⟩ := lexPlain_ordinary o1.fo (by rw [o1.file]; exact t1) (by rw [o1.file]; exact hne)
        (by rw [o1.file]; exact hc.1.1.2) (by rw [o1.file]; exact hc.1.2)
        (by rw [o1.fo.beforeEnd, o1.file, o1.endCol, o1.cfg, ← h.beforeEnd]; exact hc.1.1.1.2)
        (by rw [o1.file]; exact fun e => absurd e h0)
      rw [e2]
      simp only [bind, Except.bind]
      have o2 := o1.trans ord.out
      have hlt := ord.lt
      rw [o1.file] at hlt
      have hch := ord.chain
      rw [o1.file] at hch
      have hle := hch.le h.bound
      have hb2 := hle.bound
      rw [hle.data] at hb2
      have hlt2 : s2.left < s.left := by
        rw [o2.fo.left, h.left, o2.file, hle.data]; omega
      rw [dif_pos hlt2]
      obtain ⟨s3, k, us, e3, o3, ch3⟩ := ih (s := s2) _ (by rw [← hn, o2.file, hle.data]; omega) o2.fo (by
        rw [o2.file]
        have hr := ord.run
        rw [o1.file] at hr
        exact hr.col_ne (.inl h0)) rfl
      refine ⟨s3, k, _, e3, o2.trans o3, ?_⟩
      rw [o2.file] at ch3
      simpa using hch.append ch3
    · rw [if_neg hc]
      exact ⟨s, s.file, [], rfl, Out.refl h, .nil _⟩

/-- Reading on within a line. -/
theorem Inp.consume_col {i : Inp} {c : Nat} (h : i.cur = some c) (hc : c ≠ 10) : i.consume.col = i.col + 1 := by
  simp [Inp.consume, h, hc]

theorem consumeN {s : Lx} (h : FileOnly s) (n : Nat) :
    Out s (Nat.repeat Lx.consume n s) (s.file.adv n) [] ∧ ∀ i, StartAt s i → StartAt (Nat.repeat Lx.consume n s) i := by
  induction n with
  | zero => exact ⟨Out.refl h, fun i h => h⟩
  | succ n ih =>
    obtain ⟨o, t⟩ := ih
    obtain ⟨o2, t2⟩ := consume_out o.fo
    have := o.trans o2
    rw [o.file] at this
    exact ⟨this, fun i hi => t2 i (t i hi)⟩

theorem lexProcess_out {s : Lx} (h : FileOnly s) (hp : s.isProcess = true) (h42 : s.file.cur = some 42) :
    ∃ s' j ts, s.lexProcess = .ok s' ∧ Out s s' j ts ∧ Chain s.file ts j ∧ s.file.p < j.p := by
  have hup : ∀ n c, upperAt s.file n = c → 65 ≤ c → ∃ d, s.file.data[s.file.p + n]? = some d ∧ d ≠ 10 := by
    intro n c hu hc
    unfold upperAt at hu
    cases hd : s.file.data[s.file.p + n]? with
    | none => rw [hd] at hu; simp only at hu; omega
    | some d =>
      rw [hd] at hu
      refine ⟨d, rfl, ?_⟩
      rintro rfl
      simp at hu
      omega
  simp only [Lx.isProcess, h.cur, Bool.and_eq_true, beq_iff_eq] at hp
  have hchars : ∀ n, n < 8 → ∃ d, s.file.data[s.file.p + n]? = some d ∧ d ≠ 10 := by
    intro n hn
    obtain ⟨_, ⟨⟨⟨⟨⟨h1, h2⟩, h3⟩, h4⟩, h5⟩, h6⟩, h7⟩ := hp
    match n, hn with
    | 0, _ => exact ⟨42, h42, by omega⟩
    | 1, _ => exact hup 1 _ h1 (by omega)
    | 2, _ => exact hup 2 _ h2 (by omega)
    | 3, _ => exact hup 3 _ h3 (by omega)
    | 4, _ => exact hup 4 _ h4 (by omega)
    | 5, _ => exact hup 5 _ h5 (by omega)
    | 6, _ => exact hup 6 _ h6 (by omega)
    | 7, _ => exact hup 7 _ h7 (by omega)
  have hlen : s.file.p + 8 ≤ s.file.data.length := by
    obtain ⟨d, hd, _⟩ := hchars 7 (by omega)
    have := (List.getElem?_eq_some_iff.mp hd).1
    omega
  have hcol : ∀ n, n ≤ 8 → (s.file.adv n).col = s.file.col + n := by
    intro n
    induction n with
    | zero => intro _; rfl
    | succ n ih =>
      intro hn
      obtain ⟨d, hd, hd10⟩ := hchars n (by omega)
      rw [Inp.adv, Inp.consume_col (c := d) (by rw [Inp.adv_cur _ _ (by omega)]; exact hd) hd10, ih (by omega)]
      omega
  unfold Lx.lexProcess
  simp only
  obtain ⟨o1, t1⟩ := startToken_out h
  obtain ⟨o2, t2⟩ := consumeN o1.fo 8
  have t2 := t2 _ t1
  have o2 := o1.trans o2
  rw [o1.file] at o2
  change Out s s.startToken.consume.consume.consume.consume.consume.consume.consume.consume _ _ at o2
  change StartAt s.startToken.consume.consume.consume.consume.consume.consume.consume.consume _ at t2
  generalize s.startToken.consume.consume.consume.consume.consume.consume.consume.consume = s2 at o2 t2 ⊢
  obtain ⟨o3, _⟩ := createToken_out o2.fo t2 .process false
  have o3 := o2.trans o3
  rw [o2.file] at o3
  generalize s2.createToken .process = s3 at o3 ⊢
  have hle3 : s.file.Le (s.file.adv 8) := ⟨8, rfl, hlen⟩
  have ch3 := emit_chain hle3 .process false
  obtain ⟨o4, t4⟩ := startToken_out o3.fo
  have o4' := o3.trans o4
  obtain ⟨s5, j, ts, e5, o5, ch5, hc5⟩ := lexSpace_any o4'.fo (by rw [o4'.file]; exact t4)
  rw [e5]
  simp only [bind, Except.bind]
  have o5 := o4'.trans o5
  rw [o4'.file, o3.file] at ch5 hc5
  have ch35 := ch3.append ch5
  have hle5 := ch35.le h.bound
  have o6 : FileOnly { s5 with apostrophes := 0, endCol := s5.endCol + 1 } := ⟨o5.fo.inBuf, o5.fo.buf, o5.fo.recs, o5.fo.bound⟩
  obtain ⟨s7, k, us, e7, o7, ch7⟩ := processLoop_out o6 (by
    simp only [o5.file]
    exact hc5 (by rw [hcol 8 (by omega)]; omega))
  rw [e7]
  simp only
  have o8 : FileOnly { s7 with endCol := s7.endCol - 1 } := ⟨o7.fo.inBuf, o7.fo.buf, o7.fo.recs, o7.fo.bound⟩
  obtain ⟨s9, e9, o9, _⟩ := lexEnd_out o8 true
  rw [e9]
  simp only [o5.file] at ch7
  have ch37 := ch35.append ch7
  have ch9 := endToks_chain true (i := k) (ch37.le h.bound).bound
  have ch39 := ch37.append ch9
  refine ⟨s9, k.nextLine, _, rfl, ⟨o9.fo, ?_, ?_, ?_, ?_, o9.same.trans (o7.same.trans o5.same)⟩, ch39, ?_⟩
  · rw [o9.cfg]; simp only; rw [o7.cfg]; exact o5.cfg
  · rw [o9.endCol]; simp only; rw [o7.endCol]; simp only; rw [o5.endCol]; omega
  · rw [o9.file]; simp only; rw [o7.file]
  · rw [o9.queue]; simp only; rw [o7.queue, o7.file]; simp only; rw [o5.queue]; simp
  · have h1 := (ch5.append (ch7.append ch9)).le hle3.bound
    have := h1.p
    rw [Inp.adv_p 8 _ hlen] at this
    omega

/-! ### One turn of the main loop -/

/-- A `*PROCESS` statement starts here. -/
def Inp.process (ictl : Bool) (i : Inp) : Prop :=
  i.line ≤ (if ictl then 11 else 10) ∧ i.cur = some 42 ∧ (List.range 7).map (fun n => upperAt i (n + 1)) = [80, 82, 79, 67, 69, 83, 83]

/-- A comment starts here. -/
def Inp.comment (i : Inp) : Prop := i.col = 0 ∧ (i.cur = some 42 ∨ (i.cur = some 46 ∧ i.data[i.p + 1]? = some 42))

/-- The cases of one turn of the main loop on the file: from `i` to `j`, adding `ts`. -/
inductive Turn (cfg : Cfg) (i : Inp) : Inp → List Tok → Prop
  | eof : i.cur = none → Turn cfg i i [tok .eolln false i i, tok .eof false i i]
  | cont (c : Nat) : cfg.unlimited = false → i.col = cfg.endDefault → i.cur = some c → blank c = false → c ≤ 255 → cfg.contEnabled = true →
      Turn cfg i (i.afterCont cfg.endDefault cfg.contCol) (contToks cfg.endDefault cfg.contCol i)
  | rest (c : Nat) : i.cur = some c →
      ((cfg.unlimited = true ∧ (c = 10 ∨ c = 13)) ∨
        (cfg.unlimited = false ∧ cfg.endDefault ≤ i.col ∧ (i.col = cfg.endDefault → blank c = true ∨ cfg.contEnabled = false))) →
      Turn cfg i i.nextLine (endToks true i)
  | process (j : Inp) (ts : List Tok) : i.col = 0 → i.process cfg.ictl → i.p < j.p → Turn cfg i j ts
  | comment (ts : List Tok) : i.comment → ¬ i.process cfg.ictl → (cfg.unlimited = false → i.col < cfg.endDefault) → Hidden ts →
      Turn cfg i (i.afterComment cfg.endDefault cfg.contCol cfg.contEnabled) ts
  | newline : i.cur = some 10 → cfg.unlimited = false → i.col < cfg.endDefault → Turn cfg i i.consume [tok .eolln false i i.consume]
  | ret : i.cur = some 13 → cfg.unlimited = false → i.col < cfg.endDefault → Turn cfg i i.afterCr [tok .eolln false i i.afterCr]
  | ordinary (j : Inp) (ts : List Tok) : i.cur ≠ none → Run cfg.unlimited cfg.endDefault i j → i.p < j.p → Plain ts → Turn cfg i j ts

theorem Turn.lt {cfg : Cfg} {i j : Inp} {ts : List Tok} (h : Turn cfg i j ts) (hc : i.cur ≠ none) : i.p < j.p := by
  cases h with
  | eof h => exact absurd h hc
  | cont => exact Inp.afterCont_lt _ _ hc
  | rest => exact Inp.nextLine_lt hc
  | process => assumption
  | comment => exact Inp.afterComment_lt _ _ _ hc
  | newline => rw [Inp.consume_p hc]; omega
  | ret => exact (Inp.afterCr_le hc).2
  | ordinary => assumption

theorem isProcess_iff {s : Lx} (h : FileOnly s) (h42 : s.file.cur = some 42) : s.isProcess = true ↔ s.file.process s.cfg.ictl := by
  simp only [Lx.isProcess, h.cur, Bool.and_eq_true, beq_iff_eq, Inp.process, h42, true_and]
  cases s.cfg.ictl <;> simp [List.range, List.range.loop, and_assoc]

theorem upperUb_out (i : Inp) (h0 : i.col = 0) (h42 : i.cur = some 42) (cs : List Nat) (hcs : ∀ c ∈ cs, 65 ≤ c) (n : Nat) (hn : n + cs.length ≤ 8)
    (hcol : (i.adv n).col = n) (hp : i.p + n ≤ i.data.length) (h : upperUb i n cs = true) (E : Nat) : Outside E i := by
  induction cs generalizing n with
  | nil => simp [upperUb] at h
  | cons c cs ih =>
    simp only [upperUb, Bool.or_eq_true, decide_eq_true_eq, Bool.and_eq_true, beq_iff_eq] at h
    rcases h with h | ⟨h1, h2⟩
    · cases hd : i.data[i.p + n]? with
      | none => rw [hd] at h; simp at h
      | some d =>
        rw [hd] at h
        refine ⟨i.adv n, d, ⟨n, rfl, hp⟩, by rw [Inp.adv_cur _ _ hp]; exact hd, by simpa using h, .inr ?_⟩
        rw [hcol, Inp.adv_p _ _ hp, Inp.adv_data, Nat.add_sub_cancel]
        simp only [List.length_cons] at hn
        exact ⟨by omega, h42⟩
    · have h65 := hcs c (by simp)
      unfold upperAt at h1
      cases hd : i.data[i.p + n]? with
      | none => rw [hd] at h1; simp only at h1; omega
      | some d =>
        rw [hd] at h1
        have hd10 : d ≠ 10 := by rintro rfl; simp at h1; omega
        have hlt := (List.getElem?_eq_some_iff.mp hd).1
        simp only [List.length_cons] at hn
        refine ih (fun c hc => hcs c (by simp [hc])) (n + 1) (by omega) ?_ (by omega) h2
        rw [Inp.adv, Inp.consume_col (c := d) (by rw [Inp.adv_cur _ _ hp]; exact hd) hd10, hcol]

theorem processUb_out {s : Lx} (h : FileOnly s) (hub : s.processUb = true) (h42 : s.file.cur = some 42) (h0 : s.file.col = 0) {E : Nat} :
    Outside E s.file := by
  simp only [Lx.processUb, h.cur, Bool.and_eq_true] at hub
  have hb := Inp.bound_of_cur h42
  refine upperUb_out s.file h0 h42 _ (by decide) 1 (by decide) ?_ (by omega) hub.2 E
  rw [Inp.adv, Inp.adv, Inp.consume_col h42 (by omega), h0]

theorem switchStreams_out {s : Lx} (h : FileOnly s) : s.switchStreams = s := by
  unfold Lx.switchStreams
  rw [if_neg (by simp [h.buf]), h.recs]
  simp only
  have := h.inBuf
  have := h.recs
  cases s
  simp_all

theorem step_out {s : Lx} (h : FileOnly s) (hb : s.cfg.beginCol = 0) (he : s.endCol = s.cfg.endDefault) :
    (∃ s' j ts, s.step = .ok s' ∧ Out s s' j ts ∧ (s.file.cur ≠ none → Chain s.file ts j) ∧ Turn s.cfg s.file j ts) ∨
    (s.step = .error .ub ∧ Outside s.cfg.endDefault s.file) := by
  unfold Lx.step
  rw [switchStreams_out h]
  obtain ⟨o1, t1⟩ := startToken_out h
  have hcfg := o1.cfg
  have hend := o1.endCol
  have hfile := o1.file
  generalize s.startToken = s1 at o1 t1 hcfg hend hfile ⊢
  have f1 := o1.fo
  have hb1 : s1.cfg.beginCol = 0 := by rw [hcfg]; exact hb
  have he1 : s1.endCol = s1.cfg.endDefault := by rw [hend, hcfg]; exact he
  have t1 : StartAt s1 s1.file := by rw [hfile]; exact t1
  rw [← hfile, ← hcfg]
  have cl : ∀ {s' : Lx} {j : Inp} {ts : List Tok}, Out s1 s' j ts → Out s s' j ts := fun o => by simpa using o1.trans o
  simp only [bind, Except.bind, pure, Except.pure]
  by_cases hcn : s1.file.cur = none
  · left
    rw [if_pos (by rw [f1.eof, hcn]; rfl)]
    obtain ⟨o2, t2⟩ := createToken_out f1 t1 .eolln false
    obtain ⟨o3, _⟩ := createToken_out o2.fo t2 .eof false
    have o := o2.trans o3
    rw [o2.file] at o
    have hts : emit .eolln false s1.file s1.file ++ emit .eof false s1.file s1.file = [tok .eolln false s1.file s1.file, tok .eof false s1.file s1.file] := by
      simp [emit]
    rw [hts] at o
    refine ⟨_, _, _, rfl, cl o, ?_, .eof hcn⟩
    exact fun h => absurd hcn h
  · rw [if_neg (by rw [f1.eof]; simpa using hcn)]
    obtain ⟨c, hc⟩ := Option.ne_none_iff_exists'.mp hcn
    have cont : ∀ b : Bool, (b = true → s1.cfg.unlimited = false ∧ s1.file.col = s1.cfg.endDefault ∧ blank c = false ∧ c ≤ 255 ∧ s1.cfg.contEnabled = true) →
        (b = false → s1.cfg.unlimited = false → s1.file.col = s1.cfg.endDefault → blank c = true ∨ s1.cfg.contEnabled = false) →
        (∃ s' j ts, (if b = true then s1.lexContinuation
          else if ((s1.cfg.unlimited && (s1.c == some 13 || s1.c == some 10)) || (!s1.cfg.unlimited && decide (s1.col ≥ s1.endCol))) = true then s1.lexEnd true
          else if s1.col < s1.cfg.beginCol then s1.lexBegin else s1.lexTokens) = .ok s' ∧ Out s s' j ts ∧ (s1.file.cur ≠ none → Chain s1.file ts j) ∧ Turn s1.cfg s1.file j ts) ∨
        ((if b = true then s1.lexContinuation
          else if ((s1.cfg.unlimited && (s1.c == some 13 || s1.c == some 10)) || (!s1.cfg.unlimited && decide (s1.col ≥ s1.endCol))) = true then s1.lexEnd true
          else if s1.col < s1.cfg.beginCol then s1.lexBegin else s1.lexTokens) = .error .ub ∧ Outside s1.cfg.endDefault s1.file) := by
      intro b hbt hbf
      cases b with
      | true =>
        left
        obtain ⟨h1, h2, h3, h4, h5⟩ := hbt rfl
        obtain ⟨s2, e2, o2⟩ := lexContinuation_out f1 hb1 he1
        exact ⟨s2, _, _, e2, cl o2, fun _ => contToks_chain _ _ f1.bound, .cont c h1 h2 hc h3 h4 h5⟩
      | false =>
        have hbf := hbf rfl
        simp only [Bool.false_eq_true, if_false]
        by_cases hrest : ((s1.cfg.unlimited && (s1.c == some 13 || s1.c == some 10)) || (!s1.cfg.unlimited && decide (s1.col ≥ s1.endCol))) = true
        · left
          rw [if_pos hrest]
          obtain ⟨s2, e2, o2, _⟩ := lexEnd_out f1 true
          refine ⟨s2, _, _, e2, cl o2, fun _ => endToks_chain true f1.bound, .rest c hc ?_⟩
          rw [f1.c, hc, f1.col, he1] at hrest
          cases hu : s1.cfg.unlimited with
          | true =>
            left
            simp [hu] at hrest
            exact ⟨rfl, hrest.symm⟩
          | false =>
            right
            simp [hu] at hrest
            exact ⟨rfl, hrest, hbf hu⟩
        · rw [if_neg hrest, if_neg (by rw [hb1]; omega)]
          rw [f1.c, hc, f1.col, he1] at hrest
          have hcol : s1.cfg.unlimited = false → s1.file.col < s1.cfg.endDefault := by
            intro hu; simp [hu] at hrest; exact hrest
          have hnl : s1.cfg.unlimited = true → c ≠ 10 ∧ c ≠ 13 := by
            intro hu; simp [hu] at hrest; exact ⟨hrest.2, hrest.1⟩
          unfold Lx.lexTokens
          rw [f1.c, f1.col, hb1]
          by_cases h42 : s1.file.cur = some 42 ∧ s1.file.col = 0
          · rw [if_pos h42]
            by_cases hub : s1.processUb = true
            · right
              rw [if_pos hub]
              exact ⟨rfl, processUb_out f1 hub h42.1 h42.2⟩
            rw [if_neg hub]
            by_cases hp : s1.isProcess = true
            · left
              rw [if_pos hp]
              obtain ⟨s2, j, ts, e2, o2, ch2, lt2⟩ := lexProcess_out f1 hp h42.1
              exact ⟨s2, j, ts, e2, cl o2, fun _ => ch2, .process j ts h42.2 ((isProcess_iff f1 h42.1).mp hp) lt2⟩
            · rw [if_neg hp]
              rcases lexComment_out f1 hb1 he1 with ⟨s2, ts, e2, o2, ch2, hid⟩ | ⟨e2, hout⟩
              · left
                refine ⟨s2, _, ts, e2, cl o2, fun _ => ch2, .comment ts ⟨h42.2, .inl h42.1⟩ ?_ hcol hid⟩
                rwa [← isProcess_iff f1 h42.1]
              · right; exact ⟨e2, hout⟩
          · rw [if_neg h42]
            by_cases h46 : s1.file.cur = some 46 ∧ s1.file.col = 0 ∧ s1.file.data[s1.file.p + 1]? = some 42
            · rw [if_pos h46]
              rcases lexComment_out f1 hb1 he1 with ⟨s2, ts, e2, o2, ch2, hid⟩ | ⟨e2, hout⟩
              · left
                refine ⟨s2, _, ts, e2, cl o2, fun _ => ch2, .comment ts ⟨h46.2.1, .inr ⟨h46.1, h46.2.2⟩⟩ ?_ hcol hid⟩
                rintro ⟨_, hx, _⟩
                rw [h46.1] at hx; simp at hx
              · right; exact ⟨e2, hout⟩
            · rw [if_neg h46]
              left
              by_cases h10 : c = 10
              · subst h10
                obtain ⟨s2, e2, o2⟩ := lexPlain_newline f1 t1 hc
                have hu : s1.cfg.unlimited = false := by
                  cases hu : s1.cfg.unlimited with
                  | false => rfl
                  | true => exact absurd rfl (hnl hu).1
                exact ⟨s2, _, _, e2, cl o2, fun _ => .tok _ _ (.consume hcn) ⟨by rw [Inp.consume_p hcn]; omega, by simp⟩ (.nil _), .newline hc hu (hcol hu)⟩
              · by_cases h13 : c = 13
                · subst h13
                  obtain ⟨s2, e2, o2⟩ := lexPlain_return f1 t1 hc
                  have hu : s1.cfg.unlimited = false := by
                    cases hu : s1.cfg.unlimited with
                    | false => rfl
                    | true => exact absurd rfl (hnl hu).2
                  exact ⟨s2, _, _, e2, cl o2, fun _ => .tok _ _ (Inp.afterCr_le hcn).1 ⟨(Inp.afterCr_le hcn).2, by simp⟩ (.nil _), .ret hc hu (hcol hu)⟩
                · have hbe : s1.beforeEnd = true := by
                    rw [f1.beforeEnd, hc, he1]
                    cases hu : s1.cfg.unlimited with
                    | true => simp [h10, h13]
                    | false => simp [hcol hu]
                  obtain ⟨s2, j, ts, e2, ord⟩ := lexPlain_ordinary f1 t1 hcn (by rw [hc]; simpa using h10) (by rw [hc]; simpa using h13) hbe (by
                    intro e
                    exact ⟨fun e2 => h42 ⟨e2, e⟩, fun e2 => h46 ⟨e2.1, e, e2.2⟩⟩)
                  refine ⟨s2, j, ts, e2, cl ord.out, fun _ => ord.chain, .ordinary j ts hcn ?_ ord.lt ord.plain⟩
                  have := ord.run
                  rw [he1] at this; exact this
    by_cases hce : (!s1.cfg.unlimited && decide (s1.col = s1.endCol)) = true
    · rw [if_pos hce]
      rw [f1.col, he1] at hce
      simp only [Bool.and_eq_true, Bool.not_eq_true', decide_eq_true_eq] at hce
      rw [f1.c, hc, isSpace_some]
      by_cases hbig : c > 255
      · right
        rw [if_pos hbig]
        exact ⟨rfl, s1.file, c, .refl f1.bound, hc, hbig, by omega⟩
      · rw [if_neg hbig]
        simp only
        rw [f1.c] at cont
        rw [hc] at cont
        refine cont _ ?_ ?_
        · intro hx
          simp only [Bool.and_eq_true, Bool.not_eq_true'] at hx
          exact ⟨hce.1, hce.2, hx.1.1, by omega, hx.1.2⟩
        · intro hx _ _
          simp [f1.inBuf] at hx
          by_cases hbl : blank c = true
          · left; exact hbl
          · right; exact hx (by simpa using hbl)
    · rw [if_neg hce]
      rw [f1.col, he1] at hce
      refine cont false (by simp) ?_
      intro _ hu hcol
      simp [hu, hcol] at hce

end Verif.Lexing
