import Verif.Lexing.LexerLines
/-!
Theorems about the tokeniser: it ends, its tokens tile the text, and their positions are right.
-/
namespace Verif.Lexing

/-- Tokens tile the text from offset `a` to offset `b`: each is not empty and starts where the one before stops, except that the part of a
line after the statement columns is covered twice, by the end of the logical line and by ignored text. -/
inductive Tiles : Nat → List Tok → Nat → Prop
  | nil (a : Nat) : Tiles a [] a
  | one {a b : Nat} {t : Tok} {ts : List Tok} : t.start = a → a < t.stop → Tiles t.stop ts b → Tiles a (t :: ts) b
  | two {a b : Nat} {t u : Tok} {ts : List Tok} : t.ty = .eolln → u.ty = .ignored → t.start = a → u.start = a → u.stop = t.stop → a < t.stop →
      Tiles t.stop ts b → Tiles a (t :: u :: ts) b

theorem Chain.tiles {i k : Inp} {ts : List Tok} (h : Chain i ts k) : Tiles i.p ts k.p := by
  induction h with
  | nil => exact .nil _
  | tok ty hid h1 h2 _ ih => exact .one rfl h2.1 ih
  | line h1 h2 _ ih => exact .two rfl rfl rfl rfl rfl h2 ih

theorem init_fo (cfg : Cfg) (text : List Nat) (line col : Nat) : FileOnly (Lx.init cfg text line col) :=
  ⟨rfl, rfl, rfl, Nat.zero_le _⟩

/-- A run to the end of the text: all tokens but the last two tile the text, the last two are an end of line and the end of file. -/
structure Whole (text : List Nat) (ts : List Tok) : Prop where
  ends : ∃ us e f, ts = us ++ [e, f] ∧ e.ty = .eolln ∧ f.ty = .eof ∧ Tiles 0 us text.length ∧ (∀ t ∈ us, t.ty ≠ .eof) ∧
    e.start = text.length ∧ e.stop = text.length ∧ f.start = text.length ∧ f.stop = text.length

theorem end_p {i k : Inp} (h : i.Le k) (hc : k.cur = none) : k.p = i.data.length := by
  have h1 := (Inp.cur_none_iff k).mp hc
  have h2 := h.bound
  rw [h.data] at h1 h2
  omega

theorem whole_of {cfg : Cfg} {text : List Nat} {line col : Nat} {ts : List Tok} (h : Turns cfg (Lx.init cfg text line col).file ts) :
    Whole text ts ∧ ts.length ≤ 2 * text.length + 2 := by
  have hb : (Lx.init cfg text line col).file.p ≤ (Lx.init cfg text line col).file.data.length := Nat.zero_le _
  obtain ⟨us, k, rfl, h3, h4⟩ := h.chain hb
  have hk : k.p = text.length := end_p (h3.le hb) h4
  have hc := h3.length hb
  refine ⟨⟨us, _, _, rfl, rfl, rfl, ?_, fun t ht => (h3.mem hb t ht).1, hk, hk, hk, hk⟩, ?_⟩
  · have := h3.tiles
    rw [hk] at this
    exact this
  · simp only [List.length_append, List.length_cons, List.length_nil, hk] at hc ⊢
    omega

/-- Some character above U+00FF stands in or after the end column `E`, or among the seven characters after a `*` in the first column. -/
def Beyond (E : Nat) (text : List Nat) (line col : Nat) : Prop :=
  ∃ n c, text[n]? = some c ∧ c > 255 ∧
    (E ≤ (Spec.place (line, col) (text.take n)).2 ∨
      ((Spec.place (line, col) (text.take n)).2 ≤ 7 ∧ text[n - (Spec.place (line, col) (text.take n)).2]? = some 42))

theorem beyond_of {cfg : Cfg} {text : List Nat} {line col E : Nat} (h : Outside E (Lx.init cfg text line col).file) : Beyond E text line col := by
  obtain ⟨j, c, ⟨m, rfl, hm⟩, h3, h4, h5⟩ := h
  have hpl := congrArg Prod.snd (adv_place _ m hm)
  have h0 : (Lx.init cfg text line col).file.p = 0 := rfl
  have hd : (Lx.init cfg text line col).file.data = text := rfl
  have hpos : (Lx.init cfg text line col).file.line = line ∧ (Lx.init cfg text line col).file.col = col := ⟨rfl, rfl⟩
  rw [Inp.adv_cur _ _ hm, hd, h0, Nat.zero_add] at h3
  rw [Inp.adv_data, Inp.adv_p _ _ hm, hd, h0, Nat.zero_add] at h5
  rw [hd, h0, List.drop_zero, hpos.1, hpos.2] at hpl
  refine ⟨m, c, h3, h4, ?_⟩
  simp only at hpl
  rw [← hpl]
  exact h5

/-- **C71**: whatever the text, asking for tokens over and over reaches the end of the file after at most twice as many tokens as there
are characters, plus two; the tokens tile the text and the end of file is reported only at its end. The only other outcome is that a
character above U+00FF is handed to `isspace` or `toupper`. -/
theorem C71_tokens_tile_partial (cfg : Cfg) (hb : cfg.beginCol = 0) (text : List Nat) (line col : Nat) :
    (∃ n ts s', n ≤ 2 * text.length + 2 ∧ (Lx.init cfg text line col).run n = .ok (ts, s') ∧ ts.length = n ∧ Whole text ts) ∨
    ((∃ n, (Lx.init cfg text line col).run n = .error .ub) ∧ Beyond cfg.endDefault text line col) := by
  have hfo := init_fo cfg text line col
  rcases run_turns hfo rfl hb rfl with ⟨n, ts, s', h1, h2⟩ | ⟨n, h1, h2⟩
  · left
    have hlen : ∀ (m : Nat) (s : Lx) (vs : List Tok) (s' : Lx), s.run m = .ok (vs, s') → vs.length = m := by
      intro m
      induction m with
      | zero => intro s vs s' h; simp only [Lx.run, Except.ok.injEq, Prod.mk.injEq] at h; simp [← h.1]
      | succ m ih =>
        intro s vs s' h
        rw [Lx.run] at h
        split at h
        · simp at h
        · split at h
          · simp at h
          · rename_i h2
            simp only [Except.ok.injEq, Prod.mk.injEq] at h
            rw [← h.1, List.length_cons, ih _ _ _ h2]
    have hl := hlen _ _ _ _ h1
    obtain ⟨w, hw⟩ := whole_of h2
    exact ⟨n, ts, s', by omega, h1, hl, w⟩
  · right
    exact ⟨⟨n, h1⟩, beyond_of h2⟩

/-- In particular, a text of characters up to U+00FF is always tokenised to its end. -/
theorem C71_latin (cfg : Cfg) (hb : cfg.beginCol = 0) (text : List Nat) (line col : Nat) (h : ∀ c ∈ text, c ≤ 255) :
    ∃ n ts s', n ≤ 2 * text.length + 2 ∧ (Lx.init cfg text line col).run n = .ok (ts, s') ∧ ts.length = n ∧ Whole text ts := by
  rcases C71_tokens_tile_partial cfg hb text line col with h1 | ⟨_, n, c, h2, h3, _⟩
  · exact h1
  · have := h c (List.mem_of_getElem? h2)
    omega

example : (({} : Cfg).beginCol = 0) ∧ ∀ c ∈ "*C\nA B\n".toList.map Char.toNat, c ≤ 255 := by decide

/-- How a run fails, if it does. -/
def Lx.failure (s : Lx) (n : Nat) : Option Err :=
  match s.run n with
  | .error e => some e
  | .ok _ => none

/-- A character above U+00FF in column 72 reaches `isspace`, whose behaviour is then undefined. -/
theorem C71_witness_isspace : (Lx.init {} (List.replicate 71 65 ++ [0x20AC])).failure 2 = some .ub := by decide +kernel

theorem init_good (cfg : Cfg) (text : List Nat) (line col : Nat) : Good cfg (Lx.init cfg text line col).file (Lx.init cfg text line col) :=
  ⟨init_fo cfg text line col, rfl, rfl, .refl (Nat.zero_le _), by intro t ht; simp [Lx.init] at ht⟩

/-- **C77**: every token ever handed out says where it is: its line is the number of newlines before it and its column the number of
characters after the last of them (counted from the given position on the first line). -/
theorem C77_positions (cfg : Cfg) (hb : cfg.beginCol = 0) (text : List Nat) (line col : Nat) (n : Nat) (ts : List Tok) (s' : Lx)
    (h : (Lx.init cfg text line col).run n = .ok (ts, s')) (t : Tok) (ht : t ∈ ts) :
    t.start ≤ t.stop ∧ t.stop ≤ text.length ∧ (t.line, t.col) = Spec.place (line, col) (text.take t.start) := by
  obtain ⟨a, b, h1, ⟨m, rfl, hm⟩, h3⟩ := run_good hb (init_good cfg text line col) h t ht
  rw [h1]
  have hp := Inp.adv_p _ _ hm
  refine ⟨h3.p, ?_, ?_⟩
  · have := h3.bound
    rw [h3.data, Inp.adv_data] at this
    exact this
  · have := adv_place _ m hm
    have h0 : (Lx.init cfg text line col).file.p = 0 := rfl
    simp only [tok, hp, h0, Nat.zero_add]
    exact this

/-- The same for columns in UTF-16 units, as an editor counts them, for tokens starting (and the end, for tokens followed by) a character
of the basic plane or the end of the text. The full property, for all tokens, fails: see the witness. -/
theorem C77_utf16_partial (cfg : Cfg) (hb : cfg.beginCol = 0) (text : List Nat) (line col : Nat) (n : Nat) (ts : List Tok) (s' : Lx)
    (h : (Lx.init cfg text line col).run n = .ok (ts, s')) (t : Tok) (ht : t ∈ ts)
    (hfirst : ∀ c, text[0]? = some c → Spec.units c = 1) :
    ((∀ c, text[t.start]? = some c → Spec.units c = 1) → (t.line, t.col16) = Spec.place16 (line, col) (text.take t.start)) ∧
    ((∀ c, text[t.stop]? = some c → Spec.units c = 1) → t.end16 = (Spec.place16 (line, col) (text.take t.stop)).2) := by
  obtain ⟨a, b, h1, ⟨m, rfl, hm⟩, h3⟩ := run_good hb (init_good cfg text line col) h t ht
  rw [h1]
  have w1 : ∀ k : Option Nat, (∀ c, k = some c → Spec.units c = 1) → width k = 1 := by
    intro k hk
    cases k with
    | none => simp [width]
    | some c => rw [width_units]; exact hk c rfl
  have h0 : (Lx.init cfg text line col).file.p = 0 := rfl
  have key : ∀ m, (Lx.init cfg text line col).file.p + m ≤ (Lx.init cfg text line col).file.data.length →
      (∀ c, text[m]? = some c → Spec.units c = 1) →
      (((Lx.init cfg text line col).file.adv m).line, ((Lx.init cfg text line col).file.adv m).col16) = Spec.place16 (line, col) (text.take m) := by
    intro m hm hu
    have := adv_place16 (Lx.init cfg text line col).file m hm col (by
      have e : (Lx.init cfg text line col).file.cur = text[0]? := rfl
      rw [e, w1 _ hfirst]; rfl)
    rw [Inp.adv_cur _ _ hm, h0, Nat.zero_add] at this
    have e : (Lx.init cfg text line col).file.data = text := rfl
    rw [e, w1 _ hu] at this
    exact this
  obtain ⟨k, rfl, hk⟩ := h3
  rw [← Inp.adv_add]
  rw [Inp.adv_data, Inp.adv_p _ _ hm, Nat.add_assoc] at hk
  simp only [tok, Inp.adv_p _ _ hm, Inp.adv_p _ _ hk, h0, Nat.zero_add]
  refine ⟨fun hu => key m hm hu, fun hu => ?_⟩
  have := congrArg Prod.snd (key (m + k) hk hu)
  exact this

/-- The tokens of a run, if it succeeds. -/
def Lx.toks (s : Lx) (n : Nat) : List Tok :=
  match s.run n with
  | .error _ => []
  | .ok (ts, _) => ts

example : ((Lx.init {} ("A LR\n B".toList.map Char.toNat)).toks 8).map (fun t => (t.line, t.col, t.col16)) =
    [(0, 0, 0), (0, 1, 1), (0, 2, 2), (0, 4, 4), (1, 0, 0), (1, 1, 1), (1, 2, 2), (1, 2, 2)] := by decide +kernel

/-- A token before a character outside the basic plane ends one UTF-16 unit too far, and a token starting with such a character is one
unit too far to the right: in `L 😀` (after a line without such characters) the blank ends at unit 3, not 2. -/
theorem C77_witness_astral :
    ((Lx.init {} [10, 76, 32, 0x1F600]).toks 4).map (fun t => (t.col16, t.end16)) = [(0, 0), (0, 1), (1, 3), (3, 4)] ∧
    (Spec.place16 (0, 0) ([10, 76, 32, 0x1F600].take 3)).2 = 2 := by decide +kernel

/-- A character outside the basic plane at the very start of the text shifts its whole first line by one unit. -/
theorem C77_witness_first :
    ((Lx.init {} [0x1F600, 32, 65]).toks 3).map (fun t => (t.col16, t.end16)) = [(0, 1), (1, 2), (2, 3)] ∧
    (Spec.place16 (0, 0) ([0x1F600, 32, 65].take 1)).2 = 2 := by decide +kernel

/-- **C76**: of a source file the parser sees exactly its statements: the text in columns 1 to 71 of each line, a line whose column 72 is
not white going on in column 16 of the next, comment lines (and their continuations) left out, every statement followed by one end of
line. It holds for a text in which every carriage return stands before a newline and no line is a `*PROCESS` statement; it ends without
it only if a character above U+00FF stands at or after column 72. The full property, with lone carriage returns, fails (see the
witness). -/
theorem C76_statements_partial (cfg : Cfg) (hb : cfg.beginCol = 0) (hcfg : Standard cfg) (text : List Nat) (line : Nat)
    (hcr : ∀ n, text[n]? = some 13 → text[n + 1]? = some 10) (hp : ∀ l ∈ Spec.lines text, Spec.isProcess l = false) :
    (∃ n ts s', (Lx.init cfg text line 0).run n = .ok (ts, s') ∧ Whole text ts ∧
      seen text ts = marked (Spec.statements .start (Spec.lines text))) ∨
    ((∃ n, (Lx.init cfg text line 0).run n = .error .ub) ∧ Beyond 71 text line 0) := by
  have hfo := init_fo cfg text line 0
  rcases run_turns hfo rfl hb rfl with ⟨n, ts, s', h1, h2⟩ | ⟨n, h1, h2⟩
  · left
    refine ⟨n, ts, s', h1, (whole_of h2).1, ?_⟩
    have hle : ∀ j, (Lx.init cfg text line 0).file.Le j → j.col = 0 → ¬ j.process cfg.ictl := by
      rintro j ⟨m, rfl, hm⟩ h0 hpr
      have h3 := (line_start (i := (Lx.init cfg text line 0).file) rfl m (by simpa [Lx.init] using hm)).2 h0
      have h4 := process_line hpr
      rw [hp _ h3] at h4
      simp at h4
    have := seen_turns hcfg h2 hfo.bound (.inl (Nat.zero_le _)) hcr hle
    have e : (Lx.init cfg text line 0).file.data = text := rfl
    rw [e] at this
    rw [this]
    have hr : (Lx.init cfg text line 0).file.rem = text := rfl
    have hl := Inp.lines_rem (Lx.init cfg text line 0).file
    rw [hr] at hl
    rw [expect, hl]
    split
    · rename_i hn
      rw [Inp.inLine_end (.inl hn), Inp.rest_none hn]
      rfl
    · rfl
  · right
    refine ⟨⟨n, h1⟩, ?_⟩
    have := beyond_of h2
    rw [show (Lx.init cfg text line 0).cfg.endDefault = 71 from hcfg.endCol] at this
    exact this

/-- Without characters above U+00FF there is no other outcome. -/
theorem C76_latin (text : List Nat) (h : ∀ c ∈ text, c ≤ 255)
    (hcr : ∀ n, text[n]? = some 13 → text[n + 1]? = some 10) (hp : ∀ l ∈ Spec.lines text, Spec.isProcess l = false) :
    ∃ n ts s', (Lx.init {} text).run n = .ok (ts, s') ∧ Whole text ts ∧ seen text ts = marked (Spec.statements .start (Spec.lines text)) := by
  rcases C76_statements_partial {} rfl ⟨rfl, rfl, rfl, rfl⟩ text 0 hcr hp with h1 | ⟨_, n, c, h2, h3, _⟩
  · exact h1
  · have := h c (List.mem_of_getElem? h2)
    omega

/-- A text with a comment, a continued statement and a line that ends in a carriage return. -/
def sample : List Nat :=
  "*C\n A B".toList.map Char.toNat ++ List.replicate 67 32 ++ "X9\n".toList.map Char.toNat ++ List.replicate 15 46 ++ "C\r\n".toList.map Char.toNat

example : (∀ c ∈ sample, c ≤ 255) ∧ (∀ l ∈ Spec.lines sample, Spec.isProcess l = false) ∧
    Spec.statements .start (Spec.lines sample) = [" A B".toList.map Char.toNat ++ List.replicate 67 32 ++ [67], []] := by decide +kernel

example : ∀ n, sample[n]? = some 13 → sample[n + 1]? = some 10 := by
  intro n
  by_cases hn : n < sample.length
  · revert n; decide +kernel
  · rw [List.getElem?_eq_none (by omega)]; simp

example : seen sample ((Lx.init {} sample).toks 14) = marked (Spec.statements .start (Spec.lines sample)) := by decide +kernel

/-- A carriage return not followed by a newline ends the logical line, but the column goes on: what follows is cut off at a wrong place. -/
theorem C76_witness_return :
    seen (List.replicate 70 65 ++ [13] ++ [66, 67]) ((Lx.init {} (List.replicate 70 65 ++ [13] ++ [66, 67])).toks 6) =
      marked [List.replicate 70 65, []] := by decide +kernel

end Verif.Lexing
