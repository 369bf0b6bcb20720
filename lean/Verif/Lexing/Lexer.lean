import Verif.Basic
/-!
The tokeniser.

Modelled: `/repo/parser_library/src/lexing/lexer.cpp` 37-54 (construction), 56-82 (`rewind_input`), 100-106 (`set_unlimited_line`,
`set_file_offset`), 150-218 (`create_token`), 220-254 (`consume`), 256-333 (`from_buffer`, `eof`, `start_token`, `switch_input_streams`,
`nextToken`), 343-659 (all `lex_*` functions), 696-706 (`is_process`), 729-750 (`lex_process`), 786-870 (`aread`, `ainsert`,
`set_last_line_pos`); `/repo/parser_library/src/lexing/input_source.cpp` 20-33 and 99-103.

A character is its code point, a stream the list of its characters. `size_t` positions are natural numbers; the wrap to
-1 and back when a newline is consumed is folded into one step.

Not modelled: highlighting, performance counters, the set of tokens after a continuation and token indices; they do not
influence which tokens come next. Double-byte support and the setters of begin, end and continue column (`set_*`): they have no
caller, as the ICTL rules of the grammar are commented out. The three columns are nevertheless parameters here.
-/
namespace Verif.Lexing

/-- Token types (`parsing/grammar/lex.tokens`). -/
inductive Ty where
  | eof | eolln | ignored | comment | continuation | space | process | asterisk | dot | minus | plus | equals | lt | gt | comma
  | lpar | rpar | apostrophe | attr | slash | ampersand | vertical | ordsymbol | num | identifier
deriving DecidableEq, Repr

/-- `input_state` with its `input_source` (`lexer.h` 180-188, `input_source.h`): characters, index, line, column, column in
UTF-16 units. The index of the stream and `char_position` are always equal and kept once; `c` is `cur`. -/
structure Inp where
  data : List Nat
  p : Nat := 0
  line : Nat := 0
  col : Nat := 0
  col16 : Nat := 0
deriving DecidableEq, Repr

/-- `c` / `LA(1)`; `none` is EOF. -/
def Inp.cur (i : Inp) : Option Nat := i.data[i.p]?

/-- Width of a character in the step of `consume` (`lexer.cpp` 236-252): the *next* character decides, 2 above U+FFFF. -/
def width (c : Option Nat) : Nat := if c.getD 0 > 0xFFFF then 2 else 1

/-- `consume` (`lexer.cpp` 220-254) on one stream. -/
def Inp.consume (i : Inp) : Inp :=
  match i.cur with
  | none => i
  | some c =>
    let w := width i.data[i.p + 1]?
    { i with
      p := i.p + 1
      line := if c = 10 then i.line + 1 else i.line
      col := if c = 10 then 0 else i.col + 1
      col16 := if c = 10 then w - 1 else i.col16 + w }

/-- A token (`token_factory.cpp`, `lexer.cpp` 179-190). `stop` is one past the last character (the code stores `char_position - 1`,
which wraps for an empty token at 0). `buf` tells that the token is from an inserted record. -/
structure Tok where
  ty : Ty
  hidden : Bool
  buf : Bool
  start : Nat
  stop : Nat
  line : Nat
  col : Nat
  col16 : Nat
  end16 : Nat
deriving DecidableEq, Repr

/-- The columns and switches of the tokeniser (`lexer.h` 164-171). -/
structure Cfg where
  beginCol : Nat := 0
  endDefault : Nat := 71
  contCol : Nat := 15
  contEnabled : Bool := true
  unlimited : Bool := false
  ictl : Bool := false
deriving DecidableEq, Repr

/-- `stream_position` (`lexer.h` 42-46). -/
structure SPos where
  line : Nat
  offset : Nat
deriving DecidableEq, Repr

/-- The tokeniser. `recs` is `ainsert_buffer_`, `buf` the stream of inserted records, `inBuf` whether `input_state_` points to it,
`start` is `token_start_state_`; `llnEnd = none` is the pair of -1. -/
structure Lx where
  cfg : Cfg
  file : Inp
  buf : Inp
  inBuf : Bool
  recs : List (List Nat)
  endCol : Nat
  creatingVar : Bool
  creatingAttr : Bool
  apostrophes : Nat
  eofGen : Bool
  lastLinePos : Nat
  llnBegin : SPos
  llnEnd : Option SPos
  start : Inp
  startBuf : Bool
  queue : List Tok
deriving DecidableEq, Repr

/-- Constructor (`lexer.cpp` 37-54), then `set_unlimited_line` and `set_file_offset` (100-106) for the lexers of re-parsed fields; the
main lexer has the default offset. -/
def Lx.init (cfg : Cfg) (text : List Nat) (line col : Nat := 0) : Lx where
  cfg := cfg
  file := ⟨text, 0, line, col, col⟩
  buf := ⟨[], 0, 0, 0, 0⟩
  inBuf := false
  recs := []
  endCol := cfg.endDefault
  creatingVar := false
  creatingAttr := false
  apostrophes := 0
  eofGen := false
  lastLinePos := 0
  llnBegin := ⟨0, 0⟩
  llnEnd := none
  start := ⟨text, 0, line, col, col⟩
  startBuf := false
  queue := []

/-- What can go wrong: `hang`, the program loops forever; `ub`, undefined behaviour; `throws`, an exception. -/
inductive Err where
  | hang | ub | throws
deriving DecidableEq, Repr

/-- `*input_state_`. -/
def Lx.cur (s : Lx) : Inp := if s.inBuf then s.buf else s.file

/-- `input_state_->c`. -/
def Lx.c (s : Lx) : Option Nat := s.cur.cur

/-- `input_state_->char_position_in_line`. -/
def Lx.col (s : Lx) : Nat := s.cur.col

/-- `consume` (`lexer.cpp` 220-254). -/
def Lx.consume (s : Lx) : Lx :=
  if s.inBuf then { s with buf := s.buf.consume } else { s with file := s.file.consume }

/-- `eof` (`lexer.cpp` 258). -/
def Lx.eof (s : Lx) : Bool := s.file.cur.isNone && s.buf.cur.isNone

/-- `start_token` (`lexer.cpp` 261). -/
def Lx.startToken (s : Lx) : Lx := { s with start := s.cur, startBuf := s.inBuf }

/-- `create_token` (`lexer.cpp` 150-190). -/
def Lx.createToken (s : Lx) (ty : Ty) (hidden : Bool := false) : Lx :=
  let s := if ty = .eof then { s with eofGen := true } else s
  if s.start.p = (if s.startBuf then s.buf.p else s.file.p) ∧ ty ≠ .eof ∧ ty ≠ .eolln then s
  else
    { s with
      creatingVar := decide (ty = .ampersand)
      creatingAttr := s.creatingAttr && (decide (ty = .ignored) || decide (ty = .continuation))
      queue := s.queue ++ [⟨ty, hidden, s.startBuf, s.start.p, s.cur.p, s.start.line, s.start.col, s.start.col16, s.cur.col16⟩] }

/-- `isspace` of a character (`lexer.cpp` 318, 523): blank and 9-13. Above 255 the argument is outside the table of the C library
(undefined behaviour); EOF is converted to -1, for which it is false. -/
def isSpace (c : Option Nat) : Except Err Bool :=
  match c with
  | none => .ok false
  | some c => if c > 255 then .error .ub else .ok (c == 32 || (9 ≤ c && c ≤ 13))

theorem Inp.consume_lt {i : Inp} (h : i.cur ≠ none) : i.consume.data.length - i.consume.p < i.data.length - i.p := by
  obtain ⟨c, hc⟩ := Option.ne_none_iff_exists'.mp h
  have hl : i.p < i.data.length := by
    unfold Inp.cur at hc
    exact (List.getElem?_eq_some_iff.mp hc).1
  simp only [Inp.consume, hc]
  omega

/-- Characters left in the current stream. -/
def Lx.left (s : Lx) : Nat := s.cur.data.length - s.cur.p

theorem Lx.consume_left {s : Lx} (h : s.c ≠ none) : s.consume.left < s.left := by
  unfold Lx.left Lx.consume Lx.cur
  unfold Lx.c Lx.cur at h
  split <;> rename_i hb
  · rw [if_pos hb] at h; simp only [hb, if_true]; exact Inp.consume_lt h
  · rw [if_neg hb] at h; simp only [hb]; exact Inp.consume_lt h

/-- A loop `while (cond) consume();`. At EOF `consume` does nothing, so a condition that still holds there holds forever. -/
def skipWhile (cond : Lx → Bool) (s : Lx) : Except Err Lx :=
  if cond s then
    if h : s.c = none then .error .hang else skipWhile cond s.consume
  else .ok s
termination_by s.left
decreasing_by exact Lx.consume_left h

/-- `before_end` (`lexer.cpp` 595-600). -/
def Lx.beforeEnd (s : Lx) : Bool :=
  decide (s.col < s.endCol) || (s.cfg.unlimited && s.c != some 13 && s.c != some 10) ||
    (decide (s.col = s.endCol) && s.inBuf && !s.recs.isEmpty)

/-- `lex_begin` (`lexer.cpp` 488-494). -/
def Lx.lexBegin (s : Lx) : Except Err Lx := do
  let s ← skipWhile (fun s => decide (s.col < s.cfg.beginCol) && !s.eof && s.c != some 10) s.startToken
  pure (s.createToken .ignored true)

/-- `lex_end` (`lexer.cpp` 496-512), without double-byte support. -/
def Lx.lexEnd (s : Lx) (eolln : Bool) : Except Err Lx := do
  let s ← skipWhile (fun s => s.c != some 10 && !s.eof && s.c != none) s.startToken
  let s := if !s.eof then
      let s := { s with lastLinePos := s.col }
      let s := s.consume
      if eolln then s.createToken .eolln else s
    else s
  pure (s.createToken .ignored true)

/-- `set_last_line_pos` (`lexer.cpp` 863-870). -/
def Lx.setLastLinePos (s : Lx) (idx line : Nat) : Lx :=
  { s with
    llnBegin := (match s.llnEnd with | some e => ⟨e.line + 1, e.offset⟩ | none => s.llnBegin)
    llnEnd := some ⟨line, idx⟩ }

/-- `lex_continuation` (`lexer.cpp` 545-566). -/
def Lx.lexContinuation (s : Lx) : Except Err Lx := do
  let s ← skipWhile (fun s => decide (s.col ≤ s.cfg.endDefault) && !s.eof) s.startToken
  let s := { s with endCol := s.cfg.endDefault }
  let s ← (s.createToken .continuation true).lexEnd false
  let s ← s.lexBegin
  let s ← skipWhile (fun s => decide (s.col < s.cfg.contCol) && !s.eof && s.c != some 10) s.startToken
  pure (s.createToken .ignored true)

/-- `lex_comment` (`lexer.cpp` 514-533). If a turn of the loop neither ends nor consumes anything, the next turn does the same: it
loops forever. -/
def Lx.lexComment (s : Lx) : Except Err Lx := do
  let s1 ← skipWhile (fun s => decide (s.col < s.endCol) && !s.eof && s.c != some 10) s.startToken
  let s1 := s1.createToken .comment true
  let sp ← isSpace s1.c
  if !sp && !s1.eof && s1.cfg.contEnabled then do
    let s2 ← s1.lexContinuation
    if _h : s2.left < s.left then s2.lexComment else .error .hang
  else do
    let s2 ← s1.lexEnd false
    pure (s2.setLastLinePos s2.cur.p s2.start.line)
termination_by s.left

/-- `lex_space` (`lexer.cpp` 588-593). -/
def Lx.lexSpace (s : Lx) : Except Err Lx := do
  let s ← skipWhile (fun s => s.c == some 32 && s.beforeEnd && !s.eof) s
  pure (s.createToken .space)

/-- `ord_char` (`lexer.cpp` 602-605), in the "C" locale: letters, digits and `_ @ $ #`. -/
def ordChar (c : Option Nat) : Bool :=
  match c with
  | none => false
  | some c => (48 ≤ c && c ≤ 57) || (65 ≤ c && c ≤ 90) || (97 ≤ c && c ≤ 122) || c == 95 || c == 64 || c == 36 || c == 35

/-- A decimal digit (`lexer.cpp` 621, 627). -/
def digit (c : Option Nat) : Bool :=
  match c with
  | none => false
  | some c => 48 ≤ c && c ≤ 57

/-- `is_space` (`lexer.cpp` 609). -/
def Lx.isSpaceChar (s : Lx) : Bool := s.c == some 32 || s.c == some 10 || s.c == some 13

/-- `is_data_attribute` (`lexer.cpp` 611-615): one of `D O N S K I L T` in either case. -/
def dataAttr (c : Option Nat) : Bool :=
  match c with
  | none => false
  | some c => [68, 79, 78, 83, 75, 73, 76, 84].contains (if 97 ≤ c && c ≤ 122 then c - 32 else c)

/-- `identifier_divider` (`lexer.cpp` 464-486). -/
def Lx.divider (s : Lx) : Bool :=
  match s.c with
  | none => false
  | some c => [42, 46, 45, 43, 61, 60, 62, 44, 40, 41, 39, 47, 38, 124].contains c

/-- Local variables of `lex_word`. -/
structure Word where
  ord : Bool
  num : Bool
  lastAttr : Bool
  len : Nat
deriving DecidableEq, Repr

/-- The loop of `lex_word` (`lexer.cpp` 624-638). The Boolean result is true if it was left by `return`. -/
def wordLoop (s : Lx) (w : Word) : Except Err (Lx × Word × Bool) :=
  if !s.isSpaceChar && !s.eof && !s.divider && s.beforeEnd then
    let w : Word := ⟨w.ord && ordChar s.c, w.num && digit s.c, dataAttr s.c, w.len⟩
    if s.creatingVar && !w.ord && decide (w.len > 0) && decide (w.len ≤ 63) then .ok (s, w, true)
    else if h : s.c = none then .error .hang
    else wordLoop s.consume { w with len := w.len + 1 }
  else .ok (s, w, false)
termination_by s.left
decreasing_by exact Lx.consume_left h

/-- The type of the token of a word (`lexer.cpp` 642-647). -/
def wordTy (w : Word) : Ty := if w.ord && decide (w.len ≤ 63) then .ordsymbol else if w.num then .num else .identifier

/-- The apostrophe of an attribute reference (`lexer.cpp` 649-655). -/
def Lx.wordAttr (s : Lx) (w : Word) (varTmp : Bool) : Lx :=
  if s.c == some 39 && w.lastAttr && !varTmp && decide (w.len = 1) && (s.cfg.unlimited || decide (s.col ≠ s.endCol)) then
    s.startToken.consume.createToken .attr
  else s

/-- Sets `creating_attr_ref_` (`lexer.cpp` 657-658). -/
def Lx.wordFlag (s : Lx) (w : Word) (varTmp : Bool) : Lx :=
  { s with creatingAttr := !s.cfg.unlimited && decide (s.col = s.endCol) && w.lastAttr && !varTmp && decide (w.len = 1) }

/-- The end of `lex_word` (`lexer.cpp` 640-659). -/
def Lx.wordEnd (s : Lx) (w : Word) : Lx :=
  ((s.createToken (wordTy w)).wordAttr w s.creatingVar).wordFlag w s.creatingVar

/-- `lex_word` (`lexer.cpp` 617-659). -/
def Lx.lexWord (s : Lx) : Except Err Lx := do
  let (s, w, early) ← wordLoop s ⟨ordChar s.c && !digit s.c, digit s.c, false, 0⟩
  if early then pure (s.createToken .ordsymbol) else pure (s.wordEnd w)

/-- The tokens of one character (`lexer.cpp` 345-456). -/
def single (c : Nat) : Option Ty :=
  match c with
  | 42 => some .asterisk
  | 46 => some .dot
  | 45 => some .minus
  | 43 => some .plus
  | 61 => some .equals
  | 60 => some .lt
  | 62 => some .gt
  | 44 => some .comma
  | 40 => some .lpar
  | 41 => some .rpar
  | 47 => some .slash
  | 38 => some .ampersand
  | 124 => some .vertical
  | _ => none

/-- `lex_tokens` (`lexer.cpp` 343-462) away from the begin column, where `*` and `.` are ordinary. -/
def Lx.lexPlain (s : Lx) : Except Err Lx :=
  match s.c with
  | none => s.lexWord
  | some c =>
    match single c with
    | some ty => .ok (s.consume.createToken ty)
    | none =>
      if c = 32 then s.lexSpace
      else if c = 39 then
        let s := s.consume
        .ok (if !s.creatingAttr then { s with apostrophes := s.apostrophes + 1 }.createToken .apostrophe else s.createToken .attr)
      else if c = 13 then
        let s := s.consume
        let s := if s.c = some 10 then s.consume else s
        .ok (s.createToken .eolln)
      else if c = 10 then .ok (s.consume.createToken .eolln)
      else s.lexWord

/-- `LA(n)` in a stream, upper-cased (`lexer.cpp` 699-705); EOF (-1) stays what it is. -/
def upperAt (i : Inp) (n : Nat) : Nat :=
  match i.data[i.p + n]? with
  | none => 0
  | some c => if 97 ≤ c && c ≤ 122 then c - 32 else c

/-- `is_process` (`lexer.cpp` 696-706). -/
def Lx.isProcess (s : Lx) : Bool :=
  (if s.cfg.ictl then decide (s.cur.line ≤ 11) else decide (s.cur.line ≤ 10)) &&
    (upperAt s.cur 1 == 80 && upperAt s.cur 2 == 82 && upperAt s.cur 3 == 79 && upperAt s.cur 4 == 67 && upperAt s.cur 5 == 69 &&
      upperAt s.cur 6 == 83 && upperAt s.cur 7 == 83)

/-- A call of `toupper` in `is_process` (`lexer.cpp` 696-706) has an argument above 255, for which it is undefined; calls after a
mismatch are not made. -/
def upperUb (i : Inp) : Nat → List Nat → Bool
  | _, [] => false
  | n, c :: cs => (i.data[i.p + n]?.getD 0 > 255) || (upperAt i n == c && upperUb i (n + 1) cs)

/-- `is_process` is undefined here (`lexer.cpp` 696-706). -/
def Lx.processUb (s : Lx) : Bool :=
  (if s.cfg.ictl then decide (s.cur.line ≤ 11) else decide (s.cur.line ≤ 10)) && upperUb s.cur 1 [80, 82, 79, 67, 69, 83, 83]

/-- The loop of `lex_process` (`lexer.cpp` 742-747). In it `lex_tokens` is `lexPlain`: the column is at least 8 past the begin
column and the loop ends before the end of the line. -/
def processLoop (s : Lx) : Except Err Lx :=
  if !s.eof && s.beforeEnd && s.c != some 10 && s.c != some 13 && (s.apostrophes % 2 == 1 || s.c != some 32) then do
    let s1 ← s.startToken.lexPlain
    if _h : s1.left < s.left then processLoop s1 else .error .hang
  else .ok s
termination_by s.left

/-- `lex_process` (`lexer.cpp` 729-750). -/
def Lx.lexProcess (s : Lx) : Except Err Lx := do
  let s := s.startToken
  let s := s.consume.consume.consume.consume.consume.consume.consume.consume
  let s := s.createToken .process
  let s ← s.startToken.lexSpace
  let s ← processLoop { s with apostrophes := 0, endCol := s.endCol + 1 }
  let s := { s with endCol := s.endCol - 1 }
  s.lexEnd true

/-- `lex_tokens` (`lexer.cpp` 343-462). The test for a macro comment looks at the file (`input_->LA(2)`) even if an inserted record is
read. -/
def Lx.lexTokens (s : Lx) : Except Err Lx :=
  if s.c = some 42 ∧ s.col = s.cfg.beginCol then
    if s.processUb then .error .ub else if s.isProcess then s.lexProcess else s.lexComment
  else if s.c = some 46 ∧ s.col = s.cfg.beginCol ∧ s.file.data[s.file.p + 1]? = some 42 then s.lexComment
  else s.lexPlain

/-- `switch_input_streams` (`lexer.cpp` 263-282). -/
def Lx.switchStreams (s : Lx) : Lx :=
  if s.buf.cur ≠ none then s
  else
    match s.recs with
    | [] => { s with inBuf := false }
    | r :: rs =>
      let s := { s with buf := { s.buf with data := s.buf.data ++ r }, recs := rs, inBuf := true }
      if s.buf.cur = none then { s with inBuf := false } else s

/-- One turn of the loop of `nextToken` with an empty queue (`lexer.cpp` 302-331). -/
def Lx.step (s : Lx) : Except Err Lx := do
  let s := s.switchStreams.startToken
  if s.eof then pure ((s.createToken .eolln).createToken .eof)
  else
    let cont ← if !s.cfg.unlimited && decide (s.col = s.endCol) then do
        let sp ← isSpace s.c
        pure (!sp && s.cfg.contEnabled && (!s.inBuf || !s.recs.isEmpty))
      else pure false
    if cont then s.lexContinuation
    else if (s.cfg.unlimited && (s.c == some 13 || s.c == some 10)) || (!s.cfg.unlimited && decide (s.col ≥ s.endCol)) then s.lexEnd true
    else if s.col < s.cfg.beginCol then s.lexBegin
    else s.lexTokens

/-- All characters not yet read. -/
def Lx.total (s : Lx) : Nat :=
  (s.file.data.length - s.file.p) + (s.buf.data.length - s.buf.p) + (s.recs.map List.length).sum

/-- `nextToken` (`lexer.cpp` 289-333). If a turn neither makes a token nor consumes anything, the following turns do the same. -/
def Lx.nextToken (s : Lx) : Except Err (Tok × Lx) :=
  match s.queue with
  | t :: q =>
    let s := if t.ty = .eolln then s.setLastLinePos t.stop t.line else s
    .ok (t, { s with queue := q })
  | [] => do
    let s1 ← s.step
    match s1.queue with
    | t :: q =>
      let s1 := if t.ty = .eolln then s1.setLastLinePos t.stop t.line else s1
      .ok (t, { s1 with queue := q })
    | [] => if _h : s1.total < s.total then s1.nextToken else .error .hang
termination_by s.total

/-- `rewind_input` (`lexer.cpp` 56-82). On an empty input the index becomes -1 (the code's assertion fails): undefined. -/
def Lx.rewind (s : Lx) (pos : SPos) : Except Err Lx :=
  if s.file.data = [] then .error .ub
  else
    let off := if pos.offset ≥ s.file.data.length then s.file.data.length - 1 else pos.offset
    .ok { s with
      file := ⟨s.file.data, off, pos.line, 0, 0⟩
      eofGen := false
      queue := []
      llnEnd := if pos.line = 0 then none else some ⟨pos.line - 1, off⟩
      llnBegin := ⟨pos.line, off⟩ }

/-- Back to the start of the line of the file (`lexer.cpp` 795-798, 849-852: "make sure we read the WHOLE line"). -/
def Lx.lineStart (s : Lx) : Except Err Lx :=
  if s.file.col ≠ 0 then s.rewind ⟨s.file.line, s.file.p - s.file.col⟩ else .ok s

/-- `ainsert` (`lexer.cpp` 834-861) of a record, already converted from UTF-8. -/
def Lx.ainsert (s : Lx) (r : List Nat) (front : Bool) : Except Err Lx := do
  if r = [] then .error .throws
  else
    let r := r ++ List.replicate (80 - r.length) 32 ++ [10]
    let s := { s with recs := if front then r :: s.recs else s.recs ++ [r] }
    let s ← s.lineStart
    pure { s with queue := [], eofGen := false }

/-- The reading loop of `aread` (`lexer.cpp` 808-812). -/
def areadLoop (s : Lx) (acc : List Nat) : List Nat × Lx :=
  if !s.eof && s.c != some 13 && s.c != some 10 then
    match _h : s.c with
    | none => (acc, s)
    | some c => areadLoop s.consume (acc ++ [c])
  else (acc, s)
termination_by s.left
decreasing_by exact Lx.consume_left (by rw [_h]; exact Option.some_ne_none _)

/-- Back to the start of the line of the buffer (`lexer.cpp` 799-806). -/
def Lx.bufStart (s : Lx) : Lx :=
  if s.inBuf ∧ s.buf.col ≠ 0 then { s with buf := { s.buf with p := s.buf.p - s.buf.col, col := 0, col16 := 0 } } else s

/-- `consume_new_line` (`lexer.cpp` 535-542). -/
def Lx.newLine (s : Lx) : Lx :=
  let s := if s.c = some 13 then s.consume else s
  if s.c = some 10 then s.consume else s

/-- The end of `aread` (`lexer.cpp` 816-820). -/
def Lx.areadEnd (s : Lx) : Lx :=
  let s := if !s.inBuf then s.setLastLinePos s.cur.p s.start.line else s
  if s.eof then s.createToken .eof else s

/-- `aread` (`lexer.cpp` 786-826): `none` for the empty string at the end of the input. -/
def Lx.aread (s : Lx) : Except Err (Option (List Nat) × Lx) := do
  let s := s.switchStreams
  if s.eof then pure (none, s)
  else
    let s ← s.lineStart
    let s := s.bufStart.startToken
    let p := areadLoop s []
    let s := p.2.newLine.areadEnd
    pure (some (if p.1 = [] then [32] else p.1), s)

end Verif.Lexing
