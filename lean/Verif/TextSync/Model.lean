import Verif.Basic
/-!
Model of the incremental document synchronisation in
`/repo/parser_library/src/workspaces/file_impl.cpp` and `file_manager_impl.cpp`.

Conventions: a `std::string` is a list of bytes, a `std::vector<size_t>` is a list of natural numbers.
`size_t` is modelled by `Nat`; the one place where the code relies on wrap-around (`char_diff`, line 146) is
modelled by "add first, subtract later", which gives the same number as long as no intermediate value is
larger than `2^64` (texts of that size cannot exist in memory).
An outcome `none` stands for "the C++ code throws an exception or its behaviour is undefined".
-/
namespace Verif.TextSync

/-- `position` (`/repo/parser_library/src/location.h`, `protocol.h`): zero-based line and UTF-16 column. -/
structure Pos where
  line : Nat
  column : Nat
deriving DecidableEq, Repr

/-- `range`: two positions. -/
structure Range where
  start : Pos
  fin : Pos
deriving DecidableEq, Repr

def LF : UInt8 := 10
def CR : UInt8 := 13

/-- `find_newlines` (file_impl.cpp:73-108): the loop over `text`, with state `was_r` and index `i`;
the result is the list of values pushed into `lines`, in order. -/
def findNewlinesGo : Bool → Nat → Bytes → List Nat
  | wasR, i, [] => if wasR then [i] else []
  | true, i, ch :: t =>
    if ch = LF then (i + 1) :: findNewlinesGo false (i + 1) t
    else if ch = CR then i :: findNewlinesGo true (i + 1) t
    else i :: findNewlinesGo false (i + 1) t
  | false, i, ch :: t =>
    if ch = LF then (i + 1) :: findNewlinesGo false (i + 1) t
    else if ch = CR then findNewlinesGo true (i + 1) t
    else findNewlinesGo false (i + 1) t

/-- `find_newlines` (file_impl.cpp:73-108). -/
def findNewlines (text : Bytes) : List Nat := findNewlinesGo false 0 text

/-- `create_line_indices` (file_impl.cpp:331-337). -/
def createLineIndices (text : Bytes) : List Nat := 0 :: findNewlines text

/-- `utf8_one_byte_begin` (file_impl.cpp:207-210). -/
def oneByteBegin (ch : UInt8) : Bool := ch &&& 0x80 == 0
/-- `utf8_continue_byte` (file_impl.cpp:212-215). -/
def continueByte (ch : UInt8) : Bool := ch &&& 0xC0 == 0x80
/-- `utf8_two_byte_begin` (file_impl.cpp:218-221). -/
def twoByteBegin (ch : UInt8) : Bool := ch &&& 0xE0 == 0xC0
/-- `utf8_three_byte_begin` (file_impl.cpp:223-226). -/
def threeByteBegin (ch : UInt8) : Bool := ch &&& 0xF0 == 0xE0
/-- `utf8_four_byte_begin` (file_impl.cpp:228-231). -/
def fourByteBegin (ch : UInt8) : Bool := ch &&& 0xF8 == 0xF0

/-- The `width`/`utf16_width` selection in the body of the loop of `index_from_position`
(file_impl.cpp:243-272); `none` is the `throw` of line 263. -/
def charWidth (ch : UInt8) : Option (Nat × Nat) :=
  if oneByteBegin ch then some (1, 1)
  else if fourByteBegin ch then some (4, 2)
  else if threeByteBegin ch then some (3, 1)
  else if twoByteBegin ch then some (2, 1)
  else none

theorem charWidth_pos {ch : UInt8} {w u : Nat} (h : charWidth ch = some (w, u)) : 0 < w ∧ 0 < u := by
  unfold charWidth at h
  repeat' split at h
  all_goals simp at h
  all_goals omega

/-- The `while` loop of `index_from_position` (file_impl.cpp:241-273). `rest` is `text` from index `i` on
(empty once `i >= text.size()`), `cnt` is `utf16_counter`, `col` is `end`. The index may run past the end of
the text when the last character is truncated. -/
def walk (col : Nat) (cnt : Nat) (i : Nat) (rest : Bytes) : Option Nat :=
  if cnt < col then
    match rest with
    | [] => some i
    | ch :: t =>
      match _h : charWidth ch with
      | none => none
      | some (w, u) => walk col (cnt + u) (i + w) ((ch :: t).drop w)
  else some i
termination_by rest.length
decreasing_by
  have := charWidth_pos _h
  simp only [List.length_drop, List.length_cons]
  omega

/-- `file_impl::index_from_position` (file_impl.cpp:233-275). -/
def indexFromPosition (text : Bytes) (lines : List Nat) (loc : Pos) : Option Nat :=
  match lines[loc.line]? with
  | none => some text.length
  | some i => walk loc.column 0 i (text.drop i)

/-- State of a `file_impl` (file_impl.h:64-76), without the file name. -/
structure File where
  text : Bytes := []
  lines : List Nat := []
  upToDate : Bool := false
  editing : Bool := false
  bad : Bool := false
  version : Nat := 0
deriving DecidableEq, Repr

/-- `file_impl::did_open` (file_impl.cpp:110-122). -/
def File.didOpen (f : File) (newText : Bytes) (version : Nat) : File :=
  { f with text := newText, version := version, lines := createLineIndices newText,
           upToDate := true, bad := false, editing := true }

/-- The loop of file_impl.cpp:154-157 (growing case): for `i` from `size-1` down to `lo+1`:
`lines[i] = lines[i-diff] + char_diff`. `n` counts the remaining iterations; the index handled is `lo + n`.
`add`/`sub` are the two parts of `char_diff`. -/
def shiftUp (diff add sub lo : Nat) : Nat → List Nat → List Nat
  | 0, l => l
  | n + 1, l =>
    let i := lo + (n + 1)
    shiftUp diff add sub lo n (l.set i (l[i - diff]?.getD 0 + add - sub))

/-- The loop of file_impl.cpp:163-166 (shrinking case): for `i` from `lo` up (`n` iterations):
`lines[i] = lines[i+diff] + char_diff`. -/
def shiftDown (diff add sub : Nat) : Nat → Nat → List Nat → List Nat
  | 0, _, l => l
  | n + 1, i, l => shiftDown diff add sub n (i + 1) (l.set i (l[i + diff]?.getD 0 + add - sub))

/-- The loop of file_impl.cpp:173-176: overwrite `lines[i..]` by the new line starts plus `begin`. -/
def overwrite (b : Nat) : Nat → List Nat → List Nat → List Nat
  | _, [], l => l
  | i, x :: xs, l => overwrite b (i + 1) xs (l.set i (x + b))

/-- The index update of `did_change` (file_impl.cpp:138-176), given the byte offsets `b`, `e` and the lines
`sl`, `el` of the range. Out-of-bounds vector accesses are undefined behaviour: `none`. -/
def updateLines (lines : List Nat) (sl el b e : Nat) (newText : Bytes) : Option (List Nat) :=
  let newLines := findNewlines newText
  if el < sl ∨ e < b then none          -- `size_t` subtraction would wrap
  else
    let old := el - sl
    let new := newLines.length
    if new > old then
      let diff := new - old
      let l1 := lines ++ List.replicate diff 0
      let l2 := shiftUp diff newText.length (e - b) (el + diff) (l1.length - 1 - (el + diff)) l1
      if sl + new < l2.length then some (overwrite b (sl + 1) newLines l2) else none
    else
      let diff := old - new
      if lines.length < diff then none
      else
        let l1 := shiftDown diff newText.length (e - b) (lines.length - diff - (sl + 1 + new)) (sl + 1 + new) lines
        let l2 := l1.take (l1.length - diff)
        if new = 0 ∨ sl + new < l2.length then some (overwrite b (sl + 1) newLines l2) else none

/-- `file_impl::did_change(range, new_text)` (file_impl.cpp:128-180). `std::string::replace` throws when
`begin > size()` (never reached here because `begin` would have to run past the text). -/
def File.didChangeRange (f : File) (r : Range) (newText : Bytes) : Option File := do
  let b ← indexFromPosition f.text f.lines r.start
  let e ← indexFromPosition f.text f.lines r.fin
  if f.text.length < b then none
  else
    let lines ← updateLines f.lines r.start.line r.fin.line b e newText
    some { f with text := f.text.take b ++ newText ++ f.text.drop e, lines := lines, version := f.version + 1 }

/-- `file_impl::did_change(new_text)` (file_impl.cpp:182-189). -/
def File.didChangeWhole (f : File) (newText : Bytes) : File :=
  { f with text := newText, lines := createLineIndices newText, version := f.version + 1 }

/-- `document_change` (`/repo/parser_library/include/protocol.h`): whole text or range. -/
inductive Change where
  | whole (text : Bytes)
  | range (r : Range) (text : Bytes)
deriving DecidableEq, Repr

/-- One iteration of the loop of `file_manager_impl::did_change_file` (file_manager_impl.cpp:169-176). -/
def File.change (f : File) : Change → Option File
  | .whole t => some (f.didChangeWhole t)
  | .range r t => f.didChangeRange r t

/-- The loop of `file_manager_impl::did_change_file` (file_manager_impl.cpp:169-176). -/
def File.changes (f : File) : List Change → Option File
  | [] => some f
  | c :: cs => (f.change c).bind (·.changes cs)

/-- `file_impl::did_close` (file_impl.cpp:191). -/
def File.didClose (f : File) : File := { f with editing := false }

/-- Length of the character starting with `ch` (file_impl.cpp:284-295); `none` when `OK = false`. -/
def leadLen (ch : UInt8) : Option Nat :=
  if oneByteBegin ch then some 1
  else if twoByteBegin ch then some 2
  else if threeByteBegin ch then some 3
  else if fourByteBegin ch then some 4
  else none

/-- The check of file_impl.cpp:298-308: all bytes of the character after the first one exist and are
continuation bytes. -/
def okLen (rest : Bytes) : Option Nat :=
  match rest with
  | [] => none
  | ch :: t =>
    match leadLen ch with
    | none => none
    | some n => if n - 1 ≤ t.length ∧ (t.take (n - 1)).all continueByte then some n else none

theorem leadLen_pos {ch : UInt8} {n : Nat} (h : leadLen ch = some n) : 0 < n := by
  unfold leadLen at h
  repeat' split at h
  all_goals simp at h
  all_goals omega

theorem okLen_pos {l : Bytes} {n : Nat} (h : okLen l = some n) : 0 < n := by
  unfold okLen at h
  split at h
  · simp at h
  · split at h
    · simp at h
    · next hl => split at h <;> simp at h; have := leadLen_pos hl; omega

/-- UTF-8 encoding of U+FFFD pushed at file_impl.cpp:322-324. -/
def replacement : Bytes := [0xEF, 0xBF, 0xBD]

/-- `file_impl::replace_non_utf8_chars` (file_impl.cpp:277-329): `text` is the unread part. -/
def sanitise (text : Bytes) : Bytes :=
  match text with
  | [] => []
  | ch :: t =>
    match _h : okLen (ch :: t) with
    | some n => (ch :: t).take n ++ sanitise ((ch :: t).drop n)
    | none => replacement ++ sanitise t
termination_by text.length
decreasing_by
  · have := okLen_pos _h; simp only [List.length_drop, List.length_cons]; omega
  · simp

/-- `file_impl::load_text` (file_impl.cpp:44-70). `disk` is the content of the file, `none` when it cannot be
opened. -/
def File.loadText (f : File) (disk : Option Bytes) : File :=
  match disk with
  | some raw => { f with text := sanitise raw, upToDate := true, bad := false }
  | none => { f with text := [], upToDate := false, bad := true }

/-- `file_impl::get_text` (file_impl.cpp:37-42). -/
def File.getText (f : File) (disk : Option Bytes) : File × Bytes :=
  let f' := if f.upToDate then f else f.loadText disk
  (f', f'.text)

/-- `file_impl::update_and_get_bad` (file_impl.cpp:197-205). -/
def File.updateAndGetBad (f : File) (disk : Option Bytes) : File × Bool :=
  if f.editing then (f, false) else let f' := f.loadText disk; (f', f'.bad)

end Verif.TextSync
