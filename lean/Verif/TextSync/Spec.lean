import Verif.TextSync.Model
/-!
Independent specification of document synchronisation, written from the LSP specification and not from the code:
a document is a list of Unicode characters, a position is a line number and a UTF-16 column.
-/
namespace Verif.TextSync

/-- UTF-8 encoding of a text; `String.utf8EncodeChar` is Lean core's own encoder. -/
def utf8 (cs : List Char) : Bytes := cs.flatMap String.utf8EncodeChar

/-- Number of UTF-16 code units of a character. -/
def utf16Width (c : Char) : Nat := if c.toNat ≤ 0xFFFF then 1 else 2

/-- Number of UTF-16 code units of a text. -/
def utf16Len (cs : List Char) : Nat := (cs.map utf16Width).sum

/-- Offset `k` starts a line: the beginning of the text, or directly after LF, or directly after a CR that is
not the first half of CRLF. Stated for any alphabet, given what LF and CR are. -/
def IsLineStart {α} [DecidableEq α] (lf cr : α) (t : List α) (k : Nat) : Prop :=
  k = 0 ∨ (k ≤ t.length ∧ (t[k-1]? = some lf ∨ (t[k-1]? = some cr ∧ t[k]? ≠ some lf)))

instance {α} [DecidableEq α] (lf cr : α) (t : List α) (k : Nat) : Decidable (IsLineStart lf cr t k) := by
  unfold IsLineStart; infer_instance

/-- All line starts of a text, in increasing order. -/
def lineStarts {α} [DecidableEq α] (lf cr : α) (t : List α) : List Nat :=
  (List.range (t.length + 1)).filter (fun k => decide (IsLineStart lf cr t k))

/-- Line starts of a document of characters. -/
abbrev docLines (doc : List Char) : List Nat := lineStarts '\n' '\r' doc

/-- Line starts of a byte string. -/
abbrev byteLines (t : Bytes) : List Nat := lineStarts (10 : UInt8) (13 : UInt8) t

/-- Character offset `k` of `doc` is what the LSP position `p` denotes: it lies on line `p.line`, with no line
terminator between the start of that line and `k`, at UTF-16 distance `p.column` from it. -/
structure PosAt (doc : List Char) (p : Pos) (k : Nat) : Prop where
  inDoc : k ≤ doc.length
  onLine : ∃ s, (docLines doc)[p.line]? = some s ∧ s ≤ k ∧
    (∀ c ∈ (doc.take k).drop s, c ≠ '\n' ∧ c ≠ '\r') ∧ utf16Len ((doc.take k).drop s) = p.column

/-- A change as the editor performs it on its own buffer: replace the whole text, or replace the characters
between the offsets `i` and `j`. -/
inductive Edit where
  | whole (new : List Char)
  | replace (i j : Nat) (new : List Char)

/-- The editor's buffer after an edit. -/
def Edit.apply (doc : List Char) : Edit → List Char
  | .whole new => new
  | .replace i j new => doc.take i ++ new ++ doc.drop j

/-- The notification `c` describes the edit `e` of the buffer `doc` in LSP coordinates. -/
inductive Describes (doc : List Char) : Edit → Change → Prop
  | whole (new) : Describes doc (.whole new) (.whole (utf8 new))
  | replace (i j new r) (hij : i ≤ j) (hs : PosAt doc r.start i) (he : PosAt doc r.fin j) :
      Describes doc (.replace i j new) (.range r (utf8 new))

/-- The edit does not bring a CR directly in front of an LF that was not there (inside the new text, CRLF pairs
are fine). -/
def Edit.NoSeam (doc : List Char) : Edit → Prop
  | .whole _ => True
  | .replace i j new =>
    ¬ ((doc.take i).getLast? = some '\r' ∧ (new ++ doc.drop j).head? = some '\n') ∧
    ¬ (new.getLast? = some '\r' ∧ (doc.drop j).head? = some '\n')

/-- A history of edits together with the notifications describing them. -/
inductive History : List Char → List Change → List Char → Prop
  | nil (doc) : History doc [] doc
  | cons {doc e c cs doc'} (hd : Describes doc e c) (hrest : History (e.apply doc) cs doc') :
      History doc (c :: cs) doc'

/-- The same, no edit of the history creating a CRLF pair across its boundary. -/
inductive SafeHistory : List Char → List Change → List Char → Prop
  | nil (doc) : SafeHistory doc [] doc
  | cons {doc e c cs doc'} (hd : Describes doc e c) (hs : e.NoSeam doc) (hrest : SafeHistory (e.apply doc) cs doc') :
      SafeHistory doc (c :: cs) doc'

end Verif.TextSync
