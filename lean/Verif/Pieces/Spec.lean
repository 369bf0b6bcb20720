import Verif.Framing.Model
/-!
What a stream of messages looks like and which of them have arrived, independent of the model.
-/
namespace Verif.Pieces.Spec
open Verif
open Verif.Framing (CR LF)

/-- A message: its text, and the further header lines it is sent with. -/
structure Msg where
  more : List Bytes := []
  body : Bytes
deriving DecidableEq, Repr

/-- The further header lines are lines: not empty, and without line ends. -/
def Msg.Proper (m : Msg) : Prop := ∀ l ∈ m.more, l ≠ [] ∧ CR ∉ l

/-- The text `Content-Length: `. -/
def name : Bytes :=
  ['C', 'o', 'n', 't', 'e', 'n', 't', '-', 'L', 'e', 'n', 'g', 't', 'h', ':', ' '].map fun c => UInt8.ofNat c.toNat

/-- The number in decimal. -/
def number (n : Nat) : Bytes := (Nat.toDigits 10 n).map fun c => UInt8.ofNat c.toNat

/-- A line with its end. -/
def line (l : Bytes) : Bytes := l ++ [CR, LF]

/-- The message as it is sent: the length of the text, the further lines, an empty line, the text. -/
def Msg.sent (m : Msg) : Bytes :=
  line (name ++ number m.body.length) ++ (m.more.map line).flatten ++ line [] ++ m.body

/-- The messages one after the other. -/
def stream (ms : List Msg) : Bytes := (ms.map Msg.sent).flatten

/-- The texts of those messages that are complete when `n` bytes of the stream have come. -/
def arrived : List Msg → Nat → List Bytes
  | [], _ => []
  | m :: ms, n => if m.sent.length ≤ n then m.body :: arrived ms (n - m.sent.length) else []

end Verif.Pieces.Spec
