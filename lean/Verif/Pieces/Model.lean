import Verif.Framing.Model
/-!
Model of the two readers that find messages in data arriving in pieces: the one the WebAssembly build of the server puts
on its standard input (`/repo/language_server/src/emscripten_server_streams.cpp`) and the one of the proxy the client
starts for debuggers of Theia (`/repo/clients/vscode-hlasmplugin/src/hlasmDebugAdapterFactory.ts`). Both are JavaScript and
contain the same search; what they do with a message found differs.

Simplifications. A `Buffer` is a list of bytes. Numbers are whole numbers without bound or NaN: doubles are exact up to
2^53, and no `Buffer` is longer than that. A handler of `data` events runs to its end before the next event, as JavaScript
does. The text of the `EM_ASM` block is read as the JavaScript it becomes: `'\\x0D\\x0A'` is CR LF.
-/
namespace Verif.Pieces
open Verif
open Verif.Framing (CR LF decimal)

/-- `'Content-Length: '` (emscripten_server_streams.cpp:100, hlasmDebugAdapterFactory.ts:45). -/
def label : Bytes := [67, 111, 110, 116, 101, 110, 116, 45, 76, 101, 110, 103, 116, 104, 58, 32]

/-- `Buffer.indexOf(pat)` of Node: where `pat` occurs first; `none` is -1. -/
def indexOf (pat : Bytes) : Bytes → Option Nat
  | [] => if pat = [] then some 0 else none
  | c :: t => if pat.isPrefixOf (c :: t) then some 0 else (indexOf pat t).map (· + 1)

/-- White space that `Number` takes off both ends of a text (the ASCII part of it). -/
def isSpace (c : UInt8) : Bool := c = 32 || (9 ≤ c.toNat && c.toNat ≤ 13)

/-- The text without white space at its ends. -/
def trim (l : Bytes) : Bytes := ((l.dropWhile isSpace).reverse.dropWhile isSpace).reverse

def isDigit (c : UInt8) : Bool := 48 ≤ c.toNat && c.toNat ≤ 57

/-- The value of a run of digits. -/
def digits (l : Bytes) : Nat := l.foldl (fun a d => a * 10 + (d.toNat - 48)) 0

/-- A number of JavaScript: whole, or NaN. -/
inductive Num | nan | int (i : Int)
deriving DecidableEq, Repr

/-- The unary `+` on a part of a `Buffer` (emscripten_server_streams.cpp:116, hlasmDebugAdapterFactory.ts:66), which is
`Number` of its text: nothing at all is 0, digits with an optional sign are their value, anything else is NaN. Fractions,
exponents, other bases and `Infinity`, which `Number` reads as well, are not modelled. -/
def toNumber (l : Bytes) : Num :=
  match trim l with
  | [] => .int 0
  | c :: t =>
    if (c :: t).all isDigit then .int (digits (c :: t))
    else if c = 45 && t.all isDigit && !t.isEmpty then .int (- (digits t : Int))
    else if c = 43 && t.all isDigit && !t.isEmpty then .int (digits t)
    else .nan

/-- `n + x` for a whole number `n`. -/
def Num.plus (n : Nat) : Num → Num
  | .nan => .nan
  | .int i => .int (n + i)

/-- `x > n`; false for NaN. -/
def Num.exceeds (n : Nat) : Num → Bool
  | .nan => false
  | .int i => decide (i > n)

/-- How `Buffer.slice` of Node understands an offset into a buffer of `n` bytes: NaN is 0, a negative one counts from the
end, and the result lies in the buffer. -/
def offset (n : Nat) : Num → Nat
  | .nan => 0
  | .int i => if i < 0 then (n + i).toNat else min i.toNat n

/-- `Buffer.slice(from, to)`. -/
def slice (b : Bytes) (from_ to : Num) : Bytes :=
  (b.drop (offset b.length from_)).take (offset b.length to - offset b.length from_)

/-- `Buffer.slice(from)`. -/
def sliceFrom (b : Bytes) (from_ : Num) : Bytes := b.drop (offset b.length from_)

/-- What one turn of the loop does: it leaves the handler, or it has found a message and what stays in the buffer then. -/
inductive Turn | leave | found (body rest : Bytes)
deriving DecidableEq, Repr

/-- One turn of the loop (emscripten_server_streams.cpp:110-126, hlasmDebugAdapterFactory.ts:60-75): the length is read from
the first line, the message starts after the first empty line. -/
def turn (b : Bytes) : Turn :=
  if indexOf label b ≠ some 0 then .leave
  else
    match indexOf [CR, LF] b with
    | none => .leave
    | some eol =>
      let length := toNumber (slice b (.int label.length) (.int eol))
      match indexOf [CR, LF, CR, LF] b with
      | none => .leave
      | some eoh =>
        let start := eoh + 4
        let stop := length.plus start
        if stop.exceeds b.length then .leave
        else .found (slice b (.int start) stop) (sliceFrom b stop)

/-- The loop of the handler (emscripten_server_streams.cpp:108-131, hlasmDebugAdapterFactory.ts:59-76), at most `fuel` turns;
`none` when it has not left by then. `take` is what is done with a message before the buffer is cut; `none` is an exception,
which leaves the handler with the buffer as it was. -/
def loop {J : Type} (take : Bytes → Option J) : Nat → Bytes → Option (List J × Bytes)
  | 0, _ => none
  | fuel + 1, b =>
    match turn b with
    | .leave => some ([], b)
    | .found body rest =>
      match take body with
      | none => some ([], b)
      | some j => (loop take fuel rest).map fun r => (j :: r.1, r.2)

/-- The `data` events, one for each piece: each adds its piece to the buffer and runs the loop
(emscripten_server_streams.cpp:105-132, hlasmDebugAdapterFactory.ts:57-77). The messages taken, and the buffer. -/
def feed {J : Type} (take : Bytes → Option J) (fuel : Nat) : Bytes → List Bytes → Option (List J × Bytes)
  | b, [] => some ([], b)
  | b, p :: ps =>
    match loop take fuel (b ++ p) with
    | none => none
    | some (js, b') => (feed take fuel b' ps).map fun r => (js ++ r.1, r.2)

/-- `emscripten_std_setup` (emscripten_server_streams.cpp:94-132): the messages put into the queue. They are put there as they
are, and after the buffer has been cut. -/
def inputQueue (fuel : Nat) (pieces : List Bytes) : Option (List Bytes × Bytes) := feed some fuel [] pieces

/-- `emscripten_std_setup::read` (emscripten_server_streams.cpp:72-91): what it returns and what it leaves in the queue, to
which nothing comes any more; `none` when the queue ends. What is not JSON is passed over. -/
def read {J : Type} (parse : Bytes → Option J) : List Bytes → Option J × List Bytes
  | [] => (none, [])
  | m :: q =>
    match parse m with
    | some j => (some j, q)
    | none => read parse q

/-- The server asking for messages until it is told that there are none (at most `n` times). -/
def readAll {J : Type} (parse : Bytes → Option J) : Nat → List Bytes → List J
  | 0, _ => []
  | n + 1, q =>
    match read parse q with
    | (none, _) => []
    | (some j, q') => j :: readAll parse n q'

/-- The proxy (hlasmDebugAdapterFactory.ts:57-77): the messages handed to `handleMessage`. `parse` is `JSON.parse`; it throws
before the buffer is cut. -/
def proxy {J : Type} (parse : Bytes → Option J) (fuel : Nat) (pieces : List Bytes) : Option (List J × Bytes) :=
  feed parse fuel [] pieces

/-- `emscripten_std_setup::write` (emscripten_server_streams.cpp:61-69) and what the proxy writes
(hlasmDebugAdapterFactory.ts:50-56), as bytes; `body` is the text of the
message; `Number.toString` and `std::to_string` give the same digits. -/
def write (body : Bytes) : Bytes := label ++ decimal body.length ++ [CR, LF, CR, LF] ++ body

end Verif.Pieces
