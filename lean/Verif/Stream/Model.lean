import Verif.Basic
/-!
The stream of tokens between the lexer and the parser (lexing/token_stream.h, lexing/token_stream.cpp). It is a buffered token stream of the
ANTLR runtime with a filter that the parser switches while it reads. The base class `antlr4::BufferedTokenStream` is not part of the
repository; `fetch`, `sync`, `get`, `consume`, `seek` and `setup` are modelled from its documented behaviour.

Left out: `rewind_input`, `reset` and `append`, which begin another text.
-/
namespace Verif.Stream

/-- What the stream looks at in the type of a token (token_stream.cpp 241). -/
inductive Kind where
  | eof
  | cont
  | other
  deriving DecidableEq, Repr

/-- A token; `hidden` says that it is on the hidden channel (lexer.h 91-96, lexer.cpp 493, 511, 521, 556, 565). -/
structure Tok where
  kind : Kind
  hidden : Bool
  text : String
  deriving DecidableEq, Repr

/-- `toks` are the tokens fetched (`_tokens`), `rest` those the lexer will still give; `eof` is `_fetchedEOF`, `p` is `_p`, `cont` and `hid` are
`enabled_cont_` and `enabled_hidden_` (token_stream.h 31-33). -/
structure St where
  toks : List Tok
  rest : List Tok
  eof : Bool
  p : Nat
  cont : Bool
  hid : Bool
  deriving DecidableEq, Repr

/-- `is_on_channel` (token_stream.cpp 237-242). -/
def onChannel (cont hid : Bool) (t : Tok) : Bool := !t.hidden || (hid && t.hidden) || (cont && t.kind = .cont) || t.kind = .eof

def St.sees (s : St) (t : Tok) : Bool := onChannel s.cont s.hid t

/-- `BufferedTokenStream::fetch`: up to `n` more tokens, none after the end of the text. -/
def St.fetch : Nat → St → St × Nat
  | 0, s => (s, 0)
  | n + 1, s => if s.eof then (s, 0) else match s.rest with
    | [] => (s, 0)
    | t :: r =>
      let x := St.fetch n { s with toks := s.toks ++ [t], rest := r, eof := t.kind = .eof }
      (x.1, x.2 + 1)

/-- `BufferedTokenStream::sync`: makes sure that there is a token `i`. -/
def St.sync (s : St) (i : Nat) : St × Bool :=
  let n := i + 1 - s.toks.length
  if n = 0 then (s, true) else
    let x := s.fetch n
    (x.1, decide (x.2 ≥ n))

/-- The loop in `next_token_on_channel` (token_stream.cpp 194-200) and, for `c = 0`, that in `adjustSeekIndex` (token_stream.cpp 137-142): `c` is
`to_consume`. `none` is the exception of `get`. The fuel is the number of tokens. -/
def St.scan : Nat → St → Nat → Nat → Option (St × Nat)
  | 0, _, _, _ => none
  | f + 1, s, i, c => match s.toks[i]? with
    | none => none
    | some t => if s.sees t && c = 0 then some (s, i)
      else St.scan f (s.sync (i + 1)).1 (i + 1) (if s.sees t then c - 1 else c)

def St.fuel (s : St) : Nat := s.toks.length + s.rest.length + 1

/-- `next_token_on_channel` (token_stream.cpp 182-203). -/
def St.next (s : St) (i : Nat) : Option (St × Nat) :=
  let s := (s.sync i).1
  if i ≥ s.toks.length then some (s, s.toks.length - 1)
  else s.scan s.fuel s.p (i - s.p)

/-- The loop of `LT` (token_stream.cpp 86-92). -/
def St.ahead : Nat → St → Nat → Option (St × Nat)
  | 0, s, i => some (s, i)
  | n + 1, s, i =>
    let x := s.sync (i + 1)
    if x.2 then match x.1.next (i + 1) with
      | none => none
      | some (s, j) => St.ahead n s j
    else St.ahead n x.1 i

/-- `LT(k)` for `k > 0` (token_stream.cpp 77-95). -/
def St.lt (s : St) (k : Nat) : Option (St × Tok) := match s.ahead (k - 1) s.p with
  | none => none
  | some (s, i) => match s.next i with
    | none => none
    | some (s, j) => (s.toks[j]?).map fun t => (s, t)

/-- The loop of `LB` (token_stream.cpp 163-179): `n` tokens to go, all before `i`. The outer `none` is the exception of `get`, the inner one the
null pointer. -/
def St.back (s : St) : Nat → Nat → Option (Option Tok)
  | 0, _ => some none
  | i + 1, n => match s.toks[i]? with
    | none => none
    | some t => if s.sees t then (if n ≤ 1 then some (some t) else s.back i (n - 1)) else s.back i n

/-- `LT(-k)` for `k > 0` (token_stream.cpp 83-84, 158-180). -/
def St.lb (s : St) (k : Nat) : Option (Option Tok) :=
  if k = 0 ∨ s.p < k ∨ s.toks.length = 0 then some none else s.back s.p k

/-- `BufferedTokenStream::seek` with `adjustSeekIndex` (token_stream.cpp 146-149). -/
def St.seek (s : St) (i : Nat) : Option St :=
  if i = s.p + 1 then match s.next i with
    | none => none
    | some (s, j) => some { s with p := j }
  else some { s with p := i }

/-- `BufferedTokenStream::consume`; consuming the end of the text is an exception. -/
def St.consume (s : St) : Option St :=
  let skip := if s.eof then decide (s.p < s.toks.length - 1) else decide (s.p < s.toks.length)
  let go (s : St) : Option St :=
    let x := s.sync (s.p + 1)
    if x.2 then x.1.seek (x.1.p + 1) else some x.1
  if skip then go s else match s.lt 1 with
    | none => none
    | some (s, t) => if t.kind = .eof then none else go s

/-- `BufferedTokenStream::setup` with `adjustSeekIndex` (token_stream.cpp 126-144, 152-156) for a lexer that gives `src`. -/
def St.setup (src : List Tok) (cont hid : Bool) : Option St :=
  let s := ((⟨[], src, false, 0, cont, hid⟩ : St).sync 0).1
  if 0 ≥ s.toks.length then some { s with p := s.toks.length - 1 }
  else match s.scan s.fuel 0 0 with
    | none => none
    | some (s, j) => some { s with p := j }

/-- `getText(interval)` (token_stream.cpp 97-124). -/
def St.getText (s : St) (a b : Nat) : String :=
  let stop := if b ≥ s.toks.length then s.toks.length - 1 else b
  let s := (s.sync stop).1
  String.join ((((s.toks.take (stop + 1)).drop a).takeWhile fun t => t.kind ≠ .eof).map (·.text))

/-- What the parser does with the stream: it switches the filter (token_stream.cpp 27-33), looks at the next token, reads it, looks at the
tokens before, and goes to a place. -/
inductive Op where
  | filter (cont hid : Bool)
  | look
  | read
  | before (k : Nat)
  | place
  | goto (i : Nat)
  deriving DecidableEq, Repr

/-- What it is told. -/
inductive Ans where
  | nothing
  | tok (t : Tok)
  | no
  | at (i : Nat)
  deriving DecidableEq, Repr

/-- One request; `none` is an exception. -/
def St.step (s : St) : Op → Option (St × Ans)
  | .filter c h => some ({ s with cont := c, hid := h }, .nothing)
  | .look => (s.lt 1).map fun x => (x.1, .tok x.2)
  | .read => s.consume.map fun s => (s, .nothing)
  | .before k => (s.lb k).map fun
    | none => (s, .no)
    | some t => (s, .tok t)
  | .place => some (s, .at s.p)
  | .goto i => (s.seek i).map fun s => (s, .nothing)

def St.run (s : St) : List Op → Option (St × List Ans)
  | [] => some (s, [])
  | o :: os => match s.step o with
    | none => none
    | some (s, a) => (s.run os).map fun x => (x.1, a :: x.2)

end Verif.Stream
