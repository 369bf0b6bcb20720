import Verif.Basic
/-!
Encodings in the lexer: the UTF-16 length of a UTF-8 string and the text of a token.

Modelled: `/repo/parser_library/src/lexing/lexer.cpp` 753-784 (`char_start_utf8`, `length_utf16`) and
`/repo/parser_library/src/lexing/input_source.cpp` 36-97 (`input_source::getText`).
-/
namespace Verif.Lexing

/-- `lexer::char_start_utf8` (`lexer.cpp` 753-763). The parameter is an `unsigned` obtained from a `char`; the masks only
look at the low eight bits, which sign extension leaves alone. -/
def charStart (c : UInt8) : Bool :=
  (c &&& 0x80 == 0) || ((c &&& 0x20 == 0) && (c &&& 0xC0 != 0)) || ((c &&& 0x10 == 0) && (c &&& 0xE0 != 0)) ||
    ((c &&& 0x08 == 0) && (c &&& 0xF0 != 0))

/-- The loop of `lexer::length_utf16` (`lexer.cpp` 772-783): `l` units counted, `ll` bytes in the current character. -/
def lengthLoop : Bytes → Nat → Nat → Nat
  | [], l, ll => l + (if ll = 4 then 2 else 1)
  | b :: bs, l, ll =>
    if charStart b then lengthLoop bs (l + (if ll = 4 then 2 else 1)) 1 else lengthLoop bs l (ll + 1)

/-- `lexer::length_utf16` (`lexer.cpp` 765-784). -/
def lengthUtf16 : Bytes → Nat
  | [] => 0
  | _ :: bs => lengthLoop bs 0 1

/-- The encoding of one character in the loop of `input_source::getText` (`input_source.cpp` 41-94); `none` is the
`std::runtime_error`. Adding a masked value to a `char` initialised with a bit pattern is done modulo 256. -/
def encodeChar (ch : UInt32) : Option Bytes :=
  if ch ≤ 0x7F then some [ch.toUInt8]
  else if ch ≤ 0x7FF then some [(0xc0 : UInt8) + ((ch >>> 6) &&& 0x1F).toUInt8, (0x80 : UInt8) + (ch &&& 0x3F).toUInt8]
  else if ch ≤ 0xFFFF then
    some [(0xe0 : UInt8) + (((ch >>> 6) >>> 6) &&& 0x0F).toUInt8, (0x80 : UInt8) + ((ch >>> 6) &&& 0x3F).toUInt8, (0x80 : UInt8) + (ch &&& 0x3F).toUInt8]
  else if ch ≤ 0x10FFFF then
    some [(0xf0 : UInt8) + ((((ch >>> 6) >>> 6) >>> 6) &&& 0x07).toUInt8, (0x80 : UInt8) + (((ch >>> 6) >>> 6) &&& 0x3F).toUInt8,
      (0x80 : UInt8) + ((ch >>> 6) &&& 0x3F).toUInt8, (0x80 : UInt8) + (ch &&& 0x3F).toUInt8]
  else none

/-- The loop of `input_source::getText` (`input_source.cpp` 39-95) over the characters of the interval. -/
def encodeAll : List UInt32 → Option Bytes
  | [] => some []
  | ch :: cs => (encodeChar ch).bind fun b => (encodeAll cs).map (b ++ ·)

/-- `input_source::getText` (`input_source.cpp` 36-97) of the interval `[first, next - 1]`. An interval that leaves the
data is undefined behaviour in C++ and is `none` here, like the exception. -/
def getText (data : List UInt32) (first next : Nat) : Option Bytes :=
  if next ≤ data.length then encodeAll ((data.take next).drop first) else none

end Verif.Lexing
