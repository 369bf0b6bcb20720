import Verif.Ca.Ebcdic
import Verif.Ca.Arith
/-!
The built-in functions of conditional assembly expressions (expressions/conditional_assembly/terms/ca_function.cpp).

`none` is the outcome of `RET_ERRPARM`: CE012 is reported and the value is undefined. Strings are bytes. `std::isxdigit`, `std::toupper` and
the like are modelled on the "C" locale; on negative `char` values, where they are undefined, they are taken to answer false.
-/
namespace Verif.Ca

/-- `ca_string::MAX_STR_SIZE` (ca_string.h 38). -/
def MAX_STR_SIZE : Nat := 4064

/-- The value of a digit of the given base, as read by `std::from_chars`. -/
def digitVal (base : Nat) (c : UInt8) : Option Nat :=
  let v :=
    if 48 ≤ c.toNat ∧ c.toNat ≤ 57 then c.toNat - 48
    else if 65 ≤ c.toNat ∧ c.toNat ≤ 90 then c.toNat - 55
    else if 97 ≤ c.toNat ∧ c.toNat ≤ 122 then c.toNat - 87
    else 255
  if v < base then some v else none

/-- The digits at the front of a text and what follows them. -/
def spanDigits (base : Nat) : Bytes → List Nat × Bytes
  | [] => ([], [])
  | c :: t =>
    match digitVal base c with
    | some v => (v :: (spanDigits base t).1, (spanDigits base t).2)
    | none => ([], c :: t)

/-- The number with the given digits. -/
def digitsVal (base : Nat) (ds : List Nat) : Nat := ds.foldl (fun a d => a * base + d) 0

/-- `std::from_chars` for an unsigned type with the largest value `max`, and the test `conv.ec != std::errc() || conv.ptr != end` used by the
callers: the whole text must be a number. -/
def fromCharsU (base max : Nat) (s : Bytes) : Option Nat :=
  match spanDigits base s with
  | (ds, []) => if ds = [] ∨ digitsVal base ds > max then none else some (digitsVal base ds)
  | _ => none

/-- The same for `int`: a minus sign is allowed in front. -/
def fromCharsI (base : Nat) (s : Bytes) : Option Int :=
  match s with
  | 45 :: t => (fromCharsU base 2147483648 t).map fun n => -(n : Int)
  | _ => (fromCharsU base 2147483647 s).map fun n => (n : Int)

/-- The character of a digit: `"0123456789ABCDEF"[d]`. -/
def digitChar (d : Nat) : UInt8 := if d < 10 then UInt8.ofNat (48 + d) else UInt8.ofNat (55 + d)

/-- The `w` lowest digits of a number, highest digit first: `std::bitset<w>::to_string` for base 2; for base 16 a stream with
`setfill('0') << setw(w) << uppercase << hex` when the number has at most `w` digits. -/
def fixedDigits (base : Nat) : Nat → Nat → List Nat
  | 0, _ => []
  | w + 1, v => fixedDigits base w (v / base) ++ [v % base]

/-- The decimal digits of a number without leading zeros. -/
def decDigits (n : Nat) : List Nat := if n < 10 then [n] else decDigits (n / 10) ++ [n % 10]
termination_by n

/-- `std::to_string(int)`, also `SIGNED` (ca_function.cpp 619). -/
def intToString (i : Int) : Bytes := if i < 0 then 45 :: (decDigits i.natAbs).map digitChar else (decDigits i.natAbs).map digitChar

/-- `B2A` (ca_function.cpp 202-217). -/
def B2A (p : Bytes) : Option A :=
  if p = [] then some 0 else if p.length > 32 then none else (fromCharsU 2 4294967295 p).map (BitVec.ofNat 32)

/-- `X2A` (ca_function.cpp 341-357). -/
def X2A (p : Bytes) : Option A :=
  if p = [] then some 0 else if p.length > 8 then none else (fromCharsU 16 4294967295 p).map (BitVec.ofNat 32)

/-- `C2A` (ca_function.cpp 219-235). -/
def C2A (p : Bytes) : Option A :=
  if p = [] then some 0 else if p.length > 4 then none
  else some ((translateLt p).foldl (fun ret b => (ret <<< 8) + BitVec.ofNat 32 b.toNat) 0)

/-- `D2A` (ca_function.cpp 237-260): `+` is 43, `-` is 45. -/
def D2A (p : Bytes) : Option A :=
  if p = [] then some 0 else if p.length > 11 then none
  else if (p.takeWhile fun c => c = 45 || c = 43).length > 1 then none
  else (fromCharsI 10 (if p.headD 0 = 43 then p.tail else p)).map (BitVec.ofInt 32)

/-- `A2B` (ca_function.cpp 359). -/
def A2B (v : A) : Bytes := (fixedDigits 2 32 v.toNat).map digitChar

/-- `A2X` (ca_function.cpp 393-398): a negative number is printed as its unsigned counterpart. -/
def A2X (v : A) : Bytes := (fixedDigits 16 8 v.toNat).map digitChar

/-- `A2C` (ca_function.cpp 361-382): the four bytes of the number, highest first. -/
def A2C (v : A) : Bytes := (fixedDigits 256 4 v.toNat).flatMap fun b => toAscii (UInt8.ofNat b)

/-- `A2D` (ca_function.cpp 384-391). -/
def A2D (v : A) : Bytes :=
  let s := intToString v.toInt
  if s.headD 0 = 45 then s else 43 :: s

/-- Padding to a multiple of `n` with zeros in front (ca_function.cpp 405-414, 448-457). -/
def padTo (n : Nat) (p : Bytes) : Bytes := (if p.length % n ≠ 0 then List.replicate (n - p.length % n) 48 else []) ++ p

/-- One group of binary digits (ca_function.cpp 421-428, 464-471): the value modulo 256 (`unsigned char`), or an error. -/
def bitsVal (g : Bytes) : Option UInt8 :=
  g.foldl (fun (acc : Option UInt8) (ch : UInt8) => acc.bind fun c =>
    let bit : UInt8 := ch - 48
    if bit ≠ 0 ∧ bit ≠ 1 then none else some ((c <<< (1 : UInt8)) + bit)) (some 0)

/-- Cut into groups of `n` bytes. -/
def chunks (n : Nat) : Nat → Bytes → List Bytes
  | 0, _ => []
  | k + 1, l => l.take n :: chunks n k (l.drop n)

/-- `B2X` (ca_function.cpp 443-476). -/
def B2X (p : Bytes) : Option Bytes :=
  if p = [] then some [] else
  let s := padTo 4 p
  (chunks 4 (s.length / 4) s).mapM fun g => (bitsVal g).map fun c => digitChar c.toNat

/-- `B2C` (ca_function.cpp 400-433). -/
def B2C (p : Bytes) : Option Bytes :=
  if p = [] then some [] else
  let s := padTo 8 p
  ((chunks 8 (s.length / 8) s).mapM fun g => (bitsVal g).map toAscii).map List.flatten

/-- `X2B` (ca_function.cpp 631-652). -/
def X2B (p : Bytes) : Option Bytes :=
  if p = [] then some [] else if p.length * 4 > MAX_STR_SIZE then none
  else (p.mapM fun c => (digitVal 16 c).map fun v => (fixedDigits 2 4 v).map digitChar).map List.flatten

/-- The value of a pair of characters in `X2C` (ca_function.cpp 669-673): only the first one is checked; `from_chars` reads as many digits as
there are. -/
def pairVal (c d : UInt8) : Option UInt8 :=
  match digitVal 16 c, digitVal 16 d with
  | none, _ => none
  | some x, none => some (UInt8.ofNat x)
  | some x, some y => some (UInt8.ofNat (x * 16 + y))

/-- The loop of `X2C` (ca_function.cpp 667-676). -/
def x2cLoop : Bytes → Option Bytes
  | c :: d :: t => (pairVal c d).bind fun v => (x2cLoop t).map (toAscii v ++ ·)
  | _ => some []

/-- `X2C` (ca_function.cpp 654-678). -/
def X2C (p : Bytes) : Option Bytes :=
  if p = [] then some [] else x2cLoop ((if p.length % 2 = 1 then [48] else []) ++ p)

/-- Outcome of functions that may run over the end of their string. -/
inductive Out where
  | ok (s : Bytes)
  | err
  | ub
  deriving DecidableEq, Repr

/-- `C2X` (ca_function.cpp 512-531). -/
def C2X (p : Bytes) : Out :=
  if p = [] then .ok [] else if p.length * 2 > MAX_STR_SIZE then .err
  else match translate false p with
    | none => .ub
    | some es => .ok (es.flatMap fun b => (fixedDigits 16 2 b.toNat).map digitChar)

/-- `C2B` (ca_function.cpp 486-502). -/
def C2B (p : Bytes) : Out :=
  if p = [] then .ok [] else if p.length * 8 > MAX_STR_SIZE then .err
  else match translate false p with
    | none => .ub
    | some es => .ok (es.flatMap fun b => (fixedDigits 2 8 b.toNat).map digitChar)

/-- A quote or an ampersand. -/
def quoteOrAmp (c : UInt8) : Bool := c = 39 || c = 38

/-- `DCVAL` (ca_function.cpp 566-578). -/
def DCVAL : Bytes → Bytes
  | [] => []
  | [c] => [c]
  | c :: d :: t => if quoteOrAmp c && c = d then d :: DCVAL t else c :: DCVAL (d :: t)

/-- `DCLEN` (ca_function.cpp 262-274). -/
def DCLEN : Bytes → Nat
  | [] => 0
  | [_] => 1
  | c :: d :: t => if quoteOrAmp c && c = d then DCLEN t + 1 else DCLEN (d :: t) + 1

/-- The loop of `DOUBLE` (ca_function.cpp 596-603). -/
def doubleLoop (p : Bytes) : Bytes := p.flatMap fun c => if quoteOrAmp c then [c, c] else [c]

/-- `DOUBLE` (ca_function.cpp 594-609). -/
def DOUBLE (p : Bytes) : Option Bytes := if (doubleLoop p).length > MAX_STR_SIZE then none else some (doubleLoop p)

/-- `DEQUOTE` (ca_function.cpp 580-592). -/
def DEQUOTE (p : Bytes) : Bytes :=
  if p = [] then [] else
  let p := if p.headD 0 = 39 then p.tail else p
  if p ≠ [] ∧ p.getLastD 0 = 39 then p.dropLast else p

/-- `std::string::find_first_of`, the first position holding one of the characters. -/
def findFirstOf (l r : Bytes) : Option Nat := l.findIdx? (r.contains ·)

/-- `FIND` (ca_function.cpp 276-280). -/
def FIND (l r : Bytes) : Nat := match findFirstOf l r with
  | none => 0
  | some i => i + 1

/-- `std::string::find`, the first position at which the other string occurs. -/
def findStr : Bytes → Bytes → Option Nat
  | [], r => if r = [] then some 0 else none
  | x :: l, r => if r.isPrefixOf (x :: l) then some 0 else (findStr l r).map (· + 1)

/-- `INDEX` (ca_function.cpp 282-286). -/
def INDEX (l r : Bytes) : Nat := match findStr l r with
  | none => 0
  | some i => i + 1

/-- `ISBIN` (ca_function.cpp 288-296). -/
def ISBIN (p : Bytes) : Option Bool := if p = [] then none else some (decide (p.length ≤ 32) && p.all fun c => c = 48 || c = 49)

/-- `ISHEX` (ca_function.cpp 320-328). -/
def ISHEX (p : Bytes) : Option Bool := if p = [] then none else some (decide (p.length ≤ 8) && p.all fun c => (digitVal 16 c).isSome)

/-- `ISDEC` (ca_function.cpp 298-318). -/
def ISDEC (p : Bytes) : Option Bool :=
  if p = [] then none else if p.length > 10 ∨ p.headD 0 = 45 then some false else some (fromCharsI 10 p).isSome

end Verif.Ca
