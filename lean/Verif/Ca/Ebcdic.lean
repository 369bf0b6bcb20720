import Verif.Basic
/-!
Translation between UTF-8 and EBCDIC (ebcdic_encoding.h, ebcdic_encoding.cpp).
-/
namespace Verif.Ca

/-- `ebcdic_encoding::a2e` (ebcdic_encoding.h 28-45). -/
def a2eTable : List UInt8 := [
    0, 1, 2, 3, 55, 45, 46, 47, 22, 5, 37, 11, 12, 13, 14, 15,
    16, 17, 18, 19, 60, 61, 50, 38, 24, 25, 63, 39, 28, 29, 30, 31,
    64, 79, 127, 123, 91, 108, 80, 125, 77, 93, 92, 78, 107, 96, 75, 97,
    240, 241, 242, 243, 244, 245, 246, 247, 248, 249, 122, 94, 76, 126, 110, 111,
    124, 193, 194, 195, 196, 197, 198, 199, 200, 201, 209, 210, 211, 212, 213, 214,
    215, 216, 217, 226, 227, 228, 229, 230, 231, 232, 233, 74, 224, 90, 95, 109,
    121, 129, 130, 131, 132, 133, 134, 135, 136, 137, 145, 146, 147, 148, 149, 150,
    151, 152, 153, 162, 163, 164, 165, 166, 167, 168, 169, 192, 106, 208, 161, 7,
    32, 33, 34, 35, 36, 21, 6, 23, 40, 41, 42, 43, 44, 9, 10, 27,
    48, 49, 26, 51, 52, 53, 54, 8, 56, 57, 58, 59, 4, 20, 62, 225,
    65, 66, 67, 68, 69, 70, 71, 72, 73, 81, 82, 83, 84, 85, 86, 87,
    88, 89, 98, 99, 100, 101, 102, 103, 104, 105, 112, 113, 114, 115, 116, 117,
    118, 119, 120, 128, 138, 139, 140, 141, 142, 143, 144, 154, 155, 156, 157, 158,
    159, 160, 170, 171, 172, 173, 174, 175, 176, 177, 178, 179, 180, 181, 182, 183,
    184, 185, 186, 187, 188, 189, 190, 191, 202, 203, 204, 205, 206, 207, 218, 219,
    220, 221, 222, 223, 234, 235, 236, 237, 238, 239, 250, 251, 252, 253, 254, 255
]

/-- `ebcdic_encoding::e2a` (ebcdic_encoding.h 47-64). -/
def e2aTable : List UInt8 := [
    0, 1, 2, 3, 156, 9, 134, 127, 151, 141, 142, 11, 12, 13, 14, 15,
    16, 17, 18, 19, 157, 133, 8, 135, 24, 25, 146, 143, 28, 29, 30, 31,
    128, 129, 130, 131, 132, 10, 23, 27, 136, 137, 138, 139, 140, 5, 6, 7,
    144, 145, 22, 147, 148, 149, 150, 4, 152, 153, 154, 155, 20, 21, 158, 26,
    32, 160, 161, 162, 163, 164, 165, 166, 167, 168, 91, 46, 60, 40, 43, 33,
    38, 169, 170, 171, 172, 173, 174, 175, 176, 177, 93, 36, 42, 41, 59, 94,
    45, 47, 178, 179, 180, 181, 182, 183, 184, 185, 124, 44, 37, 95, 62, 63,
    186, 187, 188, 189, 190, 191, 192, 193, 194, 96, 58, 35, 64, 39, 61, 34,
    195, 97, 98, 99, 100, 101, 102, 103, 104, 105, 196, 197, 198, 199, 200, 201,
    202, 106, 107, 108, 109, 110, 111, 112, 113, 114, 203, 204, 205, 206, 207, 208,
    209, 126, 115, 116, 117, 118, 119, 120, 121, 122, 210, 211, 212, 213, 214, 215,
    216, 217, 218, 219, 220, 221, 222, 223, 224, 225, 226, 227, 228, 229, 230, 231,
    123, 65, 66, 67, 68, 69, 70, 71, 72, 73, 232, 233, 234, 235, 236, 237,
    125, 74, 75, 76, 77, 78, 79, 80, 81, 82, 238, 239, 240, 241, 242, 243,
    92, 159, 83, 84, 85, 86, 87, 88, 89, 90, 244, 245, 246, 247, 248, 249,
    48, 49, 50, 51, 52, 53, 54, 55, 56, 57, 250, 251, 252, 253, 254, 255
]

/-- `a2e[c]`, also `to_ebcdic(unsigned char)` (ebcdic_encoding.cpp 64). -/
def a2e (c : UInt8) : UInt8 := a2eTable.getD c.toNat 0

/-- `e2a[c]`. -/
def e2a (c : UInt8) : UInt8 := e2aTable.getD c.toNat 0

/-- `ebcdic_encoding::SUB` (ebcdic_encoding.h 26). -/
def SUB : UInt8 := 26

/-- `*(c + i)` of a NUL terminated string: the bytes from `c` on, then the NUL. -/
def peek (l : Bytes) (i : Nat) : UInt8 := l.getD i 0

/-- `to_pseudoascii` (ebcdic_encoding.cpp 17-61): the value and how far the pointer is moved. `l` are the bytes from `c` on. -/
def toPseudoascii (l : Bytes) : UInt8 × Nat :=
  let c := peek l 0
  if c < 0x80 then (c, 0)
  else if peek l 1 = 0 then (SUB, 0)
  else if c &&& 0xE0 = 0xC0 then
    if c &&& 0x1C ≠ 0 then (SUB, 1) else (((c &&& 3) <<< 6) ||| (peek l 1 &&& 0x3F), 1)
  else if c &&& 0xF0 = 0xE0 then (SUB, if peek l 1 ≠ 0 then 2 else 1)
  else if c &&& 0xF8 = 0xF0 then
    let k := if peek l 1 ≠ 0 then 2 else 1
    (SUB, if peek l k ≠ 0 then k + 1 else k)
  else (SUB, 0)

/-- The loops over a string that translate it: `to_ebcdic(const std::string&)` (ebcdic_encoding.cpp 84-91) with `stop` set, which ends at a
NUL byte, and the loops of `C2A`, `C2B`, `C2X` (ca_function.cpp 228-232, 496-500, 522-529), which end at the end of the string. `none`: the
pointer runs over the end of the string, undefined behaviour. (For `C2A` the loop condition is `<`, there the pointer running over the
end is harmless and the result is the one up to there; this is `translateLt`.) -/
def translate (stop : Bool) : Bytes → Option Bytes
  | [] => some []
  | b :: t =>
    if stop && b = 0 then some []
    else
      let r := toPseudoascii (b :: t)
      if r.2 + 1 > (b :: t).length then none
      else (translate stop ((b :: t).drop (r.2 + 1))).map (a2e r.1 :: ·)
termination_by l => l.length
decreasing_by simp; omega

/-- The loop of `C2A` (ca_function.cpp 228-232). -/
def translateLt : Bytes → Bytes
  | [] => []
  | b :: t =>
    let r := toPseudoascii (b :: t)
    a2e r.1 :: translateLt ((b :: t).drop (r.2 + 1))
termination_by l => l.length
decreasing_by simp; omega

/-- `to_ascii(unsigned char)` (ebcdic_encoding.cpp 66-73). -/
def toAscii (c : UInt8) : Bytes :=
  let val := e2a c
  if 0x80 > val then [val] else [(val >>> 6) ||| 0xC0, (val &&& 63) ||| 0x80]

end Verif.Ca
