import Verif.Mention.All
/-! C109: cases. -/
namespace Verif.Mention

open Lexing (Pos Rng)

/-- A place in a line. -/
def at' (line col len : Nat) : Rng := ⟨⟨line, col⟩, ⟨line, col + len⟩⟩

/-- A text. -/
def b (s : String) : Bytes := s.toUTF8.toList

/-- The operation codes `L`, `SETA`, `SETC`, `COPY` and the macro `M`. -/
def codes : Codes := fun n =>
  if n = b "L" ∨ n = b "SETA" ∨ n = b "SETC" ∨ n = b "COPY" then some (n, none) else if n = b "M" then some (n, some 7) else none

/-- `LAB  L  1,A+B(X)` -/
def load : Stmt where
  label := .ord (b "LAB") (at' 0 0 3)
  instr := .ord (b "L") (at' 0 5 1)
  field := .operands [.machExpr (some .const), .machAddr (some (.bin (.sym (b "A") (at' 0 10 1)) (.sym (b "B") (at' 0 12 1))))
    (some (.sym (b "X") (at' 0 14 1))) none]
  opcode := b "L"

example : load.buried = [] ∧ load.glued = [] ∧ load.member = none ∧ (load.ordinary codes .opencode).length = 5 ∧
    (load.all codes).map (·.name) = [b "LAB", b "L", b "A", b "B", b "X"] := by decide +kernel

example : (load.ordinary codes .opencode).Perm (load.all codes) :=
  C109_plain codes load .opencode (by decide) (by decide +kernel) (by decide +kernel) (by decide +kernel)

/-- `&A(&I) SETA &B(&J)+L'X` -/
def subscripts : Stmt where
  label := .var (.basic (b "A") (.cons (.var (.basic (b "I") .nil (at' 1 3 2))) .nil) (at' 1 0 2))
  instr := .ord (b "SETA") (at' 1 7 4)
  field := .operands [.caExpr (.some (.bin (.var (.basic (b "B") (.cons (.var (.basic (b "J") .nil (at' 1 15 2))) .nil) (at' 1 12 2)))
    (.attrOrd (b "X") (at' 1 21 1))))]
  opcode := b "SETA"

/-- Variable symbols in subscripts are not found. -/
theorem C109_witness_subscript :
    (⟨.var, b "I", at' 1 3 2, none⟩ : Occ) ∈ subscripts.all codes ∧ (⟨.var, b "J", at' 1 15 2, none⟩ : Occ) ∈ subscripts.all codes ∧
    (subscripts.ordinary codes .opencode).map (·.name) = [b "X", b "SETA", b "A", b "B"] := by decide +kernel

/-- `&C SETC '&X'(1,&N)` -/
def strings : Stmt where
  label := .var (.basic (b "C") .nil (at' 2 0 2))
  instr := .ord (b "SETC") (at' 2 3 4)
  field := .operands [.caExpr (.some (.string (.var (.basic (b "X") .nil (at' 2 9 2)) .nil) .none (.some .const)
    (.some (.var (.basic (b "N") .nil (at' 2 15 2))))))]
  opcode := b "SETC"

/-- Variable symbols in character strings and in substring notations are not found. -/
theorem C109_witness_string :
    (⟨.var, b "X", at' 2 9 2, none⟩ : Occ) ∈ strings.all codes ∧ (⟨.var, b "N", at' 2 15 2, none⟩ : Occ) ∈ strings.all codes ∧
    (strings.ordinary codes .opencode).map (·.name) = [b "SETC", b "C"] := by decide +kernel

/-- `L&X  1,A&Y` -/
def parts : Stmt where
  label := .empty
  instr := .conc (.str (b "L") (at' 3 5 1) (.var (.basic (b "X") .nil (at' 3 6 2)) .nil))
  field := .operands [.model (.str (b "1") (at' 3 10 1) .nil),
    .model (.str (b "A") (at' 3 12 1) (.var (.basic (b "Y") .nil (at' 3 13 2)) .nil))]
  opcode := b "L"

/-- Parts of names made with variable symbols are taken for symbols: `L` of the operation `L&X`, `A` of the operand `A&Y`. -/
theorem C109_witness_parts :
    only .ord (parts.all codes) = [] ∧
    only .ord (parts.ordinary codes .opencode) = [⟨.ord, b "L", at' 3 5 1, none⟩, ⟨.ord, b "A", at' 3 12 1, none⟩] := by decide +kernel

example : (parts.ordinary codes .opencode ++ parts.buried).Perm (parts.all codes ++ parts.glued) :=
  C109_open_partial codes parts .opencode (by decide) (by decide +kernel)

/-- ` COPY  MEM` -/
def copying : Stmt where
  label := .empty
  instr := .ord (b "COPY") (at' 4 1 4)
  field := .operands [.asmExpr (some (.sym (b "MEM") (at' 4 7 3)))]
  opcode := b "COPY"

example : IsCopyOf copying (b "MEM") (at' 4 7 3) ∧ copying.ordinary codes .opencode =
    [⟨.copyOp, b "MEM", at' 4 7 3, none⟩, ⟨.instr, b "COPY", at' 4 1 4, none⟩] :=
  ⟨⟨rfl, _, rfl, rfl⟩, by decide +kernel⟩

/-- A statement of a macro that is called twice: its ordinary symbols are recorded twice at the same place. -/
theorem C109_witness_twice :
    ∃ ls : List Line, ls.map (·.stmt) = [load, load] ∧
      ((process codes {} ls).openOccs "M").count ⟨.ord, b "A", at' 0 10 1, none⟩ = 2 :=
  ⟨[⟨load, .macr, "M"⟩, ⟨load, .macr, "M"⟩], rfl, by decide +kernel⟩

example : only .var ((process codes {} [⟨subscripts, .opencode, "A"⟩, ⟨load, .macr, "M"⟩]).openOccs "A") =
    [⟨.var, b "A", at' 1 0 2, none⟩, ⟨.var, b "B", at' 1 12 2, none⟩] := by decide +kernel

/-- `.S  MACRO` -/
def inner : Stmt := ⟨.seq (b "S") (at' 5 0 2), .ord (b "MACRO") (at' 5 4 5), .operands [], b "MACRO"⟩
/-- `.T  MEND` -/
def innerEnd : Stmt := ⟨.seq (b "T") (at' 7 0 2), .ord (b "MEND") (at' 7 4 4), .operands [], b "MEND"⟩

/-- In a definition inside a definition the label of MACRO is not recorded, that of MEND is, as if it belonged to the outer one. -/
theorem C109_witness_inner :
    ((define codes (State.started {} false) [(inner, "F"), (subscripts, "F"), (innerEnd, "F")]).finished (b "M") 7 "F" (at' 1 1 1)).1 "F" =
      [⟨.seq, b "T", at' 7 0 2, none⟩, ⟨.instr, b "M", at' 1 1 1, some 7⟩] := by decide +kernel

example : ∀ i ≤ 3, 0 ≤ depth 1 (([inner, subscripts, innerEnd] : List Stmt).take i) := by decide +kernel

/-- `&A SETA 1`, `GBLC &A,&D` -/
example : (process codes {} [⟨subscripts, .opencode, "F"⟩,
      ⟨⟨.empty, .ord (b "GBLC") (at' 8 1 4), .operands [.caVar (.basic (b "A") .nil (at' 8 6 2)), .caVar (.basic (b "D") .nil (at' 8 9 2))],
        b "GBLC"⟩, .copy, "G"⟩]).varDefs =
    [⟨b "A", .A, false, "F", ⟨1, 0⟩⟩, ⟨b "D", .C, true, "G", ⟨8, 9⟩⟩] := by decide +kernel

end Verif.Mention
