/-!
Source ranges: union, splitting of highlighted ranges over lines, and the translation of positions in re-parsed operands.

Modelled: `/repo/parser_library/src/semantics/range_provider.cpp` 20-35 (`union_range`), 84-125 (`adjust_position`),
`/repo/parser_library/src/semantics/source_info_processor.cpp` 37-63 (`add_hl_symbol`),
`/repo/parser_library/include/range.h` (`position`, `range`), `/repo/parser_library/include/protocol.h` 239-256 (`token_info`).
Not modelled: the construction of ranges from ANTLR tokens (`get_range`), `finish` (a `std::sort`).
-/
namespace Verif.Lexing

/-- `position` (`range.h` 26-42). Coordinates are `uint64_t`; only `adjustPosition` does arithmetic on them. -/
structure Pos where
  line : Nat
  col : Nat
deriving DecidableEq, Repr

/-- `range` (`range.h` 44-58). -/
structure Rng where
  start : Pos
  stop : Pos
deriving DecidableEq, Repr

/-- `range_provider::union_range` (`range_provider.cpp` 20-35). -/
def unionRange (lhs rhs : Rng) : Rng :=
  let s :=
    if lhs.start.line = rhs.start.line then ⟨lhs.start.line, min lhs.start.col rhs.start.col⟩
    else if lhs.start.line = min lhs.start.line rhs.start.line then lhs.start else rhs.start
  let e :=
    if lhs.stop.line = rhs.stop.line then ⟨lhs.stop.line, max lhs.stop.col rhs.stop.col⟩
    else if lhs.stop.line = max lhs.stop.line rhs.stop.line then lhs.stop else rhs.stop
  ⟨s, e⟩

/-- `token_info` (`protocol.h` 239-256): a range and its highlighting scope. -/
structure HlTok where
  range : Rng
  scope : Nat
deriving DecidableEq, Repr

/-- The columns of `continuation_info` (`highlighting_info.h` 30-39). -/
structure ContInfo where
  continueCol : Nat := 15
  continuationCol : Nat := 71

/-- The tokens `source_info_processor::add_hl_symbol` (`source_info_processor.cpp` 48-62) appends for one symbol: the loop
cuts the first line off until the rest lies on one line. (The record of continuation positions is not modelled.) -/
def splitHl (ci : ContInfo) (t : HlTok) : List HlTok :=
  if t.range.start.line < t.range.stop.line then
    { t with range := ⟨t.range.start, ⟨t.range.start.line, ci.continuationCol⟩⟩ } ::
      splitHl ci { t with range := ⟨⟨t.range.start.line + 1, ci.continueCol⟩, t.range.stop⟩ }
  else if t.range.start ≠ t.range.stop then [t] else []
termination_by t.range.stop.line - t.range.start.line

/-- Subtraction of `uint64_t`. -/
def sub64 (a b : Nat) : Nat := (a + 2 ^ 64 - b) % 2 ^ 64

/-- The first loop of `adjust_position` (`range_provider.cpp` 91-105): finds the operand the offset lies in. Indexing past
the vector is undefined behaviour, `none`. -/
def findOperand (r : Rng) (rest : List Rng) (offset : Nat) : Option (Rng × Nat) :=
  let lines := sub64 r.stop.line r.start.line
  let cols := sub64 (r.stop.col + 72 * lines) r.start.col
  if cols ≥ offset then some (r, offset)
  else match rest with
    | [] => none
    | r' :: rest => findOperand r' rest (sub64 offset (cols + 1))

/-- The second loop of `adjust_position` (`range_provider.cpp` 110-123). -/
def walk (line col offset : Nat) : Pos :=
  let rest := sub64 71 col
  if rest < offset then walk (line + 1) 15 (offset - rest) else ⟨line, col + offset⟩
termination_by 2 * offset + (if col = 15 then 0 else 1)
decreasing_by
  rename_i h
  simp only [rest, sub64] at h ⊢
  by_cases hc : col = 15
  · subst hc; simp at h ⊢; omega
  · simp [hc]; omega

/-- `range_provider::adjust_position` (`range_provider.cpp` 84-125). -/
def adjustPosition (field : Rng) (operands : List Rng) (pos : Pos) : Option Pos :=
  match operands with
  | [] => some (walk field.start.line field.start.col (sub64 pos.col field.start.col))
  | r :: rest => (findOperand r rest (sub64 pos.col r.start.col)).map fun p => walk p.1.start.line p.1.start.col p.2

end Verif.Lexing
