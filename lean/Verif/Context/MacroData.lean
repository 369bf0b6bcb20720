import Verif.Basic
/-!
Macro argument values (context/macro_param_data.cpp) and splitting of an argument text into sublists
(processing/instruction_sets/macro_processor.cpp 38-169).
-/
namespace Verif.Context

/-- `macro_param_data_component` (context/macro_param_data.h): dummy, single value or list of values. -/
inductive Data where
  | dummy
  | single (v : Bytes)
  | comp (l : List Data)
  deriving Repr

def cComma : UInt8 := 44
def cOpen : UInt8 := 40
def cClose : UInt8 := 41
def cQuote : UInt8 := 39

mutual
/-- `get_value` (macro_param_data.cpp 29, 37, 57-71). The lazily filled cache `value_` is not modelled: it is written once with
the value computed here. -/
def Data.value : Data → Bytes
  | .dummy => []
  | .single v => v
  | .comp l => cOpen :: (valueList l ++ [cClose])
/-- The loop of `macro_param_data_composite::get_value` (macro_param_data.cpp 62-67): values separated by commas. -/
def valueList : List Data → Bytes
  | [] => []
  | [d] => d.value
  | d :: e :: l => d.value ++ cComma :: valueList (e :: l)
end

/-- `get_ith` (macro_param_data.cpp 39, 43-48, 73-78). -/
def Data.ith (d : Data) (i : Nat) : Data :=
  match d with
  | .dummy => .dummy
  | .single v => if i = 0 then .single v else .dummy
  | .comp l => (l[i]?).getD .dummy

/-- The `number` member (macro_param_data.cpp 33-35, 52-55, 83-86). -/
def Data.number : Data → Nat
  | .dummy => 0
  | .single v => if v.isEmpty then 0 else 1
  | .comp l => l.length

/-- `is_data_def` (macro_processor.cpp 38-42): letters of attribute references, in both cases. -/
def isDataDef (c : UInt8) : Bool :=
  let u := if 97 ≤ c ∧ c ≤ 122 then c - 32 else c
  u = 76 ∨ u = 73 ∨ u = 83 ∨ u = 84 ∨ u = 68 ∨ u = 79 ∨ u = 78 ∨ u = 75

/-- The inner loop over a parenthesised text (macro_processor.cpp 57-69) after the opening parenthesis: the text up to and
including the matching one, and what follows. `none`: the end of the text was reached. -/
def skipParen : Nat → Bytes → Option (Bytes × Bytes)
  | _, [] => none
  | nest, c :: r =>
    let nest' := if c = cOpen then nest + 1 else if c = cClose then nest - 1 else nest
    if nest' = 0 then some ([c], r) else (skipParen nest' r).map fun p => (c :: p.1, p.2)

/-- Search for the closing quote (macro_processor.cpp 79-84). -/
def skipQuote : Bytes → Option (Bytes × Bytes)
  | [] => none
  | c :: r => if c = cQuote then some ([c], r) else (skipQuote r).map fun p => (c :: p.1, p.2)

theorem skipParen_eq (n : Nat) (s : Bytes) : ∀ t r, skipParen n s = some (t, r) → s = t ++ r := by
  fun_induction skipParen n s with
  | case1 => simp
  | case2 n c r n' h => intro t r' h; simp at h; obtain ⟨rfl, rfl⟩ := h; rfl
  | case3 n c r n' h ih =>
    intro t r' h
    cases hs : skipParen n' r with
    | none => simp [hs] at h
    | some p =>
      simp [hs] at h
      obtain ⟨rfl, rfl⟩ := h
      simp [← ih p.1 p.2 (by simp [hs])]

theorem skipQuote_eq (s : Bytes) : ∀ t r, skipQuote s = some (t, r) → s = t ++ r := by
  fun_induction skipQuote s with
  | case1 => simp
  | case2 => intro t r' h; simp at h; obtain ⟨rfl, rfl⟩ := h; rfl
  | case3 c r h ih =>
    intro t r' h
    cases hs : skipQuote r with
    | none => simp [hs] at h
    | some p =>
      simp [hs] at h
      obtain ⟨rfl, rfl⟩ := h
      simp [← ih p.1 p.2 hs]

/-- The loop of `find_single_macro_param` (macro_processor.cpp 48-88). A position is represented by the text that follows it;
`prev` is the byte before it (`data[start - 1]`). Result: the text passed over and the rest, which begins with a comma or a
closing parenthesis; `none` is the null pointer. -/
def scan (prev : UInt8) (s : Bytes) : Option (Bytes × Bytes) :=
  match s with
  | [] => none
  | c :: r =>
    if c = cComma ∨ c = cClose then some ([], c :: r)
    else if c = cOpen then
      match h : skipParen 1 r with
      | none => none
      | some (t, r') => (scan cClose r').map fun p => (c :: (t ++ p.1), p.2)
    else if c = cQuote then
      if isDataDef prev then (scan c r).map fun p => (c :: p.1, p.2)
      else
        match h : skipQuote r with
        | none => none
        | some (t, r') => (scan cQuote r').map fun p => (c :: (t ++ p.1), p.2)
    else (scan c r).map fun p => (c :: p.1, p.2)
  termination_by s.length
  decreasing_by
    · have := skipParen_eq _ _ _ _ h; simp [this]; omega
    · simp
    · have := skipQuote_eq _ _ _ h; simp [this]; omega
    · simp

/-- Skipping a comma (macro_processor.cpp 91-92, 146) at the position given by `prev` and the text that follows. -/
def skipComma (prev : UInt8) (s : Bytes) : UInt8 × Bytes :=
  match s with
  | c :: r => if c = cComma then (c, r) else (prev, s)
  | [] => (prev, [])

/-- The byte before the position after passing over `t`. -/
def lastOf (prev : UInt8) (t : Bytes) : UInt8 := (t.getLast?).getD prev

/-- One entry of the two parallel stacks `nests` and `macro_data` (macro_processor.cpp 106-110) without the position. -/
abbrev Frame := List Data

/-- The state of the loop (macro_processor.cpp 112-161): `prev` and `rest` give the position `nests.top()`, `top` and `below`
are the stack `macro_data`. The positions of the entries below the top are overwritten before they are used (line 146), so
they are not kept. -/
structure Split where
  prev : UInt8
  rest : Bytes
  top : Frame
  below : List Frame

inductive Outcome where
  | cont (s : Split)
  /-- `return macro_param_data_single(data)` -/
  | whole
  /-- the `break` at line 150 with the elements of the outermost level and the rest of the text -/
  | done (l : Frame) (rest : Bytes)

/-- The position after an element (line 146) and the end test (line 148). -/
def closeFrame (d : Data) (p : UInt8 × Bytes) (outer : Frame) (below : List Frame) : Outcome :=
  let q := skipComma p.1 p.2
  if below.isEmpty then .done (outer ++ [d]) q.2 else .cont { prev := q.1, rest := q.2, top := outer ++ [d], below := below }

/-- One iteration (macro_processor.cpp 112-161). An empty stack below a closing parenthesis would be undefined behaviour; it
is the outcome `whole` here and the invariant `Inv` shows that it does not occur. In the branch of lines 134-141
`find_single_macro_param` has already skipped one comma, and line 146 skips another one. -/
def Split.step (s : Split) : Outcome :=
  match s.rest with
  | [] => .whole
  | c :: r =>
    if c = cOpen then .cont { prev := c, rest := r, top := [], below := s.top :: s.below }
    else if c = cClose then
      match s.below with
      | [] => .whole
      | outer :: below =>
        if r = [] ∨ r.head? = some cComma ∨ r.head? = some cClose then closeFrame (.comp s.top) (c, r) outer below
        else
          match scan c r with
          | none => .whole
          | some (t, r') => closeFrame (.single ((Data.comp s.top).value ++ t)) (skipComma (lastOf c t) r') outer below
    else
      match scan s.prev (c :: r) with
      | none => .whole
      | some (t, r') =>
        let q := skipComma (lastOf s.prev t) r'
        .cont { prev := q.1, rest := q.2, top := s.top ++ [.single t], below := s.below }

/-- The loop, for at most `fuel` iterations. -/
def Split.loop (s : Split) : Nat → Option Outcome
  | 0 => none
  | n + 1 =>
    match s.step with
    | .cont s' => s'.loop n
    | o => some o

/-- `string_to_macrodata` (macro_processor.cpp 97-169); `none`: not finished after `fuel` iterations. -/
def toData (data : Bytes) (fuel : Nat) : Option Data :=
  if data = [] then some .dummy
  else if data.head? ≠ some cOpen ∨ data.getLast? ≠ some cClose then some (.single data)
  else
    match Split.loop { prev := 0, rest := data, top := [], below := [] } fuel with
    | none => none
    | some (.done [d] []) => some d
    | some _ => some (.single data)

end Verif.Context
