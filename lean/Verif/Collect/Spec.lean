import Verif.Collect.Model
/-!
C137: the statement that a line is, and its tokens.
-/
namespace Verif.Collect

/-- What was found behind the instruction. -/
structure Rest where
  op : Option (Fld Ops) := none
  rem : Option (Fld (List Rng)) := none
  dfr : Option (Fld Later) := none
  hl : List Tok := []

/-- A list of one operand that is empty is no list. -/
def tidy : Ops → Ops
  | [none] => []
  | [some ⟨_, none⟩] => []
  | l => l

/-- The fields and the tokens behind the instruction; remarks are tokens, too. Of a macro call whose operands are parsed again the tokens of the
second time. -/
def Body.rest : Body → Rest
  | .failed hl => { hl }
  | .nothing hl r => { op := some ⟨r, []⟩, rem := some ⟨r, []⟩, dfr := some ⟨r, ⟨0, []⟩⟩, hl }
  | .later hl d rem r => { dfr := some ⟨r, d⟩, rem := some ⟨r, rem⟩, hl := hl ++ rem.map fun x => ⟨x, 0⟩ }
  | .ops hl os rem r => { op := some ⟨r, tidy os⟩, rem := some ⟨r, rem⟩, hl := hl ++ rem.map fun x => ⟨x, 0⟩ }
  | .mac hl [] rem r _ _ => { op := some ⟨r, []⟩, rem := some ⟨r, rem⟩, hl := hl ++ rem.map fun x => ⟨x, 0⟩ }
  | .mac _ (_ :: _) rem r again hl => { op := some ⟨r, tidy again⟩, rem := some ⟨r, rem⟩, hl := hl ++ rem.map fun x => ⟨x, 0⟩ }

/-- The statement of these fields: a missing label is at the beginning of the line, missing operands where the instruction is. -/
def build (line : Nat) (lbl : Option (Fld (Option Nat))) (instr : Fld (Option Nat)) (rest : Rest) (s : Status) : Stmt :=
  let home : Rng := ⟨⟨line, 0⟩, ⟨line, 0⟩⟩
  let lbl := lbl.getD ⟨home, none⟩
  if s.form = .deferred then
    let d := rest.dfr.getD ⟨instr.rng, ⟨0, []⟩⟩
    .deferred (lbl.rng.union d.rng) lbl instr d
  else
    let op := rest.op.getD ⟨instr.rng, []⟩
    .resolved (lbl.rng.union op.rng) lbl instr ⟨op.rng, op.val.map fun o => o.getD ⟨instr.rng, none⟩⟩ (rest.rem.getD ⟨home, []⟩) s

/-- The statement that a line is, and its tokens: nothing when no instruction was found, when attributes must be looked for first, or when the
processor ignores it. -/
def Call.meaning (c : Call) : Option Stmt × List Tok :=
  let deliver (stmt : Stmt) (hl : List Tok) : Option Stmt × List Tok :=
    if c.kind = .ordinary ∧ c.lookStmt stmt = true then (none, []) else (some stmt, hl)
  match c.head with
  | .eof => (none, [])
  | .whole l r =>
    let i : Fld (Option Nat) := ⟨r, none⟩
    if c.kind = .ordinary ∧ c.lookInstr i = true then (none, [])
    else deliver (build c.line (some ⟨r, l⟩) i { op := some ⟨r, []⟩, rem := some ⟨r, []⟩, dfr := some ⟨r, ⟨0, []⟩⟩ } (c.status i)) []
  | .line _ none _ _ => (none, [])
  | .line l (some i) hl text =>
    let s := c.status i
    match c.kind with
    | .ordinary =>
      if c.lookInstr i then (none, [])
      else if !text then deliver (build c.line l i {} s) hl
      else if s.form = .ignored then (none, [])
      else deliver (build c.line l i (c.body s).rest s) (hl ++ (c.body s).rest.hl)
    | .lookahead =>
      -- operands are of interest only behind a label and in COPY
      if !text ∨ s.form = .ignored ∨ (l = none ∧ ∃ n, i.val = some n ∧ n ≠ c.copy) then (some (build c.line l i {} s), hl)
      else (some (build c.line l i (c.body s).rest s), hl)

/-- When looking ahead, an instruction was found. -/
def Call.Found (c : Call) : Prop := c.kind = .lookahead → ∀ l hl t, c.head ≠ .line l none hl t

/-- The lines asked for in a history. -/
def calls : List Event → List Call
  | [] => []
  | .next c :: es => c :: calls es
  | .reparse _ _ :: es => calls es

/-- Before or at. -/
def Pos.le (a b : Pos) : Prop := a.line < b.line ∨ a.line = b.line ∧ a.col ≤ b.col

/-- A range that has all of another one. -/
def Rng.covers (r a : Rng) : Prop := r.start.le a.start ∧ a.stop.le r.stop

end Verif.Collect
