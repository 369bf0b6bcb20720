/-!
Model for C137: how the fields of a line that the parser finds become the statement that is processed: the `collector` with its fields that can be
assigned once, the main parser for label and instruction, the second parser for operands and remarks, and what is kept between lines.

What the rules of the grammar find in the text (C76, C110, C112, C133) is an input here.
-/
namespace Verif.Collect

structure Pos where
  line : Nat
  col : Nat
deriving DecidableEq, Repr

structure Rng where
  start : Pos
  stop : Pos
deriving DecidableEq, Repr

/-- `range_provider::union_range` (range_provider.cpp 20-35) -/
def Rng.union (a b : Rng) : Rng :=
  ⟨if a.start.line = b.start.line then ⟨a.start.line, min a.start.col b.start.col⟩
    else if a.start.line = min a.start.line b.start.line then a.start else b.start,
   if a.stop.line = b.stop.line then ⟨a.stop.line, max a.stop.col b.stop.col⟩
    else if a.stop.line = max a.stop.line b.stop.line then a.stop else b.stop⟩

/-- `field already assigned`, `data already extracted` (collector.cpp 41, 226), and reading an optional that holds nothing. -/
inductive Fault where
  | assigned
  | extracted
  | undefined
deriving DecidableEq, Repr

/-- A field with its range (statement_fields.h). -/
structure Fld (α : Type) where
  rng : Rng
  val : α
deriving DecidableEq, Repr

/-- `token_info`; scopes by number, 0 for remarks. -/
structure Tok where
  rng : Rng
  scope : Nat
deriving DecidableEq, Repr

/-- An operand; `none` is `empty_operand`. -/
structure Op where
  rng : Rng
  val : Option Nat
deriving DecidableEq, Repr

/-- A list of operands as the rules leave it: pointers may be null. -/
abbrev Ops := List (Option Op)

/-- `deferred_operands_si`: the text and the number of variable symbols, as numbers. -/
structure Later where
  text : Nat
  vars : List Nat
deriving DecidableEq, Repr

/-- The members of `collector` (collector.h 67-74). Labels and instructions by a number, `none` for the empty ones. -/
structure Collector where
  lbl : Option (Fld (Option Nat)) := none
  instr : Option (Fld (Option Nat)) := none
  op : Option (Fld Ops) := none
  rem : Option (Fld (List Rng)) := none
  dfr : Option (Fld Later) := none
  hl : List Tok := []
  extracted : Bool := false
deriving DecidableEq, Repr

/-- `prepare_for_next_statement` (collector.cpp 232-243) -/
def Collector.prepare (_ : Collector) : Collector := {}

/-- `set_label_field` (collector.cpp 38-92) -/
def Collector.setLabel (c : Collector) (f : Fld (Option Nat)) : Except Fault Collector :=
  if c.lbl.isSome then .error .assigned else .ok { c with lbl := some f }

/-- `set_instruction_field` (collector.cpp 94-115) -/
def Collector.setInstr (c : Collector) (f : Fld (Option Nat)) : Except Fault Collector :=
  if c.instr.isSome then .error .assigned else .ok { c with instr := some f }

/-- `add_hl_symbol` (collector.cpp 150) for some tokens. -/
def Collector.addHl (c : Collector) (ts : List Tok) : Collector := { c with hl := c.hl ++ ts }

/-- `add_operand_remark_hl_symbols` (collector.cpp 154-161) -/
def Collector.remarkHl (c : Collector) : Collector :=
  match c.rem with
  | some r => c.addHl (r.val.map fun x => ⟨x, 0⟩)
  | none => c

def Collector.busy (c : Collector) : Bool := c.op.isSome || c.rem.isSome || c.dfr.isSome

/-- `set_operand_remark_field(range)` (collector.cpp 117-126) -/
def Collector.setNone (c : Collector) (r : Rng) : Except Fault Collector :=
  if c.busy then .error .assigned
  else .ok ({ c with op := some ⟨r, []⟩, rem := some ⟨r, []⟩, dfr := some ⟨r, ⟨0, []⟩⟩ }.remarkHl)

/-- `set_operand_remark_field` with the text for later (collector.cpp 128-137) -/
def Collector.setLater (c : Collector) (d : Later) (rem : List Rng) (r : Rng) : Except Fault Collector :=
  if c.busy then .error .assigned else .ok ({ c with dfr := some ⟨r, d⟩, rem := some ⟨r, rem⟩ }.remarkHl)

/-- An operand that is missing or empty. -/
def blankOp : Option Op → Bool
  | none => true
  | some o => o.val.isNone

/-- `set_operand_remark_field` with operands (collector.cpp 139-148) -/
def Collector.setOps (c : Collector) (ops : Ops) (rem : List Rng) (r : Rng) : Except Fault Collector :=
  if c.busy then .error .assigned
  else
    let ops := if ops.length = 1 && ops.all blankOp then [] else ops
    .ok ({ c with op := some ⟨r, ops⟩, rem := some ⟨r, rem⟩ }.remarkHl)

/-- `append_operand_field` (collector.cpp 163-174) -/
def Collector.append (c d : Collector) : Collector :=
  { c with op := if d.op.isSome then d.op else c.op, rem := if d.rem.isSome then d.rem else c.rem, dfr := if d.dfr.isSome then d.dfr else c.dfr,
           hl := c.hl ++ d.hl }

inductive Form where
  | unknown
  | ignored
  | deferred
  | ca
  | mac
  | asm
  | mach
  | dat
deriving DecidableEq, Repr

/-- `processing_status`: the form, whether the instruction has no operands, and the operation. -/
structure Status where
  form : Form
  absent : Bool
  opcode : Nat
deriving DecidableEq, Repr

/-- The two kinds of statements (statement.h). -/
inductive Stmt where
  | deferred (rng : Rng) (lbl instr : Fld (Option Nat)) (rest : Fld Later)
  | resolved (rng : Rng) (lbl instr : Fld (Option Nat)) (ops : Fld (List Op)) (rem : Fld (List Rng)) (status : Status)
deriving DecidableEq, Repr

/-- `extract_statement` (collector.cpp 178-220); the assertion is left out. The collector is prepared again before it is used. -/
def Collector.extract (c : Collector) (s : Status) (r : Rng) : Stmt :=
  let lbl := c.lbl.getD ⟨r, none⟩
  let instr := c.instr.getD ⟨r, none⟩
  let rem := c.rem.getD ⟨r, []⟩
  if s.form = .deferred then
    let d := c.dfr.getD ⟨instr.rng, ⟨0, []⟩⟩
    .deferred (lbl.rng.union d.rng) lbl instr d
  else
    let op := c.op.getD ⟨instr.rng, []⟩
    .resolved (lbl.rng.union op.rng) lbl instr ⟨op.rng, op.val.map fun o => o.getD ⟨instr.rng, none⟩⟩ rem s

/-- `extract_hl_symbols` (collector.cpp 222-230) -/
def Collector.extractHl (c : Collector) : Except Fault (List Tok × Collector) :=
  if c.extracted then .error .extracted else .ok (c.hl, { c with extracted := true, hl := [] })

/-- What `lab_instr` and `look_lab_instr` find (hlasmparser.g4 147-184, label_field_rules.g4 21-57, instruction_field_rules.g4 18-41,
lookahead_rules.g4 18-52): the end; all fields of one kind over the whole line (empty lines, sequence symbols and lines that are no statements when
looking ahead); or label and instruction, each of which can be missing after an error, the tokens for highlighting, and the text of the rest unless
there was an error. -/
inductive Head where
  | eof
  | whole (l : Option Nat) (r : Rng)
  | line (lbl instr : Option (Fld (Option Nat))) (hl : List Tok) (text : Bool)
deriving DecidableEq, Repr

def optSet (f : Collector → Fld (Option Nat) → Except Fault Collector) (c : Collector) : Option (Fld (Option Nat)) → Except Fault Collector
  | none => .ok c
  | some x => f c x

/-- What the actions of these rules do with the collector. -/
def Head.act (c : Collector) : Head → Except Fault Collector
  | .eof => .ok c
  | .whole l r => do
    let c ← c.setLabel ⟨r, l⟩
    let c ← c.setInstr ⟨r, none⟩
    c.setNone r
  | .line l i hl _ => do
    let c ← optSet Collector.setLabel c l
    let c ← optSet Collector.setInstr c i
    .ok (c.addHl hl)

/-- What the rule for the operand field finds (operand_field_rules.g4, lookahead_rules.g4 63-75): tokens for highlighting, and nothing after an
error, no operands, the text for later, or operands and remarks. `mac`: the operands as strings, and what the second parse of them finds
(parser_impl.cpp 269-296, 476-508). -/
inductive Body where
  | failed (hl : List Tok)
  | nothing (hl : List Tok) (r : Rng)
  | later (hl : List Tok) (d : Later) (rem : List Rng) (r : Rng)
  | ops (hl : List Tok) (ops : Ops) (rem : List Rng) (r : Rng)
  | mac (hl : List Tok) (first : Ops) (rem : List Rng) (r : Rng) (again : Ops) (hl' : List Tok)
deriving DecidableEq, Repr

/-- What its actions do with the collector of the second parser (parser_impl.cpp 565-606): it is emptied first. -/
def Body.act (c : Collector) : Body → Except Fault Collector
  | .failed hl => .ok (c.prepare.addHl hl)
  | .nothing hl r => (c.prepare.addHl hl).setNone r
  | .later hl d rem r => (c.prepare.addHl hl).setLater d rem r
  | .ops hl os rem r => (c.prepare.addHl hl).setOps os rem r
  | .mac hl first rem r again hl' =>
    if first.isEmpty then (c.prepare.addHl hl).setOps first rem r
    else ((c.prepare.addHl hl).prepare.addHl hl').setOps again rem r

inductive Kind where
  | ordinary
  | lookahead
deriving DecidableEq, Repr

/-- One call of `get_next`: the kind of the processor that asks, what the rules find, the number of the line, the status the processor gives an
instruction, and whether attributes must be looked for first (parser_impl.cpp 336-338, 350-352). -/
structure Call where
  kind : Kind
  head : Head
  body : Status → Body
  line : Nat
  status : Fld (Option Nat) → Status
  lookInstr : Fld (Option Nat) → Bool
  lookStmt : Stmt → Bool
  /-- the operation COPY -/
  copy : Nat

/-- What lasts: the two collectors, `proc_status`, the tokens given to the highlighting. -/
structure State where
  main : Collector := {}
  rest : Collector := {}
  status : Option Status := none
  toks : List Tok := []

/-- `process_statement` (parser_impl.cpp 345-363) -/
def processStatement (c : Call) (s : State) : Except Fault (Option Stmt × State) :=
  match s.status with
  | none => .error .undefined
  | some st =>
    let stmt := s.main.extract st ⟨⟨c.line, 0⟩, ⟨c.line, 0⟩⟩
    if c.kind = .ordinary && c.lookStmt stmt then .ok (none, s)
    else do
      let x ← s.main.extractHl
      .ok (some stmt, { s with main := x.2, toks := s.toks ++ x.1 })

/-- `process_instruction` (parser_impl.cpp 334-343): whether attributes are looked for. -/
def processInstruction (c : Call) (s : State) : Except Fault (Bool × State) :=
  match s.main.instr with
  | none => .error .undefined
  | some i => if c.kind = .ordinary && c.lookInstr i then .ok (true, s) else .ok (false, { s with status := some (c.status i) })

/-- `parse_operands` (parser_impl.cpp 542-615) -/
def parseOperands (c : Call) (s : State) : Except Fault (Option Stmt × State) :=
  match s.status with
  | none => .error .undefined
  | some st => do
    let d ← (c.body st).act s.rest
    let s := { s with rest := d }
    if st.form ≠ .ignored then processStatement c { s with main := s.main.append d }
    else .ok (none, s)

/-- An instruction other than COPY (parser_impl.cpp 631-635). -/
def notCopy (copy : Nat) : Option Nat → Bool
  | some n => n ≠ copy
  | none => false

/-- `parse_lookahead_operands` (parser_impl.cpp 617-670) -/
def parseAhead (c : Call) (s : State) : Except Fault (Option Stmt × State) :=
  match s.status, s.main.instr with
  | some st, some i =>
    if st.form = .ignored then processStatement c s
    else if s.main.lbl.isNone && notCopy c.copy i.val then processStatement c s
    else do
      let d ← (c.body st).act s.rest
      let d := { d with hl := [] }
      processStatement c { s with rest := d, main := s.main.append d }
  | _, _ => .error .undefined

def Head.hasText : Head → Bool
  | .line _ _ _ t => t
  | _ => false

/-- `process_ordinary` (parser_impl.cpp 510-526) -/
def processOrdinary (c : Call) (s : State) : Except Fault (Option Stmt × State) := do
  let m ← c.head.act s.main
  let s := { s with main := m }
  if c.head ≠ .eof && m.instr.isSome then
    let x ← processInstruction c s
    if x.1 then .ok (none, x.2)
    else if !c.head.hasText then processStatement c x.2
    else parseOperands c x.2
  else .ok (none, s)

/-- `process_lookahead` (parser_impl.cpp 528-540) -/
def processLookahead (c : Call) (s : State) : Except Fault (Option Stmt × State) := do
  let m ← c.head.act s.main
  let s := { s with main := m }
  if c.head ≠ .eof then
    let x ← processInstruction c s
    if !c.head.hasText then processStatement c x.2
    else parseAhead c x.2
  else .ok (none, s)

/-- `get_next` (parser_impl.cpp 365-389) -/
def getNext (c : Call) (s : State) : Except Fault (Option Stmt × State) := do
  let x ← match c.kind with
    | .lookahead => processLookahead c s
    | .ordinary => processOrdinary c s
  .ok (x.1, { x.2 with main := x.2.main.prepare, status := none })

/-- What happens in between: the next line is asked for, or a field of a model statement or of a statement kept for later is parsed
(`parse_operand_field`, parser_impl.cpp 115-198), which leaves the second collector in any state and sets `proc_status`. -/
inductive Event where
  | next (c : Call)
  | reparse (left : Collector) (status : Option Status)

/-- A whole history: the statements in order. -/
def run : List Event → State → Except Fault (List (Option Stmt) × State)
  | [], s => .ok ([], s)
  | .next c :: es, s => do
    let x ← getNext c s
    let y ← run es x.2
    .ok (x.1 :: y.1, y.2)
  | .reparse left st :: es, s => run es { s with rest := left, status := st }

end Verif.Collect
