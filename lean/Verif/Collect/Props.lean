import Verif.Collect.Spec
/-!
C137: the statement made of a line has the fields of this line, whatever was there before.
-/
namespace Verif.Collect

theorem tidy_eq (ops : Ops) : (if (ops.length = 1 && ops.all blankOp) = true then [] else ops) = tidy ops := by
  match ops with
  | [] => rfl
  | [none] => rfl
  | [some ⟨r, none⟩] => rfl
  | [some ⟨r, some n⟩] => simp [blankOp, tidy]
  | a :: b :: l => simp [tidy]

/-- The second parser gives what it found, whatever its collector held. -/
theorem body_act (b : Body) (c : Collector) :
    b.act c = .ok { op := b.rest.op, rem := b.rest.rem, dfr := b.rest.dfr, hl := b.rest.hl } := by
  cases b with
  | failed hl => simp [Body.act, Collector.prepare, Collector.addHl, Body.rest]
  | nothing hl r => simp [Body.act, Collector.prepare, Collector.addHl, Collector.setNone, Collector.busy, Collector.remarkHl, Body.rest]
  | later hl d rem r => simp [Body.act, Collector.prepare, Collector.addHl, Collector.setLater, Collector.busy, Collector.remarkHl, Body.rest]
  | ops hl ops rem r =>
    have := tidy_eq ops
    simp only [Body.act, Collector.prepare, Collector.addHl, Collector.setOps, Collector.busy, Collector.remarkHl, Body.rest, this]
    simp
  | mac hl first rem r again hl' =>
    cases first with
    | nil =>
      have := tidy_eq []
      simp [Body.act, Collector.prepare, Collector.addHl, Collector.setOps, Collector.busy, Collector.remarkHl, Body.rest]
    | cons a l =>
      have := tidy_eq again
      simp only [Body.act, Collector.prepare, Collector.addHl, Collector.setOps, Collector.busy, Collector.remarkHl, Body.rest, this]
      simp

/-- The collectors are clean between lines: the main one and `proc_status`; the second one may hold anything. -/
def Clean (s : State) : Prop := s.main = {}

/-- The end of `meaning`. -/
def deliver (c : Call) (stmt : Stmt) (hl : List Tok) : Option Stmt × List Tok :=
  if c.kind = .ordinary ∧ c.lookStmt stmt = true then (none, []) else (some stmt, hl)

theorem process_build (c : Call) (s : State) (st : Status) (i : Fld (Option Nat)) (hst : s.status = some st) (hi : s.main.instr = some i)
    (he : s.main.extracted = false) (R : Rest) (h1 : s.main.op = R.op) (h2 : s.main.rem = R.rem) (h3 : s.main.dfr = R.dfr) :
    ∃ m, processStatement c s = .ok ((deliver c (build c.line s.main.lbl i R st) s.main.hl).1,
      ⟨m, s.rest, s.status, s.toks ++ (deliver c (build c.line s.main.lbl i R st) s.main.hl).2⟩) := by
  have hb : s.main.extract st ⟨⟨c.line, 0⟩, ⟨c.line, 0⟩⟩ = build c.line s.main.lbl i R st := by
    simp [Collector.extract, build, hi, h1, h2, h3]
  unfold processStatement deliver
  rw [hst]
  simp only [hb]
  by_cases h : c.kind = .ordinary ∧ c.lookStmt (build c.line s.main.lbl i R st) = true
  · refine ⟨s.main, ?_⟩
    obtain ⟨main, rest, status, toks⟩ := s
    simp only at hst
    simp [h.1, h.2, hst]
  · have h' : (decide (c.kind = .ordinary) && c.lookStmt (build c.line s.main.lbl i R st)) = false := by
      cases hk : decide (c.kind = .ordinary) with
      | false => rfl
      | true =>
        have hk' : c.kind = .ordinary := by simpa using hk
        simpa [hk'] using h
    refine ⟨{ s.main with extracted := true, hl := [] }, ?_⟩
    rw [h', if_neg h]
    simp [Collector.extractHl, he, bind, Except.bind, hst]

theorem line_act (l i : Option (Fld (Option Nat))) (hl : List Tok) (t : Bool) :
    (Head.line l i hl t).act {} = .ok { lbl := l, instr := i, hl := hl } := by
  cases l <;> cases i <;> simp [Head.act, optSet, Collector.setLabel, Collector.setInstr, Collector.addHl, bind, Except.bind]

theorem next_correct (c : Call) (s : State) (hs : Clean s) (hf : c.Found) :
    ∃ rest, getNext c s = .ok (c.meaning.1, ⟨{}, rest, none, s.toks ++ c.meaning.2⟩) := by
  obtain ⟨main, rest, status, toks⟩ := s
  have hm : main = {} := hs
  subst hm
  obtain ⟨kind, head, body, line, st, li, ls, copy⟩ := c
  cases head with
  | eof => cases kind <;> exact ⟨rest, by simp [getNext, processOrdinary, processLookahead, Head.act, Call.meaning, Collector.prepare, bind, Except.bind]⟩
  | whole l r =>
    cases kind with
    | ordinary =>
      refine ⟨rest, ?_⟩
      cases h1 : li ⟨r, none⟩ with
      | true =>
        simp [getNext, processOrdinary, Head.act, Call.meaning, Collector.prepare, bind, Except.bind, Collector.setLabel, Collector.setInstr,
          Collector.setNone, Collector.busy, Collector.remarkHl, Collector.addHl, processInstruction, h1]
      | false =>
        cases h2 : ls (build line (some ⟨r, l⟩) ⟨r, none⟩ { op := some ⟨r, []⟩, rem := some ⟨r, []⟩, dfr := some ⟨r, ⟨0, []⟩⟩ } (st ⟨r, none⟩)) <;>
        · have h3 := h2
          simp [build] at h3
          simp [getNext, processOrdinary, Head.act, Call.meaning, Collector.prepare, bind, Except.bind, Collector.setLabel, Collector.setInstr,
            Collector.setNone, Collector.busy, Collector.remarkHl, Collector.addHl, processInstruction, h1, Head.hasText, processStatement,
            Collector.extract, Collector.extractHl, build, h3]
    | lookahead =>
      refine ⟨rest, ?_⟩
      simp [getNext, processLookahead, Head.act, Call.meaning, Collector.prepare, bind, Except.bind, Collector.setLabel, Collector.setInstr,
            Collector.setNone, Collector.busy, Collector.remarkHl, Collector.addHl, processInstruction, Head.hasText, processStatement,
            Collector.extract, Collector.extractHl, build]
  | line l i hl text =>
    have hact := line_act l i hl text
    cases i with
    | none =>
      cases kind with
      | lookahead => exact (hf rfl l hl text rfl).elim
      | ordinary => exact ⟨rest, by simp [getNext, processOrdinary, hact, bind, Except.bind, Call.meaning, Collector.prepare]⟩
    | some i =>
      cases kind with
      | ordinary =>
        cases hli : li i with
        | true =>
          exact ⟨rest, by simp [getNext, processOrdinary, hact, bind, Except.bind, Call.meaning, Collector.prepare, processInstruction, hli]⟩
        | false =>
          cases text with
          | false =>
            obtain ⟨m, hp⟩ := process_build ⟨.ordinary, .line l (some i) hl false, body, line, st, li, ls, copy⟩
              ⟨{ lbl := l, instr := some i, hl := hl }, rest, some (st i), toks⟩ (st i) i rfl rfl rfl {} rfl rfl rfl
            refine ⟨rest, ?_⟩
            simp only [getNext, processOrdinary, hact, bind, Except.bind, processInstruction, hli]
            simp [Head.hasText, hp, Call.meaning, hli, Collector.prepare, deliver]
          | true =>
            by_cases hg : (st i).form = .ignored
            · refine ⟨{ op := (body (st i)).rest.op, rem := (body (st i)).rest.rem, dfr := (body (st i)).rest.dfr, hl := (body (st i)).rest.hl }, ?_⟩
              simp only [getNext, processOrdinary, hact, bind, Except.bind, processInstruction, hli]
              simp [Head.hasText, Call.meaning, hli, Collector.prepare, parseOperands, body_act, hg, bind, Except.bind]
            · obtain ⟨m, hp⟩ := process_build ⟨.ordinary, .line l (some i) hl true, body, line, st, li, ls, copy⟩
                ⟨Collector.append { lbl := l, instr := some i, hl := hl }
                    { op := (body (st i)).rest.op, rem := (body (st i)).rest.rem, dfr := (body (st i)).rest.dfr, hl := (body (st i)).rest.hl },
                  { op := (body (st i)).rest.op, rem := (body (st i)).rest.rem, dfr := (body (st i)).rest.dfr, hl := (body (st i)).rest.hl },
                  some (st i), toks⟩ (st i) i rfl rfl rfl (body (st i)).rest
                (by cases h : (body (st i)).rest.op <;> simp [Collector.append, h])
                (by cases h : (body (st i)).rest.rem <;> simp [Collector.append, h])
                (by cases h : (body (st i)).rest.dfr <;> simp [Collector.append, h])
              refine ⟨{ op := (body (st i)).rest.op, rem := (body (st i)).rest.rem, dfr := (body (st i)).rest.dfr, hl := (body (st i)).rest.hl }, ?_⟩
              simp only [getNext, processOrdinary, hact, bind, Except.bind, processInstruction, hli]
              simp [Head.hasText, parseOperands, body_act, hg, bind, Except.bind, hp, Call.meaning, hli, Collector.prepare, deliver]
              simp [Collector.append]
      | lookahead =>
        cases text with
        | false =>
          obtain ⟨m, hp⟩ := process_build ⟨.lookahead, .line l (some i) hl false, body, line, st, li, ls, copy⟩
            ⟨{ lbl := l, instr := some i, hl := hl }, rest, some (st i), toks⟩ (st i) i rfl rfl rfl {} rfl rfl rfl
          refine ⟨rest, ?_⟩
          simp only [getNext, processLookahead, hact, bind, Except.bind, processInstruction]
          simp [Head.hasText, hp, Call.meaning, Collector.prepare, deliver]
        | true =>
          have hskip : (l = none ∧ ∃ n, i.val = some n ∧ n ≠ copy) ↔
              (l.isNone && notCopy copy i.val) = true := by
            cases l <;> cases hv : i.val <;> simp [notCopy]
          by_cases hg : (st i).form = .ignored
          · obtain ⟨m, hp⟩ := process_build ⟨.lookahead, .line l (some i) hl true, body, line, st, li, ls, copy⟩
              ⟨{ lbl := l, instr := some i, hl := hl }, rest, some (st i), toks⟩ (st i) i rfl rfl rfl {} rfl rfl rfl
            refine ⟨rest, ?_⟩
            simp only [getNext, processLookahead, hact, bind, Except.bind, processInstruction]
            simp [Head.hasText, parseAhead, hg, hp, Call.meaning, Collector.prepare, deliver]
          · by_cases hk : (l = none ∧ ∃ n, i.val = some n ∧ n ≠ copy)
            · obtain ⟨m, hp⟩ := process_build ⟨.lookahead, .line l (some i) hl true, body, line, st, li, ls, copy⟩
                ⟨{ lbl := l, instr := some i, hl := hl }, rest, some (st i), toks⟩ (st i) i rfl rfl rfl {} rfl rfl rfl
              refine ⟨rest, ?_⟩
              simp only [getNext, processLookahead, hact, bind, Except.bind, processInstruction]
              have hk' := hskip.mp hk
              have hm : (Call.meaning ⟨.lookahead, .line l (some i) hl true, body, line, st, li, ls, copy⟩) =
                  (some (build line l i {} (st i)), hl) := by simp only [Call.meaning]; rw [if_pos (Or.inr (Or.inr hk))]
              rw [hm]
              have hk2 : l = none ∧ notCopy copy i.val = true := by simpa using hk'
              simp [Head.hasText, parseAhead, hk2, hg, Collector.prepare]
              rw [hk2.1] at hp
              simp [hp, deliver]
            · obtain ⟨m, hp⟩ := process_build ⟨.lookahead, .line l (some i) hl true, body, line, st, li, ls, copy⟩
                ⟨Collector.append { lbl := l, instr := some i, hl := hl }
                    { op := (body (st i)).rest.op, rem := (body (st i)).rest.rem, dfr := (body (st i)).rest.dfr, hl := [] },
                  { op := (body (st i)).rest.op, rem := (body (st i)).rest.rem, dfr := (body (st i)).rest.dfr, hl := [] },
                  some (st i), toks⟩ (st i) i rfl rfl rfl (body (st i)).rest
                (by cases h : (body (st i)).rest.op <;> simp [Collector.append, h])
                (by cases h : (body (st i)).rest.rem <;> simp [Collector.append, h])
                (by cases h : (body (st i)).rest.dfr <;> simp [Collector.append, h])
              refine ⟨{ op := (body (st i)).rest.op, rem := (body (st i)).rest.rem, dfr := (body (st i)).rest.dfr, hl := [] }, ?_⟩
              have hk' : (l.isNone && notCopy copy i.val) = false := by
                cases hb : (l.isNone && notCopy copy i.val) with
                | false => rfl
                | true => exact (hk (hskip.mpr hb)).elim
              have hm : (Call.meaning ⟨.lookahead, .line l (some i) hl true, body, line, st, li, ls, copy⟩) =
                  (some (build line l i (body (st i)).rest (st i)), hl) := by
                simp only [Call.meaning]
                rw [if_neg]
                rintro (h | h | h)
                · simp at h
                · exact hg h
                · exact hk h
              rw [hm]
              simp only [getNext, processLookahead, hact, bind, Except.bind, processInstruction]
              have hk2 : ¬ (l = none ∧ notCopy copy i.val = true) := fun h => by simp [h.1, h.2] at hk'
              simp [Head.hasText, parseAhead, hk2, body_act, bind, Except.bind, hg, hp, Collector.prepare, deliver]
              simp [Collector.append]

/-- **Fields**: in every history of lines that are asked for, by processors of any kind, with fields parsed again in between, every line yields the
statement of its own fields and no other, no field is assigned twice, and the tokens for highlighting are those of the lines that were delivered,
each once. -/
theorem C137_fields_partial (es : List Event) (s : State) (hs : Clean s) (hf : ∀ c ∈ calls es, c.Found) :
    ∃ t, run es s = .ok ((calls es).map fun c => c.meaning.1, t) ∧ t.toks = s.toks ++ (calls es).flatMap fun c => c.meaning.2 := by
  induction es generalizing s with
  | nil => exact ⟨s, rfl, by simp [calls]⟩
  | cons e es ih =>
    cases e with
    | next c =>
      obtain ⟨rest, hn⟩ := next_correct c s hs (hf c (by simp [calls]))
      obtain ⟨t, h1, h2⟩ := ih ⟨{}, rest, none, s.toks ++ c.meaning.2⟩ rfl (fun d hd => hf d (by simp [calls, hd]))
      exact ⟨t, by simp [run, hn, h1, bind, Except.bind, calls], by simp [h2, calls]⟩
    | reparse left st =>
      obtain ⟨t, h1, h2⟩ := ih { s with rest := left, status := st } hs (fun d hd => hf d (by simpa [calls] using hd))
      exact ⟨t, by simpa [run, calls] using h1, by simpa [calls] using h2⟩

/-- **Range**: the range of a statement is the smallest one that has its label and its operands. -/
theorem C137_range (a b : Rng) : (a.union b).covers a ∧ (a.union b).covers b ∧ ∀ r : Rng, r.covers a → r.covers b → r.covers (a.union b) := by
  obtain ⟨⟨al, ac⟩, ⟨al', ac'⟩⟩ := a
  obtain ⟨⟨bl, bc⟩, ⟨bl', bc'⟩⟩ := b
  rcases Nat.lt_trichotomy al bl with h | h | h <;> rcases Nat.lt_trichotomy al' bl' with h' | h' | h' <;>
    simp only [Rng.union, Rng.covers, Pos.le, h, h', if_true, Nat.ne_of_lt, Nat.ne_of_gt, if_false] <;> grind

example : (⟨⟨1, 20⟩, ⟨1, 30⟩⟩ : Rng).union ⟨⟨1, 5⟩, ⟨3, 2⟩⟩ = ⟨⟨1, 5⟩, ⟨3, 2⟩⟩ := by decide

/-- **Violated**: when the search ahead meets a line in which no instruction is found, the instruction is read although there is none. -/
theorem C137_ahead_negation (c : Call) (s : State) (hs : Clean s) (h : ¬ c.Found) : getNext c s = .error .undefined := by
  obtain ⟨main, rest, status, toks⟩ := s
  have hm : main = {} := hs
  subst hm
  unfold Call.Found at h
  obtain ⟨kind, head, body, line, st, li, ls, copy⟩ := c
  cases kind with
  | ordinary => exact (h (fun h => by cases h)).elim
  | lookahead =>
    cases head with
    | eof => exact (h (fun _ l hl t h => by cases h)).elim
    | whole => exact (h (fun _ l hl t h => by cases h)).elim
    | line l i hl t =>
      cases i with
      | some => exact (h (fun _ l hl t h => by cases h)).elim
      | none => simp [getNext, processLookahead, line_act, bind, Except.bind, processInstruction]

/-! ### Examples -/

def at_ (line a b : Nat) : Rng := ⟨⟨line, a⟩, ⟨line, b⟩⟩

/-- `L LA 1,X remark`, then a line with no operand, with a field parsed in between, and the line that asks for an attribute first. -/
def sampleCall (k : Kind) (line : Nat) (lbl : Option Nat) (b : Body) (look : Bool) : Call where
  kind := k
  head := .line (lbl.map fun n => ⟨at_ line 0 1, some n⟩) (some ⟨at_ line 2 4, some 7⟩) [⟨at_ line 2 4, 5⟩] true
  body := fun _ => b
  line := line
  status := fun _ => ⟨.mach, false, 7⟩
  lookInstr := fun _ => false
  lookStmt := fun _ => look
  copy := 9

def sampleOps (line : Nat) : Body := .ops [⟨at_ line 5 6, 3⟩] [some ⟨at_ line 5 6, some 1⟩, none] [at_ line 9 15] (at_ line 5 15)

def sampleRun : List Event := [.next (sampleCall .ordinary 0 (some 3) (sampleOps 0) true), .next (sampleCall .ordinary 0 (some 3) (sampleOps 0) false),
  .reparse { op := some ⟨at_ 7 7 7, [none]⟩, hl := [⟨at_ 7 7 7, 1⟩] } none, .next (sampleCall .ordinary 1 none (.failed []) false),
  .next (sampleCall .lookahead 2 none (sampleOps 2) false)]

example : ∀ c ∈ calls sampleRun, c.Found := by
  intro c hc
  simp only [sampleRun, calls, List.mem_cons, List.not_mem_nil, or_false] at hc
  rcases hc with rfl | rfl | rfl | rfl <;> (intro _ l hl t h; simp [sampleCall] at h)

example : (match run sampleRun {} with | .ok x => x.1 | .error _ => []) =
    [none,
      some (.resolved (at_ 0 0 15) ⟨at_ 0 0 1, some 3⟩ ⟨at_ 0 2 4, some 7⟩ ⟨at_ 0 5 15, [⟨at_ 0 5 6, some 1⟩, ⟨at_ 0 2 4, none⟩]⟩ ⟨at_ 0 5 15, [at_ 0 9 15]⟩ ⟨.mach, false, 7⟩),
      some (.resolved (at_ 1 0 4) ⟨at_ 1 0 0, none⟩ ⟨at_ 1 2 4, some 7⟩ ⟨at_ 1 2 4, []⟩ ⟨at_ 1 0 0, []⟩ ⟨.mach, false, 7⟩),
      some (.resolved (at_ 2 0 4) ⟨at_ 2 0 0, none⟩ ⟨at_ 2 2 4, some 7⟩ ⟨at_ 2 2 4, []⟩ ⟨at_ 2 0 0, []⟩ ⟨.mach, false, 7⟩)] := by decide +kernel

/-- The tokens of the first line are given once although it was read twice. -/
example : (match run sampleRun {} with | .ok x => x.2.toks | .error _ => []) =
    [⟨at_ 0 2 4, 5⟩, ⟨at_ 0 5 6, 3⟩, ⟨at_ 0 9 15, 0⟩, ⟨at_ 1 2 4, 5⟩, ⟨at_ 2 2 4, 5⟩] := by decide +kernel

/-- A line `   'X'` while looking ahead: no rule for an instruction begins with an apostrophe. -/
theorem C137_ahead_witness : (match getNext { sampleCall .lookahead 0 none (sampleOps 0) false with head := .line none none [] false } {} with
    | .ok _ => none
    | .error e => some e) = some .undefined := by decide +kernel

end Verif.Collect
