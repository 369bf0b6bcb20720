import Verif.Lexing.Records
import Verif.Lexing.RecordsSpec
import Verif.Lexing.LexerProps
/-!
C70: inserted records and the lines of the file are read in order, each once.
-/
namespace Verif.Lexing
open Spec (Op Source)

/-- One operation of a program on the tokeniser: `parser_impl::ainsert`, `parser_impl::aread` (`parser_impl.cpp` 63-89) and
`nextToken`. -/
def Lx.op (s : Lx) : Op → Except Err (Option (Option (List Nat)) × Lx)
  | .insert r front => do let s ← s.ainsert r front; pure (none, s)
  | .read => do let p ← s.read80; pure (some p.1, p.2)
  | .token => do let p ← s.nextToken; pure (none, p.2)

/-- A sequence of them. -/
def Lx.ops (s : Lx) : List Op → Except Err (List (Option (Option (List Nat))) × Lx)
  | [] => pure ([], s)
  | o :: os => do
    let p ← s.op o
    let q ← p.2.ops os
    pure (p.1 :: q.1, q.2)

/-- The records a program inserts. -/
def Inserts (os : List Op) : Prop := ∀ r front, Op.insert r front ∈ os → Record r

theorem card_padded (r : List Nat) : Spec.card (padded r) = Spec.card r := by
  unfold Spec.card padded
  by_cases h : r.length ≤ 80
  · rw [List.take_of_length_le (by simp; omega), List.take_of_length_le (by omega)]
    simp
    omega
  · have e : 80 - r.length = 0 := by omega
    simp [e]

theorem card_file (l : List Nat) : Spec.card (fileRecord l) = Spec.card (Spec.strip l) := by
  unfold fileRecord
  split
  · rename_i h; rw [h]; rfl
  · rfl

theorem read80_eq {s s' : Lx} {w : Option (List Nat)} (h : s.aread = .ok (w, s')) : s.read80 = .ok (w.map Spec.card, s') := by
  unfold Lx.read80
  rw [h]; rfl

/-- An insertion or a read always succeeds, and does what the specification says. -/
theorem op_live {text : List Nat} {c rs : List (List Nat)} {s : Lx} (h : Live text c rs s) (ht : Terminated text) (hcr : CrLf text) (o : Op)
    (ho : Inserts [o]) (hn : o ≠ .token) :
    ∃ w s' c' rs', s.op o = .ok (w, s') ∧ Live text c' rs' s' ∧ Source.Step ⟨c, rs, s.file.left⟩ o w ⟨c', rs', s'.file.left⟩ := by
  cases o with
  | token => exact absurd rfl hn
  | insert r front =>
    obtain ⟨s', e, l, el⟩ := ainsert_live h (ho r front (by simp)) front
    refine ⟨none, s', c, _, ?_, l, ?_⟩
    · rw [Lx.op, e]; rfl
    · rw [el]
      cases front
      · exact .back _ _ _ _
      · exact .front _ _ _ _
  | read =>
    rcases aread_live h ht hcr with ⟨r, rs', s', e1, e2, l, el⟩ | ⟨rfl, rfl, e1, s', e2, l, el⟩ | ⟨x, s', rfl, rfl, el, e2, l⟩
    · refine ⟨some (some (Spec.card r)), s', [], rs', ?_, l, ?_⟩
      · rw [Lx.op, read80_eq e2, Option.map_some, card_padded]; rfl
      · rw [el]; exact .record _ _ _ _ _ e1
    · refine ⟨some none, s', [], [], ?_, l, ?_⟩
      · rw [Lx.op, read80_eq e2]; rfl
      · rw [el, e1]; exact .eof
    · refine ⟨some (some (Spec.card (Spec.strip x))), s', [], [], ?_, l, ?_⟩
      · rw [Lx.op, read80_eq e2, Option.map_some, card_file]; rfl
      · rw [el]; exact .line _ _

theorem op_step {text : List Nat} {c rs : List (List Nat)} {s s' : Lx} {w : Option (Option (List Nat))} (h : Live text c rs s) (ht : Terminated text)
    (hcr : CrLf text) (o : Op) (ho : Inserts [o]) (hs : s.op o = .ok (w, s')) :
    ∃ c' rs', Live text c' rs' s' ∧ Source.Step ⟨c, rs, s.file.left⟩ o w ⟨c', rs', s'.file.left⟩ := by
  by_cases hn : o = .token
  · subst hn
    rw [Lx.op] at hs
    cases hq : s.nextToken with
    | error e => rw [hq] at hs; cases hs
    | ok p =>
      obtain ⟨t, s1⟩ := p
      rw [hq] at hs
      simp only [bind, Except.bind, pure, Except.pure, Except.ok.injEq, Prod.mk.injEq] at hs
      obtain ⟨rfl, rfl⟩ := hs
      obtain ⟨c', rs', k, l, e1, e2, e3⟩ := token_live h hq
      exact ⟨c', rs', l, by rw [e3]; exact .token _ _ _ _ _ _ e1 l.one e2⟩
  · obtain ⟨w1, s1, c', rs', e, l, st⟩ := op_live h ht hcr o ho hn
    rw [e] at hs
    simp only [Except.ok.injEq, Prod.mk.injEq] at hs
    obtain ⟨rfl, rfl⟩ := hs
    exact ⟨c', rs', l, st⟩

theorem ops_steps {text : List Nat} {c rs : List (List Nat)} {s s' : Lx} {os : List Op} {ws : List (Option (Option (List Nat)))}
    (h : Live text c rs s) (ht : Terminated text) (hcr : CrLf text) (ho : Inserts os) (hs : s.ops os = .ok (ws, s')) :
    ∃ c' rs', Live text c' rs' s' ∧ Source.Steps ⟨c, rs, s.file.left⟩ os ws ⟨c', rs', s'.file.left⟩ := by
  induction os generalizing c rs s ws with
  | nil =>
    simp only [Lx.ops, pure, Except.pure, Except.ok.injEq, Prod.mk.injEq] at hs
    obtain ⟨rfl, rfl⟩ := hs
    exact ⟨c, rs, h, .nil _⟩
  | cons o os ih =>
    rw [Lx.ops] at hs
    cases h1 : s.op o with
    | error e => rw [h1] at hs; cases hs
    | ok p =>
      obtain ⟨w, s1⟩ := p
      rw [h1] at hs
      simp only [bind, Except.bind] at hs
      cases h2 : s1.ops os with
      | error e => rw [h2] at hs; cases hs
      | ok q =>
        obtain ⟨ws', s2⟩ := q
        rw [h2] at hs
        simp only [pure, Except.pure, Except.ok.injEq, Prod.mk.injEq] at hs
        obtain ⟨rfl, rfl⟩ := hs
        obtain ⟨c1, rs1, l1, st⟩ := op_step h ht hcr o (fun r f hm => ho r f (by simp at hm; simp [hm])) h1
        obtain ⟨c2, rs2, l2, sts⟩ := ih l1 (fun r f hm => ho r f (by simp [hm])) h2
        exact ⟨c2, rs2, l2, .cons _ _ _ _ _ _ _ st sts⟩

theorem init_live (cfg : Cfg) (text : List Nat) : Live text [] [] (Lx.init cfg text) :=
  ⟨rfl, .zero (by simp [Lx.init]) rfl, .zero (by simp [Lx.init]) rfl, .inl rfl, by simp [Lx.init], fun _ => rfl, by simp, rfl, by simp, rfl, by simp⟩

theorem init_left (cfg : Cfg) (text : List Nat) : (Lx.init cfg text).file.left = (Spec.lines text).dropLast := rfl

/-- **C70.** Whatever sequence of insertions, reads and tokens a program goes through, on a text whose lines all end with a newline
(carriage returns only before it) and with non-empty records without line ends: every step takes what the specification says, so
records come before the rest of the file, in their order, each once, and as 80 columns. Partial: text with an unterminated last line or
lone carriage returns, and empty records, are excluded (see the witnesses). -/
theorem C70_order_partial (cfg : Cfg) (text : List Nat) (ht : Terminated text) (hcr : CrLf text) (os : List Op) (ho : Inserts os)
    (ws : List (Option (Option (List Nat)))) (s' : Lx) (hs : (Lx.init cfg text).ops os = .ok (ws, s')) :
    ∃ b, Source.Steps ⟨[], [], (Spec.lines text).dropLast⟩ os ws b := by
  obtain ⟨c', rs', -, h⟩ := ops_steps (init_live cfg text) ht hcr ho hs
  exact ⟨_, h⟩

theorem ops_answers {text : List Nat} {rs : List (List Nat)} {s : Lx} {os : List Op} (h : Live text [] rs s) (ht : Terminated text) (hcr : CrLf text)
    (ho : Inserts os) (hn : Op.token ∉ os) : ∃ s', s.ops os = .ok (Spec.answers rs s.file.left os, s') := by
  induction os generalizing rs s with
  | nil => exact ⟨s, by simp [Lx.ops, Spec.answers, pure, Except.pure]⟩
  | cons o os ih =>
    have hno : o ≠ .token := fun e => hn (by simp [e])
    obtain ⟨w, s1, c', rs', e, l, st⟩ := op_live h ht hcr o (fun r f hm => ho r f (by simp at hm; simp [hm])) hno
    have ih' := fun (hc : c' = []) => ih (hc ▸ l) (fun r f hm => ho r f (by simp [hm])) (fun hm => hn (by simp [hm]))
    rw [Lx.ops, e]
    simp only [bind, Except.bind]
    generalize hA : s.file.left = A at st
    generalize hB : s1.file.left = B at st ih'
    generalize hC : ([] : List (List Nat)) = C at st
    have : c' = [] ∧ Spec.answers rs A (o :: os) = w :: Spec.answers rs' B os := by
      cases st with
      | front => subst hC; exact ⟨rfl, rfl⟩
      | back => subst hC; exact ⟨rfl, rfl⟩
      | record _ _ _ r _ he =>
        subst hC
        simp only [List.nil_append] at he
        subst he
        exact ⟨rfl, by rw [Spec.answers]⟩
      | line => exact ⟨rfl, by rw [Spec.answers]⟩
      | eof => exact ⟨rfl, by rw [Spec.answers]⟩
      | token => exact absurd rfl hno
    obtain ⟨s2, e2⟩ := ih' this.1
    rw [e2, this.2]
    exact ⟨s2, rfl⟩

/-- **C70.** Insertions and reads alone never fail, and the reads answer what the queue of records says. Partial as above. -/
theorem C70_reads_partial (cfg : Cfg) (text : List Nat) (ht : Terminated text) (hcr : CrLf text) (os : List Op) (ho : Inserts os)
    (hn : Op.token ∉ os) : ∃ s', (Lx.init cfg text).ops os = .ok (Spec.answers [] (Spec.lines text).dropLast os, s') :=
  ops_answers (init_live cfg text) ht hcr ho hn

/-- The answers, for examples. -/
def Lx.heard (cfg : Cfg) (text : List Nat) (os : List Op) : Option (List (Option (Option (List Nat)))) :=
  match (Lx.init cfg text).ops os with
  | .ok p => some p.1
  | .error _ => none

-- two lines, a token, then two records in front and one behind; the record with `C` is read as a statement
example : Lx.heard {} [65, 10, 66, 13, 10] [.token, .insert [67] true, .insert [68] true, .insert [69] false, .read, .token, .read, .read, .read, .read, .read] =
    some [none, none, none, none, some (some (Spec.card [68])), none, some (some (Spec.card [67])), some (some (Spec.card [69])), some (some (Spec.card [65])),
      some (some (Spec.card [66])), some none] := by
  decide +kernel

example : Terminated [65, 10, 66, 13, 10] ∧ Inserts [.token, .insert [67] true, .insert [68] true, .insert [69] false] := by
  refine ⟨.inr rfl, ?_⟩
  intro r front h
  simp at h
  rcases h with h | h | h <;> simp [h, Record]

/-! ### Where it fails -/

/-- How a sequence of operations fails, if it does. -/
def Lx.fails (text : List Nat) (os : List Op) : Option Err :=
  match (Lx.init {} text).ops os with
  | .ok _ => none
  | .error e => some e

/-- The tokens after some records were inserted at the back. -/
def Lx.after (text : List Nat) (rs : List (List Nat)) (n : Nat) : List (Ty × Bool) :=
  match (Lx.init {} text).ops (rs.map (.insert · false)) with
  | .ok (_, s) => (s.toks n).map fun t => (t.ty, t.buf)
  | .error _ => []

/-- A last line without a newline is delivered again after every insertion: `AB`, then record `X`, then `AB` once more. As statements:
a macro call on such a line, whose macro uses AINSERT, is executed over and over. -/
theorem C70_witness_unterminated :
    Lx.heard {} [65, 66] [.read, .insert [88] false, .read, .read, .insert [89] false, .read, .read] =
      some [some (some (Spec.card [65, 66])), none, some (some (Spec.card [88])), some (some (Spec.card [65, 66])), none, some (some (Spec.card [89])),
        some (some (Spec.card [65, 66]))] ∧
    Spec.answers [] (Spec.lines [65, 66]) [.read, .insert [88] false, .read, .read, .insert [89] false, .read, .read] =
      [some (some (Spec.card [65, 66])), none, some (some (Spec.card [88])), some none, none, some (some (Spec.card [89])), some none] := by
  decide +kernel

/-- A result is a value. -/
def okIs {α : Type} [DecidableEq α] (r : Except Err α) (a : α) : Bool := match r with
  | .ok b => decide (b = a)
  | .error _ => false

theorem okIs_eq {α : Type} [DecidableEq α] {r : Except Err α} {a : α} (h : okIs r a = true) : r = .ok a := by
  cases r with
  | error e => cases h
  | ok b => rw [of_decide_eq_true h]

/-- The state after two reads of `A\rB\n`. -/
def returnState : Lx := match (Lx.init {} [65, 13, 66, 10]).ops [.read, .read] with
  | .ok p => p.2
  | .error _ => Lx.init {} []

/-- After a carriage return that is not before a newline, reading goes back to the start of the line: the same part of the line is
delivered forever, and the rest of the file never. -/
theorem C70_witness_return (n : Nat) :
    Lx.heard {} [65, 13, 66, 10] (.read :: .read :: List.replicate n .read) = some (List.replicate (n + 2) (some (some (Spec.card [65])))) := by
  have h0 : (Lx.init {} [65, 13, 66, 10]).ops [.read, .read] = .ok ([some (some (Spec.card [65])), some (some (Spec.card [65]))], returnState) := by
    exact okIs_eq (by decide +kernel)
  have h1 : returnState.op .read = .ok (some (some (Spec.card [65])), returnState) := okIs_eq (by decide +kernel)
  have h2 : ∀ n, returnState.ops (List.replicate n .read) = .ok (List.replicate n (some (some (Spec.card [65]))), returnState) := by
    intro n
    induction n with
    | zero => rfl
    | succ n ih =>
      rw [List.replicate_succ, Lx.ops, h1]
      simp only [bind, Except.bind]
      rw [ih]
      rfl
  have h3 : (Lx.init {} [65, 13, 66, 10]).ops (.read :: .read :: List.replicate n .read) =
      .ok (List.replicate (n + 2) (some (some (Spec.card [65]))), returnState) := by
    rw [Lx.ops] at h0 ⊢
    cases ha : (Lx.init {} [65, 13, 66, 10]).op .read with
    | error e => rw [ha] at h0; cases h0
    | ok p =>
      obtain ⟨w, s⟩ := p
      rw [ha] at h0
      simp only [bind, Except.bind] at h0 ⊢
      rw [Lx.ops] at h0 ⊢
      cases hb : s.op .read with
      | error e => rw [hb] at h0; cases h0
      | ok q =>
        obtain ⟨w', s'⟩ := q
        rw [hb] at h0
        simp only [bind, Except.bind, Lx.ops, pure, Except.pure, Except.ok.injEq, Prod.mk.injEq, List.cons.injEq, and_true] at h0
        obtain ⟨⟨rfl, rfl⟩, rfl⟩ := h0
        simp only [bind, Except.bind]
        rw [h2]
        rfl
  rw [Lx.heard, h3]

/-- An empty record makes the tokeniser throw. -/
theorem C70_witness_empty (s : Lx) (front : Bool) : s.ainsert [] front = .error .throws := rfl

/-- A record with a character in column 72 that is followed by another record: the tokeniser runs to the end of the inserted text and
loops there forever, unless the file is at its end. -/
theorem C70_witness_hang : Lx.fails [66, 10] [.insert ([32, 65] ++ List.replicate 69 32 ++ [88]) false, .insert [81] false, .token, .token, .token, .token] = some .hang ∧
    Lx.fails [66, 10] [.insert (42 :: List.replicate 71 65) false, .token] = some .hang := by decide +kernel

/-- Whether an inserted record starting with a period is a comment is decided by the second character of the next line of the *file*:
the record `.* X` is a statement before the line `B`, and `.S X` is a comment before the line `B*`. -/
theorem C76_witness_record_comment :
    Lx.after [66, 10] [[46, 42, 32, 88]] 6 = [(.dot, true), (.asterisk, true), (.space, true), (.ordsymbol, true), (.space, true), (.eolln, true)] ∧
    Lx.after [66, 42, 10] [[46, 83, 32, 88]] 3 = [(.comment, true), (.ignored, true), (.ordsymbol, false)] := by decide +kernel

/-- A word that reaches column 72 of an inserted record takes the continuation character when another record follows, and the
record is not continued. -/
theorem C76_witness_record_word :
    Lx.after [66, 10] [32 :: List.replicate 71 65, [81]] 5 = [(.space, true), (.identifier, true), (.eolln, true), (.ignored, true), (.ordsymbol, true)] := by
  decide +kernel

end Verif.Lexing
