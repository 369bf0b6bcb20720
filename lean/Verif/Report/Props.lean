import Verif.Report.Spec
/-!
C136: every mistake in the expressions of an instruction is reported once, and every message is in every list that is published.
-/
namespace Verif.Report

variable {V : Type}

/-! ### Expressions -/

theorem misuse_iff (w : World V) (a b : V) : misuse w a b = true ↔ Address w a b := by
  unfold misuse Address
  cases w.kind a <;> cases w.kind b <;> simp

/-- The expression with its mistakes in the containers. -/
def marked (w : World V) : Syn V → Expr V
  | .leaf r (.attr k n) => .leaf (if (w.attr k n).2 then [⟨.W011, r⟩] else []) r (.attr k n)
  | .leaf r (.const v) => .leaf [] r (.const v)
  | .leaf r (.loctr v) => .leaf [] r (.loctr v)
  | .leaf r (.sym n) => .leaf [] r (.sym n)
  | .leaf r .none => .leaf [] r .none
  | .bin r op a b => .bin (if (op = .mul ∨ op = .div) ∧ Address w (a.value w) (b.value w) then [⟨.ME002, r⟩] else []) r op (marked w a) (marked w b)
  | .un r s a => .un [] r s (marked w a)

theorem evaluate_fresh (w : World V) (e : Syn V) : evaluate w e.fresh = (e.value w, marked w e) := by
  induction e with
  | leaf r t => cases t <;> simp [Syn.fresh, evaluate, Syn.value, marked]
  | bin r op a b iha ihb =>
    have := misuse_iff w (a.value w) (b.value w)
    cases op <;> simp [Syn.fresh, evaluate, iha, ihb, Syn.value, marked, this]
  | un r s a ih => cases s <;> simp [Syn.fresh, evaluate, ih, Syn.value, marked]

theorem take_marked (w : World V) (e : Syn V) : take (marked w e) = (e.mistakes w, e.fresh) := by
  induction e with
  | leaf r t => cases t <;> simp [marked, take, Syn.mistakes, Syn.fresh]
  | bin r op a b iha ihb => simp [marked, take, iha, ihb, Syn.mistakes, Syn.fresh]
  | un r s a ih => simp [marked, take, ih, Syn.mistakes, Syn.fresh]

theorem take_fresh (e : Syn V) : take e.fresh = ([], e.fresh) := by
  induction e with
  | leaf r t => rfl
  | bin r op a b iha ihb => simp [take, iha, ihb, Syn.fresh]
  | un r s a ih => simp [take, ih, Syn.fresh]

theorem waits_fresh (w : World V) (e : Syn V) : waits w e.fresh = e.waits w := by
  induction e with
  | leaf r t => rfl
  | bin r op a b iha ihb => simp [waits, Syn.waits, iha, ihb, Syn.fresh]
  | un r s a ih => simp [waits, Syn.waits, ih, Syn.fresh]

theorem isSym_mistakes (w : World V) (e : Syn V) (h : e.fresh.isSym = true) : e.mistakes w = [] := by
  cases e with
  | leaf r t => cases t <;> simp_all [Syn.fresh, Expr.isSym, Syn.mistakes]
  | bin => simp [Syn.fresh, Expr.isSym] at h
  | un => simp [Syn.fresh, Expr.isSym] at h

/-! ### With something in the containers already -/

/-- The expression without its containers. -/
def Expr.syn : Expr V → Syn V
  | .leaf _ r t => .leaf r t
  | .bin _ r op a b => .bin r op a.syn b.syn
  | .un _ r s a => .un r s a.syn

/-- What the containers hold. -/
def Expr.held : Expr V → List Msg
  | .leaf own _ _ => own
  | .bin own _ _ a b => own ++ a.held ++ b.held
  | .un own _ _ a => own ++ a.held

theorem fresh_syn (e : Syn V) : e.fresh.syn = e := by
  induction e with
  | leaf => rfl
  | bin r op a b iha ihb => simp [Syn.fresh, Expr.syn, iha, ihb]
  | un r s a ih => simp [Syn.fresh, Expr.syn, ih]

theorem fresh_held (e : Syn V) : e.fresh.held = [] := by
  induction e with
  | leaf => rfl
  | bin r op a b iha ihb => simp [Syn.fresh, Expr.held, iha, ihb]
  | un r s a ih => simp [Syn.fresh, Expr.held, ih]

theorem take_held (e : Expr V) : take e = (e.held, e.syn.fresh) := by
  induction e with
  | leaf => rfl
  | bin own r op a b iha ihb => simp [take, iha, ihb, Expr.held, Expr.syn, Syn.fresh]
  | un own r s a ih => simp [take, ih, Expr.held, Expr.syn, Syn.fresh]

theorem waits_syn (w : World V) (e : Expr V) : waits w e = e.syn.waits w := by
  induction e with
  | leaf => rfl
  | bin own r op a b iha ihb => simp [waits, iha, ihb, Expr.syn, Syn.waits]
  | un own r s a ih => simp [waits, ih, Expr.syn, Syn.waits]

theorem evaluate_value (w : World V) (e : Expr V) : (evaluate w e).1 = e.syn.value w := by
  induction e with
  | leaf own r t => cases t <;> simp [evaluate, Expr.syn, Syn.value]
  | bin own r op a b iha ihb => cases op <;> simp [evaluate, iha, ihb, Expr.syn, Syn.value]
  | un own r s a ih => cases s <;> simp [evaluate, ih, Expr.syn, Syn.value]

theorem evaluate_syn (w : World V) (e : Expr V) : (evaluate w e).2.syn = e.syn := by
  induction e with
  | leaf own r t => cases t <;> simp [evaluate, Expr.syn]
  | bin own r op a b iha ihb => cases op <;> simp [evaluate, iha, ihb, Expr.syn]
  | un own r s a ih => cases s <;> simp [evaluate, ih, Expr.syn]

theorem shuffle (o n a b c d : List Msg) : List.Perm ((o ++ n) ++ (a ++ b) ++ (c ++ d)) ((o ++ a ++ c) ++ (n ++ b ++ d)) := by
  rw [List.perm_iff_count]
  intro x
  simp only [List.count_append]
  omega

theorem evaluate_held (w : World V) (e : Expr V) : List.Perm (evaluate w e).2.held (e.held ++ e.syn.mistakes w) := by
  induction e with
  | leaf own r t =>
    cases t with
    | attr k n => cases h : (w.attr k n).2 <;> simp [evaluate, Expr.syn, Syn.mistakes, Expr.held, h]
    | _ => simp [evaluate, Expr.syn, Syn.mistakes, Expr.held]
  | bin own r op a b iha ihb =>
    have hm := misuse_iff w (a.syn.value w) (b.syn.value w)
    have key : ∀ n : List Msg, List.Perm ((own ++ n) ++ (evaluate w a).2.held ++ (evaluate w b).2.held)
        ((own ++ a.held ++ b.held) ++ (n ++ a.syn.mistakes w ++ b.syn.mistakes w)) := fun n =>
      (((List.Perm.refl _).append iha).append ihb).trans (shuffle own n _ _ _ _)
    cases op with
    | add => simpa [evaluate, Expr.syn, Syn.mistakes, Expr.held] using key []
    | sub => simpa [evaluate, Expr.syn, Syn.mistakes, Expr.held] using key []
    | mul =>
      by_cases hA : Address w (a.syn.value w) (b.syn.value w)
      · simpa [evaluate, Expr.syn, Syn.mistakes, Expr.held, evaluate_value, hm, hA] using key [⟨.ME002, r⟩]
      · simpa [evaluate, Expr.syn, Syn.mistakes, Expr.held, evaluate_value, hm, hA] using key []
    | div =>
      by_cases hA : Address w (a.syn.value w) (b.syn.value w)
      · simpa [evaluate, Expr.syn, Syn.mistakes, Expr.held, evaluate_value, hm, hA] using key [⟨.ME002, r⟩]
      · simpa [evaluate, Expr.syn, Syn.mistakes, Expr.held, evaluate_value, hm, hA] using key []
  | un own r s a ih =>
    cases s <;> simpa [evaluate, Expr.syn, Syn.mistakes, Expr.held] using ih.append_left own

theorem fold_held (ws : List (World V)) (e : Expr V) :
    (ws.foldl (fun e w => (evaluate w e).2) e).syn = e.syn ∧
    List.Perm (ws.foldl (fun e w => (evaluate w e).2) e).held (e.held ++ ws.flatMap fun w => e.syn.mistakes w) := by
  induction ws generalizing e with
  | nil => simp
  | cons w ws ih =>
    have h := ih (evaluate w e).2
    rw [evaluate_syn] at h
    refine ⟨h.1, h.2.trans ?_⟩
    simp only [List.flatMap_cons, ← List.append_assoc]
    exact (evaluate_held w e).append_right _

/-! ### Operands -/

theorem takeOpt_marked (w : World V) (o : Option (Syn V)) :
    takeOpt ((o.map Syn.fresh).map fun e => (evaluate w e).2) = (o.toList.flatMap (Syn.mistakes w), o.map Syn.fresh) := by
  cases o <;> simp [takeOpt, evaluate_fresh, take_marked]

theorem operand_take (w : World V) (syms : Bool) (o : Written V) (h : o.Plain) :
    (o.operand.value w syms).take = (o.exprs.flatMap (Syn.mistakes w), o.operand) := by
  cases o with
  | empty => rfl
  | mach e => simp [Written.operand, Operand.value, Operand.take, evaluate_fresh, take_marked, Written.exprs]
  | addr d x b =>
    simp only [Written.operand, Operand.value, Operand.take, takeOpt_marked]
    simp [evaluate_fresh, take_marked, Written.exprs]
  | asm e =>
    by_cases hs : (!syms && e.fresh.isSym) = true
    · have : e.fresh.isSym = true := by simp at hs; exact hs.2
      simp [Written.operand, Operand.value, hs, Operand.take, take_fresh, Written.exprs, isSym_mistakes w e this]
    · simp [Written.operand, Operand.value, hs, Operand.take, evaluate_fresh, take_marked, Written.exprs]
  | base => exact h.elim
  | data => exact h.elim
  | other => rfl

theorem operand_waits (w : World V) (o : Written V) : o.operand.waits w = o.exprs.any (Syn.waits w) := by
  cases o with
  | empty => rfl
  | mach e => simp [Written.operand, Operand.waits, waits_fresh, Written.exprs]
  | addr d x b => cases x <;> cases b <;> simp [Written.operand, Operand.waits, waits_fresh, Written.exprs, waitsOpt, Bool.or_assoc]
  | asm e => simp [Written.operand, Operand.waits, waits_fresh, Written.exprs]
  | base a b => simp [Written.operand, Operand.waits, waits_fresh, Written.exprs]
  | data ms vs =>
    simp only [Written.operand, Operand.waits, Written.exprs, List.any_append, List.any_map, List.any_flatMap]
    congr 1
    · apply congrArg (fun f => List.any ms f)
      funext e
      simp [waits_fresh]
    · apply congrArg (fun f => List.any vs f)
      funext e
      rcases e with e | ⟨d, b⟩ <;> simp [nominal, Nominal.waits, parts, waits_fresh]
  | other => rfl

theorem known_waits {w : World V} {ops : List (Nat × Written V)} : Known w ops ↔ ∀ o ∈ ops, o.2.operand.waits w = false := by
  unfold Known
  constructor
  · intro h o ho
    rw [operand_waits, List.any_eq_false]
    intro e he
    simp [h o ho e he]
  · intro h o ho e he
    have := h o ho
    rw [operand_waits, List.any_eq_false] at this
    simpa using this e he

theorem loop_step (w : World V) (syms : Bool) (r : Nat) (op : Operand V) (ops : List (Nat × Operand V)) (h : (syms && op.waits w) = false) :
    loop w syms ((r, op) :: ops) =
      ((op.value w syms).take.1 ++ (loop w syms ops).1, (loop w syms ops).2.1, (r, (op.value w syms).take.2) :: (loop w syms ops).2.2) := by
  cases op <;> simp only [loop] <;> (try simp only [h, Bool.false_eq_true, if_false]) <;> simp [Operand.value, Operand.take]

theorem loop_plain (w : World V) (syms : Bool) (ops : List (Nat × Written V)) (hp : ∀ o ∈ ops, o.2.Plain)
    (hk : syms = true → Known w ops) : loop w syms (built ops) = (mistakes w ops, true, built ops) := by
  induction ops with
  | nil => rfl
  | cons o ops ih =>
    have ih' := ih (fun o ho => hp o (by simp [ho])) (fun h o ho => hk h o (by simp [ho]))
    have hw : (syms && o.2.operand.waits w) = false := by
      cases syms with
      | false => rfl
      | true => simpa using known_waits.mp (hk rfl) o (by simp)
    show loop w syms ((o.1, o.2.operand) :: built ops) = _
    rw [loop_step _ _ _ _ _ hw, ih', operand_take w syms o.2 (hp o (by simp))]
    simp [mistakes, built]

/-- The statement as the parser builds it. -/
def Stmt.of (rng : Nat) (syms : Bool) (ops : List (Nat × Written V)) (checker : World V → List Msg) : Stmt V :=
  ⟨rng, syms, true, built ops, checker⟩

theorem check_plain (w : World V) (r : Nat) (syms : Bool) (ops : List (Nat × Written V)) (c : World V → List Msg)
    (hp : ∀ o ∈ ops, o.2.Plain) (hk : syms = true → Known w ops) :
    check w (Stmt.of r syms ops c) = (mistakes w ops ++ c w, Stmt.of r syms ops c) := by
  simp [check, Stmt.of, loop_plain w syms ops hp hk]

theorem built_waits (w : World V) (ops : List (Nat × Written V)) :
    ((built ops).any fun o => o.2.waits w) = false ↔ Known w ops := by
  rw [known_waits, List.any_eq_false]
  constructor
  · intro h o ho
    simpa using h (o.1, o.2.operand) (List.mem_map.mpr ⟨o, ho, rfl⟩)
  · intro h o ho
    obtain ⟨p, hp, rfl⟩ := List.mem_map.mp ho
    simpa using h p hp

/-- **Machine instructions**: whatever the symbols are when the statement is reached, when all are known at the end, then exactly the mistakes
of its expressions are reported, each once, and then what the checker says; by the values at the time when all of them are known. The operands are
left as they were, so that nothing is reported a second time with another statement. -/
theorem C136_machine (now later : World V) (r : Nat) (ops : List (Nat × Written V)) (c : World V → List Msg)
    (hp : ∀ o ∈ ops, o.2.Plain) (hk : Known later ops) :
    (Known now ops → machine now later (Stmt.of r true ops c) = (mistakes now ops ++ c now, Stmt.of r true ops c)) ∧
    (¬ Known now ops → machine now later (Stmt.of r true ops c) = (mistakes later ops ++ c later, Stmt.of r true ops c)) := by
  constructor
  · intro h
    have hw : ((Stmt.of r true ops c).ops.any fun o => o.2.waits now) = false := (built_waits now ops).mpr h
    unfold machine
    rw [hw]
    exact check_plain now r true ops c hp (fun _ => h)
  · intro h
    have hw : ((Stmt.of r true ops c).ops.any fun o => o.2.waits now) = true := by
      cases hb : ((Stmt.of r true ops c).ops.any fun o => o.2.waits now) with
      | true => rfl
      | false => exact (h ((built_waits now ops).mp hb)).elim
    unfold machine
    rw [hw]
    exact check_plain later r true ops c hp (fun _ => hk)

/-- The first operand with an unknown symbol: what is before it is reported, then that a symbol is not defined, and nothing after it. -/
theorem loop_unknown (w : World V) (pre : List (Nat × Written V)) (o : Nat × Written V) (post : List (Nat × Written V))
    (hp : ∀ o ∈ pre, o.2.Plain) (hk : Known w pre) (ho : ∃ e ∈ o.2.exprs, e.waits w = true) :
    loop w true (built (pre ++ o :: post)) = (mistakes w pre ++ [⟨.E010, o.1⟩], false, built (pre ++ o :: post)) := by
  have hw : o.2.operand.waits w = true := by
    rw [operand_waits, List.any_eq_true]
    exact ho
  induction pre with
  | nil =>
    obtain ⟨r, o⟩ := o
    show loop w true ((r, o.operand) :: built post) = _
    cases o with
    | empty => simp [Written.exprs] at ho
    | _ => simp only [Written.operand] at hw ⊢ ; simp [loop, hw, mistakes, built, Written.operand]
  | cons p pre ih =>
    have ih' := ih (fun o ho => hp o (by simp [ho])) (fun o ho => hk o (by simp [ho]))
    have hf : (true && p.2.operand.waits w) = false := by simpa using known_waits.mp hk p (by simp)
    show loop w true ((p.1, p.2.operand) :: built (pre ++ o :: post)) = _
    rw [loop_step _ _ _ _ _ hf, ih', operand_take w true p.2 (hp p (by simp))]
    simp [mistakes, built]

/-- **Undefined symbols**: when a symbol is still unknown at the end, the mistakes of the operands before it and the first operand with an unknown
symbol are reported, and nothing else. -/
theorem C136_undefined (now later : World V) (r : Nat) (pre : List (Nat × Written V)) (o : Nat × Written V) (post : List (Nat × Written V))
    (c : World V → List Msg) (hp : ∀ o ∈ pre, o.2.Plain) (hk : Known later pre) (ho : ∃ e ∈ o.2.exprs, e.waits later = true)
    (hn : ¬ Known now (pre ++ o :: post)) :
    machine now later (Stmt.of r true (pre ++ o :: post) c) = (mistakes later pre ++ [⟨.E010, o.1⟩], Stmt.of r true (pre ++ o :: post) c) := by
  have hw : ((Stmt.of r true (pre ++ o :: post) c).ops.any fun o => o.2.waits now) = true := by
    cases hb : ((Stmt.of r true (pre ++ o :: post) c).ops.any fun o => o.2.waits now) with
    | true => rfl
    | false => exact (hn ((built_waits now _).mp hb)).elim
  unfold machine
  rw [hw]
  simp [check, Stmt.of, loop_unknown later pre o post hp hk ho]

/-- **Assembler instructions** without their own function, outside of the cases below: the same. Missing: operands with symbols that are not yet
known, pairs of USING. -/
theorem C136_assembler_partial (now : World V) (r : Nat) (syms : Bool) (ops : List (Nat × Written V)) (c : World V → List Msg)
    (hp : ∀ o ∈ ops, o.2.Plain) (hk : Known now ops) :
    assembler now (Stmt.of r syms ops c) = (mistakes now ops ++ c now, Stmt.of r syms ops c) := by
  have hw : ((Stmt.of r syms ops c).ops.any fun o => o.2.waits now) = false := (built_waits now ops).mpr hk
  have h : (syms && (Stmt.of r syms ops c).ops.any fun o => o.2.waits now) = false := by rw [hw]; simp
  have hs : (Stmt.of r syms ops c).syms = syms := rfl
  unfold assembler
  rw [hs, h]
  exact check_plain now r syms ops c hp (fun _ => hk)

/-- **Violated**: an assembler instruction with a symbol that is not yet known says nothing: no mistake, not that the symbol is undefined, and
nothing from the checker. -/
theorem C136_assembler_negation (now : World V) (r : Nat) (ops : List (Nat × Written V)) (c : World V → List Msg) (hk : ¬ Known now ops) :
    assembler now (Stmt.of r true ops c) = ([], Stmt.of r true ops c) := by
  have hw : ((Stmt.of r true ops c).ops.any fun o => o.2.waits now) = true := by
    cases hb : ((Stmt.of r true ops c).ops.any fun o => o.2.waits now) with
    | true => rfl
    | false => exact (hk ((built_waits now ops).mp hb)).elim
  unfold assembler
  simp [hw]
  intro h
  simp [Stmt.of] at h

/-- **Violated**: a pair of USING is never looked at; its mistakes are not reported. -/
theorem C136_using_negation (w : World V) (r q : Nat) (a b : Syn V) (rest : List (Nat × Written V)) (c : World V → List Msg)
    (hp : ∀ o ∈ rest, o.2.Plain) (hk : Known w ((q, .base a b) :: rest)) :
    assembler w (Stmt.of r true ((q, .base a b) :: rest) c) = (mistakes w rest ++ c w, Stmt.of r true ((q, .base a b) :: rest) c) := by
  have hw : ((Stmt.of r true ((q, Written.base a b) :: rest) c).ops.any fun o => o.2.waits w) = false := (built_waits w _).mpr hk
  have hk' : Known w rest := fun o ho => hk o (by simp [ho])
  have h1 : (true && (Written.base a b).operand.waits w) = false := by simpa using known_waits.mp hk (q, .base a b) (by simp)
  have hl : loop w true (built ((q, .base a b) :: rest)) = (mistakes w rest, true, built ((q, .base a b) :: rest)) := by
    show loop w true ((q, (Written.base a b).operand) :: built rest) = _
    rw [loop_step _ _ _ _ _ h1, loop_plain w true rest hp (fun _ => hk')]
    simp [Written.operand, Operand.value, Operand.take, take_fresh, built]
  have h : ((Stmt.of r true ((q, Written.base a b) :: rest) c).syms &&
      (Stmt.of r true ((q, Written.base a b) :: rest) c).ops.any fun o => o.2.waits w) = false := by rw [hw]; rfl
  unfold assembler
  rw [h]
  simp [check, Stmt.of, hl]

/-! ### Data definitions -/

/-- A data definition whose parser found nothing, with anything in the containers of its expressions. -/
def Silent (w : World V) (o : Nat × Operand V) : Prop := ∃ fs vs, o.2 = .data [] fs vs ∧ o.2.waits w = false

theorem field_syn (w : World V) (e : Expr V) : (field w e).syn = e.syn := by
  unfold field
  split
  · rfl
  · simp only
    split
    · simp [evaluate_syn]
    · simp [evaluate_syn]

theorem field_waits (w u : World V) (e : Expr V) : waits u (field w e) = waits u e := by rw [waits_syn, field_syn, ← waits_syn]

theorem nominal_waits (w u : World V) (n : Nominal V) : (n.value w).waits u = n.waits u := by
  cases n with
  | expr e => simp [Nominal.value, Nominal.waits, waits_syn, evaluate_syn]
  | addr d b => simp [Nominal.value, Nominal.waits, field_waits]

theorem silent_value (w u : World V) (o : Nat × Operand V) (h : Silent u o) : Silent u (o.1, o.2.value w true) := by
  obtain ⟨fs, vs, h1, h2⟩ := h
  refine ⟨fs.map (field w), vs.map (Nominal.value w), ?_, ?_⟩
  · simp [h1, Operand.value]
  · rw [h1] at h2 ⊢
    simp only [Operand.waits, Operand.value, List.any_map] at h2 ⊢
    rw [show (waits u ∘ field w) = waits u from funext fun e => field_waits w u e,
      show (Nominal.waits u ∘ Nominal.value w) = Nominal.waits u from funext fun e => nominal_waits w u e]
    exact h2

theorem silent_fold (ws : List (World V)) (u : World V) (ops : List (Nat × Operand V)) (h : ∀ o ∈ ops, Silent u o) :
    ∀ o ∈ ws.foldl (fun ops w => ops.map fun o => (o.1, o.2.value w true)) ops, Silent u o := by
  induction ws generalizing ops with
  | nil => exact h
  | cons w ws ih =>
    apply ih
    intro o ho
    obtain ⟨p, hp, rfl⟩ := List.mem_map.mp ho
    exact silent_value w u p (h p hp)

theorem loop_silent (w : World V) (ops : List (Nat × Operand V)) (h : ∀ o ∈ ops, Silent w o) :
    (loop w true ops).1 = [] ∧ (loop w true ops).2.1 = true := by
  induction ops with
  | nil => exact ⟨rfl, rfl⟩
  | cons o ops ih =>
    have ih' := ih (fun o ho => h o (by simp [ho]))
    obtain ⟨r, o⟩ := o
    obtain ⟨fs, vs, h1, h2⟩ := h (r, o) (by simp)
    simp only at h1 h2
    rw [loop_step _ _ _ _ _ (by simpa using h2)]
    simp [h1, Operand.value, Operand.take, ih']

theorem built_silent (w : World V) (ops : List (Nat × Written V)) (hd : ∀ o ∈ ops, o.2.Data) (hk : Known w ops) :
    ∀ o ∈ built ops, Silent w o := by
  intro o ho
  obtain ⟨p, hp, rfl⟩ := List.mem_map.mp ho
  have h2 := known_waits.mp hk p hp
  have := hd p hp
  obtain ⟨r, p⟩ := p
  cases p with
  | data ms vs => exact ⟨_, _, rfl, h2⟩
  | _ => exact this.elim

/-- **Violated**: of the expressions in the operands of DC and DS no mistake is ever reported, however often they are evaluated; the checker is
all one hears of. -/
theorem C136_data_negation (evals : List (World V)) (now later : World V) (r : Nat) (ops : List (Nat × Written V)) (c : World V → List Msg)
    (hd : ∀ o ∈ ops, o.2.Data) (hk : Known later ops) :
    (Known now ops → (dataDef evals now later (Stmt.of r true ops c)).1 = c now) ∧
    (¬ Known now ops → (dataDef evals now later (Stmt.of r true ops c)).1 = c later) := by
  constructor
  · intro h
    have hw : ((Stmt.of r true ops c).ops.any fun o => o.2.waits now) = false := (built_waits now ops).mpr h
    have hl := loop_silent now _ (silent_fold evals now _ (built_silent now ops hd h))
    unfold dataDef
    rw [hw]
    simp [check, Stmt.of, hl.1, hl.2]
  · intro h
    have hw : ((Stmt.of r true ops c).ops.any fun o => o.2.waits now) = true := by
      cases hb : ((Stmt.of r true ops c).ops.any fun o => o.2.waits now) with
      | true => rfl
      | false => exact (h ((built_waits now ops).mp hb)).elim
    have hl := loop_silent later _ (silent_fold evals later _ (built_silent later ops hd hk))
    unfold dataDef
    rw [hw]
    simp [check, Stmt.of, hl.1, hl.2]

/-! ### EQU -/

theorem part_second (w : World V) (code : Code) (ok : V → Bool) (r : Nat) (o : Option (Syn V)) :
    (part w code ok (r, second o)).1 = complaint w code ok r o := by
  cases o with
  | none => rfl
  | some e =>
    cases h : e.waits w with
    | true => simp [second, part, waits_fresh, h, complaint]
    | false =>
      have hv : (evaluate w e.fresh).1 = e.value w := by rw [evaluate_fresh]
      cases hk : ok (e.value w) <;> simp [second, part, waits_fresh, h, complaint, hv, hk]

/-- **Violated**: the mistakes in the operands of an EQU are not reported when all symbols of its value are known, or become known later; only whether
length and type are known and in range. -/
theorem C136_equ_negation (now later : World V) (resolved : Option (World V)) (addr cycle : Bool) (f1 f2 : V → Bool) (s : Stmt V) (q l t : Nat)
    (e : Syn V) (len typ : Option (Syn V)) (hk : e.waits now = false ∨ resolved.isSome = true) :
    (equ now later resolved addr cycle f1 f2 s (q, .asm [] e.fresh) (l, second len) (t, second typ)).1 =
      complaint now .A134 f2 t typ ++ complaint now .A133 f1 l len := by
  rcases hk with hk | hk
  · simp [equ, waits_fresh, hk, part_second]
  · simp [equ, waits_fresh, hk, part_second]

/-- What the check at the end reports of the length or type. -/
theorem part_left (now later : World V) (code : Code) (ok : V → Bool) (r : Nat) (o : Option (Syn V)) (hk : ∀ e ∈ o, e.waits later = false) :
    (part now code ok (r, second o)).2.2.waits later = false ∧
    List.Perm ((part now code ok (r, second o)).2.2.value later true).take.1
      (o.toList.flatMap fun e => (times now later e).flatMap fun w => e.mistakes w) := by
  cases o with
  | none => exact ⟨rfl, by simp [second, part, Operand.value, Operand.take]⟩
  | some e =>
    have hl := hk e rfl
    cases h : e.waits now with
    | true =>
      refine ⟨by simp [second, part, waits_fresh, h, Operand.waits, hl], ?_⟩
      simp [second, part, waits_fresh, h, times, Operand.value, Operand.take, evaluate_fresh, take_marked]
    | false =>
      refine ⟨by simp [second, part, waits_fresh, h, Operand.waits, waits_syn, evaluate_syn, fresh_syn, hl], ?_⟩
      have h1 := evaluate_held now e.fresh
      have h2 := evaluate_held later (evaluate now e.fresh).2
      rw [fresh_syn, fresh_held, List.nil_append] at h1
      rw [evaluate_syn, fresh_syn] at h2
      simpa [second, part, waits_fresh, h, times, Operand.value, Operand.take, take_held] using h2.trans (h1.append_right _)

/-- When the value can only be computed after the definitions it waits for have been given up, the mistakes in it are reported once; **violated** for
those in the length and the type, which are reported twice if they are known where the statement is. -/
theorem C136_equ_twice_negation (now later : World V) (f1 f2 : V → Bool) (r q l t : Nat) (c : World V → List Msg)
    (e : Syn V) (len typ : Option (Syn V)) (hn : e.waits now = true) (hk : e.waits later = false)
    (hlen : ∀ x ∈ len, x.waits later = false) (htyp : ∀ x ∈ typ, x.waits later = false) :
    List.Perm (equ now later none false false f1 f2 ⟨r, true, true, [], c⟩ (q, .asm [] e.fresh) (l, second len) (t, second typ)).1
      (complaint now .A134 f2 t typ ++ complaint now .A133 f1 l len ++
        (e.mistakes later ++
        (len.toList.flatMap fun x => (times now later x).flatMap fun w => x.mistakes w) ++
        (typ.toList.flatMap fun x => (times now later x).flatMap fun w => x.mistakes w) ++ c later)) := by
  have hw : waits later e.fresh = false := by rw [waits_fresh]; exact hk
  have hh := evaluate_held later e.fresh
  rw [fresh_syn, fresh_held, List.nil_append] at hh
  obtain ⟨l1, l2⟩ := part_left now later .A133 f1 l len hlen
  obtain ⟨t1, t2⟩ := part_left now later .A134 f2 t typ htyp
  have hv : (Operand.waits later (.asm [] e.fresh) : Bool) = false := by
    simpa [Operand.waits] using hw
  have : (equ now later none false false f1 f2 ⟨r, true, true, [], c⟩ (q, .asm [] e.fresh) (l, second len) (t, second typ)).1 =
      complaint now .A134 f2 t typ ++ complaint now .A133 f1 l len ++
      ((evaluate later e.fresh).2.held ++
        (((part now .A133 f1 (l, second len)).2.2.value later true).take.1 ++ ((part now .A134 f2 (t, second typ)).2.2.value later true).take.1) ++
        c later) := by
    unfold equ
    simp only [part_second, waits_fresh, hn, Bool.not_true, Bool.false_eq_true, if_false, Bool.or_self, Option.isSome_none, check, if_true]
    have hl3 : (part now .A133 f1 (l, second len)).2 = ((part now .A133 f1 (l, second len)).2.1, (part now .A133 f1 (l, second len)).2.2) := rfl
    have ht3 : (part now .A134 f2 (t, second typ)).2 = ((part now .A134 f2 (t, second typ)).2.1, (part now .A134 f2 (t, second typ)).2.2) := rfl
    rw [hl3, ht3, loop_step _ _ _ _ _ (by simpa using hv), loop_step _ _ _ _ _ (by simpa using l1), loop_step _ _ _ _ _ (by simpa using t1)]
    simp [loop, Operand.value, Operand.take, take_held]
  rw [this]
  apply List.Perm.append_left
  apply List.Perm.append_right
  rw [List.append_assoc (e.mistakes later)]
  exact List.Perm.append hh (l2.append t2)

/-! ### Publishing -/

mutual
theorem collect_all (t : Tree) : t.collect.1 = t.all := by
  cases t with
  | node once own kids every => simp [Tree.collect, Tree.all, gather_alls kids]
theorem gather_alls (ts : List Tree) : (gather ts).1 = Tree.alls ts := by
  cases ts with
  | nil => rfl
  | cons t ts =>
    cases t with
    | node once own kids every => simp [gather, Tree.alls, collect_all, gather_alls ts]
end

/-- **Collecting**: whatever the objects, what arrives is every message that one of them has, once. After an analysis a file has exactly the
messages of that analysis. -/
theorem C136_collect (a : Tree) (old : List Msg) : (gather [a]).1 = a.all ∧ parsed old a = a.all := by
  have : (gather [a]).1 = a.all := by rw [gather_alls]; simp [Tree.alls]
  exact ⟨this, by simp [parsed, this]⟩

/-- The objects that are moved from are left empty, and nothing is added to the others. -/
theorem alls_append (xs ys : List Tree) : Tree.alls (xs ++ ys) = Tree.alls xs ++ Tree.alls ys := by
  induction xs with
  | nil => simp [Tree.alls]
  | cons x xs ih => simp [Tree.alls, ih]

theorem gather_leaves (fs : List (List Msg)) :
    gather (fs.map fun f => Tree.node false f [] []) = (fs.flatten, fs.map fun f => Tree.node false f [] []) := by
  induction fs with
  | nil => simp [gather]
  | cons f fs ih => simp [gather, Tree.collect, ih]

theorem gather_groups (gs : List (List (List Msg))) :
    gather (gs.map fun g => Tree.node true [] (g.map fun l => Tree.node false l [] []) []) =
      ((gs.map List.flatten).flatten, gs.map fun g => Tree.node true [] (g.map fun l => Tree.node false l [] []) []) := by
  induction gs with
  | nil => simp [gather]
  | cons f fs ih => simp [gather, Tree.collect, ih, gather_leaves]

theorem gather_spaces (ps : List (List (List (List Msg)) × List Msg)) :
    gather (ps.map fun p => Tree.node true [] (p.1.map fun g => Tree.node true [] (g.map fun l => Tree.node false l [] []) []) p.2) =
      (ps.flatMap fun p => (p.1.map List.flatten).flatten ++ p.2,
        ps.map fun p => Tree.node true [] (p.1.map fun g => Tree.node true [] (g.map fun l => Tree.node false l [] []) []) p.2) := by
  induction ps with
  | nil => simp [gather]
  | cons f fs ih => simp [gather, Tree.collect, ih, gather_groups]

/-- **Publishing**: every list that is published has every message of every analysed file, every library and every configuration exactly once, and
publishing changes nothing: the next list has them again. -/
theorem C136_published (s : Server) : (publish s.trees).1 = s.messages ∧ (publish s.trees).2 = s.trees := by
  have h : gather s.trees = (s.messages, s.trees) := by
    simp [Server.trees, gather, Tree.collect, gather_leaves, gather_spaces, Server.messages]
  simp [publish, h]

/-! ### Examples -/

/-- Symbol 0 is 3, symbols 1 and 2 are addresses, symbol 3 is an address that is known from `late` on, symbol 4 has no scale. -/
def sample (late : Bool) : World (Kind × Int) where
  kind := fun v => v.1
  add := fun a b => (if a.1 = .undef ∨ b.1 = .undef then .undef else if a.1 = .reloc ∨ b.1 = .reloc then .reloc else .abs, a.2 + b.2)
  sub := fun a b => (if a.1 = .undef ∨ b.1 = .undef then .undef else if a.1 = b.1 then .abs else .reloc, a.2 - b.2)
  mul := fun a b => if a.1 = .abs ∧ b.1 = .abs then (.abs, a.2 * b.2) else (.undef, 0)
  div := fun a b => if a.1 = .abs ∧ b.1 = .abs then (.abs, a.2 / b.2) else (.undef, 0)
  neg := fun a => (a.1, -a.2)
  undef := (.undef, 0)
  sym := fun n => if n = 0 then (.abs, 3) else if n = 1 then (.reloc, 100) else if n = 2 then (.reloc, 200) else
    if n = 3 ∧ late then (.reloc, 300) else (.undef, 0)
  attr := fun _ n => if n = 4 then ((.abs, 0), true) else ((.abs, 2), false)
  unknown := fun t => match t with
    | .sym 3 => !late
    | _ => false

/-- `X*Y`, `(X-Y)*Z`, `S'N/X*Y`, `F*X` with F defined later. -/
def xy : Syn (Kind × Int) := .bin 10 .mul (.leaf 11 (.sym 1)) (.leaf 12 (.sym 2))
def dist : Syn (Kind × Int) := .bin 20 .mul (.un 21 .par (.bin 22 .sub (.leaf 23 (.sym 1)) (.leaf 24 (.sym 2)))) (.leaf 25 (.sym 0))
def scaled : Syn (Kind × Int) := .bin 30 .add (.leaf 31 (.attr 0 4)) (.bin 32 .div (.leaf 33 (.sym 1)) (.leaf 34 (.sym 0)))
def fwd : Syn (Kind × Int) := .bin 40 .mul (.leaf 41 (.sym 3)) (.leaf 42 (.sym 1))

/-- `LA X*Y,(X-Y)*Z(S'N+X/3)`: three mistakes; the second one with F, which is known at the end only. -/
example : (machine (sample false) (sample true) (Stmt.of 1 true [(2, .mach xy), (3, .empty), (4, .addr dist none (some scaled))] fun _ => [⟨.other 7, 1⟩])).1 =
    [⟨.ME002, 10⟩, ⟨.W011, 31⟩, ⟨.ME002, 32⟩, ⟨.other 7, 1⟩] := by decide +kernel

example : (∀ o ∈ [((2 : Nat), Written.mach fwd), (4, .addr dist none (some scaled))], o.2.Plain) ∧
    Known (sample true) [(2, .mach fwd), (4, .addr dist none (some scaled))] ∧
    ¬ Known (sample false) [(2, .mach fwd), (4, .addr dist none (some scaled))] := by
  refine ⟨by simp [Written.Plain], by unfold Known; decide +kernel, by unfold Known; decide +kernel⟩

example : (machine (sample false) (sample true) (Stmt.of 1 true [(2, .mach fwd), (4, .addr dist none (some scaled))] fun _ => [])).1 =
    [⟨.ME002, 40⟩, ⟨.W011, 31⟩, ⟨.ME002, 32⟩] := by decide +kernel

/-- The symbol stays unknown: one message, and nothing of the operand after it. -/
example : (machine (sample false) (sample false) (Stmt.of 1 true [(2, .mach xy), (3, .mach fwd), (4, .mach scaled)] fun _ => [⟨.other 7, 1⟩])).1 =
    [⟨.ME002, 10⟩, ⟨.E010, 3⟩] := by decide +kernel

/-- An assembler instruction with the same mistake: reported; with a symbol that comes later: nothing, although there is a mistake. -/
theorem C136_assembler_witness : (assembler (sample true) (Stmt.of 1 true [(2, .asm fwd)] fun _ => [])).1 = [⟨.ME002, 40⟩] ∧
    (assembler (sample false) (Stmt.of 1 true [(2, .asm fwd), (3, .asm xy)] fun _ => [⟨.other 7, 1⟩])).1 = [] ∧
    mistakes (sample false) [(2, .asm fwd), (3, .asm xy)] = [⟨.ME002, 10⟩] := by decide +kernel

/-- `USING (X*Y,Z),12`: one mistake, no message. -/
theorem C136_using_witness : (assembler (sample true) (Stmt.of 1 true [(2, .base xy dist), (3, .asm dist)] fun _ => [])).1 = [] ∧
    mistakes (sample true) [(2, .base xy dist), (3, .asm dist)] = [⟨.ME002, 10⟩] := by decide +kernel

/-- `DC AL(X*Y)(X*Y)`: two mistakes, no message. -/
theorem C136_data_witness : (dataDef [sample true, sample true] (sample true) (sample true)
      (Stmt.of 1 true [(2, .data [xy] [.inl xy, .inr (dist, dist)])] fun _ => [])).1 = [] ∧
    mistakes (sample true) [(2, .data [xy] [.inl xy, .inr (dist, dist)])] = [⟨.ME002, 10⟩, ⟨.ME002, 10⟩] := by decide +kernel

/-- `A EQU X*Y`: one mistake, no message; nor with F defined later in `A EQU F*X`. `A EQU F*X,X*Y` when F is set to its default at the end: the mistake in
the length twice. -/
theorem C136_equ_witness :
    (equ (sample true) (sample true) none false false (fun _ => true) (fun _ => true) ⟨1, true, true, [], fun _ => []⟩ (2, .asm [] xy.fresh) (3, .empty) (4, .empty)).1 = [] ∧
    xy.mistakes (sample true) = [⟨.ME002, 10⟩] ∧
    (equ (sample false) (sample true) (some (sample true)) false false (fun _ => true) (fun _ => true) ⟨1, true, true, [], fun _ => []⟩ (2, .asm [] fwd.fresh) (3, .empty)
      (4, .empty)).1 = [] ∧
    fwd.mistakes (sample true) = [⟨.ME002, 40⟩] ∧
    (equ (sample false) (sample true) none false false (fun _ => true) (fun _ => true) ⟨1, true, true, [], fun _ => []⟩ (2, .asm [] fwd.fresh) (3, second (some xy))
      (4, .empty)).1 = [⟨.ME002, 40⟩, ⟨.ME002, 10⟩, ⟨.ME002, 10⟩] := by decide +kernel

/-- With a length that is not known where the statement is, and a type with a mistake. -/
example : (equ (sample false) (sample true) none false false (fun _ => true) (fun _ => true) ⟨1, true, true, [], fun _ => []⟩
      (2, .asm [] fwd.fresh) (3, second (some fwd)) (4, second (some xy))).1 =
    [⟨.A133, 3⟩, ⟨.ME002, 40⟩, ⟨.ME002, 40⟩, ⟨.ME002, 10⟩, ⟨.ME002, 10⟩] := by decide +kernel

/-- Two files, a workspace with a group of two libraries and a message about its configuration. -/
example : (publish (Server.trees ⟨[[⟨.other 1, 1⟩], [⟨.other 2, 1⟩, ⟨.other 3, 1⟩]], [([[[⟨.other 4, 1⟩], []]], [⟨.other 5, 1⟩])]⟩)).1 =
    [⟨.other 1, 1⟩, ⟨.other 2, 1⟩, ⟨.other 3, 1⟩, ⟨.other 4, 1⟩, ⟨.other 5, 1⟩] := by decide +kernel

end Verif.Report
