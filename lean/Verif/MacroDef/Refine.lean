import Verif.MacroDef.Lemmas

/-!
The loop of the processor is a fold over the specified body.
-/
namespace Verif.MacroDef

/-- `addNest` with the path given. -/
def St.nestAt (s : St) (p : List Loc) : St :=
  { s with
    nests := s.nests ++ [p]
    scopes := s.scopes.set ((p.getLast?.map (·.file)).getD 0) (slicesWith (s.scopes.get ((p.getLast?.map (·.file)).getD 0)) s.line (decide (s.nest > 1)) s.lastInner)
    lastInner := decide (s.nest > 1) }

theorem addNest_eq {s : St} {p : List Loc} {l : Loc} (h : s.path = some p) (hp : p.getLast? = some l) : s.addNest = some (s.nestAt p) := by
  simp [St.addNest, h, hp, St.nestAt]

/-- The effect of a statement with its place. -/
def St.emit (s : St) (p : Placed) : St :=
  let s := St.sequenceSymbol { s with outer := (p.path.head?.map (·.line)).getD s.outer } p.stmt
  match p.stmt.op with
  | .copy _ =>
    let s := St.nestAt { s with defn := s.defn ++ [p.stmt.asAnop] } p.path
    { s with line := s.line + 1, diags := s.diags ++ p.report.toList }
  | .mbegin => St.nestAt { s with nest := s.nest + 1, line := s.line + 1, defn := s.defn ++ [p.stmt] } p.path
  | .mend => St.nestAt { s with nest := s.nest - 1, finished := decide (s.nest - 1 = 0), line := s.line + 1, defn := s.defn ++ [p.stmt] } p.path
  | _ => St.nestAt { s with line := s.line + 1, defn := s.defn ++ [p.stmt] } p.path

/-- The state with another stack. -/
def St.on (s : St) (x : List Frame) : St := { s with stack := x }

theorem seqSym_on (s : St) (t : Stmt) (x : List Frame) : (s.on x).sequenceSymbol t = (s.sequenceSymbol t).on x := by
  unfold St.sequenceSymbol
  cases t.label with
  | none => rfl
  | some n =>
    simp only [St.on]
    by_cases h1 : s.nest = 1
    · by_cases h2 : s.labels.any (·.1 == n) = true <;> simp [h1, h2]
    · simp [h1]

theorem emit_on (s : St) (p : Placed) (x : List Frame) : (s.on x).emit p = (s.emit p).on x := by
  unfold St.emit
  have : ({ s.on x with outer := (p.path.head?.map (·.line)).getD (s.on x).outer } : St) = St.on { s with outer := (p.path.head?.map (·.line)).getD s.outer } x := rfl
  rw [this, seqSym_on]
  cases p.stmt.op <;> rfl

theorem foldl_on (ps : List Placed) (s : St) (x : List Frame) : ps.foldl St.emit (s.on x) = (ps.foldl St.emit s).on x := by
  induction ps generalizing s with
  | nil => rfl
  | cons p ps ih => rw [List.foldl_cons, List.foldl_cons, emit_on, ih]

/-- The parts no statement changes. -/
structure St.Same (a b : St) : Prop where
  file : a.file = b.file
  above : a.above = b.above
  stack : a.stack = b.stack

theorem seqSym_same (s : St) (t : Stmt) : (s.sequenceSymbol t).Same s ∧ (s.sequenceSymbol t).nest = s.nest ∧
    (s.sequenceSymbol t).finished = s.finished ∧ (s.sequenceSymbol t).outer = s.outer ∧ (s.sequenceSymbol t).line = s.line ∧
    (s.sequenceSymbol t).defn = s.defn ∧ (s.sequenceSymbol t).nests = s.nests ∧ (s.sequenceSymbol t).scopes = s.scopes ∧
    (s.sequenceSymbol t).lastInner = s.lastInner := by
  have : ∃ d l, s.sequenceSymbol t = { s with diags := d, labels := l } := by
    unfold St.sequenceSymbol
    repeat' split
    all_goals exact ⟨_, _, rfl⟩
  obtain ⟨d, l, h⟩ := this
  rw [h]
  exact ⟨⟨rfl, rfl, rfl⟩, rfl, rfl, rfl, rfl, rfl, rfl, rfl, rfl⟩

/-- The depth behind a statement. -/
def nestAfter (c : Nat) (t : Stmt) : Nat :=
  match t.op with
  | .mbegin => c + 1
  | .mend => c - 1
  | _ => c

theorem emit_same (s : St) (p : Placed) : (s.emit p).Same s ∧ (s.emit p).nest = nestAfter s.nest p.stmt ∧
    (s.emit p).outer = (p.path.head?.map (·.line)).getD s.outer ∧
    (s.emit p).finished = (if p.stmt.op = .mend then decide (s.nest - 1 = 0) else s.finished) := by
  obtain ⟨⟨h1, h2, h3⟩, h4, h5, h6, -⟩ := seqSym_same { s with outer := (p.path.head?.map (·.line)).getD s.outer } p.stmt
  unfold St.emit nestAfter
  cases p.stmt.op <;> simp only [St.nestAt] <;> exact ⟨⟨h1, h2, h3⟩, by simp [h4], by simp [h6], by simp [h4, h5]⟩

/-! ## One statement -/

/-- The path of a stack of members. -/
def St.pathOn (s : St) (fs : List Frame) : Option (List Loc) := (fs.reverse.mapM Frame.loc).map (⟨s.file, s.outer⟩ :: ·)

theorem pathOn_cons (s : St) (fs : List Frame) (p : List Loc) (f : Frame) (l : Loc) (h : s.pathOn fs = some p) (hf : f.loc = some l) :
    s.pathOn (f :: fs) = some (p ++ [l]) := by
  unfold St.pathOn at *
  obtain ⟨q, hq, rfl⟩ := Option.map_eq_some_iff.1 h
  simp [List.mapM_append, hq, hf]

theorem head_pathOn {s : St} {fs : List Frame} {p : List Loc} (h : s.pathOn fs = some p) : p.head?.map (·.line) = some s.outer := by
  unfold St.pathOn at h
  obtain ⟨q, hq, rfl⟩ := Option.map_eq_some_iff.1 h
  rfl

/-- The state in which a statement is processed. -/
def St.ready (s : St) (t : Stmt) : St := if s.stack.isEmpty then { s with outer := t.line } else s

theorem outer_self (s : St) (p : List Loc) (h : p.head?.map (·.line) = some s.outer) : ({ s with outer := (p.head?.map (·.line)).getD s.outer } : St) = s := by
  rw [h]; rfl

theorem process_plain (lib : Lib) (s : St) (t : Stmt) (p : List Loc) (l : Loc) (hp : (s.ready t).path = some p) (hl : p.getLast? = some l)
    (hop : ∀ m, t.op ≠ .copy m) (hm : t.op = .mend → s.nest ≠ 0) (r : Option Diag) : s.process lib t = some ((s.ready t).emit ⟨t, p, r⟩) := by
  have hh := head_pathOn (s := s.ready t) (fs := (s.ready t).stack) hp
  have ho := outer_self _ _ hh
  obtain ⟨⟨h1, h2, h3⟩, h4, h5, h6, -⟩ := seqSym_same (s.ready t) t
  have hn : (s.ready t).nest = s.nest := by unfold St.ready; split <;> rfl
  have hadd : ∀ s' : St, s'.stack = (s.ready t).stack → s'.outer = (s.ready t).outer → s'.file = (s.ready t).file → s'.addNest = some (s'.nestAt p) := by
    intro s' a b c
    refine addNest_eq (l := l) ?_ hl
    rw [← hp]; unfold St.path; rw [a, b, c]
  unfold St.process St.emit
  simp only
  change (match t.op with
    | .copy member => _
    | .mbegin => _
    | .mend => _
    | _ => _) = _
  rw [ho]
  cases hc : t.op with
  | copy m => exact absurd hc (hop m)
  | mbegin => exact hadd _ h3 h6 h1
  | mend =>
    have : ¬ ((s.ready t).sequenceSymbol t).nest = 0 := by rw [h4, hn]; exact hm hc
    exact (if_neg this).trans (hadd _ h3 h6 h1)
  | anop => exact hadd _ h3 h6 h1
  | other x => exact hadd _ h3 h6 h1

theorem process_copy (lib : Lib) (s : St) (t : Stmt) (p : List Loc) (l : Loc) (hp : (s.ready t).path = some p) (hl : p.getLast? = some l)
    (m : Option Name) (hop : t.op = .copy m) : s.process lib t = some (
      match m with
      | none => (s.ready t).emit ⟨t, p, some (.E058 t.line)⟩
      | some n =>
        match lib.find n with
        | none => (s.ready t).emit ⟨t, p, some (.E058 t.line)⟩
        | some m =>
          if s.opened.contains n then (s.ready t).emit ⟨t, p, some (.E062 t.line)⟩
          else ((s.ready t).emit ⟨t, p, none⟩).on (⟨n, m.file, memberOf m.stmts, 0⟩ :: s.stack)) := by
  have hh := head_pathOn (s := s.ready t) (fs := (s.ready t).stack) hp
  have ho := outer_self _ _ hh
  obtain ⟨⟨h1, h2, h3⟩, h4, h5, h6, -⟩ := seqSym_same (s.ready t) t
  have hs : (s.ready t).stack = s.stack := by unfold St.ready; split <;> rfl
  have ha : (s.ready t).above = s.above := by unfold St.ready; split <;> rfl
  have hadd : ∀ s' : St, s'.stack = (s.ready t).stack → s'.outer = (s.ready t).outer → s'.file = (s.ready t).file → s'.addNest = some (s'.nestAt p) := by
    intro s' a b c
    refine addNest_eq (l := l) ?_ hl
    rw [← hp]; unfold St.path; rw [a, b, c]
  have hemit : ∀ r, (s.ready t).emit ⟨t, p, r⟩ = (let s' := St.nestAt { (s.ready t).sequenceSymbol t with defn := ((s.ready t).sequenceSymbol t).defn ++ [t.asAnop] } p
      { s' with line := s'.line + 1, diags := s'.diags ++ r.toList }) := by
    intro r
    unfold St.emit
    simp only
    rw [ho, hop]
  have hproc : s.process lib t = some (let s' := St.enterCopy lib (St.nestAt { (s.ready t).sequenceSymbol t with defn := ((s.ready t).sequenceSymbol t).defn ++ [t.asAnop] } p) t m
      { s' with line := s'.line + 1 }) := by
    unfold St.process
    simp only
    change (match t.op with
      | .copy member => _
      | .mbegin => _
      | .mend => _
      | _ => _) = _
    rw [hop]
    exact (congrArg (fun o => Option.bind o fun s' => some { s'.enterCopy lib t m with line := (s'.enterCopy lib t m).line + 1 })
      (hadd { (s.ready t).sequenceSymbol t with defn := ((s.ready t).sequenceSymbol t).defn ++ [t.asAnop] } h3 h6 h1)).trans rfl
  rw [hproc]
  have hopen : St.opened (St.nestAt { (s.ready t).sequenceSymbol t with defn := ((s.ready t).sequenceSymbol t).defn ++ [t.asAnop] } p) = s.opened := by
    unfold St.opened
    show ((s.ready t).sequenceSymbol t).stack.map _ ++ ((s.ready t).sequenceSymbol t).above = _
    rw [h3, h2, hs, ha]
  cases m with
  | none => simp only [hemit]; rfl
  | some n =>
    simp only [hemit, St.enterCopy]
    cases lib.find n with
    | none => rfl
    | some m =>
      simp only [hopen]
      by_cases hc : s.opened.contains n = true
      · simp only [hc, if_true]; rfl
      · simp only [hc]
        simp [St.on, St.nestAt, h3, hs]

/-! ## The loop -/

/-- The loop comes from one state to another. -/
def Reaches (lib : Lib) (a b : Run) : Prop := ∃ k, ∀ m, a.run lib (k + m) = b.run lib m

theorem Reaches.refl (lib : Lib) (a : Run) : Reaches lib a a := ⟨0, fun m => by rw [Nat.zero_add]⟩

theorem Reaches.trans {lib : Lib} {a b c : Run} (h : Reaches lib a b) (h' : Reaches lib b c) : Reaches lib a c := by
  obtain ⟨k, hk⟩ := h
  obtain ⟨l, hl⟩ := h'
  exact ⟨k + l, fun m => by rw [Nat.add_assoc, hk, hl]⟩

theorem Reaches.step {lib : Lib} {a b : Run} (h : a.step lib = .more b) : Reaches lib a b :=
  ⟨1, fun m => by rw [Nat.add_comm, Run.run, h]⟩

/-- The members that are not open. -/
def free (lib : Lib) (opened : List Name) : Nat := (lib.filter fun m => !opened.contains m.1).length

theorem free_lt {lib : Lib} {opened : List Name} {n : Name} {m : Member} (h : lib.find n = some m) (hn : opened.contains n = false) :
    free lib (n :: opened) < free lib opened := by
  unfold free
  have : (lib.filter fun m => !(n :: opened).contains m.1) = (lib.filter fun m => !opened.contains m.1).filter fun m => !(m.1 == n) := by
    rw [List.filter_filter]
    refine List.filter_congr fun x _ => ?_
    by_cases hx : x.1 = n <;> simp [hx]
  rw [this, List.length_filter_lt_length_iff_exists]
  unfold Lib.find at h
  obtain ⟨e, he, -⟩ := Option.map_eq_some_iff.1 h
  refine ⟨e, List.mem_filter.2 ⟨List.mem_of_find?_eq_some he, ?_⟩, ?_⟩
  · have := List.find?_some he
    simp only [beq_iff_eq] at this
    rw [this, hn]; rfl
  · have := List.find?_some he
    simp only [beq_iff_eq] at this
    simp [this]

/-- The part of the body a statement stands for. -/
def expandOne (lib : Lib) (depth : Nat) (opened : List Name) (path : List Loc) (file : File) (t : Stmt) : List Placed :=
  match t.op with
  | .copy none => [⟨t, path ++ [⟨file, t.line⟩], some (.E058 t.line)⟩]
  | .copy (some n) =>
    match lib.find n with
    | none => [⟨t, path ++ [⟨file, t.line⟩], some (.E058 t.line)⟩]
    | some m =>
      if n ∈ opened then [⟨t, path ++ [⟨file, t.line⟩], some (.E062 t.line)⟩]
      else ⟨t, path ++ [⟨file, t.line⟩], none⟩ ::
        expand lib depth (n :: opened) (path ++ [⟨file, t.line⟩]) m.file (if Balanced m.stmts then m.stmts else [])
  | _ => [⟨t, path ++ [⟨file, t.line⟩], none⟩]

theorem expand_eq (lib : Lib) (depth : Nat) (opened : List Name) (path : List Loc) (file : File) (ts : List Stmt) :
    expand lib (depth + 1) opened path file ts = ts.flatMap (expandOne lib depth opened path file) := rfl

theorem foldl_same (ps : List Placed) (s : St) : (ps.foldl St.emit s).Same s := by
  induction ps generalizing s with
  | nil => exact ⟨rfl, rfl, rfl⟩
  | cons p ps ih =>
    obtain ⟨a, b, c⟩ := ih (s.emit p)
    obtain ⟨a', b', c'⟩ := (emit_same s p).1
    exact ⟨a.trans a', b.trans b', c.trans c'⟩

/-- What a statement does in the loop, wherever it comes from: it has the effects of its part of the body, and the members it
copies are left again. -/
def Handles (lib : Lib) (d : Nat) : Prop := ∀ (t : Stmt) (s : St) (path : List Loc) (file : File) (rest : List Stmt),
  (s.ready t).path = some (path ++ [⟨file, t.line⟩]) →
  s.finished = false → (t.op = .mend → s.nest ≠ 0) → 1 ≤ s.nest → free lib s.opened ≤ d →
  ∃ s', s.process lib t = some s' ∧
    Reaches lib ⟨s', rest⟩ ⟨(expandOne lib d s.opened path file t).foldl St.emit (s.ready t), rest⟩ ∧
    ((expandOne lib d s.opened path file t).foldl St.emit (s.ready t)).nest = nestAfter s.nest t ∧
    ((expandOne lib d s.opened path file t).foldl St.emit (s.ready t)).finished = (decide (t.op = .mend) && decide (s.nest = 1)) ∧
    ((expandOne lib d s.opened path file t).foldl St.emit (s.ready t)).outer = (s.ready t).outer

/-- What a member does in the loop. -/
def Copies (lib : Lib) (d : Nat) : Prop := ∀ (ts : List Stmt) (s : St) (n : Name) (file : File) (stmts : List Stmt) (i : Nat)
  (fs : List Frame) (path : List Loc) (rest : List Stmt) (b c : Nat),
  stmts.drop i = ts → s.stack = ⟨n, file, stmts, i⟩ :: fs → s.pathOn fs = some path → s.finished = false → s.nest = b + c → 1 ≤ b →
  dep ts c = some 0 → free lib s.opened < d →
  Reaches lib ⟨s, rest⟩ ⟨((expand lib d s.opened path file ts).foldl St.emit s).on fs, rest⟩ ∧
    ((expand lib d s.opened path file ts).foldl St.emit s).nest = b ∧
    ((expand lib d s.opened path file ts).foldl St.emit s).finished = false ∧
    ((expand lib d s.opened path file ts).foldl St.emit s).outer = s.outer

theorem ready_facts (s : St) (t : Stmt) : (s.ready t).stack = s.stack ∧ (s.ready t).nest = s.nest ∧ (s.ready t).finished = s.finished ∧
    (s.ready t).file = s.file ∧ (s.ready t).above = s.above := by
  unfold St.ready; split <;> exact ⟨rfl, rfl, rfl, rfl, rfl⟩

theorem nestAfter_other {c : Nat} {t : Stmt} (h1 : t.op ≠ .mbegin) (h2 : t.op ≠ .mend) : nestAfter c t = c := by
  unfold nestAfter; cases h : t.op <;> simp_all

theorem handles (lib : Lib) (d : Nat) (ih : Copies lib d) : Handles lib d := by
  intro t s path file rest hp hf hm hn hfree
  obtain ⟨r1, r2, r3, r4, r5⟩ := ready_facts s t
  have hl : (path ++ [(⟨file, t.line⟩ : Loc)]).getLast? = some ⟨file, t.line⟩ := by simp
  have hh := head_pathOn (s := s.ready t) (fs := (s.ready t).stack) hp
  have single : ∀ r : Option Diag, (([⟨t, path ++ [⟨file, t.line⟩], r⟩] : List Placed).foldl St.emit (s.ready t)).nest = nestAfter s.nest t ∧
      (([⟨t, path ++ [⟨file, t.line⟩], r⟩] : List Placed).foldl St.emit (s.ready t)).finished = (decide (t.op = .mend) && decide (s.nest = 1)) ∧
      (([⟨t, path ++ [⟨file, t.line⟩], r⟩] : List Placed).foldl St.emit (s.ready t)).outer = (s.ready t).outer := by
    intro r
    obtain ⟨-, e1, e2, e3⟩ := emit_same (s.ready t) ⟨t, path ++ [⟨file, t.line⟩], r⟩
    refine ⟨by rw [List.foldl_cons, List.foldl_nil, e1, r2], ?_, by rw [List.foldl_cons, List.foldl_nil, e2, hh]; rfl⟩
    rw [List.foldl_cons, List.foldl_nil, e3]
    by_cases h : t.op = .mend
    · simp only [h, if_true, r2, decide_true, Bool.true_and, decide_eq_decide]; omega
    · simp only [h, if_false, r3, hf, decide_false, Bool.false_and]
  have plain : (∀ m, t.op ≠ .copy m) → expandOne lib d s.opened path file t = [⟨t, path ++ [⟨file, t.line⟩], none⟩] := by
    intro h
    unfold expandOne
    cases hc : t.op with
    | copy m => exact absurd hc (h m)
    | _ => rfl
  by_cases hc : ∃ m, t.op = .copy m
  · obtain ⟨m, hc⟩ := hc
    have hne : t.op ≠ .mend := by rw [hc]; simp
    have hpr := process_copy lib s t _ _ hp hl m hc
    have fail : ∀ r : Option Diag, s.process lib t = some ((s.ready t).emit ⟨t, path ++ [⟨file, t.line⟩], r⟩) →
        expandOne lib d s.opened path file t = [⟨t, path ++ [⟨file, t.line⟩], r⟩] → ∃ s', s.process lib t = some s' ∧
        Reaches lib ⟨s', rest⟩ ⟨(expandOne lib d s.opened path file t).foldl St.emit (s.ready t), rest⟩ ∧
        ((expandOne lib d s.opened path file t).foldl St.emit (s.ready t)).nest = nestAfter s.nest t ∧
        ((expandOne lib d s.opened path file t).foldl St.emit (s.ready t)).finished = (decide (t.op = .mend) && decide (s.nest = 1)) ∧
        ((expandOne lib d s.opened path file t).foldl St.emit (s.ready t)).outer = (s.ready t).outer := by
      intro r h1 h2
      rw [h2]
      exact ⟨_, h1, Reaches.refl _ _, single r⟩
    cases m with
    | none => exact fail _ hpr (by unfold expandOne; rw [hc])
    | some n =>
      simp only at hpr
      cases hfind : lib.find n with
      | none =>
        rw [hfind] at hpr
        exact fail _ hpr (by unfold expandOne; rw [hc]; simp only [hfind])
      | some m =>
        rw [hfind] at hpr
        simp only at hpr
        by_cases ho : n ∈ s.opened
        · rw [if_pos (by simpa using ho)] at hpr
          exact fail _ hpr (by unfold expandOne; rw [hc]; simp only [hfind, ho, if_true])
        · have ho' : s.opened.contains n = false := by simpa using ho
          rw [ho'] at hpr
          simp only [Bool.false_eq_true, if_false] at hpr
          have hex : expandOne lib d s.opened path file t = ⟨t, path ++ [⟨file, t.line⟩], none⟩ ::
              expand lib d (n :: s.opened) (path ++ [⟨file, t.line⟩]) m.file (memberOf m.stmts) := by
            unfold expandOne; rw [hc]; simp only [hfind, ho, if_false, memberOf_eq]
          obtain ⟨⟨f1, f2, f3⟩, e1, e2, e3⟩ := emit_same (s.ready t) ⟨t, path ++ [⟨file, t.line⟩], none⟩
          obtain ⟨q1, q2, q3, q4⟩ := ih (memberOf m.stmts) (((s.ready t).emit ⟨t, path ++ [⟨file, t.line⟩], none⟩).on (⟨n, m.file, memberOf m.stmts, 0⟩ :: s.stack))
            n m.file (memberOf m.stmts) 0 s.stack (path ++ [⟨file, t.line⟩]) rest s.nest 0 (by simp) rfl
            (by
              have e2' : ((s.ready t).emit ⟨t, path ++ [⟨file, t.line⟩], none⟩).outer = (s.ready t).outer := by rw [e2, hh]; rfl
              rw [← hp]
              show ((s.ready t).emit ⟨t, path ++ [⟨file, t.line⟩], none⟩).pathOn s.stack = (s.ready t).pathOn (s.ready t).stack
              unfold St.pathOn
              rw [f1, e2', r1])
            (by
              show ((s.ready t).emit _).finished = false
              rw [e3, if_neg hne, r3, hf])
            (by
              show ((s.ready t).emit _).nest = _
              rw [e1, nestAfter_other (by rw [hc]; simp) hne, r2]; rfl)
            hn (dep_member _)
            (by
              have : (((s.ready t).emit ⟨t, path ++ [⟨file, t.line⟩], none⟩).on (⟨n, m.file, memberOf m.stmts, 0⟩ :: s.stack)).opened = n :: s.opened := by
                unfold St.opened
                show n :: (s.stack.map Frame.name ++ ((s.ready t).emit _).above) = _
                rw [f2, r5]
              rw [this]
              exact Nat.lt_of_lt_of_le (free_lt hfind ho') hfree)
          have hop : (((s.ready t).emit ⟨t, path ++ [⟨file, t.line⟩], none⟩).on (⟨n, m.file, memberOf m.stmts, 0⟩ :: s.stack)).opened = n :: s.opened := by
            unfold St.opened
            show n :: (s.stack.map Frame.name ++ ((s.ready t).emit _).above) = _
            rw [f2, r5]
          rw [hop, foldl_on] at q1 q2 q3 q4
          have hstack : ∀ x : St, x.stack = s.stack → ∀ y, (x.on y).on s.stack = x := by
            intro x hx y; rw [← hx]; rfl
          rw [hstack _ (by rw [(foldl_same _ _).stack, f3, r1])] at q1
          rw [hex, List.foldl_cons]
          refine ⟨_, hpr, q1, ?_, ?_, ?_⟩
          · rw [nestAfter_other (by rw [hc]; simp) hne]; exact q2
          · rw [decide_eq_false hne, Bool.false_and]; exact q3
          · refine Eq.trans q4 ?_
            show ((s.ready t).emit _).outer = _
            rw [e2, hh]; rfl
  · have hc' : ∀ m, t.op ≠ .copy m := fun m h => hc ⟨m, h⟩
    rw [plain hc']
    exact ⟨_, process_plain lib s t _ _ hp hl hc' hm none, Reaches.refl _ _, single none⟩

theorem dep_cons (t : Stmt) (ts : List Stmt) (c : Nat) (h : dep (t :: ts) c = some 0) : (t.op = .mend → c ≠ 0) ∧ dep ts (nestAfter c t) = some 0 := by
  unfold dep at h
  unfold nestAfter
  cases hc : t.op with
  | mend =>
    rw [hc] at h
    simp only at h
    by_cases h0 : c = 0
    · simp [h0] at h
    · rw [if_neg h0] at h; exact ⟨fun _ => h0, h⟩
  | _ => rw [hc] at h; exact ⟨by simp, h⟩

theorem step_leave (lib : Lib) (s : St) (rest : List Stmt) (f : Frame) (fs : List Frame) (hf : s.finished = false) (hs : s.stack = f :: fs)
    (h : f.stmts[f.next]? = none) : Run.step lib ⟨s, rest⟩ = .more ⟨s.on fs, rest⟩ := by
  unfold Run.step
  rw [if_neg (by simp [hf])]
  simp only [hs, h]
  rfl

theorem step_member (lib : Lib) (s s' : St) (rest : List Stmt) (f : Frame) (fs : List Frame) (t : Stmt) (hf : s.finished = false)
    (hs : s.stack = f :: fs) (h : f.stmts[f.next]? = some t) (hp : (s.on ({ f with next := f.next + 1 } :: fs)).process lib t = some s') :
    Run.step lib ⟨s, rest⟩ = .more ⟨s', rest⟩ := by
  unfold Run.step
  rw [if_neg (by simp [hf])]
  simp only [hs, h]
  unfold St.on at hp
  rw [hp]

theorem step_base (lib : Lib) (s s' : St) (t : Stmt) (ts : List Stmt) (hf : s.finished = false) (hs : s.stack = [])
    (hp : s.process lib t = some s') : Run.step lib ⟨s, t :: ts⟩ = .more ⟨s', ts⟩ := by
  unfold Run.step
  rw [if_neg (by simp [hf])]
  simp only [hs, hp]

theorem step_end (lib : Lib) (s : St) (hf : s.finished = false) (hs : s.stack = []) :
    Run.step lib ⟨s, []⟩ = .done ⟨{ s with diags := s.diags ++ [.E046] }, []⟩ := by
  unfold Run.step
  rw [if_neg (by simp [hf])]
  simp only [hs]

theorem step_done (lib : Lib) (s : St) (rest : List Stmt) (hf : s.finished = true) : Run.step lib ⟨s, rest⟩ = .done ⟨s, rest⟩ := by
  unfold Run.step
  rw [if_pos (by simp [hf])]

theorem run_done (lib : Lib) (r r' : Run) (h : r.step lib = .done r') (m : Nat) : r.run lib (m + 1) = some (.done r') := by
  unfold Run.run
  rw [h]

theorem copies_succ (lib : Lib) (d : Nat) (ih : Handles lib d) : Copies lib (d + 1) := by
  intro ts
  induction ts with
  | nil =>
    intro s n file stmts i fs path rest b c hd hs hp hf hn hb hdep hfree
    have hnone : stmts[i]? = none := by
      rw [List.getElem?_eq_none_iff]; exact List.drop_eq_nil_iff.1 hd
    have hc : c = 0 := by simpa [dep] using hdep
    exact ⟨Reaches.step (step_leave lib s rest _ fs hf hs hnone), by simp [expand_eq, hn, hc], by simpa [expand_eq] using hf, by simp [expand_eq]⟩
  | cons t ts iht =>
    intro s n file stmts i fs path rest b c hd hs hp hf hn hb hdep hfree
    have hsome : stmts[i]? = some t := by
      have := congrArg (·[0]?) hd
      simpa using this
    have hd' : stmts.drop (i + 1) = ts := by
      have := congrArg List.tail hd
      simpa [List.tail_drop] using this
    obtain ⟨hm, hdep'⟩ := dep_cons t ts c hdep
    have hready : (s.on (⟨n, file, stmts, i + 1⟩ :: fs)).ready t = s.on (⟨n, file, stmts, i + 1⟩ :: fs) := rfl
    have hopen : (s.on (⟨n, file, stmts, i + 1⟩ :: fs)).opened = s.opened := by
      unfold St.opened; rw [hs]; rfl
    obtain ⟨s', hpr, hreach, h1, h2, h3⟩ := ih t (s.on (⟨n, file, stmts, i + 1⟩ :: fs)) path file rest
      (by
        rw [hready]
        exact pathOn_cons (s.on (⟨n, file, stmts, i + 1⟩ :: fs)) fs path _ _ hp (by simp [Frame.loc, hsome]))
      hf
      (by intro h; show s.nest ≠ 0; omega)
      (by show 1 ≤ s.nest; omega) (by rw [hopen]; omega)
    rw [hopen, hready, foldl_on] at hreach h1 h2 h3
    have hfin : ((expandOne lib d s.opened path file t).foldl St.emit s).finished = false := by
      refine h2.trans ?_
      show (decide (t.op = .mend) && decide (s.nest = 1)) = false
      by_cases h : t.op = .mend
      · have := hm h
        simp only [h, decide_true, Bool.true_and, decide_eq_false_iff_not]
        omega
      · simp [h]
    have hsame := foldl_same (expandOne lib d s.opened path file t) s
    have hnest : ((expandOne lib d s.opened path file t).foldl St.emit s).nest = b + nestAfter c t := by
      refine h1.trans ?_
      show nestAfter s.nest t = _
      rw [hn]
      unfold nestAfter
      cases h : t.op with
      | mend => have := hm h; simp only; omega
      | _ => simp only; try omega
    have hopen2 : (((expandOne lib d s.opened path file t).foldl St.emit s).on (⟨n, file, stmts, i + 1⟩ :: fs)).opened = s.opened := by
      unfold St.opened
      show (⟨n, file, stmts, i + 1⟩ :: fs : List Frame).map _ ++ ((expandOne lib d s.opened path file t).foldl St.emit s).above = _
      rw [hsame.above, hs]; rfl
    obtain ⟨q1, q2, q3, q4⟩ := iht (((expandOne lib d s.opened path file t).foldl St.emit s).on (⟨n, file, stmts, i + 1⟩ :: fs)) n file stmts (i + 1) fs path rest b
      (nestAfter c t) hd' rfl
      (by
        rw [← hp]
        show ((expandOne lib d s.opened path file t).foldl St.emit s).pathOn fs = _
        unfold St.pathOn
        rw [hsame.file, show ((expandOne lib d s.opened path file t).foldl St.emit s).outer = s.outer from h3])
      hfin hnest hb hdep' (by rw [hopen2]; exact hfree)
    rw [hopen2, foldl_on] at q1 q2 q3 q4
    have hexp : expand lib (d + 1) s.opened path file (t :: ts) = expandOne lib d s.opened path file t ++ expand lib (d + 1) s.opened path file ts := rfl
    rw [hexp, List.foldl_append]
    exact ⟨(Reaches.step (step_member lib s s' rest _ fs t hf hs hsome hpr)).trans (hreach.trans q1), q2, q3, q4.trans h3⟩

theorem copies (lib : Lib) (d : Nat) : Copies lib d := by
  induction d with
  | zero =>
    intro ts s n file stmts i fs path rest b c _ _ _ _ _ _ _ hfree
    exact absurd hfree (by omega)
  | succ d ih => exact copies_succ lib d (handles lib d ih)

/-- The whole loop: it goes through the statements of the definition and stops behind its `MEND`, or at the end of the file. -/
theorem base_run (lib : Lib) (d : Nat) (ts : List Stmt) : ∀ (s : St) (c : Nat), s.stack = [] → s.finished = false → s.nest = 1 + c →
    free lib s.above ≤ d →
    Reaches lib ⟨s, ts⟩ ⟨(expand lib (d + 1) s.above [] s.file (split c ts).1).foldl St.emit s, (split c ts).2.getD []⟩ ∧
    ((expand lib (d + 1) s.above [] s.file (split c ts).1).foldl St.emit s).finished = (split c ts).2.isSome ∧
    ((split c ts).2 = none → 1 ≤ ((expand lib (d + 1) s.above [] s.file (split c ts).1).foldl St.emit s).nest) := by
  induction ts with
  | nil =>
    intro s c hs hf hn hfree
    exact ⟨Reaches.refl _ _, hf, fun _ => by simp [split, expand_eq, hn]⟩
  | cons t ts ih =>
    intro s c hs hf hn hfree
    have hready : (s.ready t) = { s with outer := t.line } := by unfold St.ready; rw [hs]; rfl
    have hopen : s.opened = s.above := by unfold St.opened; rw [hs]; rfl
    obtain ⟨s', hpr, hreach, h1, h2, h3⟩ := handles lib d (copies lib d) t s [] s.file ts
      (by rw [hready]; unfold St.path; simp [hs])
      hf (by intro h; omega) (by omega) (by rw [hopen]; exact hfree)
    rw [hopen] at hreach h1 h2 h3
    have hsame := foldl_same (expandOne lib d s.above [] s.file t) (s.ready t)
    have hemit : (expandOne lib d s.above [] s.file t).foldl St.emit (s.ready t) = (expandOne lib d s.above [] s.file t).foldl St.emit s := by
      have : ∃ r qs, expandOne lib d s.above [] s.file t = ⟨t, [⟨s.file, t.line⟩], r⟩ :: qs := by
        unfold expandOne
        cases t.op with
        | copy m =>
          cases m with
          | none => exact ⟨_, _, rfl⟩
          | some n =>
            simp only
            cases lib.find n with
            | none => exact ⟨_, _, rfl⟩
            | some m => simp only; split <;> exact ⟨_, _, rfl⟩
        | _ => exact ⟨_, _, rfl⟩
      obtain ⟨r, qs, h⟩ := this
      rw [h, List.foldl_cons, List.foldl_cons]
      congr 1
      rw [hready]; rfl
    rw [hemit] at hreach h1 h2 h3 hsame
    have hstep : Reaches lib ⟨s, t :: ts⟩ ⟨s', ts⟩ := Reaches.step (step_base lib s s' t ts hf hs hpr)
    obtain ⟨r1, r2, r3, r4, r5⟩ := ready_facts s t
    have next : ∀ c', (split c (t :: ts)) = (t :: (split c' ts).1, (split c' ts).2) → nestAfter s.nest t = 1 + c' → (t.op = .mend → c ≠ 0) →
        Reaches lib ⟨s, t :: ts⟩ ⟨(expand lib (d + 1) s.above [] s.file (split c (t :: ts)).1).foldl St.emit s, (split c (t :: ts)).2.getD []⟩ ∧
        ((expand lib (d + 1) s.above [] s.file (split c (t :: ts)).1).foldl St.emit s).finished = (split c (t :: ts)).2.isSome ∧
        ((split c (t :: ts)).2 = none → 1 ≤ ((expand lib (d + 1) s.above [] s.file (split c (t :: ts)).1).foldl St.emit s).nest) := by
      intro c' hsp hc' hm
      have hfin : ((expandOne lib d s.above [] s.file t).foldl St.emit s).finished = false := by
        rw [h2]
        by_cases h : t.op = .mend
        · have := hm h
          simp only [h, decide_true, Bool.true_and, decide_eq_false_iff_not]; omega
        · simp [h]
      have := ih ((expandOne lib d s.above [] s.file t).foldl St.emit s) c' (by rw [hsame.stack, r1, hs]) hfin (by rw [h1, hc'])
        (by rw [hsame.above, r5]; exact hfree)
      rw [hsame.above, hsame.file, r4, r5] at this
      have hexp : expand lib (d + 1) s.above [] s.file (t :: (split c' ts).1) = expandOne lib d s.above [] s.file t ++ expand lib (d + 1) s.above [] s.file (split c' ts).1 := rfl
      rw [hsp]
      simp only [hexp, List.foldl_append]
      exact ⟨hstep.trans (hreach.trans this.1), this.2.1, this.2.2⟩
    cases hc : t.op with
    | mbegin => exact next (c + 1) (by simp [split, hc]) (by simp [nestAfter, hc]; omega) (by simp [hc])
    | mend =>
      by_cases h0 : c = 0
      · subst h0
        have hsp : split 0 (t :: ts) = ([t], some ts) := by simp [split, hc]
        rw [hsp]
        have hexp : expand lib (d + 1) s.above [] s.file [t] = expandOne lib d s.above [] s.file t := by simp [expand_eq]
        simp only [hexp]
        refine ⟨hstep.trans hreach, ?_, by simp⟩
        rw [h2]; simp [hc, hn]
      · exact next (c - 1) (by simp [split, hc, h0]) (by simp [nestAfter, hc]; omega) (fun _ => h0)
    | anop => exact next c (by simp [split, hc]) (by simp [nestAfter, hc]; omega) (by simp [hc])
    | copy m => exact next c (by simp [split, hc]) (by simp [nestAfter, hc]; omega) (by simp [hc])
    | other x => exact next c (by simp [split, hc]) (by simp [nestAfter, hc]; omega) (by simp [hc])

/-- The state behind the body. -/
def final (lib : Lib) (file : File) (above : List Name) (ts : List Stmt) : St :=
  (bodyOf lib file above ts).foldl St.emit { file := file, above := above }

theorem free_le (lib : Lib) (o : List Name) : free lib o ≤ lib.length := List.length_filter_le _ _

theorem run_final (lib : Lib) (file : File) (above : List Name) (ts : List Stmt) : ∃ k, ∀ m, (start file above ts).run lib (k + m) = some (.done
    (match (split 0 ts).2 with
    | some rest => ⟨final lib file above ts, rest⟩
    | none => ⟨{ final lib file above ts with diags := (final lib file above ts).diags ++ [.E046] }, []⟩)) := by
  obtain ⟨⟨k, hk⟩, h2, h3⟩ := base_run lib lib.length ts { file := file, above := above } 0 rfl rfl rfl (free_le _ _)
  refine ⟨k + 1, fun m => ?_⟩
  have := hk (m + 1)
  rw [show k + 1 + m = k + (m + 1) by omega]
  refine this.trans ?_
  have hstack := (foldl_same (expand lib (lib.length + 1) above [] file (split 0 ts).1) { file := file, above := above }).stack
  cases hsp : (split 0 ts).2 with
  | some rest =>
    rw [hsp] at h2
    exact run_done _ _ _ (step_done lib _ _ h2) m
  | none =>
    rw [hsp] at h2
    exact run_done _ _ _ (step_end lib _ h2 hstack) m
end Verif.MacroDef
