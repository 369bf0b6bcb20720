import Verif.Exec.Spec

/-!
C119: statements are processed in the order of the text with called macros and copied members in place, and each is shown with the statements
that led to it.
-/
namespace Verif.Exec

/-! ## Equations of the specification -/

theorem seen_nil (p : Prog) (c : Ctx) : seen p c [] = ([], .through) := by rw [seen]

theorem seen_says {p : Prog} {c : Ctx} {i : Item} {is : List Item} {code : Option Code} (h : c.depth < nestLimit)
    (he : effect p c i.stmt.op = .says code) :
    seen p c (i :: is) = (⟨i.stmt, c.path ++ i.frames, code⟩ :: (seen p c is).1, (seen p c is).2) := by
  rw [seen, dif_pos h]
  split
  all_goals (rename_i h1; rw [he] at h1; try injection h1)
  rename_i h2; subst h2; rfl

theorem seen_leaves {p : Prog} {c : Ctx} {i : Item} {is : List Item} (h : c.depth < nestLimit)
    (he : effect p c i.stmt.op = .leaves) : seen p c (i :: is) = ([⟨i.stmt, c.path ++ i.frames, none⟩], .left) := by
  rw [seen, dif_pos h]
  split
  all_goals (rename_i h1; first | rfl | (rw [he] at h1; injection h1))

theorem seen_copies {p : Prog} {c : Ctx} {i : Item} {is : List Item} {n : Name} {m : Member} (h : c.depth < nestLimit)
    (he : effect p c i.stmt.op = .copies n m) :
    seen p c (i :: is) =
      match (seen p ⟨c.path ++ i.frames, c.names ++ [n], c.depth⟩ (copied m)).2 with
      | .through => (⟨i.stmt, c.path ++ i.frames, none⟩ :: (seen p ⟨c.path ++ i.frames, c.names ++ [n], c.depth⟩ (copied m)).1 ++ (seen p c is).1,
          (seen p c is).2)
      | e => (⟨i.stmt, c.path ++ i.frames, none⟩ :: (seen p ⟨c.path ++ i.frames, c.names ++ [n], c.depth⟩ (copied m)).1, e) := by
  rw [seen, dif_pos h]
  split
  all_goals (rename_i h1; rw [he] at h1; try injection h1)
  rename_i h2 h3; subst h2 h3; rfl

theorem seen_calls {p : Prog} {c : Ctx} {i : Item} {is : List Item} {b : List Placed} (h : c.depth < nestLimit)
    (he : effect p c i.stmt.op = .calls b) :
    seen p c (i :: is) =
      if (seen p ⟨c.path ++ i.frames, c.names, c.depth + 1⟩ (called b)).2 = .givenUp ∧ c.depth ≠ 0 then
        (⟨i.stmt, c.path ++ i.frames, none⟩ :: (seen p ⟨c.path ++ i.frames, c.names, c.depth + 1⟩ (called b)).1, .givenUp)
      else (⟨i.stmt, c.path ++ i.frames, none⟩ :: (seen p ⟨c.path ++ i.frames, c.names, c.depth + 1⟩ (called b)).1 ++ (seen p c is).1,
        (seen p c is).2) := by
  rw [seen, dif_pos h]
  split
  all_goals (rename_i h1; rw [he] at h1; try injection h1)
  rename_i h2; subst h2; rfl

theorem seen_deep {p : Prog} {c : Ctx} {i : Item} {is : List Item} (h : ¬ c.depth < nestLimit) :
    seen p c (i :: is) = ([⟨i.stmt, c.path ++ i.frames, some .E055⟩], .givenUp) := by
  rw [seen, dif_neg h]

/-! ## States -/

theorem all?_append {α β : Type} (f : α → Option β) (a b : List α) {x y : List β} (ha : all? f a = some x) (hb : all? f b = some y) :
    all? f (a ++ b) = some (x ++ y) := by
  induction a generalizing x with
  | nil => simp [all?] at ha; subst ha; simpa using hb
  | cons e a ih =>
    simp only [all?] at ha
    cases he : f e with
    | none => rw [he] at ha; simp at ha
    | some v =>
      cases hr : all? f a with
      | none => rw [he, hr] at ha; simp at ha
      | some w =>
        rw [he, hr] at ha
        simp only [Option.some.injEq] at ha
        subst ha
        simp [all?, he, ih hr]

theorem at?_nat {α : Type} (l : List α) (k : Nat) : at? l ((k : Int) - 1 + 1) = l[k]? := by
  unfold at?
  rw [if_pos (by omega)]
  congr 1
  omega

theorem called_eq (body : List Placed) : called body = body.map fun b => ⟨b.stmt, nestFrames b.nest⟩ := by
  unfold called
  refine List.map_congr_left fun b _ => ?_
  cases b.nest <;> rfl

/-- The state stands in front of these statements in this context. -/
inductive At (p : Prog) : Ctx → List Item → State → Prop
  | opened (rest : List Stmt) (here : Loc) : At p ⟨[], [], 0⟩ (opened p.file rest) ⟨rest, here, [], []⟩
  | copied (rest : List Stmt) (here : Loc) (cs : List CopyInvo) (n : Name) (f : File) (ts : List Stmt) (k : Nat) (fs : List Frame)
      (hk : k ≤ ts.length) (hf : all? CopyInvo.frame cs = some fs) :
      At p ⟨⟨.opencode, here⟩ :: fs, cs.map (·.name) ++ [n], 0⟩ (copied ⟨f, ts.drop k⟩) ⟨rest, here, cs ++ [⟨n, f, ts, (k : Int) - 1⟩], []⟩
  | called (rest : List Stmt) (here : Loc) (cs : List CopyInvo) (ms : List MacInvo) (body : List Placed) (k : Nat) (fs : List Frame)
      (gs : List (List Frame)) (hk : k ≤ body.length) (hf : all? CopyInvo.frame cs = some fs) (hg : all? MacInvo.frames ms = some gs) :
      At p ⟨⟨.opencode, here⟩ :: fs ++ gs.flatten, cs.map (·.name), ms.length + 1⟩ (called (body.drop k))
        ⟨rest, here, cs, ms ++ [⟨body, (k : Int) - 1⟩]⟩

/-- The state after the innermost macro or member was left. -/
def State.below (s : State) : State :=
  if s.scopes ≠ [] then s.leaveMacro else if s.copies ≠ [] then s.leaveCopy else { s with rest := [], here := ⟨0, 0⟩ }

/-- The end of the statements. -/
theorem At.done {p : Prog} {c : Ctx} {s : State} (h : At p c [] s) :
    (c.names = [] ∧ c.depth = 0 ∧ step p s = ([], .finished)) ∨ step p s = ([], .running s.below) := by
  generalize hi : ([] : List Item) = is at h
  cases h with
  | opened rest here =>
    left
    cases rest with
    | nil => exact ⟨rfl, rfl, rfl⟩
    | cons t ts => simp [Exec.opened] at hi
  | copied rest here cs n f ts k fs hk hf =>
    right
    have : k = ts.length := by
      simp only [Exec.copied] at hi
      have := congrArg List.length hi
      simp at this
      omega
    subst this
    simp [step, State.next, State.below]
  | called rest here cs ms body k fs gs hk hf hg =>
    right
    have : k = body.length := by
      simp only [Exec.called_eq] at hi
      have := congrArg List.length hi
      simp at this
      omega
    subst this
    simp [step, State.next, State.below]

/-- The next statement. -/
theorem At.next {p : Prog} {c : Ctx} {i : Item} {is : List Item} {s : State} (h : At p c (i :: is) s) :
    ∃ s', s.next p = .stmt i.stmt s' ∧ At p c is s' ∧ s'.stack = some (c.path ++ i.frames) ∧ s'.copies.map (·.name) = c.names ∧
      s'.scopes.length = c.depth ∧ s'.below = s.below ∧ (c.depth ≠ 0 → { s' with scopes := [] } = { s with scopes := [] }) ∧
      (∃ fs gs, all? CopyInvo.frame s'.copies = some fs ∧ all? MacInvo.frames s'.scopes = some gs ∧
        c.path ++ i.frames = ⟨.opencode, s'.here⟩ :: fs ++ gs.flatten) := by
  generalize hi : i :: is = js at h
  cases h with
  | opened rest here =>
    cases rest with
    | nil => simp [Exec.opened] at hi
    | cons t ts =>
      simp only [Exec.opened, List.map_cons, List.cons.injEq] at hi
      obtain ⟨rfl, rfl⟩ := hi
      exact ⟨_, rfl, At.opened ts ⟨p.file, t.line⟩, rfl, rfl, rfl, rfl, by simp, [], [], rfl, rfl, rfl⟩
  | copied rest here cs n f ts k fs hk hf =>
    have hlt : k < ts.length := by
      simp only [Exec.copied] at hi
      have := congrArg List.length hi
      simp at this
      omega
    simp only [Exec.copied, List.drop_eq_getElem_cons hlt, List.map_cons, List.cons.injEq] at hi
    obtain ⟨rfl, rfl⟩ := hi
    have ha : at? ts ((k : Int) - 1 + 1) = some ts[k] := by rw [at?_nat]; simp [hlt]
    have hfr : all? CopyInvo.frame (cs ++ [⟨n, f, ts, (k : Int) - 1 + 1⟩]) = some (fs ++ [⟨.copied, ⟨f, ts[k].line⟩⟩]) := by
      apply all?_append _ _ _ hf
      simp only [all?, CopyInvo.frame, ha, Option.map_some]
    refine ⟨⟨rest, here, cs ++ [⟨n, f, ts, (k : Int) - 1 + 1⟩], []⟩, ?_, ?_, ?_, ?_, rfl, ?_, by simp, ?_⟩
    · simp only [State.next, List.getLast?_nil, List.getLast?_append, List.getLast?_singleton, Option.some_or]
      rw [if_neg (by omega), ha]
      simp
    · have := At.copied (p := p) rest here cs n f ts (k + 1) fs (by omega) hf
      rw [show ((k + 1 : Nat) : Int) - 1 = (k : Int) - 1 + 1 by omega] at this
      exact this
    · simp only [State.stack, hfr]
      simp [all?]
    · simp
    · simp [State.below, State.leaveCopy]
    · exact ⟨_, [], hfr, rfl, by simp⟩
  | called rest here cs ms body k fs gs hk hf hg =>
    have hlt : k < body.length := by
      simp only [Exec.called_eq] at hi
      have := congrArg List.length hi
      simp at this
      omega
    simp only [Exec.called_eq, List.drop_eq_getElem_cons hlt, List.map_cons, List.cons.injEq] at hi
    obtain ⟨rfl, rfl⟩ := hi
    have ha : at? body ((k : Int) - 1 + 1) = some body[k] := by rw [at?_nat]; simp [hlt]
    have hfr : all? MacInvo.frames (ms ++ [⟨body, (k : Int) - 1 + 1⟩]) = some (gs ++ [nestFrames body[k].nest]) := by
      apply all?_append _ _ _ hg
      simp only [all?, MacInvo.frames, ha, Option.map_some]
    refine ⟨⟨rest, here, cs, ms ++ [⟨body, (k : Int) - 1 + 1⟩]⟩, ?_, ?_, ?_, rfl, by simp, ?_, by simp, ?_⟩
    · simp only [State.next, List.getLast?_append, List.getLast?_singleton, Option.some_or]
      rw [if_neg (by omega), ha]
      simp
    · have := At.called (p := p) rest here cs ms body (k + 1) fs gs (by omega) hf hg
      rw [show ((k + 1 : Nat) : Int) - 1 = (k : Int) - 1 + 1 by omega] at this
      rw [← Exec.called_eq]; exact this
    · simp only [State.stack, hf, hfr]
      simp
    · simp [State.below, State.leaveMacro]
    · exact ⟨fs, _, hf, hfr, by simp⟩

theorem At.enterMacro {p : Prog} {c : Ctx} {s : State} {st : List Frame} (b : List Placed) (h3 : s.copies.map (·.name) = c.names)
    (h4 : s.scopes.length = c.depth)
    (h6 : ∃ fs gs, all? CopyInvo.frame s.copies = some fs ∧ all? MacInvo.frames s.scopes = some gs ∧
        st = ⟨.opencode, s.here⟩ :: fs ++ gs.flatten) :
    At p ⟨st, c.names, c.depth + 1⟩ (Exec.called b) (s.enterMacro b) ∧ (s.enterMacro b).below = s := by
  obtain ⟨fs, gs, hf, hg, rfl⟩ := h6
  refine ⟨?_, ?_⟩
  · have := At.called (p := p) s.rest s.here s.copies s.scopes b 0 fs gs (by omega) hf hg
    rw [h3, h4] at this
    exact this
  · simp [State.enterMacro, State.below, State.leaveMacro]

theorem At.enterCopy {p : Prog} {c : Ctx} {s : State} {st : List Frame} (n : Name) (m : Member) (h3 : s.copies.map (·.name) = c.names)
    (h4 : s.scopes.length = c.depth) (h0 : c.depth = 0)
    (h6 : ∃ fs gs, all? CopyInvo.frame s.copies = some fs ∧ all? MacInvo.frames s.scopes = some gs ∧
        st = ⟨.opencode, s.here⟩ :: fs ++ gs.flatten) :
    At p ⟨st, c.names ++ [n], c.depth⟩ (Exec.copied m) (s.enterCopy n m) ∧ (s.enterCopy n m).below = s := by
  obtain ⟨fs, gs, hf, hg, rfl⟩ := h6
  have hs : s.scopes = [] := List.length_eq_zero_iff.1 (by omega)
  rw [hs] at hg
  simp only [all?, Option.some.injEq] at hg
  subst hg
  refine ⟨?_, ?_⟩
  · have := At.copied (p := p) s.rest s.here s.copies n m.file m.stmts 0 fs (by omega) hf
    rw [h3] at this
    simp only [h0, State.enterCopy, hs]
    simpa using this
  · rcases s with ⟨a, b1, c1, d1⟩
    simp only at hs
    subst hs
    simp [State.enterCopy, State.below, State.leaveCopy]

/-! ## Runs -/

theorem run_append {p : Prog} {a b : Nat} {s s1 : State} {e1 e2 : List Event} {st : Status} (h1 : run p a s = (e1, .running s1))
    (h2 : run p b s1 = (e2, st)) : run p (a + b) s = (e1 ++ e2, st) := by
  induction a generalizing s e1 with
  | zero =>
    simp only [run, Prod.mk.injEq, Status.running.injEq] at h1
    obtain ⟨rfl, rfl⟩ := h1
    simpa using h2
  | succ a ih =>
    rw [show a + 1 + b = (a + b) + 1 by omega]
    rcases hs : step p s with ⟨es, st'⟩
    simp only [run, hs] at h1 ⊢
    cases st' with
    | running s' =>
      simp only [Prod.mk.injEq] at h1 ⊢
      obtain ⟨rfl, h1⟩ := h1
      have := ih (s := s') (e1 := (run p a s').1) (by rw [← h1])
      rw [this]
      simp
    | undefined => simp at h1
    | finished => simp at h1

theorem run_one {p : Prog} {s s' : State} {es : List Event} (h : step p s = (es, .running s')) : run p 1 s = (es, .running s') := by
  simp [run, h]

/-- The statement as it is seen. -/
def Event.view (e : Event) : Option Seen := e.stack.map fun st => ⟨e.stmt, st, e.said.map (·.1)⟩

/-- What is said is shown at the place where it belongs. -/
def Event.InPlace (e : Event) : Prop :=
  ∀ z c d, e.view = some z → e.said = some (c, d) → c ≠ .E055 → d = some (wanted z c)

/-- These events show exactly this. -/
def Shows (es : List Event) (zs : List Seen) : Prop := es.map Event.view = zs.map some ∧ ∀ e ∈ es, e.InPlace

theorem Shows.append {a b : List Event} {x y : List Seen} (h1 : Shows a x) (h2 : Shows b y) : Shows (a ++ b) (x ++ y) := by
  refine ⟨by rw [List.map_append, List.map_append, h1.1, h2.1], ?_⟩
  intro e he
  rcases List.mem_append.1 he with h | h
  · exact h1.2 e h
  · exact h2.2 e h

theorem stack_ne {s : State} {st : List Frame} (h : s.stack = some st) : st ≠ [] := by
  unfold State.stack at h
  split at h
  · simp only [Option.some.injEq] at h
    subst h
    simp
  · simp at h

theorem show_eq {s : State} {st : List Frame} (h : s.stack = some st) (t : Stmt) (code : Code) (o : Option Code) :
    s.show code t.line = some (wanted ⟨t, st, o⟩ code) := by
  have hne := stack_ne h
  unfold State.show wanted
  rw [h]
  simp only
  obtain ⟨l, x, rfl⟩ : ∃ l x, st = l ++ [x] := ⟨st.dropLast, st.getLast hne, (List.dropLast_concat_getLast hne).symm⟩
  simp

theorem shows_one {s : State} {st : List Frame} (h : s.stack = some st) (t : Stmt) (code : Option Code) :
    Shows [⟨t, s.stack, code.map fun k => (k, s.show k t.line)⟩] [⟨t, st, code⟩] := by
  refine ⟨by cases code <;> simp [Event.view, h], ?_⟩
  intro e he z c d hv hs hc
  simp only [List.mem_singleton] at he
  subst he
  cases code with
  | none => simp at hs
  | some k =>
    simp only [Option.map_some, Option.some.injEq, Prod.mk.injEq] at hs
    obtain ⟨rfl, rfl⟩ := hs
    simp only [Event.view, h, Option.map_some, Option.some.injEq] at hv
    subst hv
    exact show_eq h t k _

theorem shows_deep {s s' : State} {st : List Frame} (h : s.stack = some st) (t : Stmt) :
    Shows [⟨t, s.stack, s'.say .E055 t.line⟩] [⟨t, st, some .E055⟩] := by
  refine ⟨by simp [Event.view, h, State.say], ?_⟩
  intro e he z c d hv hs hc
  simp only [List.mem_singleton] at he
  subst he
  simp only [State.say, Option.some.injEq, Prod.mk.injEq] at hs
  exact absurd hs.1.symm hc

/-- Processing does what the statement is expected to do. -/
theorem process_effect {p : Prog} {c : Ctx} {s : State} (h3 : s.copies.map (·.name) = c.names) (h4 : s.scopes.length = c.depth)
    (hd : c.depth < nestLimit) (t : Stmt) :
    process p s t =
      match effect p c t.op with
      | .says code => (code.map (fun k => (k, s.show k t.line)), s)
      | .leaves => (none, s.leaveMacro)
      | .copies n m => (none, s.enterCopy n m)
      | .calls b => (none, s.enterMacro b) := by
  have h0 : (c.depth = 0) ↔ s.scopes = [] := by rw [← h4]; exact List.length_eq_zero_iff
  unfold process
  rw [if_neg (by omega)]
  rcases t with ⟨line, op⟩
  cases op with
  | other said => cases said <;> rfl
  | call m => simp only [effect]; cases p.macro m <;> rfl
  | copy n =>
    cases n with
    | none => rfl
    | some n =>
      simp only [effect, processCopy, h3]
      cases p.member n with
      | none => rfl
      | some m => by_cases hn : n ∈ c.names <;> simp [hn, State.say]
  | mexit => by_cases h : s.scopes = [] <;> simp [effect, h0, h, State.say]
  | mend => by_cases h : s.scopes = [] <;> simp [effect, h0, h, State.say]

theorem step_of_next {p : Prog} {s s' : State} {t : Stmt} (h : s.next p = .stmt t s') :
    step p s = ([⟨t, s'.stack, (process p s' t).1⟩], .running (process p s' t).2) := by
  simp only [step, h]

/-- Where a run is when the statements have ended. -/
def Reached (p : Prog) (c : Ctx) (s s' : State) : Ends → Prop
  | .through => At p c [] s' ∧ s'.below = s.below
  | .left => c.depth ≠ 0 ∧ s' = s.below
  | .givenUp => c.depth ≠ 0 ∧ s' = { s with scopes := [] }

theorem called_noCopy {p : Prog} (hp : p.NoCopyInMacros) {m : Name} {b : List Placed} (h : p.macro m = some b) :
    ∀ i ∈ called b, ∀ n, i.stmt.op ≠ .copy n := by
  unfold Prog.macro at h
  simp only [Option.map_eq_some_iff] at h
  obtain ⟨e, he, rfl⟩ := h
  intro i hi n
  simp only [called_eq, List.mem_map] at hi
  obtain ⟨x, hx, rfl⟩ := hi
  exact hp e (List.mem_of_find?_eq_some he) x hx n

theorem effect_calls {p : Prog} {c : Ctx} {op : Op} {b : List Placed} (h : effect p c op = .calls b) : ∃ m, p.macro m = some b := by
  cases op with
  | other said => simp [effect] at h
  | call m =>
    refine ⟨m, ?_⟩
    simp only [effect] at h
    cases hm : p.macro m with
    | none => rw [hm] at h; simp at h
    | some x => rw [hm] at h; injection h with h; rw [h]
  | copy n =>
    cases n with
    | none => simp [effect] at h
    | some n =>
      simp only [effect] at h
      split at h
      · simp at h
      · split at h <;> simp at h
  | mexit => simp only [effect] at h; split at h <;> simp at h
  | mend => simp only [effect] at h; split at h <;> simp at h

/-- The loop shows what it has to show. -/
theorem run_seen {p : Prog} (hp : p.NoCopyInMacros) (c : Ctx) (is : List Item) :
    ∀ s, At p c is s → (c.depth ≠ 0 → ∀ i ∈ is, ∀ n, i.stmt.op ≠ .copy n) →
      ∃ k es s', run p k s = (es, .running s') ∧ Shows es (seen p c is).1 ∧ Reached p c s s' (seen p c is).2 := by
  induction c, is using seen.induct p with
  | case1 c =>
    intro s h _
    exact ⟨0, [], s, rfl, ⟨by simp [seen_nil], by simp⟩, by rw [seen_nil]; exact ⟨h, rfl⟩⟩
  | case2 c i is hd code he ih =>
    intro s h hn
    obtain ⟨s1, h1, h2, hst, h3, h4, h5, h7, h6⟩ := h.next
    have hpr := process_effect (p := p) h3 h4 hd i.stmt
    rw [he] at hpr
    obtain ⟨k, es, s', hr, hs, hre⟩ := ih s1 h2 (fun hc j hj => hn hc j (List.mem_cons_of_mem _ hj))
    have hstep := step_of_next h1
    rw [hpr] at hstep
    rw [seen_says hd he]
    refine ⟨1 + k, _, s', run_append (run_one hstep) hr, (shows_one hst i.stmt code).append hs, ?_⟩
    cases hE : (seen p c is).2 with
    | through => rw [hE] at hre; exact ⟨hre.1, hre.2.trans h5⟩
    | left => rw [hE] at hre; exact ⟨hre.1, hre.2.trans h5⟩
    | givenUp => rw [hE] at hre; exact ⟨hre.1, hre.2.trans (h7 hre.1)⟩
  | case3 c i is hd he =>
    intro s h hn
    obtain ⟨s1, h1, h2, hst, h3, h4, h5, h7, h6⟩ := h.next
    have hpr := process_effect (p := p) h3 h4 hd i.stmt
    rw [he] at hpr
    have hstep := step_of_next h1
    rw [hpr] at hstep
    have hc : c.depth ≠ 0 := by
      intro hc
      cases hop : i.stmt.op with
      | mexit => simp [effect, hop, hc] at he
      | mend => simp [effect, hop, hc] at he
      | other x => simp [effect, hop] at he
      | call m => simp only [effect, hop] at he; split at he <;> simp at he
      | copy n =>
        cases n with
        | none => simp [effect, hop] at he
        | some n =>
          simp only [effect, hop] at he
          split at he
          · simp at he
          · split at he <;> simp at he
    rw [seen_leaves hd he]
    refine ⟨1, _, _, run_one hstep, shows_one hst i.stmt none, hc, ?_⟩
    rw [← h5]
    have : s1.scopes ≠ [] := by intro hs; rw [hs] at h4; simp at h4; omega
    simp [State.below, this]
  | case4 c i is hd n m he inner hin ih1 ih2 =>
    intro s h hn
    obtain ⟨s1, h1, h2, hst, h3, h4, h5, h7, h6⟩ := h.next
    have hpr := process_effect (p := p) h3 h4 hd i.stmt
    rw [he] at hpr
    have hstep := step_of_next h1
    rw [hpr] at hstep
    have hc : c.depth = 0 := by
      apply Classical.byContradiction
      intro hc
      exact hn hc i (List.mem_cons_self ..) _ (effect_copies he).1
    obtain ⟨hA, hB⟩ := At.enterCopy (p := p) n m h3 h4 hc h6
    obtain ⟨k, es, s', hr, hs, hre⟩ := ih1 _ hA (fun h => absurd hc h)
    have hin' : (seen p ⟨c.path ++ i.frames, c.names ++ [n], c.depth⟩ (copied m)).2 = .through := hin
    rw [hin'] at hre
    obtain ⟨hre1, hre2⟩ := hre
    have hback : step p s' = ([], .running s1) := by
      rcases hre1.done with ⟨x, -⟩ | x
      · simp at x
      · rw [x, hre2, hB]
    obtain ⟨k2, es2, s2, hr2, hs2, hre3⟩ := ih2 s1 h2 (fun hc j hj => hn hc j (List.mem_cons_of_mem _ hj))
    rw [seen_copies hd he, hin']
    refine ⟨1 + (k + (1 + k2)), _, s2, run_append (run_one hstep) (run_append hr (run_append (run_one hback) hr2)), ?_, ?_⟩
    · have := (shows_one hst i.stmt none).append (hs.append hs2)
      simpa using this
    · simp only
      cases hE : (seen p c is).2 with
      | through => rw [hE] at hre3; exact ⟨hre3.1, hre3.2.trans h5⟩
      | left => rw [hE] at hre3; exact ⟨hre3.1, hre3.2.trans h5⟩
      | givenUp => rw [hE] at hre3; exact absurd hc hre3.1
  | case5 c i is hd n m he inner hin ih1 =>
    intro s h hn
    exfalso
    obtain ⟨s1, h1, h2, hst, h3, h4, h5, h7, h6⟩ := h.next
    have hc : c.depth = 0 := by
      apply Classical.byContradiction
      intro hc
      exact hn hc i (List.mem_cons_self ..) _ (effect_copies he).1
    obtain ⟨hA, hB⟩ := At.enterCopy (p := p) n m h3 h4 hc h6
    obtain ⟨k, es, s', hr, hs, hre⟩ := ih1 _ hA (fun h => absurd hc h)
    cases hE : (seen p ⟨c.path ++ i.frames, c.names ++ [n], c.depth⟩ (copied m)).2 with
    | through => exact hin hE
    | left => rw [hE] at hre; exact hre.1 hc
    | givenUp => rw [hE] at hre; exact hre.1 hc
  | case6 c i is hd b he inner hin ih1 =>
    intro s h hn
    obtain ⟨s1, h1, h2, hst, h3, h4, h5, h7, h6⟩ := h.next
    have hpr := process_effect (p := p) h3 h4 hd i.stmt
    rw [he] at hpr
    have hstep := step_of_next h1
    rw [hpr] at hstep
    obtain ⟨hA, hB⟩ := At.enterMacro (p := p) b h3 h4 h6
    obtain ⟨mm, hmm⟩ := effect_calls he
    obtain ⟨k, es, s', hr, hs, hre⟩ := ih1 _ hA (fun _ => called_noCopy hp hmm)
    have hin' : (seen p ⟨c.path ++ i.frames, c.names, c.depth + 1⟩ (called b)).2 = .givenUp ∧ c.depth ≠ 0 := hin
    rw [seen_calls hd he, if_pos hin']
    rw [hin'.1] at hre
    refine ⟨1 + k, _, s', run_append (run_one hstep) hr, (shows_one hst i.stmt none).append hs, hin'.2, ?_⟩
    rw [hre.2, ← h7 hin'.2]
    rfl
  | case7 c i is hd b he inner hin ih1 ih2 =>
    intro s h hn
    obtain ⟨s1, h1, h2, hst, h3, h4, h5, h7, h6⟩ := h.next
    have hpr := process_effect (p := p) h3 h4 hd i.stmt
    rw [he] at hpr
    have hstep := step_of_next h1
    rw [hpr] at hstep
    obtain ⟨hA, hB⟩ := At.enterMacro (p := p) b h3 h4 h6
    obtain ⟨mm, hmm⟩ := effect_calls he
    obtain ⟨k, es, s', hr, hs, hre⟩ := ih1 _ hA (fun _ => called_noCopy hp hmm)
    have hin' : ¬ ((seen p ⟨c.path ++ i.frames, c.names, c.depth + 1⟩ (called b)).2 = .givenUp ∧ c.depth ≠ 0) := hin
    rw [seen_calls hd he, if_neg hin']
    have hback : ∃ k', run p k' s' = ([], .running s1) := by
      cases hE : (seen p ⟨c.path ++ i.frames, c.names, c.depth + 1⟩ (called b)).2 with
      | through =>
        rw [hE] at hre
        obtain ⟨hre1, hre2⟩ := hre
        refine ⟨1, run_one ?_⟩
        rcases hre1.done with ⟨-, x, -⟩ | x
        · simp at x
        · rw [x, hre2, hB]
      | left =>
        rw [hE] at hre
        refine ⟨0, ?_⟩
        rw [hre.2, hB]
        rfl
      | givenUp =>
        rw [hE] at hre
        have hc : c.depth = 0 := by
          apply Classical.byContradiction
          intro hc
          exact hin' ⟨hE, hc⟩
        refine ⟨0, ?_⟩
        have hs1 : s1.scopes = [] := List.length_eq_zero_iff.1 (by omega)
        rw [hre.2]
        rcases s1 with ⟨a, b1, c1, d1⟩
        simp only at hs1
        subst hs1
        rfl
    obtain ⟨k', hback⟩ := hback
    obtain ⟨k2, es2, s2, hr2, hs2, hre3⟩ := ih2 s1 h2 (fun hc j hj => hn hc j (List.mem_cons_of_mem _ hj))
    refine ⟨1 + (k + (k' + k2)), _, s2, run_append (run_one hstep) (run_append hr (run_append hback hr2)), ?_, ?_⟩
    · have := (shows_one hst i.stmt none).append (hs.append hs2)
      simpa using this
    · cases hE : (seen p c is).2 with
      | through => rw [hE] at hre3; exact ⟨hre3.1, hre3.2.trans h5⟩
      | left => rw [hE] at hre3; exact ⟨hre3.1, hre3.2.trans h5⟩
      | givenUp => rw [hE] at hre3; exact ⟨hre3.1, hre3.2.trans (h7 hre3.1)⟩
  | case8 c i is hd =>
    intro s h hn
    obtain ⟨s1, h1, h2, hst, h3, h4, h5, h7, h6⟩ := h.next
    have hc : c.depth ≠ 0 := by unfold nestLimit at hd; omega
    have hstep := step_of_next h1
    have hpr : process p s1 i.stmt = (({ s1 with scopes := [] } : State).say .E055 i.stmt.line, { s1 with scopes := [] }) := by
      unfold process
      rw [if_pos (by omega)]
    rw [hpr] at hstep
    rw [seen_deep hd]
    exact ⟨1, _, _, run_one hstep, shows_deep hst i.stmt, hc, h7 hc⟩

end Verif.Exec
