import Verif.Gen.Scopes

/-!
Calls: the processing of the statements of a macro is the obeying of its body.
-/
namespace Verif.Gen

open Verif.Gen.Spec

variable {S : Sem} {u : Bool}

/-- Some turns lead from one state to another. -/
def Steps (P : Prog S) (s s' : State S) : Prop := ∃ n, ∀ m, s.run P (n + m) = s'.run P m

theorem Steps.refl (P : Prog S) (s : State S) : Steps P s s := ⟨0, fun m => by rw [Nat.zero_add]⟩

theorem Steps.trans {P : Prog S} {a b c : State S} (h : Steps P a b) (h' : Steps P b c) : Steps P a c := by
  obtain ⟨n, hn⟩ := h
  obtain ⟨k, hk⟩ := h'
  exact ⟨n + k, fun m => by rw [Nat.add_assoc, hn, hk]⟩

theorem Steps.turn {P : Prog S} {s s' : State S} (h : s.turn P = .next s') : Steps P s s' :=
  ⟨1, fun m => by rw [Nat.add_comm]; simp only [State.run, h]⟩

theorem offsets_eq (sts : List (Stmt S)) (i : Nat) (t : Lab → Option Nat) (l : Lab) :
    offsets sts i t l = match t l with
      | some j => some j
      | none => (place sts l).map (· + i) := by
  induction sts generalizing i t with
  | nil =>
    unfold offsets place
    cases t l <;> rfl
  | cons st sts ih =>
    unfold offsets
    rw [ih]
    cases t l with
    | some j => rfl
    | none =>
      simp only [place, List.findIdx?_cons]
      by_cases h : st.lab = some l
      · simp [h]
      · simp only [h, if_false, decide_false, Bool.false_eq_true, Option.map_map]
        congr 1
        funext k
        simp only [Function.comp]
        omega

theorem offsets_place (body : List (Stmt S)) (l : Lab) : offsets body 0 (fun _ => none) l = place body l := by
  rw [offsets_eq]
  simp

theorem place_lt {body : List (Stmt S)} {l : Lab} {i : Nat} (h : place body l = some i) : i < body.length := by
  unfold place at h
  exact (List.findIdx?_eq_some_iff_findIdx_eq.mp h).1

theorem obey_none (d : Nat) {body : List (Stmt S)} {pc : Nat} (f : Frame S) (w : World S) (h : body[pc]? = none) :
    obey d body pc f w = (w, .through) := by
  rw [obey]
  split
  · rfl
  · rename_i h'
    rw [h] at h'
    cases h'

theorem obey_some (d : Nat) {body : List (Stmt S)} {pc : Nat} (f : Frame S) (w : World S) {st : Stmt S}
    (h : body[pc]? = some st) :
    obey d body pc f w =
      if d ≥ 100 then (w.tell (.err .E055), .givenUp)
      else if f.branches < 0 then (w.tell (.err .E056), if d = 0 then .over else .through)
      else if f.actrs > 100 then (w.tell (.err .E063), .over)
      else
        match asks d f w st with
        | .next names w => obey d body (pc + 1) { f with names := names } w
        | .goto l =>
          match place body l with
          | some i => obey d body i { f with branches := f.branches - 1 } w
          | none => obey d body (pc + 1) f (w.tell (.err .E047))
        | .limit n => obey d body (pc + 1) { f with branches := n, actrs := f.actrs + 1 } w
        | .leave => (w, .through)
        | .obey m args =>
          let r := obey (d + 1) m.body 0 (Frame.call m.params args w.calls) { w with calls := w.calls + 1 }
          match r.2 with
          | .through => obey d body (pc + 1) f r.1
          | .givenUp => if d = 0 then obey d body (pc + 1) f r.1 else (r.1, .givenUp)
          | .over => (r.1, .over) := by
  rw [obey]
  split
  · rename_i h'
    rw [h] at h'
    cases h'
  · rename_i st' h'
    rw [h] at h'
    cases h'
    simp only [dite_eq_ite]
    rfl

theorem registerHere_in {s : State S} (h : s.calls ≠ []) (l : Option Lab) : s.registerHere l = s := by
  unfold State.registerHere
  cases hc : s.calls with
  | nil => exact absurd hc h
  | cons c cs => rfl

theorem perform_in (P : Prog S) {s : State S} (h : s.calls ≠ []) (st : Stmt S) : s.perform P st = s.act P st.op := by
  unfold State.perform State.act
  rw [registerHere_in h]
  cases st.op <;> rfl

/-- What calls leave as it was. -/
structure Kept (s s' : State S) : Prop where
  main : s'.main = s.main
  pos : s'.pos = s.pos
  syms : s'.syms = s.syms
  stop : s'.stop = s.stop

theorem Kept.trans {a b c : State S} (h : Kept a b) (h' : Kept b c) : Kept a c :=
  ⟨h'.main.trans h.main, h'.pos.trans h.pos, h'.syms.trans h.syms, h'.stop.trans h.stop⟩

/-- Where the processing is after a call that ended in a given way; `cs` are the calls around it. -/
def After (cs : List (Call S)) (s : State S) : End → Prop
  | .through => s.calls = cs ∧ s.finished = false
  | .givenUp => s.calls = [] ∧ s.finished = false
  | .over => s.finished = true

/-- A call processed to its end. -/
def Result (u : Bool) (P : Prog S) (cs : List (Call S)) (s : State S) (r : World S × End) : Prop :=
  ∃ s', Steps P s s' ∧ Kept s s' ∧ W u s' r.1 ∧ After cs s' r.2

theorem Result.of {P : Prog S} {cs : List (Call S)} {s s' : State S} {r : World S × End} (h : Steps P s s') (hk : Kept s s')
    (hr : Result u P cs s' r) : Result u P cs s r := by
  obtain ⟨t, h1, h2, h3, h4⟩ := hr
  exact ⟨t, h.trans h1, hk.trans h2, h3, h4⟩

/-- What holds before each statement of a call. -/
structure Ready (u : Bool) (cs : List (Call S)) (body : List (Stmt S)) (pc : Nat) (f : Frame S) (w : World S) (c : Call S) (s : State S) : Prop where
  calls : s.calls = c :: cs
  within : pc ≤ body.length
  body : c.body = body
  next : c.next = pc
  going : s.finished = false
  frame : F s f
  world : W u s w

theorem Like.kept {s s' : State S} (h : Like s s') (hc : s.calls ≠ []) : Kept s s' := ⟨h.main hc, h.pos, h.syms, h.stop⟩

/-- The call with the statement taken. -/
def taken (s : State S) (c : Call S) (cs : List (Call S)) : State S := { s with calls := { c with next := c.next + 1 } :: cs }

theorem taken_frame {s : State S} {c : Call S} {cs : List (Call S)} {f : Frame S} (hc : s.calls = c :: cs) (h : F s f) :
    F (taken s c cs) f := by
  refine ⟨?_, ?_, ?_, ?_⟩
  · rw [h.names]
    simp [taken, State.scope, State.params, hc]
  · rw [h.branches]
    simp [taken, State.scope, hc]
  · rw [h.actrs]
    simp [taken, State.scope, hc]
  · rw [h.ndx]
    simp [taken, State.num, hc]

theorem taken_world {s : State S} {c : Call S} {cs : List (Call S)} {w : World S} (h : W u s w) : W u (taken s c cs) w :=
  ⟨h.macros, h.globals, h.calls, h.told⟩

theorem turn_statement {P : Prog S} {cs : List (Call S)} {body : List (Stmt S)} {pc : Nat} {f : Frame S} {w : World S} {c : Call S}
    {s : State S} (h : Ready u cs body pc f w c s) {st : Stmt S} (hst : body[pc]? = some st) :
    s.turn P = .next ((taken s c cs).process P st) := by
  unfold State.turn
  rw [h.going, h.calls]
  have hl : pc < body.length := (List.getElem?_eq_some_iff.mp hst).1
  have hne : ¬ c.next = c.body.length := by
    rw [h.next, h.body]
    omega
  simp only [Bool.false_eq_true, if_false, hne]
  rw [h.body, h.next, hst]
  simp only [taken, h.next, h.body, h.going]

theorem taken_perform (P : Prog S) (s : State S) (c : Call S) (cs : List (Call S)) (st : Stmt S) :
    (taken s c cs).perform P st = (taken s c cs).act P st.op := perform_in P (by simp [taken]) st

theorem fatal_none {s : State S} {f : Frame S} (hF : F s f) (h1 : ¬ s.calls.length ≥ 100) (h2 : ¬ f.branches < 0) (h3 : ¬ f.actrs > 100) :
    s.fatal = none := by
  unfold State.fatal
  rw [if_neg (by omega), if_neg (by rw [← hF.branches]; exact h2), if_neg (by rw [← hF.actrs]; exact h3)]

theorem turn_acts {P : Prog S} {cs : List (Call S)} {body : List (Stmt S)} {pc : Nat} {f : Frame S} {w : World S} {c : Call S}
    {s : State S} (h : Ready u cs body pc f w c s) {st : Stmt S} (hst : body[pc]? = some st) (h1 : ¬ cs.length + 1 ≥ 100)
    (h2 : ¬ f.branches < 0) (h3 : ¬ f.actrs > 100) :
    Steps P s ((taken s c cs).act P st.op) := by
  apply Steps.turn
  rw [turn_statement h hst]
  unfold State.process
  rw [fatal_none (taken_frame h.calls h.frame) (by simpa [taken] using h1) h2 h3]
  simp only
  rw [taken_perform]

theorem kept_taken (s : State S) (c : Call S) (cs : List (Call S)) : Kept s (taken s c cs) := ⟨rfl, rfl, rfl, rfl⟩

/-- After a statement that leaves the stack of calls as it was, the call is ready for the next statement. -/
theorem Ready.step {cs : List (Call S)} {body : List (Stmt S)} {pc : Nat} {f f' : Frame S} {w w' : World S} {c : Call S} {s s' : State S}
    (h : Ready u cs body pc f w c s) (hl : pc < body.length) (hk : Like (taken s c cs) s') (hF : F s' f') (hW : W u s' w') :
    ∃ c', Ready u cs body (pc + 1) f' w' c' s' := by
  have h1 := hk.calls
  simp only [taken] at h1
  obtain ⟨sc, h1⟩ := h1
  refine ⟨_, h1, ?_, ?_, ?_, ?_, hF, hW⟩
  · omega
  · exact h.body
  · simp [h.next]
  · rw [hk.finished]
    exact h.going

theorem inside (P : Prog S) (d : Nat) (body : List (Stmt S)) (pc : Nat) (f : Frame S) (w : World S) :
    ∀ (cs : List (Call S)) (c : Call S) (s : State S), cs.length + 1 = d → Ready u cs body pc f w c s →
      Result u P cs s (obey d body pc f w) := by
  induction d, body, pc, f, w using obey.induct with
  | case1 d body pc f w hst =>
    intro cs c s hd h
    rw [obey_none d f w hst]
    refine ⟨s.leave, Steps.turn ?_, ⟨rfl, rfl, rfl, rfl⟩, ⟨h.world.macros, h.world.globals, h.world.calls, h.world.told⟩, ?_, h.going⟩
    · have := List.getElem?_eq_none_iff.mp hst
      have hw := h.within
      unfold State.turn
      rw [h.going, h.calls]
      simp only [Bool.false_eq_true, if_false]
      rw [if_pos (by rw [h.next, h.body]; omega)]
    · simp [State.leave, h.calls]
  | case2 d body pc f w st hst h1 =>
    intro cs c s hd h
    rw [obey_some d f w hst, if_pos h1]
    refine ⟨({ taken s c cs with calls := [] } : State S).tell (.err .E055), Steps.turn ?_, ⟨rfl, rfl, rfl, rfl⟩, ?_, rfl, h.going⟩
    · rw [turn_statement h hst]
      unfold State.process State.fatal
      rw [if_pos (by simp only [taken, List.length_cons]; omega)]
    · have : W u ({ taken s c cs with calls := [] } : State S) w := ⟨h.world.macros, h.world.globals, h.world.calls, h.world.told⟩
      exact this.tell _ rfl
  | case3 d body pc f w st hst h1 h2 =>
    intro cs c s hd h
    rw [obey_some d f w hst, if_neg h1, if_pos h2, if_neg (by omega)]
    refine ⟨((taken s c cs).tell (.err .E056)).leave, Steps.turn ?_, ⟨rfl, rfl, rfl, rfl⟩, ?_, rfl, h.going⟩
    · rw [turn_statement h hst]
      unfold State.process State.fatal
      rw [if_neg (by simp only [taken, List.length_cons]; omega),
        if_pos (by rw [← (taken_frame h.calls h.frame).branches]; exact h2)]
      rfl
    · have := (taken_world (c := c) (cs := cs) h.world).tell (.err .E056) rfl
      exact ⟨this.macros, this.globals, this.calls, this.told⟩
  | case4 d body pc f w st hst h1 h2 h3 =>
    intro cs c s hd h
    rw [obey_some d f w hst, if_neg h1, if_neg h2, if_pos h3]
    refine ⟨{ (taken s c cs).tell (.err .E063) with finished := true }, Steps.turn ?_, ⟨rfl, rfl, rfl, rfl⟩, ?_, rfl⟩
    · rw [turn_statement h hst]
      unfold State.process State.fatal
      rw [if_neg (by simp only [taken, List.length_cons]; omega),
        if_neg (by rw [← (taken_frame h.calls h.frame).branches]; exact h2),
        if_pos (by rw [← (taken_frame h.calls h.frame).actrs]; exact h3)]
    · have := (taken_world (c := c) (cs := cs) h.world).tell (.err .E063) rfl
      exact ⟨this.macros, this.globals, this.calls, this.told⟩
  | case5 d body pc f w st hst h1 h2 h3 names w' ha ih =>
    intro cs c s hd h
    rw [obey_some d f w hst, if_neg h1, if_neg h2, if_neg h3, ha]
    simp only
    have hstep := turn_acts (P := P) h hst (by omega) h2 h3
    have hd' : (taken s c cs).calls.length = d := by simpa [taken] using hd
    rw [← hd'] at ha
    obtain ⟨hk, hF, hW⟩ := act_next P (taken_frame h.calls h.frame) (taken_world h.world) st ha
    obtain ⟨c', hR⟩ := h.step (List.getElem?_eq_some_iff.mp hst).1 hk hF hW
    exact (ih cs c' _ hd hR).of hstep ((kept_taken s c cs).trans (hk.kept (by simp [taken])))
  | case6 d body pc f w st hst h1 h2 h3 l ha i hi ih =>
    intro cs c s hd h
    rw [obey_some d f w hst, if_neg h1, if_neg h2, if_neg h3, ha]
    simp only [hi]
    have hstep := turn_acts (P := P) h hst (by omega) h2 h3
    have hd' : (taken s c cs).calls.length = d := by simpa [taken] using hd
    rw [← hd'] at ha
    rw [act_goto P (taken_frame h.calls h.frame) (taken_world h.world) st ha] at hstep
    have hj : (taken s c cs).jump P l = ({ s with calls := { c with next := i } :: cs } : State S).onScope
        fun c => { c with ctr := c.ctr - 1 } := by
      unfold State.jump
      simp only [taken, offsets_place, h.body, hi]
    rw [hj] at hstep
    have hF0 : F ({ s with calls := { c with next := i } :: cs } : State S) f := by
      have := taken_frame h.calls h.frame
      exact ⟨this.names, this.branches, this.actrs, this.ndx⟩
    have hW0 : W u ({ s with calls := { c with next := i } :: cs } : State S) w := ⟨h.world.macros, h.world.globals, h.world.calls, h.world.told⟩
    refine (ih cs { c with next := i, scope := { c.scope with ctr := c.scope.ctr - 1 } } _ hd ?_).of hstep ⟨rfl, rfl, rfl, rfl⟩
    exact ⟨rfl, Nat.le_of_lt (place_lt hi), h.body, rfl, h.going, hF0.dec, hW0.onScope _⟩
  | case7 d body pc f w st hst h1 h2 h3 l ha hi ih =>
    intro cs c s hd h
    rw [obey_some d f w hst, if_neg h1, if_neg h2, if_neg h3, ha]
    simp only [hi]
    have hstep := turn_acts (P := P) h hst (by omega) h2 h3
    have hd' : (taken s c cs).calls.length = d := by simpa [taken] using hd
    rw [← hd'] at ha
    rw [act_goto P (taken_frame h.calls h.frame) (taken_world h.world) st ha] at hstep
    have hj : (taken s c cs).jump P l = (taken s c cs).tell (.err .E047) := by
      unfold State.jump
      simp only [taken, offsets_place, h.body, hi]
    rw [hj] at hstep
    have hk := like_tell (taken s c cs) (.err .E047)
    obtain ⟨c', hR⟩ := h.step (List.getElem?_eq_some_iff.mp hst).1 hk ((taken_frame h.calls h.frame).tell _)
      ((taken_world h.world).tell _ rfl)
    exact (ih cs c' _ hd hR).of hstep ((kept_taken s c cs).trans (hk.kept (by simp [taken])))
  | case8 d body pc f w st hst h1 h2 h3 n ha ih =>
    intro cs c s hd h
    rw [obey_some d f w hst, if_neg h1, if_neg h2, if_neg h3, ha]
    simp only
    have hstep := turn_acts (P := P) h hst (by omega) h2 h3
    have hd' : (taken s c cs).calls.length = d := by simpa [taken] using hd
    rw [← hd'] at ha
    have hF0 := taken_frame h.calls h.frame
    have hW0 := taken_world (c := c) (cs := cs) h.world
    rw [act_limit P hF0 hW0 st ha] at hstep
    have hk := like_onScope (taken s c cs) fun c => { c with ctr := n, changes := c.changes + 1 }
    have hF : F ((taken s c cs).onScope fun c => { c with ctr := n, changes := c.changes + 1 })
        { f with branches := n, actrs := f.actrs + 1 } :=
      ⟨by simp [hF0.names], by simp, by simp [hF0.actrs], by simp [hF0.ndx]⟩
    obtain ⟨c', hR⟩ := h.step (List.getElem?_eq_some_iff.mp hst).1 hk hF (hW0.onScope _)
    exact (ih cs c' _ hd hR).of hstep ((kept_taken s c cs).trans (hk.kept (by simp [taken])))
  | case9 d body pc f w st hst h1 h2 h3 ha =>
    intro cs c s hd h
    rw [obey_some d f w hst, if_neg h1, if_neg h2, if_neg h3, ha]
    have hstep := turn_acts (P := P) h hst (by omega) h2 h3
    have hd' : (taken s c cs).calls.length = d := by simpa [taken] using hd
    rw [← hd'] at ha
    have hW0 := taken_world (c := c) (cs := cs) h.world
    rw [(act_leave P (taken_frame h.calls h.frame) hW0 st ha).2] at hstep
    exact ⟨_, hstep, ⟨rfl, rfl, rfl, rfl⟩, ⟨hW0.macros, hW0.globals, hW0.calls, hW0.told⟩, rfl, h.going⟩
  | case10 d body pc f w st hst h1 h2 h3 m args ha r hr ih2 ih1 =>
    intro cs c s hd h
    rw [obey_some d f w hst, if_neg h1, if_neg h2, if_neg h3, ha]
    have e1 : (obey (d + 1) m.body 0 (Frame.call m.params args w.calls) { w with calls := w.calls + 1 }) = r := rfl
    simp only [e1, hr]
    have hstep := turn_acts (P := P) h hst (by omega) h2 h3
    have hd' : (taken s c cs).calls.length = d := by simpa [taken] using hd
    rw [← hd'] at ha
    obtain ⟨c', hc', hb, hn, hF, hW⟩ := act_obey P (taken_frame h.calls h.frame) (taken_world h.world) st ha
    have hR : Ready u (taken s c cs).calls m.body 0 (Frame.call m.params args w.calls) { w with calls := w.calls + 1 } c'
        ((taken s c cs).act P st.op) :=
      ⟨by rw [hc'], Nat.zero_le _, hb, hn, by rw [hc']; exact h.going, hF, hW⟩
    obtain ⟨s', hs', hk', hW', hA'⟩ := ih2 (taken s c cs).calls c' _ (by rw [hd']) hR
    rw [e1] at hW' hA'
    rw [hr] at hA'
    obtain ⟨hA1, hA2⟩ := hA'
    have hk0 : Kept s ((taken s c cs).act P st.op) := by
      rw [hc']
      exact ⟨rfl, rfl, rfl, rfl⟩
    refine (ih1 cs { c with next := c.next + 1 } s' hd ?_).of (hstep.trans hs') (hk0.trans hk')
    refine ⟨hA1, ?_, h.body, by simp [h.next], hA2, ?_, hW'⟩
    · have := (List.getElem?_eq_some_iff.mp hst).1
      omega
    · have hF0 := taken_frame h.calls h.frame
      simp only [taken] at hA1
      refine ⟨?_, ?_, ?_, ?_⟩
      · rw [hF0.names]
        simp [taken, State.scope, State.params, hA1]
      · rw [hF0.branches]
        simp [taken, State.scope, hA1]
      · rw [hF0.actrs]
        simp [taken, State.scope, hA1]
      · rw [hF0.ndx]
        simp [taken, State.num, hA1]
  | case11 body pc f w st hst h2 h3 m args h1 ha r hr ih2 ih1 =>
    intro cs c s hd h
    omega
  | case12 d body pc f w st hst h1 h2 h3 m args ha r hr h0 ih2 =>
    intro cs c s hd h
    rw [obey_some d f w hst, if_neg h1, if_neg h2, if_neg h3, ha]
    have e1 : (obey (d + 1) m.body 0 (Frame.call m.params args w.calls) { w with calls := w.calls + 1 }) = r := rfl
    simp only [e1, hr]
    rw [if_neg h0]
    have hstep := turn_acts (P := P) h hst (by omega) h2 h3
    have hd' : (taken s c cs).calls.length = d := by simpa [taken] using hd
    rw [← hd'] at ha
    obtain ⟨c', hc', hb, hn, hF, hW⟩ := act_obey P (taken_frame h.calls h.frame) (taken_world h.world) st ha
    have hR : Ready u (taken s c cs).calls m.body 0 (Frame.call m.params args w.calls) { w with calls := w.calls + 1 } c'
        ((taken s c cs).act P st.op) :=
      ⟨by rw [hc'], Nat.zero_le _, hb, hn, by rw [hc']; exact h.going, hF, hW⟩
    obtain ⟨s', hs', hk', hW', hA'⟩ := ih2 (taken s c cs).calls c' _ (by rw [hd']) hR
    rw [e1] at hW' hA'
    rw [hr] at hA'
    have hk0 : Kept s ((taken s c cs).act P st.op) := by
      rw [hc']
      exact ⟨rfl, rfl, rfl, rfl⟩
    exact ⟨s', hstep.trans hs', hk0.trans hk', hW', hA'⟩
  | case13 d body pc f w st hst h1 h2 h3 m args ha r hr ih2 =>
    intro cs c s hd h
    rw [obey_some d f w hst, if_neg h1, if_neg h2, if_neg h3, ha]
    have e1 : (obey (d + 1) m.body 0 (Frame.call m.params args w.calls) { w with calls := w.calls + 1 }) = r := rfl
    simp only [e1, hr]
    have hstep := turn_acts (P := P) h hst (by omega) h2 h3
    have hd' : (taken s c cs).calls.length = d := by simpa [taken] using hd
    rw [← hd'] at ha
    obtain ⟨c', hc', hb, hn, hF, hW⟩ := act_obey P (taken_frame h.calls h.frame) (taken_world h.world) st ha
    have hR : Ready u (taken s c cs).calls m.body 0 (Frame.call m.params args w.calls) { w with calls := w.calls + 1 } c'
        ((taken s c cs).act P st.op) :=
      ⟨by rw [hc'], Nat.zero_le _, hb, hn, by rw [hc']; exact h.going, hF, hW⟩
    obtain ⟨s', hs', hk', hW', hA'⟩ := ih2 (taken s c cs).calls c' _ (by rw [hd']) hR
    rw [e1] at hW' hA'
    rw [hr] at hA'
    have hk0 : Kept s ((taken s c cs).act P st.op) := by
      rw [hc']
      exact ⟨rfl, rfl, rfl, rfl⟩
    exact ⟨s', hstep.trans hs', hk0.trans hk', hW', hA'⟩

end Verif.Gen
