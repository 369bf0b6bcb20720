import Verif.Gen.Inside

/-!
The open code: sequence symbols are found by what was passed and by looking ahead.
-/
namespace Verif.Gen

open Verif.Gen.Spec

variable {S : Sem} {u : Bool}

/-- The table of sequence symbols is right and has those of the first `k` statements, which are all that were looked at. -/
structure Known (code : List (Stmt S)) (k : Nat) (t : Lab → Option Nat) : Prop where
  sound : ∀ l i, t l = some i → place code l = some i
  known : ∀ l i, place code l = some i → i < k → t l = some i
  bound : ∀ l i, t l = some i → i < k

theorem place_spec {code : List (Stmt S)} {l : Lab} {i : Nat} (h : place code l = some i) : ∃ st, code[i]? = some st ∧ st.lab = some l := by
  unfold place at h
  obtain ⟨h1, h2, _⟩ := List.findIdx?_eq_some_iff_getElem.mp h
  exact ⟨code[i], List.getElem?_eq_getElem h1, by simpa using h2⟩

theorem place_le {code : List (Stmt S)} {l : Lab} {i : Nat} {st : Stmt S} (h : code[i]? = some st) (hl : st.lab = some l) :
    ∃ j, place code l = some j ∧ j ≤ i := by
  cases hp : place code l with
  | none =>
    unfold place at hp
    rw [List.findIdx?_eq_none_iff] at hp
    have := hp st (List.mem_of_getElem? h)
    simp [hl] at this
  | some j =>
    refine ⟨j, rfl, ?_⟩
    unfold place at hp
    obtain ⟨h1, _, h3⟩ := List.findIdx?_eq_some_iff_getElem.mp hp
    by_cases hji : j ≤ i
    · exact hji
    · exfalso
      have := h3 i (by omega)
      obtain ⟨hi, he⟩ := List.getElem?_eq_some_iff.mp h
      rw [he] at this
      simp [hl] at this

/-- What registering and looking ahead leave as it was. -/
structure Noted (u : Bool) (s s' : State S) : Prop where
  macros : s'.macros = s.macros
  globals : s'.globals = s.globals
  ndx : s'.ndx = s.ndx
  main : s'.main = s.main
  pos : s'.pos = s.pos
  stop : s'.stop = s.stop
  calls : s'.calls = s.calls
  finished : s'.finished = s.finished
  told : s'.log.filter (counts u) = s.log.filter (counts u)

theorem Noted.refl (s : State S) : Noted u s s := ⟨rfl, rfl, rfl, rfl, rfl, rfl, rfl, rfl, rfl⟩

theorem Noted.trans {a b c : State S} (h : Noted u a b) (h' : Noted u b c) : Noted u a c :=
  ⟨h'.macros.trans h.macros, h'.globals.trans h.globals, h'.ndx.trans h.ndx, h'.main.trans h.main, h'.pos.trans h.pos, h'.stop.trans h.stop,
    h'.calls.trans h.calls, h'.finished.trans h.finished, h'.told.trans h.told⟩

theorem Noted.frame {s s' : State S} (h : Noted u s s') {f : Frame S} (hF : F s f) : F s' f := by
  refine ⟨?_, ?_, ?_, ?_⟩
  · rw [hF.names]
    simp only [State.scope, State.params, h.calls, h.main]
  · rw [hF.branches]
    simp only [State.scope, h.calls, h.main]
  · rw [hF.actrs]
    simp only [State.scope, h.calls, h.main]
  · rw [hF.ndx]
    simp only [State.num, h.calls]

theorem Noted.world {s s' : State S} (h : Noted u s s') {w : World S} (hW : W u s w) : W u s' w :=
  ⟨hW.macros.trans h.macros.symm, hW.globals.trans h.globals.symm, hW.calls.trans h.ndx.symm, hW.told.trans h.told.symm⟩

theorem register_noted {code : List (Stmt S)} (hu : u = true → Unique code) {k i : Nat} {s : State S} {st : Stmt S}
    (h : Known code k s.syms) (hst : code[i]? = some st) : Noted u s (s.register st.lab i) := by
  unfold State.register
  cases hl : st.lab with
  | none => exact Noted.refl s
  | some l =>
    simp only
    cases hs : s.syms l with
    | none => exact ⟨rfl, rfl, rfl, rfl, rfl, rfl, rfl, rfl, rfl⟩
    | some j =>
      simp only
      split
      · exact Noted.refl s
      · rename_i hne
        have : u = false := by
          cases hu' : u with
          | false => rfl
          | true =>
            obtain ⟨st', h1, h2⟩ := place_spec (h.sound l j hs)
            exact absurd (hu hu' j i st' st l h1 hst h2 hl) hne
        subst this
        exact ⟨rfl, rfl, rfl, rfl, rfl, rfl, rfl, rfl, by simp [State.tell, List.filter_append, counts]⟩

theorem register_known {code : List (Stmt S)} {k i : Nat} {s : State S} {st : Stmt S} (h : Known code k s.syms) (hi : i ≤ k)
    (hst : code[i]? = some st) : Known code (max k (i + 1)) (s.register st.lab i).syms := by
  cases hl : st.lab with
  | none =>
    refine ⟨h.sound, ?_, fun l j hj => Nat.lt_of_lt_of_le (h.bound l j hj) (Nat.le_max_left _ _)⟩
    intro l j hj hlt
    simp only [State.register]
    by_cases hjk : j < k
    · exact h.known l j hj hjk
    · have : j = i := by omega
      subst this
      obtain ⟨st', h1, h2⟩ := place_spec hj
      rw [hst] at h1
      cases h1
      rw [hl] at h2
      cases h2
  | some l =>
    obtain ⟨j0, hp, hle⟩ := place_le hst hl
    simp only [State.register]
    cases hs : s.syms l with
    | none =>
      simp only
      have hj0 : j0 = i := by
        by_cases hlt : j0 < k
        · rw [h.known l j0 hp hlt] at hs
          cases hs
        · omega
      subst hj0
      refine ⟨?_, ?_, ?_⟩
      · intro l' j hj
        by_cases e : l' = l
        · subst e
          simp only [if_true, Option.some.injEq] at hj
          subst hj
          exact hp
        · simp only [e, if_false] at hj
          exact h.sound l' j hj
      · intro l' j hj hlt
        by_cases e : l' = l
        · subst e
          rw [hp] at hj
          simpa using hj
        · simp only [e, if_false]
          by_cases hjk : j < k
          · exact h.known l' j hj hjk
          · have : j = j0 := by omega
            subst this
            obtain ⟨st', h1, h2⟩ := place_spec hj
            rw [hst] at h1
            cases h1
            rw [hl] at h2
            cases h2
            exact absurd rfl e
      · intro l' j hj
        by_cases e : l' = l
        · subst e
          simp only [if_true, Option.some.injEq] at hj
          omega
        · simp only [e, if_false] at hj
          have := h.bound l' j hj
          omega
    | some j1 =>
      simp only
      have e2 : (if j1 = i then s else s.tell (.err .E045)).syms = s.syms := by
        split <;> rfl
      rw [e2]
      refine ⟨h.sound, ?_, fun l j hj => Nat.lt_of_lt_of_le (h.bound l j hj) (Nat.le_max_left _ _)⟩
      intro l' j hj hlt
      by_cases hjk : j < k
      · exact h.known l' j hj hjk
      · have : j = i := by omega
        subst this
        obtain ⟨st', h1, h2⟩ := place_spec hj
        rw [hst] at h1
        cases h1
        rw [hl] at h2
        cases h2
        rw [hs, ← hj, h.sound _ _ hs]

theorem register_none {s : State S} {l : Lab} {o : Option Lab} {i : Nat} (h : s.syms l = none) (ho : ¬ o = some l) :
    (s.register o i).syms l = none := by
  unfold State.register
  cases o with
  | none => exact h
  | some o =>
    simp only
    cases hs : s.syms o with
    | none =>
      have : ¬ l = o := fun e => ho (by rw [e])
      simp only [this, if_false]
      exact h
    | some j =>
      simp only
      split
      · exact h
      · exact h

theorem register_some {s : State S} {l : Lab} {i : Nat} (h : s.syms l = none) : (s.register (some l) i).syms l = some i := by
  simp [State.register, h]

/-- Looking ahead for a sequence symbol. -/
theorem seek_spec {code : List (Stmt S)} (hu : u = true → Unique code) {l : Lab} (sts : List (Stmt S)) (i k : Nat) (s : State S) (hd : code.drop i = sts)
    (hi : i ≤ code.length) (hik : i ≤ k) (h : Known code k s.syms) (hn : s.syms l = none) :
    Noted u s (s.seek l sts i).1 ∧
      (∃ k', k ≤ k' ∧ (s.seek l sts i).2.1 ≤ k' ∧ Known code k' (s.seek l sts i).1.syms) ∧ (s.seek l sts i).2.1 ≤ code.length ∧
      (if (s.seek l sts i).2.2 = true then ∃ j, (s.seek l sts i).1.syms l = some j
       else place code l = none) := by
  induction sts generalizing i k s with
  | nil =>
    have : i = code.length := by
      have := List.drop_eq_nil_iff.mp hd
      omega
    simp only [State.seek]
    refine ⟨Noted.refl s, ⟨k, Nat.le_refl _, hik, h⟩, hi, ?_⟩
    simp only [Bool.false_eq_true, if_false]
    cases hp : place code l with
    | none => rfl
    | some j =>
      have hj := place_lt hp
      rw [h.known l j hp (by omega)] at hn
      cases hn
  | cons st sts ih =>
    have hst : code[i]? = some st := by
      have := congrArg (·[0]?) hd
      simpa [List.getElem?_drop] using this
    have hlt := (List.getElem?_eq_some_iff.mp hst).1
    have hd' : code.drop (i + 1) = sts := by
      have := congrArg List.tail hd
      simpa using this
    have hk := register_known h hik hst
    simp only [State.seek]
    by_cases hl : st.lab = some l
    · simp only [hl, if_true]
      rw [hl] at hk
      have hN := register_noted hu h hst
      rw [hl] at hN
      exact ⟨hN, ⟨_, Nat.le_max_left _ _, Nat.le_max_right _ _, hk⟩, by omega, i, register_some hn⟩
    · simp only [hl, if_false]
      obtain ⟨h1, ⟨k', h2, h2', h2''⟩, h3, h4⟩ :=
        ih (i + 1) (max k (i + 1)) (s.register st.lab i) hd' (by omega) (by omega) hk (register_none hn hl)
      exact ⟨(register_noted hu h hst).trans h1, ⟨k', by omega, h2', h2''⟩, h3, h4⟩

/-- Operations whose statements register their sequence symbol. -/
def noting : Op S → Bool
  | .call _ _ => false
  | .mexit => false
  | .mend => false
  | .define _ _ _ => false
  | _ => true

/-- What holds before each statement of the open code. -/
structure Open (u : Bool) (P : Prog S) (pc : Nat) (f : Frame S) (w : World S) (s : State S) : Prop where
  calls : s.calls = []
  at_ : s.pos = pc
  going : s.finished = false
  frame : F s f
  world : W u s w
  stop : s.stop ≤ P.code.length
  within : s.pos ≤ P.code.length
  known : ∃ k, s.pos ≤ k ∧ s.stop ≤ k ∧ Known P.code k s.syms

/-- The state after a statement was taken and its sequence symbol registered. -/
def met (s : State S) (st : Stmt S) : State S := ({ s with pos := s.pos + 1 } : State S).register st.lab s.pos

theorem met_noted {P : Prog S} (hu : u = true → Unique P.code) {pc : Nat} {f : Frame S} {w : World S} {s : State S} (h : Open u P pc f w s)
    {st : Stmt S} (hst : P.code[pc]? = some st) : Noted u { s with pos := s.pos + 1 } (met s st) := by
  obtain ⟨k, _, _, hk⟩ := h.known
  rw [← h.at_] at hst
  exact register_noted (s := { s with pos := s.pos + 1 }) hu hk hst

theorem met_frame {P : Prog S} (hu : u = true → Unique P.code) {pc : Nat} {f : Frame S} {w : World S} {s : State S} (h : Open u P pc f w s)
    {st : Stmt S} (hst : P.code[pc]? = some st) : F (met s st) f :=
  (met_noted hu h hst).frame ⟨h.frame.names, h.frame.branches, h.frame.actrs, h.frame.ndx⟩

theorem met_world {P : Prog S} (hu : u = true → Unique P.code) {pc : Nat} {f : Frame S} {w : World S} {s : State S} (h : Open u P pc f w s)
    {st : Stmt S} (hst : P.code[pc]? = some st) : W u (met s st) w :=
  (met_noted hu h hst).world ⟨h.world.macros, h.world.globals, h.world.calls, h.world.told⟩

theorem register_pos (s : State S) (l : Option Lab) (i : Nat) : (s.register l i).pos = s.pos ∧ (s.register l i).stop = s.stop ∧
    (s.register l i).calls = s.calls := by
  unfold State.register
  cases l with
  | none => exact ⟨rfl, rfl, rfl⟩
  | some l =>
    simp only
    cases s.syms l with
    | none => exact ⟨rfl, rfl, rfl⟩
    | some j =>
      simp only
      split <;> exact ⟨rfl, rfl, rfl⟩

theorem met_known {P : Prog S} {s : State S} {st : Stmt S} (h : ∃ k, s.pos ≤ k ∧ s.stop ≤ k ∧ Known P.code k s.syms)
    (hst : P.code[s.pos]? = some st) :
    ∃ k, (met s st).pos ≤ k ∧ (met s st).stop ≤ k ∧ Known P.code k (met s st).syms := by
  obtain ⟨k, h1, h2, h3⟩ := h
  have := register_known (s := { s with pos := s.pos + 1 }) h3 h1 hst
  refine ⟨_, ?_, ?_, this⟩
  · rw [met, (register_pos _ _ _).1]
    exact Nat.le_max_right _ _
  · rw [met, (register_pos _ _ _).2.1]
    exact Nat.le_trans h2 (Nat.le_max_left _ _)

theorem perform_out (P : Prog S) {s : State S} (h : s.calls = []) (st : Stmt S) (hn : st.lab = none ∨ noting st.op = true) :
    ({ s with pos := s.pos + 1 } : State S).perform P st = (met s st).act P st.op := by
  have e : ({ s with pos := s.pos + 1 } : State S).registerHere st.lab = met s st := by
    unfold State.registerHere met
    simp only [h, Nat.add_sub_cancel]
  rcases hn with hn | hn
  · have e2 : met s st = { s with pos := s.pos + 1 } := by
      unfold met
      rw [hn]
      rfl
    rw [e2] at e ⊢
    unfold State.perform State.act
    rw [e]
    cases st.op <;> rfl
  · unfold State.perform State.act
    rw [e]
    cases hop : st.op <;> first | rfl | (rw [hop] at hn; cases hn)

theorem turn_out {P : Prog S} {pc : Nat} {f : Frame S} {w : World S} {s : State S} (h : Open u P pc f w s) {st : Stmt S}
    (hst : P.code[pc]? = some st) : s.turn P = .next (({ s with pos := s.pos + 1 } : State S).process P st) := by
  unfold State.turn
  rw [h.going, h.calls]
  simp only [Bool.false_eq_true, if_false]
  rw [h.at_, hst]

theorem acts_out {P : Prog S} {pc : Nat} {f : Frame S} {w : World S} {s : State S} (h : Open u P pc f w s) {st : Stmt S}
    (hst : P.code[pc]? = some st) (hn : st.lab = none ∨ noting st.op = true) (h2 : ¬ f.branches < 0) (h3 : ¬ f.actrs > 100) :
    Steps P s ((met s st).act P st.op) := by
  apply Steps.turn
  rw [turn_out h hst]
  unfold State.process
  have hF : F ({ s with pos := s.pos + 1 } : State S) f := ⟨h.frame.names, h.frame.branches, h.frame.actrs, h.frame.ndx⟩
  rw [fatal_none hF (by simp [h.calls]) h2 h3]
  simp only
  rw [perform_out P h.calls st hn]

theorem met_calls {s : State S} (h : s.calls = []) (st : Stmt S) : (met s st).calls = [] := by
  rw [met, (register_pos _ _ _).2.2]
  exact h

/-- After a statement that only changes variables, the open code is ready for the next one. -/
theorem Open.step {P : Prog S} (hu : u = true → Unique P.code) {pc : Nat} {f f' : Frame S} {w w' : World S} {s s' : State S} (h : Open u P pc f w s) {st : Stmt S}
    (hst : P.code[pc]? = some st) (hk : Like (met s st) s') (hF : F s' f') (hW : W u s' w') : Open u P (pc + 1) f' w' s' := by
  have hN := met_noted hu h hst
  have hlt := (List.getElem?_eq_some_iff.mp hst).1
  rw [← h.at_] at hst
  refine ⟨?_, ?_, ?_, hF, hW, ?_, ?_, ?_⟩
  · have := hk.calls
    rw [met_calls h.calls] at this
    exact this
  · rw [hk.pos, hN.pos, ← h.at_]
  · rw [hk.finished, hN.finished]
    exact h.going
  · rw [hk.stop, hN.stop]
    exact h.stop
  · rw [hk.pos, hN.pos]
    have := h.at_
    simp only
    omega
  · rw [hk.pos, hk.stop, hk.syms]
    exact met_known h.known hst

/-- A branch in open code. -/
theorem jump_out {P : Prog S} (hu : u = true → Unique P.code) {s : State S} (hc : s.calls = []) (hk : ∃ k, s.pos ≤ k ∧ s.stop ≤ k ∧ Known P.code k s.syms)
    (hs : s.stop ≤ P.code.length) (hp : s.pos ≤ P.code.length) (l : Lab) {f : Frame S} {w : World S} (hF : F s f) (hW : W u s w)
    (hg : s.finished = false) :
    match place P.code l with
    | some i => Open u P i { f with branches := f.branches - 1 } w (s.jump P l)
    | none => Open u P s.pos f (w.tell (.err .E047)) (s.jump P l) := by
  have go : ∀ (t : State S) (i k : Nat), t.calls = [] → F t f → W u t w → t.finished = false → t.stop ≤ P.code.length →
      place P.code l = some i → i ≤ k → t.stop ≤ k → Known P.code k t.syms →
      Open u P i { f with branches := f.branches - 1 } w (({ t with pos := i } : State S).onScope fun c => { c with ctr := c.ctr - 1 }) := by
    intro t i k tc tF tW tg ts ti tik tsk tk
    have hL := like_onScope ({ t with pos := i } : State S) fun c => { c with ctr := c.ctr - 1 }
    have hF' : F ({ t with pos := i } : State S) f := ⟨tF.names, tF.branches, tF.actrs, tF.ndx⟩
    have hW' : W u ({ t with pos := i } : State S) w := ⟨tW.macros, tW.globals, tW.calls, tW.told⟩
    refine ⟨?_, ?_, ?_, hF'.dec, hW'.onScope _, ?_, ?_, ⟨k, ?_, ?_, ?_⟩⟩
    · apply List.eq_nil_of_length_eq_zero
      rw [onScope_calls_length]
      simp [tc]
    · rw [hL.pos]
    · rw [hL.finished]
      exact tg
    · rw [hL.stop]
      exact ts
    · rw [hL.pos]
      exact Nat.le_of_lt (place_lt ti)
    · rw [hL.pos]
      exact tik
    · rw [hL.stop]
      exact tsk
    · rw [hL.syms]
      exact tk
  obtain ⟨k, hk1, hk2, hk⟩ := hk
  have e : s.jump P l = match s.syms l with
    | some i => ({ s with pos := i } : State S).onScope fun c => { c with ctr := c.ctr - 1 }
    | none =>
      let from' := if s.pos < s.stop then s.stop else s.pos
      if (s.seek l (P.code.drop from') from').2.2 = true then
        match (s.seek l (P.code.drop from') from').1.syms l with
        | some i => ({ (s.seek l (P.code.drop from') from').1 with stop := (s.seek l (P.code.drop from') from').2.1, pos := i } : State S).onScope
            fun c => { c with ctr := c.ctr - 1 }
        | none => { (s.seek l (P.code.drop from') from').1 with stop := (s.seek l (P.code.drop from') from').2.1 }
      else ({ (s.seek l (P.code.drop from') from').1 with stop := (s.seek l (P.code.drop from') from').2.1 } : State S).tell (.err .E047) := by
    unfold State.jump
    split
    · rename_i h'
      rw [hc] at h'
      cases h'
    · rfl
  rw [e]
  cases hl : s.syms l with
  | some i =>
    have hi := hk.sound l i hl
    rw [hi]
    simp only
    exact go s i k hc hF hW hg hs hi (Nat.le_of_lt (hk.bound l i hl)) hk2 hk
  | none =>
    simp only
    generalize hfr : (if s.pos < s.stop then s.stop else s.pos) = fr
    have hfr1 : fr ≤ P.code.length := by
      rw [← hfr]
      split <;> omega
    have hfr2 : fr ≤ k := by
      rw [← hfr]
      split <;> omega
    obtain ⟨hN, ⟨k', hkk, hjk, hk'⟩, hj, hif⟩ := seek_spec hu (l := l) (P.code.drop fr) fr k s rfl hfr1 hfr2 hk hl
    generalize s.seek l (P.code.drop fr) fr = r at *
    obtain ⟨s', j, ok⟩ := r
    simp only at *
    have hF' : F ({ s' with stop := j } : State S) f := by
      have := hN.frame hF
      exact ⟨this.names, this.branches, this.actrs, this.ndx⟩
    have hW' : W u ({ s' with stop := j } : State S) w := by
      have := hN.world hW
      exact ⟨this.macros, this.globals, this.calls, this.told⟩
    have hg' : s'.finished = false := by rw [hN.finished, hg]
    have hc' : s'.calls = [] := by rw [hN.calls, hc]
    cases ok with
    | true =>
      simp only [if_true] at hif ⊢
      obtain ⟨i, hi⟩ := hif
      have hpl := hk'.sound l i hi
      rw [hi, hpl]
      exact go { s' with stop := j } i k' hc' hF' hW' hg' hj hpl (Nat.le_of_lt (hk'.bound l i hi)) hjk hk'
    | false =>
      simp only [Bool.false_eq_true, if_false] at hif ⊢
      rw [hif]
      refine ⟨hc', hN.pos, hg', hF'.tell _, hW'.tell _ rfl, hj, ?_, ⟨k', ?_, hjk, hk'⟩⟩
      · simp only [State.tell]
        rw [hN.pos]
        exact hp
      · simp only [State.tell]
        rw [hN.pos]
        omega

/-- The open code processed to its end. -/
def Done (u : Bool) (P : Prog S) (s : State S) (w : World S) : Prop := ∃ s', Steps P s s' ∧ s'.turn P = .done ∧ W u s' w

theorem Done.of {P : Prog S} {s s' : State S} {w : World S} (h : Steps P s s') (hd : Done u P s' w) : Done u P s w := by
  obtain ⟨t, h1, h2, h3⟩ := hd
  exact ⟨t, h.trans h1, h2, h3⟩

theorem turn_finished (P : Prog S) {s : State S} (h : s.finished = true) : s.turn P = .done := by
  unfold State.turn
  rw [if_pos h]

/-- A call in open code, processed to its end. -/
theorem called (P : Prog S) (hu : u = true → Unique P.code) {pc : Nat} {f : Frame S} {w : World S} {s : State S} (h : Open u P pc f w s) {st : Stmt S}
    (hst : P.code[pc]? = some st) (hn : st.lab = none ∨ noting st.op = true) (h2 : ¬ f.branches < 0) (h3 : ¬ f.actrs > 100)
    {m : Macro S} {args : List S.Val} (ha : asks 0 f w st = .obey m args) :
    let r := obey 1 m.body 0 (Frame.call m.params args w.calls) { w with calls := w.calls + 1 }
    ∃ s', Steps P s s' ∧ W u s' r.1 ∧ (r.2 = .over → s'.finished = true) ∧ (r.2 ≠ .over → Open u P (pc + 1) f r.1 s') := by
  intro r
  have hstep := acts_out h hst hn h2 h3
  have hc := met_calls h.calls st
  have hd' : (met s st).calls.length = 0 := by rw [hc]; rfl
  rw [← hd'] at ha
  have hO := h.step hu hst (Like.refl _) (met_frame hu h hst) (met_world hu h hst)
  obtain ⟨c', hc', hb, hnx, hF, hW⟩ := act_obey P hO.frame hO.world st ha
  have hR : Ready u (met s st).calls m.body 0 (Frame.call m.params args w.calls) { w with calls := w.calls + 1 } c'
      ((met s st).act P st.op) :=
    ⟨by rw [hc'], Nat.zero_le _, hb, hnx, by rw [hc']; exact hO.going, hF, hW⟩
  obtain ⟨s', hs', hk', hW', hA'⟩ := inside P 1 m.body 0 _ _ (met s st).calls c' _ (by rw [hd']) hR
  have hk0 : Kept (met s st) ((met s st).act P st.op) := by
    rw [hc']
    exact ⟨rfl, rfl, rfl, rfl⟩
  have hk := hk0.trans hk'
  refine ⟨s', hstep.trans hs', hW', ?_, ?_⟩
  · intro hr
    change After _ s' r.2 at hA'
    rw [hr] at hA'
    exact hA'
  · intro hr
    change After _ s' r.2 at hA'
    have hA : s'.calls = [] ∧ s'.finished = false := by
      cases he : r.2 with
      | through =>
        rw [he] at hA'
        exact ⟨hA'.1.trans hc, hA'.2⟩
      | givenUp =>
        rw [he] at hA'
        exact hA'
      | over => exact absurd he hr
    refine ⟨hA.1, by rw [hk.pos]; exact hO.at_, hA.2, ?_, hW', by rw [hk.stop]; exact hO.stop, by rw [hk.pos]; exact hO.within, ?_⟩
    · have := hO.frame
      refine ⟨?_, ?_, ?_, ?_⟩
      · rw [this.names]
        simp only [State.scope, State.params, hA.1, hc, hk.main]
      · rw [this.branches]
        simp only [State.scope, hA.1, hc, hk.main]
      · rw [this.actrs]
        simp only [State.scope, hA.1, hc, hk.main]
      · rw [this.ndx]
        simp only [State.num, hA.1, hc]
    · rw [hk.pos, hk.stop, hk.syms]
      exact hO.known

theorem outside (P : Prog S) (hu : u = true → Unique P.code) (hP : ∀ st ∈ P.code, st.lab = none ∨ noting st.op = true) (d : Nat) (body : List (Stmt S)) (pc : Nat)
    (f : Frame S) (w : World S) :
    ∀ s : State S, d = 0 → body = P.code → Open u P pc f w s → Done u P s (obey d body pc f w).1 := by
  induction d, body, pc, f, w using obey.induct with
  | case1 d body pc f w hst =>
    intro s hd hb h
    subst hb
    rw [obey_none d f w hst]
    refine ⟨s, Steps.refl P s, ?_, h.world⟩
    unfold State.turn
    rw [h.going, h.calls]
    simp only [Bool.false_eq_true, if_false]
    rw [h.at_, hst]
  | case2 d body pc f w st hst h1 =>
    intro s hd hb h
    omega
  | case3 d body pc f w st hst h1 h2 =>
    intro s hd hb h
    subst hb hd
    rw [obey_some 0 f w hst, if_neg h1, if_pos h2]
    have hF : F ({ s with pos := s.pos + 1 } : State S) f := ⟨h.frame.names, h.frame.branches, h.frame.actrs, h.frame.ndx⟩
    have hW : W u ({ s with pos := s.pos + 1 } : State S) w := ⟨h.world.macros, h.world.globals, h.world.calls, h.world.told⟩
    have hW' := hW.tell (.err .E056) rfl
    refine ⟨{ ({ s with pos := s.pos + 1 } : State S).tell (.err .E056) with finished := true }, Steps.turn ?_, turn_finished P rfl,
      ⟨hW'.macros, hW'.globals, hW'.calls, hW'.told⟩⟩
    rw [turn_out h hst]
    unfold State.process State.fatal
    rw [if_neg (by simp [h.calls]), if_pos (by rw [← hF.branches]; exact h2)]
    simp only [State.tell, h.calls]
  | case4 d body pc f w st hst h1 h2 h3 =>
    intro s hd hb h
    subst hb hd
    rw [obey_some 0 f w hst, if_neg h1, if_neg h2, if_pos h3]
    have hF : F ({ s with pos := s.pos + 1 } : State S) f := ⟨h.frame.names, h.frame.branches, h.frame.actrs, h.frame.ndx⟩
    have hW : W u ({ s with pos := s.pos + 1 } : State S) w := ⟨h.world.macros, h.world.globals, h.world.calls, h.world.told⟩
    have hW' := hW.tell (.err .E063) rfl
    refine ⟨{ ({ s with pos := s.pos + 1 } : State S).tell (.err .E063) with finished := true }, Steps.turn ?_, turn_finished P rfl,
      ⟨hW'.macros, hW'.globals, hW'.calls, hW'.told⟩⟩
    rw [turn_out h hst]
    unfold State.process State.fatal
    rw [if_neg (by simp [h.calls]), if_neg (by rw [← hF.branches]; exact h2), if_pos (by rw [← hF.actrs]; exact h3)]
  | case5 d body pc f w st hst h1 h2 h3 names w' ha ih =>
    intro s hd hb h
    rw [obey_some d f w hst, if_neg h1, if_neg h2, if_neg h3, ha]
    subst hb
    simp only
    have hstep := acts_out h hst (hP st (List.mem_of_getElem? hst)) h2 h3
    have hd' : (met s st).calls.length = d := by rw [met_calls h.calls, hd]; rfl
    rw [← hd'] at ha
    obtain ⟨hk, hF, hW⟩ := act_next P (met_frame hu h hst) (met_world hu h hst) st ha
    exact (ih _ hd rfl (h.step hu hst hk hF hW)).of hstep
  | case6 d body pc f w st hst h1 h2 h3 l ha i hi ih =>
    intro s hd hb h
    rw [obey_some d f w hst, if_neg h1, if_neg h2, if_neg h3, ha]
    subst hb
    simp only [hi]
    have hstep := acts_out h hst (hP st (List.mem_of_getElem? hst)) h2 h3
    have hd' : (met s st).calls.length = d := by rw [met_calls h.calls, hd]; rfl
    rw [← hd'] at ha
    rw [act_goto P (met_frame hu h hst) (met_world hu h hst) st ha] at hstep
    have hO := h.step hu hst (Like.refl _) (met_frame hu h hst) (met_world hu h hst)
    have hj := jump_out hu hO.calls hO.known hO.stop hO.within l hO.frame hO.world hO.going
    rw [hi] at hj
    exact (ih _ hd rfl hj).of hstep
  | case7 d body pc f w st hst h1 h2 h3 l ha hi ih =>
    intro s hd hb h
    rw [obey_some d f w hst, if_neg h1, if_neg h2, if_neg h3, ha]
    subst hb
    simp only [hi]
    have hstep := acts_out h hst (hP st (List.mem_of_getElem? hst)) h2 h3
    have hd' : (met s st).calls.length = d := by rw [met_calls h.calls, hd]; rfl
    rw [← hd'] at ha
    rw [act_goto P (met_frame hu h hst) (met_world hu h hst) st ha] at hstep
    have hO := h.step hu hst (Like.refl _) (met_frame hu h hst) (met_world hu h hst)
    have hj := jump_out hu hO.calls hO.known hO.stop hO.within l hO.frame hO.world hO.going
    rw [hi, hO.at_] at hj
    exact (ih _ hd rfl hj).of hstep
  | case8 d body pc f w st hst h1 h2 h3 n ha ih =>
    intro s hd hb h
    rw [obey_some d f w hst, if_neg h1, if_neg h2, if_neg h3, ha]
    subst hb
    simp only
    have hstep := acts_out h hst (hP st (List.mem_of_getElem? hst)) h2 h3
    have hd' : (met s st).calls.length = d := by rw [met_calls h.calls, hd]; rfl
    rw [← hd'] at ha
    have hF0 := met_frame hu h hst
    have hW0 := met_world hu h hst
    rw [act_limit P hF0 hW0 st ha] at hstep
    have hk := like_onScope (met s st) fun c => { c with ctr := n, changes := c.changes + 1 }
    have hF : F ((met s st).onScope fun c => { c with ctr := n, changes := c.changes + 1 })
        { f with branches := n, actrs := f.actrs + 1 } :=
      ⟨by simp [hF0.names], by simp, by simp [hF0.actrs], by simp [hF0.ndx]⟩
    exact (ih _ hd rfl (h.step hu hst hk hF (hW0.onScope _))).of hstep
  | case9 d body pc f w st hst h1 h2 h3 ha =>
    intro s hd hb h
    exfalso
    subst hb
    have hd' : (met s st).calls.length = d := by rw [met_calls h.calls, hd]; rfl
    rw [← hd'] at ha
    exact (act_leave P (met_frame hu h hst) (met_world hu h hst) st ha).1 (met_calls h.calls st)
  | case10 d body pc f w st hst h1 h2 h3 m args ha r hr ih2 ih1 =>
    intro s hd hb h
    rw [obey_some d f w hst, if_neg h1, if_neg h2, if_neg h3, ha]
    have e1 : (obey (d + 1) m.body 0 (Frame.call m.params args w.calls) { w with calls := w.calls + 1 }) = r := rfl
    simp only [e1, hr]
    subst hb hd
    obtain ⟨s', hs', _, _, h5⟩ := called P hu h hst (hP st (List.mem_of_getElem? hst)) h2 h3 ha
    exact (ih1 s' rfl rfl (h5 (by change r.2 ≠ _; rw [hr]; decide))).of hs'
  | case11 body pc f w st hst h2 h3 m args h1 ha r hr ih2 ih1 =>
    intro s hd hb h
    rw [obey_some 0 f w hst, if_neg h1, if_neg h2, if_neg h3, ha]
    have e1 : (obey (0 + 1) m.body 0 (Frame.call m.params args w.calls) { w with calls := w.calls + 1 }) = r := rfl
    simp only [e1, hr, if_true]
    subst hb
    obtain ⟨s', hs', _, _, h5⟩ := called P hu h hst (hP st (List.mem_of_getElem? hst)) h2 h3 ha
    exact (ih1 s' rfl rfl (h5 (by change r.2 ≠ _; rw [hr]; decide))).of hs'
  | case12 d body pc f w st hst h1 h2 h3 m args ha r hr h0 ih2 =>
    intro s hd hb h
    omega
  | case13 d body pc f w st hst h1 h2 h3 m args ha r hr ih2 =>
    intro s hd hb h
    rw [obey_some d f w hst, if_neg h1, if_neg h2, if_neg h3, ha]
    have e1 : (obey (d + 1) m.body 0 (Frame.call m.params args w.calls) { w with calls := w.calls + 1 }) = r := rfl
    simp only [e1, hr]
    subst hb hd
    obtain ⟨s', hs', hW', h4, _⟩ := called P hu h hst (hP st (List.mem_of_getElem? hst)) h2 h3 ha
    exact ⟨s', hs', turn_finished P (h4 hr), hW'⟩

end Verif.Gen
