import Verif.Processing.Lookahead
/-!
C40: a lookahead leaves no trace in the stream of statements.
-/
namespace Verif.Processing.Look

/-- Open code in which every logical line is followed by at least one more character and has its instruction field in its first
line. -/
def Simple (P : Prog) : Prop := 0 < P.size ∧ ∀ o e n d, P.file o = some (e, n, d) → o < P.size ∧ e < P.size ∧ 1 ≤ n ∧ d = 0

/-- No AREAD, and no lookahead from an instruction field (that only differs in open code; in macros and COPY members it is the
same as any other lookahead). -/
def Regular : Op → Prop
  | .aread _ _ => False
  | .attrLook e => e = false
  | _ => True

/-- Conditions under which a jump restores a consistent state. -/
structure JumpOk (P : Prog) (line off : Nat) (snap : Src) : Prop where
  offLt : off < P.size
  endLt : snap.endIdx < P.size
  pos : snap.copy ≠ [] → line = snap.endLine + 1 ∧ off = snap.endIdx

/-- After a jump to the symbol its statement is delivered. -/
def Delivers (P : Prog) (y : Sym) : Prop :=
  match y.snap.copy with
  | f :: _ => f.cur + 1 ≠ P.copySize f.member ∧ y.stmt = .copy f.member (f.cur + 1)
  | [] => y.stmt = .opencode y.off ∧ (P.file y.off).isSome

structure Inv (P : Prog) (s : St) : Prop where
  pos : (s.src.copy ≠ [] ∨ (s.look = none ∧ s.macros ≠ [])) → s.line = s.src.endLine + 1 ∧ s.off = s.src.endIdx
  offLt : s.off < P.size
  endLt : s.src.endIdx < P.size
  stopLt : s.stop.endIdx < P.size
  syms : ∀ y ∈ s.syms, JumpOk P y.line y.off y.snap ∧ Delivers P y
  look : ∀ l, s.look = some l → JumpOk P l.line l.off l.snap ∧ (l.attr = false → s.macros = []) ∧
    (s.macros ≠ [] → l.line = l.snap.endLine + 1 ∧ l.off = l.snap.endIdx)

theorem jump_eq (P : Prog) (s : St) (line off : Nat) (snap : Src) (h : off < P.size) :
    jump P s line off snap = { s with line := line, off := off, src := snap } := by
  have : ¬ off ≥ P.size := by omega
  simp [jump, this]

theorem createSnapshot_fields (s : Src) : (createSnapshot s).endIdx = s.endIdx ∧ (createSnapshot s).endLine = s.endLine ∧
    (createSnapshot s).copy.isEmpty = s.copy.isEmpty := by
  unfold createSnapshot
  split <;> simp_all

theorem bump_create (s : Src) : (bump (createSnapshot s)).endIdx = s.endIdx ∧ (bump (createSnapshot s)).endLine = s.endLine ∧
    (bump (createSnapshot s)).copy = s.copy := by
  unfold createSnapshot bump
  cases h : s.copy with
  | nil => simp [h]
  | cons f fs => simp

/-- What a delivery does, given the invariant: either the state without the statement is consistent, or the statement comes from a
macro, a COPY member or open code. -/
inductive Delivered (P : Prog) (s s1 : St) : Option Stmt → Prop
  | none (h : Inv P s1) (hl : s1.look = s.look) (hs : s1.syms = s.syms) (hst : s1.stop = s.stop)
      (hm : s.look ≠ none → s1.macros = s.macros) : Delivered P s s1 none
  | mac (m : Invo) (ms : List Invo) (hl : s.look = .none) (hm : s.macros = m :: ms)
      (hs : s1 = { s with macros := { m with cur := m.cur + 1 } :: ms }) : Delivered P s s1 (some (.mac m.mac (m.cur + 1)))
  | copy (f : Frame) (fs : List Frame) (hl : s.look ≠ .none ∨ s.macros = []) (hc : s.src.copy = f :: fs) (hne : f.cur + 1 ≠ P.copySize f.member)
      (hs : s1 = { s with src := { s.src with copy := { f with cur := f.cur + 1 } :: fs } }) : Delivered P s s1 (some (.copy f.member (f.cur + 1)))
  | opencode (e n : Nat) (hl : s.look ≠ .none ∨ s.macros = []) (hc : s.src.copy = []) (hf : P.file s.off = some (e, n, 0)) (hn : 1 ≤ n)
      (he : e < P.size)
      (hs : s1 = { s with
        line := s.line + n, off := e,
        src := { s.src with beginIdx := s.off, endIdx := e, endLine := s.line + n - 1, instrLine := s.line } }) :
      Delivered P s s1 (some (.opencode s.off))

theorem deliver_cases (P : Prog) (hP : Simple P) (s : St) (h : Inv P s) : Delivered P s (deliver P false s).2 (deliver P false s).1 := by
  have rest : (s.look ≠ none ∨ s.macros = []) → Delivered P s (deliverRest P false s).2 (deliverRest P false s).1 := by
    intro hl
    unfold deliverRest
    cases hc : s.src.copy with
    | cons f fs =>
      simp only [deliverCopy]
      split
      · refine .none ?_ rfl rfl rfl (fun _ => rfl)
        have hp := h.pos (Or.inl (by simp [hc]))
        exact ⟨fun _ => hp, h.offLt, h.endLt, h.stopLt, h.syms, h.look⟩
      · next hne => exact .copy f fs hl hc hne rfl
    | nil =>
      simp only [deliverOpen]
      cases hf : P.file s.off with
      | none => exact .none h rfl rfl rfl (fun _ => rfl)
      | some v =>
        obtain ⟨e, n, d⟩ := v
        obtain ⟨_, he, hn, hd⟩ := hP.2 _ _ _ _ hf
        subst hd
        exact .opencode e n hl hc hf hn he (by simp)
  unfold deliver
  cases hl : s.look with
  | some l => exact rest (Or.inl (by simp [hl]))
  | none =>
    cases hm : s.macros with
    | nil => exact rest (Or.inr hm)
    | cons m ms =>
      simp only [deliverMac]
      split
      · refine .none ?_ rfl rfl rfl (fun hh => absurd hl hh)
        refine ⟨fun hh => h.pos ?_, h.offLt, h.endLt, h.stopLt, h.syms, fun l hll => by simp [hl] at hll⟩
        rcases hh with hh | ⟨_, _⟩
        · exact Or.inl hh
        · exact Or.inr ⟨hl, by simp [hm]⟩
      · exact .mac m ms hl hm rfl

/-- After a delivered statement the state is consistent. -/
theorem delivered_inv (P : Prog) (s s1 : St) (x : Option Stmt) (h : Inv P s) (hd : Delivered P s s1 x) :
    Inv P s1 ∧ s1.look = s.look ∧ s1.syms = s.syms ∧ (s.look ≠ none → s1.macros = s.macros) ∧ (s1.macros = [] → x ≠ none → s.macros = []) ∧
    (x ≠ none → s1.line = s1.src.endLine + 1 ∧ s1.off = s1.src.endIdx) := by
  cases hd with
  | none hi hl hs hst hm => exact ⟨hi, hl, hs, hm, fun _ hh => absurd rfl hh, fun hh => absurd rfl hh⟩
  | mac m ms hl hm hs =>
    subst hs
    have hp := h.pos (Or.inr ⟨hl, by simp [hm]⟩)
    exact ⟨⟨fun _ => hp, h.offLt, h.endLt, h.stopLt, h.syms, fun l hll => by simp [hl] at hll⟩, rfl, rfl, fun hh => absurd hl hh,
      by simp, fun _ => hp⟩
  | copy f fs hl hc hne hs =>
    subst hs
    have hp := h.pos (Or.inl (by simp [hc]))
    exact ⟨⟨fun _ => hp, h.offLt, h.endLt, h.stopLt, h.syms, h.look⟩, rfl, rfl, fun _ => rfl, fun hh _ => hh, fun _ => hp⟩
  | opencode e n hl hc hf hn he hs =>
    subst hs
    refine ⟨⟨fun _ => ⟨?_, rfl⟩, he, he, h.stopLt, h.syms, h.look⟩, rfl, rfl, fun _ => rfl, fun hh _ => hh, fun _ => ⟨?_, rfl⟩⟩ <;>
      (simp only; omega)

/-- The begin snapshot of a statement that does not come from a macro leads back to it. -/
theorem begin_ok (P : Prog) (s s1 : St) (x : Stmt) (ign : Bool) (h : Inv P s) (hd : Delivered P s s1 (some x))
    (hign : ign = true ∨ s1.macros = []) (hnm : s.look ≠ none ∨ s.macros = []) :
    (beginSnapshot ign s1).1 = s.line ∧ (beginSnapshot ign s1).2.1 = s.off ∧ (beginSnapshot ign s1).2.2.copy = s.src.copy ∧
    (beginSnapshot ign s1).2.2.endIdx = s1.src.endIdx ∧ (beginSnapshot ign s1).2.2.endLine = s1.src.endLine := by
  have hin : (!ign && !s1.macros.isEmpty) = false := by
    rcases hign with rfl | e
    · rfl
    · simp [e]
  simp only [beginSnapshot, hin]
  cases hd with
  | mac m ms hl hm hs =>
    rcases hnm with hh | hh
    · exact absurd hl hh
    · simp [hm] at hh
  | copy f fs hl hc hne hs =>
    subst hs
    have hp := h.pos (Or.inl (by simp [hc]))
    simp [createSnapshot, hp.1, hp.2, hc]
  | opencode e n hl hc hf hn he hs =>
    subst hs
    simp [createSnapshot, hc]

theorem begin_delivers (P : Prog) (s s1 : St) (x : Stmt) (ign : Bool) (h : Inv P s) (hd : Delivered P s s1 (some x))
    (hign : ign = true ∨ s1.macros = []) (hnm : s.look ≠ none ∨ s.macros = []) :
    JumpOk P (beginSnapshot ign s1).1 (beginSnapshot ign s1).2.1 (beginSnapshot ign s1).2.2 ∧
    Delivers P ⟨x, (beginSnapshot ign s1).1, (beginSnapshot ign s1).2.1, (beginSnapshot ign s1).2.2⟩ := by
  obtain ⟨b1, b2, b3, b4, b5⟩ := begin_ok P s s1 x ign h hd hign hnm
  have hi := (delivered_inv P s s1 _ h hd).1
  refine ⟨⟨by rw [b2]; exact h.offLt, by rw [b4]; exact hi.endLt, ?_⟩, ?_⟩
  · rw [b1, b2, b3, b4, b5]
    intro hne
    have hp := h.pos (Or.inl hne)
    cases hd with
    | mac m ms hl hm hs => subst hs; exact hp
    | copy f fs hl hc hne' hs => subst hs; exact hp
    | opencode e n hl hc hf hn he hs => exact absurd hc hne
  · unfold Delivers
    simp only [b2, b3]
    cases hd with
    | mac m ms hl hm hs =>
      rcases hnm with hh | hh
      · exact absurd hl hh
      · simp [hm] at hh
    | copy f fs hl hc hne hs => simp [hc, hne]
    | opencode e n hl hc hf hn he hs => simp [hc, hf]

theorem register_fields (s : St) (x : Stmt) : (register s x).src = s.src ∧ (register s x).line = s.line ∧ (register s x).off = s.off ∧
    (register s x).macros = s.macros ∧ (register s x).look = s.look ∧ (register s x).stop = s.stop := by
  unfold register
  split <;> simp

theorem register_inv (P : Prog) (s s1 : St) (x : Stmt) (h : Inv P s) (hd : Delivered P s s1 (some x)) : Inv P (register s1 x) := by
  obtain ⟨hi, hl, hsy, hmac, hme, _⟩ := delivered_inv P s s1 _ h hd
  obtain ⟨r1, r2, r3, r4, r5, r6⟩ := register_fields s1 x
  refine ⟨by rw [r1, r2, r3, r4, r5]; exact hi.pos, by rw [r3]; exact hi.offLt, by rw [r1]; exact hi.endLt, by rw [r6]; exact hi.stopLt, ?_,
    by rw [r4, r5]; exact hi.look⟩
  unfold register
  split
  · next hcond =>
    intro y hy
    simp only [List.mem_cons] at hy
    rcases hy with rfl | hy
    · cases hlk : s1.look with
      | none =>
        simp only [attrActive, hlk, Bool.false_or] at hcond ⊢
        have hm : s1.macros = [] := by simpa using hcond
        exact begin_delivers P s s1 x false h hd (Or.inr hm) (Or.inr (hme hm (by simp)))
      | some l =>
        have hs0 : s.look ≠ none := by rw [← hl, hlk]; simp
        have hign : l.attr = true ∨ s1.macros = [] := by
          cases ha : l.attr with
          | true => exact Or.inl rfl
          | false => exact Or.inr ((hi.look l hlk).2.1 ha)
        simp only [attrActive, hlk]
        exact begin_delivers P s s1 x l.attr h hd hign (Or.inl hs0)
    · exact hi.syms y hy
  · exact hi.syms

theorem find_sym_mem (s : St) (t : Stmt) (y : Sym) (h : findSym s t = some y) : y ∈ s.syms ∧ y.stmt = t := by
  unfold findSym at h
  exact ⟨by have := List.mem_of_find?_eq_some h; simpa using this, by have := List.find?_some h; simpa using this⟩

theorem jump_inv (P : Prog) (s : St) (line off : Nat) (snap : Src) (h : Inv P s) (hj : JumpOk P line off snap)
    (hm : s.look = none → s.macros ≠ [] → line = snap.endLine + 1 ∧ off = snap.endIdx) : Inv P (jump P s line off snap) := by
  rw [jump_eq _ _ _ _ _ hj.offLt]
  refine ⟨?_, hj.offLt, hj.endLt, h.stopLt, h.syms, h.look⟩
  intro hh
  rcases hh with hh | ⟨h1, h2⟩
  · exact hj.pos hh
  · exact hm h1 h2

/-- Stop positions are consistent. -/
theorem startLook_inv (P : Prog) (s : St) (l : Look) (h : Inv P s) (hl : JumpOk P l.line l.off l.snap) (ha : l.attr = false → s.macros = [])
    (hm : s.macros ≠ [] → l.line = l.snap.endLine + 1 ∧ l.off = l.snap.endIdx) : Inv P (startLook P s l) := by
  have hst : ∀ s' : St, Inv P { s' with look := some l } → True := fun _ _ => trivial
  unfold startLook
  simp only
  split
  · rw [jump_eq _ _ _ _ _ h.stopLt]
    refine ⟨?_, h.stopLt, h.stopLt, h.stopLt, h.syms, ?_⟩
    · intro hh
      simp at hh
      exact ⟨rfl, rfl⟩
    · intro l' hl'
      simp at hl'
      subst hl'
      exact ⟨hl, ha, hm⟩
  · refine ⟨?_, h.offLt, h.endLt, h.stopLt, h.syms, ?_⟩
    · intro hh
      simp at hh
      exact h.pos (Or.inl hh)
    · intro l' hl'
      simp at hl'
      subst hl'
      exact ⟨hl, ha, hm⟩

theorem decMacro_ne (ms : List Invo) : decMacro ms ≠ [] ↔ ms ≠ [] := by cases ms <;> simp [decMacro]

theorem finishLook_inv (P : Prog) (s : St) (l : Look) (h : Inv P s) (hl : s.look = some l) : Inv P (finishLook P s l) := by
  obtain ⟨hj, ha, hm⟩ := h.look l hl
  have hc := (createSnapshot_fields s.src).1
  unfold finishLook
  simp only
  split
  · rw [jump_eq _ _ _ _ _ hj.offLt]
    refine ⟨?_, hj.offLt, hj.endLt, by simp only [hc]; exact h.endLt, h.syms, by simp⟩
    intro hh
    rcases hh with hh | ⟨_, hh⟩
    · exact hj.pos hh
    · exact hm ((decMacro_ne _).1 hh)
  · rw [jump_eq _ _ _ _ _ hj.offLt]
    refine ⟨?_, hj.offLt, hj.endLt, by simp only [hc]; exact h.endLt, h.syms, by simp⟩
    intro hh
    rcases hh with hh | ⟨_, hh⟩
    · exact hj.pos hh
    · exact hm hh

theorem finishLook_core (P : Prog) (s : St) (l : Look) (hj : JumpOk P l.line l.off l.snap) :
    (finishLook P s l).core = ⟨l.line, l.off, l.snap.copy, if l.attr then decMacro s.macros else s.macros⟩ ∧
    (finishLook P s l).look = none := by
  unfold finishLook
  simp only
  split <;> rw [jump_eq _ _ _ _ _ hj.offLt] <;> simp_all [St.core]

theorem step_inv (P : Prog) (hP : Simple P) (s : St) (op : Op) (hr : Regular op) (h : Inv P s) : Inv P (step P s op) := by
  have hearly : op.early = false := by cases op <;> simp_all [Op.early, Regular]
  have hd := deliver_cases P hP s h
  unfold step
  rw [hearly]
  generalize hds : deliver P false s = ds at hd
  obtain ⟨r, s1⟩ := ds
  simp only at hd ⊢
  obtain ⟨hi, hl, hsy, hmac, hme, hpos⟩ := delivered_inv P s s1 r h hd
  cases r with
  | none =>
    simp only [nothing]
    split
    · exact hi
    · next l hl =>
      split
      · exact finishLook_inv P s1 l hi hl
      · exact hi
  | some x =>
    have hp := hpos (by simp)
    have hreg := register_inv P s s1 x h hd
    obtain ⟨r1, r2, r3, r4, r5, r6⟩ := register_fields s1 x
    simp only
    split
    · next hlk =>
      cases op with
      | plain => exact hreg
      | finish => exact hreg
      | found => exact hreg
      | aread a b => exact absurd hr (by simp [Regular])
      | copy m =>
        simp only [ordinary]
        refine ⟨fun _ => ?_, ?_, hi.endLt, ?_, hreg.syms, ?_⟩
        · exact ⟨r2 ▸ hp.1, r3 ▸ hp.2⟩
        · exact r3 ▸ hi.offLt
        · exact r6 ▸ hi.stopLt
        · exact hreg.look
      | call m =>
        simp only [ordinary]
        refine ⟨fun _ => ?_, hreg.offLt, hreg.endLt, hreg.stopLt, hreg.syms, ?_⟩
        · have : (register s1 x).line = (register s1 x).src.endLine + 1 ∧ (register s1 x).off = (register s1 x).src.endIdx := by
            rw [r1, r2, r3]; exact hp
          exact this
        · intro l hl'
          have : (register s1 x).look = some l := hl'
          rw [r5, hlk] at this
          simp at this
      | seqLook =>
        simp only [ordinary]
        split
        · next hm =>
          have hm' : (register s1 x).macros = [] := by simpa using hm
          obtain ⟨e1, e2, e3⟩ := bump_create (register s1 x).src
          refine startLook_inv P _ _ hreg ⟨?_, ?_, ?_⟩ (fun _ => hm') (fun hh => absurd hm' hh)
          · simp only [endSnapshot, r1]; exact hi.endLt
          · simp only [endSnapshot]; rw [e1, r1]; exact hi.endLt
          · intro _; simp only [endSnapshot, e1, e2]; exact ⟨trivial, trivial⟩
        · exact hreg
      | branch t =>
        simp only [ordinary]
        split
        · next y hy =>
          split
          · next hm =>
            have hm' : (register s1 x).macros = [] := by simpa using hm
            obtain ⟨hmem, _⟩ := find_sym_mem _ _ _ hy
            exact jump_inv P _ _ _ _ hreg (hreg.syms y hmem).1 (fun _ hh => absurd hm' hh)
          · exact hreg
        · exact hreg
      | attrLook e =>
        simp only [ordinary]
        by_cases hm : s1.macros = []
        · have hb := begin_delivers P s s1 x false h hd (Or.inr hm) (Or.inr (hme hm (by simp)))
          exact startLook_inv P s1 _ hi hb.1 (by simp) (fun hh => absurd hm hh)
        · obtain ⟨e1, e2, e3⟩ := bump_create s1.src
          have hin : (!false && !s1.macros.isEmpty) = true := by simp [hm]
          refine startLook_inv P s1 _ hi ⟨?_, ?_, ?_⟩ (by simp) ?_
          · simp only [beginSnapshot, hin]; exact hi.endLt
          · simp only [beginSnapshot, hin]; simpa [e1] using hi.endLt
          · intro _; simp only [beginSnapshot, hin]; simp [e1, e2]
          · intro _; simp only [beginSnapshot, hin]; simp [e1, e2]
    · next l hlk =>
      have hlk' : (register s1 x).look = some l := by rw [r5]; exact hlk
      cases op with
      | copy m =>
        refine ⟨?_, by simp only [lookahead, r3]; exact hi.offLt, by simp only [lookahead]; exact hi.endLt, by simp only [lookahead, r6]; exact hi.stopLt, hreg.syms, ?_⟩
        · intro _
          simp only [lookahead, r2, r3]
          exact hp
        · simp only [lookahead]
          exact hreg.look
      | finish => exact finishLook_inv P _ l hreg hlk'
      | found =>
        simp only [lookahead]
        split
        · next y hy =>
          split
          · exact hreg
          · next ha =>
            have hm := (hreg.look l hlk').2.1 (by simpa using ha)
            obtain ⟨hmem, _⟩ := find_sym_mem _ _ _ hy
            have hj := (hreg.syms y hmem).1
            simp only [finishFound]
            refine jump_inv P _ _ _ _ ⟨?_, hreg.offLt, hreg.endLt, ?_, hreg.syms, by simp⟩ hj (fun _ hh => absurd hm hh)
            · intro hh
              rcases hh with hh | ⟨_, hh⟩
              · exact hreg.pos (Or.inl hh)
              · exact absurd hm hh
            · simp only [(createSnapshot_fields _).1]; exact hreg.endLt
        · exact hreg
      | plain => exact hreg
      | call m => exact hreg
      | attrLook e => exact hreg
      | seqLook => exact hreg
      | branch t => exact hreg
      | aread a b => exact hreg

theorem run_inv (P : Prog) (hP : Simple P) (ops : List Op) : ∀ (s : St), (∀ op ∈ ops, Regular op) → Inv P s → Inv P (run P s ops) := by
  induction ops with
  | nil => intro s _ h; exact h
  | cons op ops ih => intro s hr h; exact ih _ (fun o ho => hr o (by simp [ho])) (step_inv P hP s op (hr op (by simp)) h)

theorem init_inv (P : Prog) (hP : Simple P) : Inv P {} :=
  ⟨by simp, hP.1, hP.1, hP.1, by simp, by simp⟩

/-- One step of a lookahead: it goes on with the same data, or it returns, or it jumps to the statement just delivered. -/
theorem look_step (P : Prog) (hP : Simple P) (s : St) (l : Look) (op : Op) (hr : Regular op) (h : Inv P s) (hl : s.look = some l) :
    ((step P s op).look = some l ∧ (step P s op).macros = s.macros) ∨
    ((step P s op).look = none ∧ (step P s op).core = ⟨l.line, l.off, l.snap.copy, if l.attr then decMacro s.macros else s.macros⟩) ∨
    ((step P s op).look = none ∧ l.attr = false ∧ op = .found ∧ (deliver P false s).1 ≠ none ∧
      (deliver P false (step P s op)).1 = (deliver P false s).1) := by
  have hearly : op.early = false := by cases op <;> simp_all [Op.early, Regular]
  have hd := deliver_cases P hP s h
  unfold step
  rw [hearly]
  generalize hds : deliver P false s = ds at hd
  obtain ⟨r, s1⟩ := ds
  simp only at hd ⊢
  obtain ⟨hi, hl1, hsy, hmac, hme, hpos⟩ := delivered_inv P s s1 r h hd
  have hm1 := hmac (by rw [hl]; simp)
  have hlk : s1.look = some l := by rw [hl1]; exact hl
  have hj := (h.look l hl).1
  cases r with
  | none =>
    simp only [nothing, hlk]
    split
    · right; left
      have := finishLook_core P s1 l hj
      rw [this.1, this.2, hm1]
      exact ⟨rfl, rfl⟩
    · left; exact ⟨hlk, hm1⟩
  | some x =>
    have hreg := register_inv P s s1 x h hd
    obtain ⟨r1, r2, r3, r4, r5, r6⟩ := register_fields s1 x
    have hlk' : (register s1 x).look = some l := by rw [r5]; exact hlk
    have keep : (register s1 x).look = some l ∧ (register s1 x).macros = s.macros := ⟨hlk', by rw [r4, hm1]⟩
    simp only [hlk]
    cases op with
    | copy m => left; exact keep
    | plain => left; exact keep
    | call m => left; exact keep
    | attrLook e => left; exact keep
    | seqLook => left; exact keep
    | branch t => left; exact keep
    | aread a b => left; exact keep
    | finish =>
      right; left
      have := finishLook_core P (register s1 x) l hj
      simp only [lookahead]
      rw [this.1, this.2, r4, hm1]
      exact ⟨rfl, rfl⟩
    | found =>
      simp only [lookahead]
      split
      · next y hy =>
        split
        · left; exact keep
        · next ha =>
          right; right
          have ha' : l.attr = false := by simpa using ha
          have hm := (hreg.look l hlk').2.1 ha'
          obtain ⟨hmem, hst⟩ := find_sym_mem _ _ _ hy
          obtain ⟨hj', hdel⟩ := hreg.syms y hmem
          simp only [finishFound]
          rw [jump_eq _ _ _ _ _ hj'.offLt]
          refine ⟨by simp, ha', by simp, by simp, ?_⟩
          unfold Delivers at hdel
          simp only [deliver, hm, deliverRest]
          cases hc : y.snap.copy with
          | nil =>
            simp only [hc] at hdel
            simp only [deliverOpen]
            cases hf : P.file y.off with
            | none => simp [hf] at hdel
            | some v => simp only [← hst, hdel.1]
          | cons f fs =>
            simp only [hc] at hdel
            simp only [deliverCopy, if_neg hdel.1, ← hst, hdel.2]
      · next hn =>
        exfalso
        have hnot : ∀ y ∈ (register s1 x).syms, y.stmt ≠ x := by
          intro y hy he
          unfold findSym at hn
          rw [List.find?_eq_none] at hn
          exact hn y (by simpa using hy) (by simpa using he)
        have hcond : (attrActive s1 || s1.macros.isEmpty) = true := by
          simp only [attrActive, hlk]
          cases ha : l.attr with
          | true => simp [ha]
          | false => simp [ha, (hi.look l hlk).2.1 ha]
        unfold register at hnot
        rw [if_pos hcond] at hnot
        exact hnot _ (List.mem_cons_self) rfl

/-- The steps of a lookahead that is still going on. -/
theorem look_run (P : Prog) (hP : Simple P) (ops : List Op) : ∀ (s : St) (l : Look), (∀ op ∈ ops, Regular op) → Inv P s → s.look = some l →
    (∀ k ≤ ops.length, (run P s (ops.take k)).look ≠ none) → (run P s ops).look = some l ∧ (run P s ops).macros = s.macros := by
  induction ops with
  | nil => intro s l _ _ hl _; exact ⟨hl, rfl⟩
  | cons op ops ih =>
    intro s l hr h hl hk
    have h1 := hk 1 (by simp)
    simp only [run, List.take_succ_cons, List.take_zero, List.foldl_cons, List.foldl_nil] at h1
    rcases look_step P hP s l op (hr op (by simp)) h hl with ⟨e1, e2⟩ | ⟨e1, _⟩ | ⟨e1, _⟩
    · have := ih (step P s op) l (fun o ho => hr o (by simp [ho])) (step_inv P hP s op (hr op (by simp)) h) e1 (by
        intro k hkl
        have := hk (k + 1) (by simp; omega)
        simpa [run] using this)
      refine ⟨this.1, ?_⟩
      rw [← e2]
      exact this.2
    · exact absurd e1 h1
    · exact absurd e1 h1

/-- A lookahead: started by a statement processed in `s`, continued with `ops`, ended by `last`. -/
structure Excursion (P : Prog) (s : St) (start : Op) (ops : List Op) (last : Op) : Prop where
  ordinary : s.look = none
  started : ∀ k ≤ ops.length, (run P (step P s start) (ops.take k)).look ≠ none
  ended : (run P (step P s start) (ops ++ [last])).look = none

theorem startLook_fields (P : Prog) (s : St) (l : Look) : (startLook P s l).look = some l ∧ (startLook P s l).macros = s.macros := by
  unfold startLook
  simp only
  split <;> simp [jump]

/-- C40: after a lookahead for attributes the processing continues exactly at the statement that started it: in every program, at
every position in macros, in nested COPY members and in open code, whatever statements the lookahead goes through (entering and
leaving COPY members, registering symbols) and however it ends. `history` is everything that happened before, including other
lookaheads and jumps. -/
theorem C40_attribute_partial (P : Prog) (hP : Simple P) (history ops : List Op) (last : Op)
    (hreg : ∀ op ∈ history ++ ops ++ [last], Regular op)
    (he : Excursion P (run P {} history) (.attrLook false) ops last) :
    (run P {} (history ++ .attrLook false :: ops ++ [last])).core = (run P {} history).core := by
  have hinv := run_inv P hP history {} (fun o ho => hreg o (by simp [ho])) (init_inv P hP)
  generalize hs : run P {} history = s at *
  have hrun : run P {} (history ++ .attrLook false :: ops ++ [last]) = step P (run P (step P s (.attrLook false)) ops) last := by
    simp [run, ← hs]
  have hended := he.ended
  have hended : (step P (run P (step P s (.attrLook false)) ops) last).look = none := by simpa [run] using hended
  rw [hrun]
  have hs0 := he.started 0 (by simp)
  simp only [List.take_zero, run, List.foldl_nil] at hs0
  have hinv1 := step_inv P hP s (.attrLook false) rfl hinv
  obtain ⟨l, hl⟩ := Option.ne_none_iff_exists'.mp hs0
  obtain ⟨hrl, hrm⟩ := look_run P hP ops (step P s (.attrLook false)) l (fun o ho => hreg o (by simp [ho])) hinv1 hl he.started
  have hinv2 := run_inv P hP ops _ (fun o ho => hreg o (by simp [ho])) hinv1
  have hdel := deliver_cases P hP s hinv
  -- the data of the lookahead
  have hdata : l.attr = true ∧ l.line = s.line ∧ l.off = s.off ∧ l.snap.copy = s.src.copy ∧
      decMacro (step P s (.attrLook false)).macros = s.macros := by
    unfold step at hl ⊢
    simp only [Op.early] at hl ⊢
    generalize hds : deliver P false s = ds at hdel hl
    obtain ⟨r, s1⟩ := ds
    simp only at hdel hl ⊢
    obtain ⟨hi, hl1, _, hmac, hme, hpos⟩ := delivered_inv P s s1 r hinv hdel
    have hsl : s1.look = none := by rw [hl1]; exact he.ordinary
    cases r with
    | none => simp [nothing, hsl] at hl
    | some x =>
      simp only [hsl, ordinary] at hl ⊢
      obtain ⟨f1, f2⟩ := startLook_fields P s1 ⟨true, (beginSnapshot false s1).1, (beginSnapshot false s1).2.1, (beginSnapshot false s1).2.2⟩
      rw [f1] at hl
      rw [f2]
      simp only [Option.some.injEq] at hl
      subst hl
      by_cases hm : s1.macros = []
      · obtain ⟨b1, b2, b3, _, _⟩ := begin_ok P s s1 x false hinv hdel (Or.inr hm) (Or.inr (hme hm (by simp)))
        refine ⟨rfl, b1, b2, b3, ?_⟩
        rw [hm, hme hm (by simp)]
        rfl
      · obtain ⟨e1, e2, e3⟩ := bump_create s1.src
        have hin : (!false && !s1.macros.isEmpty) = true := by simp [hm]
        simp only [beginSnapshot, hin, if_true, Bool.not_true, Bool.false_and, Bool.false_eq_true, if_false]
        cases hdel with
        | mac m ms hl hmm hs =>
          subst hs
          have hp := hinv.pos (Or.inr ⟨hl, by simp [hmm]⟩)
          refine ⟨trivial, hp.1.symm, hp.2.symm, e3, ?_⟩
          simp [decMacro, hmm]
        | copy f fs hl hc hne hs =>
          subst hs
          rcases hl with hl | hl
          · exact absurd he.ordinary hl
          · exact absurd hl hm
        | opencode e n hl hc hf hn hee hs =>
          subst hs
          rcases hl with hl | hl
          · exact absurd he.ordinary hl
          · exact absurd hl hm
  obtain ⟨ha, d1, d2, d3, d4⟩ := hdata
  rcases look_step P hP _ l last (hreg last (by simp)) hinv2 hrl with ⟨e1, _⟩ | ⟨_, e2⟩ | ⟨_, e2, _⟩
  · rw [e1] at hended; simp at hended
  · rw [e2, ha, hrm]
    simp only [if_true, d1, d2, d3, d4, St.core]
  · rw [ha] at e2; simp at e2

/-- C40: after a lookahead for a sequence symbol the processing continues right after the branch, or — if it was found — with the
very statement that carries it: the next delivered statement is the one that was delivered last in the lookahead. -/
theorem C40_symbol_partial (P : Prog) (hP : Simple P) (history ops : List Op) (last : Op)
    (hreg : ∀ op ∈ history ++ ops ++ [last], Regular op)
    (he : Excursion P (run P {} history) .seqLook ops last) :
    (run P {} (history ++ .seqLook :: ops ++ [last])).core = (deliver P false (run P {} history)).2.core ∨
    (last = .found ∧ (deliver P false (run P {} (history ++ .seqLook :: ops))).1 ≠ none ∧
      (deliver P false (run P {} (history ++ .seqLook :: ops ++ [last]))).1 = (deliver P false (run P {} (history ++ .seqLook :: ops))).1) := by
  have hinv := run_inv P hP history {} (fun o ho => hreg o (by simp [ho])) (init_inv P hP)
  have hrun' : run P {} (history ++ .seqLook :: ops) = run P (step P (run P {} history) .seqLook) ops := by simp [run]
  have hrun : run P {} (history ++ .seqLook :: ops ++ [last]) = step P (run P (step P (run P {} history) .seqLook) ops) last := by simp [run]
  rw [hrun, hrun']
  generalize hs : run P {} history = s at *
  have hended : (step P (run P (step P s .seqLook) ops) last).look = none := by simpa [run] using he.ended
  have hs0 := he.started 0 (by simp)
  simp only [List.take_zero, run, List.foldl_nil] at hs0
  have hinv1 := step_inv P hP s .seqLook trivial hinv
  obtain ⟨l, hl⟩ := Option.ne_none_iff_exists'.mp hs0
  obtain ⟨hrl, hrm⟩ := look_run P hP ops (step P s .seqLook) l (fun o ho => hreg o (by simp [ho])) hinv1 hl he.started
  have hinv2 := run_inv P hP ops _ (fun o ho => hreg o (by simp [ho])) hinv1
  have hdel := deliver_cases P hP s hinv
  have hdata : l.attr = false ∧ l.line = (deliver P false s).2.line ∧ l.off = (deliver P false s).2.off ∧ l.snap.copy = (deliver P false s).2.src.copy ∧
      (step P s .seqLook).macros = (deliver P false s).2.macros := by
    unfold step at hl ⊢
    simp only [Op.early] at hl ⊢
    generalize hds : deliver P false s = ds at hdel hl
    obtain ⟨r, s1⟩ := ds
    simp only at hdel hl ⊢
    obtain ⟨hi, hl1, _, hmac, hme, hpos⟩ := delivered_inv P s s1 r hinv hdel
    have hsl : s1.look = none := by rw [hl1]; exact he.ordinary
    obtain ⟨r1, r2, r3, r4, r5, r6⟩ := register_fields s1 (r.getD (.opencode 0))
    cases r with
    | none => simp [nothing, hsl] at hl
    | some x =>
      simp only [Option.getD_some] at r1 r2 r3 r4 r5 r6
      have hp := hpos (by simp)
      simp only [hsl, ordinary] at hl ⊢
      split at hl
      · next hm =>
        rw [if_pos hm]
        obtain ⟨f1, f2⟩ := startLook_fields P (register s1 x)
          ⟨false, (endSnapshot (register s1 x)).1, (endSnapshot (register s1 x)).2.1, (endSnapshot (register s1 x)).2.2⟩
        rw [f1] at hl
        rw [f2]
        simp only [Option.some.injEq] at hl
        subst hl
        obtain ⟨e1, e2, e3⟩ := bump_create (register s1 x).src
        refine ⟨rfl, ?_, ?_, ?_, r4⟩
        · simp only [endSnapshot, r1]; exact hp.1.symm
        · simp only [endSnapshot, r1]; exact hp.2.symm
        · simp only [endSnapshot]; rw [e3, r1]
      · rw [r5, hsl] at hl; simp at hl
  obtain ⟨ha, d1, d2, d3, d4⟩ := hdata
  rcases look_step P hP _ l last (hreg last (by simp)) hinv2 hrl with ⟨e1, _⟩ | ⟨_, e2⟩ | ⟨_, _, e2, e3, e4⟩
  · rw [e1] at hended; simp at hended
  · left
    rw [e2, ha, hrm]
    simp only [Bool.false_eq_true, if_false, d1, d2, d3, d4, St.core]
  · right
    exact ⟨e2, e3, e4⟩

/-- C40: a branch to a known symbol continues with the statement that carries it. -/
theorem C40_branch_partial (P : Prog) (hP : Simple P) (history : List Op) (t : Stmt) (hreg : ∀ op ∈ history, Regular op)
    (hord : (run P {} history).look = none) (hmac : (deliver P false (run P {} history)).2.macros = [])
    (x : Stmt) (hx : (deliver P false (run P {} history)).1 = some x)
    (hknown : findSym (register (deliver P false (run P {} history)).2 x) t ≠ none) :
    (deliver P false (run P {} (history ++ [.branch t]))).1 = some t := by
  have hinv := run_inv P hP history {} hreg (init_inv P hP)
  have hrun : run P {} (history ++ [.branch t]) = step P (run P {} history) (.branch t) := by simp [run]
  rw [hrun]
  generalize hs : run P {} history = s at *
  have hdel := deliver_cases P hP s hinv
  unfold step
  simp only [Op.early]
  generalize hds : deliver P false s = ds at *
  obtain ⟨r, s1⟩ := ds
  simp only at hx hmac hknown hdel ⊢
  subst hx
  obtain ⟨hi, hl1, _, _, _, _⟩ := delivered_inv P s s1 _ hinv hdel
  obtain ⟨r1, r2, r3, r4, r5, r6⟩ := register_fields s1 x
  have hsl : s1.look = none := by rw [hl1]; exact hord
  have hregi := register_inv P s s1 x hinv hdel
  obtain ⟨y, hy⟩ := Option.ne_none_iff_exists'.mp hknown
  obtain ⟨hmem, hst⟩ := find_sym_mem _ _ _ hy
  obtain ⟨hj, hdl⟩ := hregi.syms y hmem
  simp only [hsl, ordinary, hy, r4, hmac, List.isEmpty_nil, if_true]
  rw [jump_eq _ _ _ _ _ hj.offLt]
  unfold Delivers at hdl
  simp only [deliver, r4, r5, hsl, hmac, deliverRest]
  cases hc : y.snap.copy with
  | nil =>
    simp only [hc] at hdl
    simp only [deliverOpen]
    cases hf : P.file y.off with
    | none => simp [hf] at hdl
    | some v => simp only [← hst, hdl.1]
  | cons f fs =>
    simp only [hc] at hdl
    simp only [deliverCopy, if_neg hdl.1, ← hst, hdl.2]

/-- The statements delivered in the next `n` steps of ordinary processing depend only on the core of the state. -/
theorem core_determines (P : Prog) (s t : St) (h : s.core = t.core) (hs : s.look = none) (ht : t.look = none) :
    (deliver P false s).1 = (deliver P false t).1 ∧ (deliver P false s).2.core = (deliver P false t).2.core := by
  simp only [St.core, Core.mk.injEq] at h
  obtain ⟨h1, h2, h3, h4⟩ := h
  unfold deliver
  rw [hs, ht, h4]
  cases t.macros with
  | cons m ms =>
    simp only [deliverMac]
    split <;> simp [St.core, h1, h2, h3]
  | nil =>
    simp only [deliverRest, h3]
    cases t.src.copy with
    | cons f fs =>
      simp only [deliverCopy]
      split <;> simp [St.core, h1, h2, h4]
    | nil =>
      simp only [deliverOpen, h2]
      split <;> simp [St.core, h1, h2, h3, h4]

/-! ### Where the code does return elsewhere -/

/-- Lines of ten characters, one statement each. -/
def tenProg (lines : Nat) : Prog :=
  { file := fun o => if o % 10 = 0 ∧ o / 10 < lines then some (o + 10, 1, 0) else none, size := 10 * lines, copySize := fun _ => 3, macroSize := fun _ => 2 }

/-- Non-vacuity: a program with a COPY member entered from open code; a lookahead from its second statement leaves the member,
reads open code and comes back. -/
example : Excursion { tenProg 10 with size := 200 } (run { tenProg 10 with size := 200 } {} [.plain, .copy 7, .plain]) (.attrLook false) [.plain, .plain, .plain] .finish ∧
    (run { tenProg 10 with size := 200 } {} [.plain, .copy 7, .plain]).core = ⟨2, 20, [⟨7, 0⟩], []⟩ := by
  refine ⟨⟨by decide, ?_, by decide⟩, by decide⟩
  intro k hk
  have : k = 0 ∨ k = 1 ∨ k = 2 ∨ k = 3 := by simp at hk; omega
  rcases this with rfl | rfl | rfl | rfl <;> decide

/-- AREAD does not update the source position: when a macro has read a line of open code with AREAD and a later statement of
it starts a lookahead, the line is read again as a statement. -/
theorem C40_witness_aread :
    let P := { tenProg 10 with size := 200 }
    let s := run P {} [.call 1, .aread 2 20]
    s.core = ⟨2, 20, [], [⟨1, 0⟩]⟩ ∧ (run P s [.attrLook false, .finish]).core = ⟨1, 10, [], [⟨1, 0⟩]⟩ := by decide

/-- A lookahead started by the instruction field of a statement of open code returns to the right offset with the line number of
the previous statement. -/
theorem C40_witness_instruction :
    let P := { tenProg 10 with size := 200 }
    let s := run P {} [.plain, .plain]
    s.core = ⟨2, 20, [], []⟩ ∧ (run P s [.attrLook true, .finish]).core = ⟨1, 20, [], []⟩ := by decide

/-- A lookahead from a macro called in the last line of open code returns one character before the end of the text instead of the
end. -/
theorem C40_witness_end :
    let P := tenProg 1
    let s := run P {} [.call 1]
    s.core = ⟨1, 10, [], [⟨1, -1⟩]⟩ ∧ (run P s [.attrLook false, .finish]).core = ⟨1, 9, [], [⟨1, -1⟩]⟩ := by decide

/-- Symbols are only added, at the front of the list. -/
theorem step_syms (P : Prog) (s : St) (op : Op) : ∃ new, (step P s op).syms = new ++ s.syms := by
  have hreg : ∀ (s : St) (x : Stmt), ∃ new, (register s x).syms = new ++ s.syms := by
    intro s x
    unfold register
    split
    · exact ⟨[_], rfl⟩
    · exact ⟨[], rfl⟩
  have hj : ∀ (s : St) l o y, (jump P s l o y).syms = s.syms := fun _ _ _ _ => rfl
  have hsl : ∀ (s : St) l, (startLook P s l).syms = s.syms := by
    intro s l; unfold startLook; split <;> rfl
  have hfl : ∀ (s : St) l, (finishLook P s l).syms = s.syms := by
    intro s l; unfold finishLook; split <;> rfl
  have hdel : (deliver P op.early s).2.syms = s.syms := by
    unfold deliver
    split
    · unfold deliverMac; split <;> rfl
    · unfold deliverRest
      split
      · unfold deliverCopy; split <;> rfl
      · unfold deliverOpen; split <;> rfl
  unfold step
  generalize deliver P op.early s = ds at *
  obtain ⟨r, s1⟩ := ds
  simp only at hdel
  rw [← hdel]
  cases r with
  | none =>
    simp only [nothing]
    split
    · exact ⟨[], rfl⟩
    · split
      · exact ⟨[], by rw [hfl]; rfl⟩
      · exact ⟨[], rfl⟩
  | some x =>
    simp only
    split
    · cases op <;> simp only [ordinary]
      case attrLook e => exact ⟨[], by rw [hsl]; rfl⟩
      case seqLook =>
        split
        · rw [hsl]; exact hreg _ _
        · exact hreg _ _
      case branch t =>
        split
        · split
          · rw [hj]; exact hreg _ _
          · exact hreg _ _
        · exact hreg _ _
      case aread a b => split <;> exact hreg _ _
      all_goals exact hreg _ _
    · cases op <;> simp only [lookahead]
      case finish => rw [hfl]; exact hreg _ _
      case found =>
        split
        · split
          · exact hreg _ _
          · rw [finishFound, hj]; exact hreg _ _
        · exact hreg _ _
      all_goals exact hreg _ _

/-- C40: the place a sequence symbol denotes is the first one at which it was met, whatever is processed later. -/
theorem C40_first (P : Prog) (ops : List Op) (s : St) (t : Stmt) (y : Sym) (h : findSym s t = some y) :
    findSym (run P s ops) t = some y := by
  induction ops generalizing s with
  | nil => exact h
  | cons op ops ih =>
    refine ih (step P s op) ?_
    obtain ⟨new, hn⟩ := step_syms P s op
    unfold findSym at *
    rw [hn, List.reverse_append, List.find?_append, h]
    rfl

/-- C40: a lookahead continues where the last one ended, unless the processing has passed that point: no part of open code is
searched twice. -/
theorem C40_forward (P : Prog) (s : St) (l : Look) :
    (startLook P s l).src.endIdx = max s.src.endIdx s.stop.endIdx ∧
    ((startLook P s l).src = s.src ∧ (startLook P s l).off = s.off ∨ (startLook P s l).src = s.stop) := by
  unfold startLook
  by_cases h : s.src.endIdx < s.stop.endIdx
  · simp [h, jump]; omega
  · simp [h]; omega

end Verif.Processing.Look
