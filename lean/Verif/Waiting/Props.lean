import Verif.Waiting.Spec
import Mathlib.Data.List.Nodup
import Mathlib.Data.List.Basic
/-!
C142.
-/
namespace Verif.Waiting
open Spec
open Verif.Exec (Loc File)

theorem showAt_some (st : Stack) (hs : st ≠ []) (m : Nat × Nat) : ∃ d, showAt st m = some d ∧ Shown m st d := by
  unfold showAt
  cases h : st.reverse with
  | nil => exact absurd (List.reverse_eq_nil_iff.mp h) hs
  | cons top below =>
    refine ⟨_, rfl, below.reverse, top, ?_, rfl, rfl, rfl, by simp⟩
    rw [← List.reverse_reverse st, h]; simp

theorem collectorStack_eq {st : Stack} (h : st ≠ []) (cur : Stack) : collectorStack st cur = st := by
  cases st with
  | nil => exact absurd rfl h
  | cons a l => rfl

/-- What the loop of `finish` has put into the table. -/
theorem addRefs (i c : Nat) : ∀ (ts : List Target) (refs : Target → Option (Nat × Nat)), (∀ t ∈ ts, refs t = none) → ts.Nodup →
    ∀ x, (ts.foldl (fun r t => addRef r i c t) refs) x = if x ∈ ts then some (i, c) else refs x
  | [], _, _, _, x => by simp
  | t :: ts, refs, h, hn, x => by
    rw [List.nodup_cons] at hn
    rw [List.foldl_cons, addRefs i c ts _ _ hn.2 x]
    · by_cases hx : x = t
      · subst hx
        simp [hn.1, addRef, h x (by simp)]
      · simp [hx, addRef]
    · intro u hu
      have : u ≠ t := fun e => hn.1 (e ▸ hu)
      simp [addRef, this, h u (by simp [hu])]

/-- The invariant between what has happened and what is still to come. -/
structure Inv (s : State) (r : List Ev) : Prop where
  proper : Proper r
  posts : ∀ p ∈ s.posts, p.stmt ∉ (processed r).map (·.1)
  stacks : ∀ p ∈ s.posts, p.stack ≠ []
  target : ∀ t i c, s.refs t = some (i, c) → t ∉ defined r ∧ i ∉ (processed r).map (·.1) ∧ 1 ≤ c

/-- A statement is let go if the only thing it was registered for is computed. -/
def Gone (s : State) (r : List Ev) (p : Post) : Prop := ∃ t, s.refs t = some (p.stmt, 1) ∧ computed t r

theorem computed_cons {t : Target} {e : Ev} {r : List Ev} : computed t (e :: r) ↔ (∃ cur found, e = .resolve t cur found) ∨ computed t r := by
  constructor
  · rintro ⟨c, f, h⟩
    rcases List.mem_cons.mp h with h | h
    · exact .inl ⟨c, f, h.symm⟩
    · exact .inr ⟨c, f, h⟩
  · rintro (⟨c, f, h⟩ | ⟨c, f, h⟩)
    · exact ⟨c, f, by simp [h]⟩
    · exact ⟨c, f, by simp [h]⟩

theorem kind_one (k : Kind) (t : Target) : (t ∈ k.targets ∧ k.refs = 1) ↔ ((∃ l, k = .equ l ∧ t = .sym l) ∨ ∃ s, k = .org s ∧ t = .space s) := by
  cases k with
  | mach => simp [Kind.targets]
  | equ l => simp [Kind.targets, Kind.refs]
  | circle => simp [Kind.targets]
  | org s => simp [Kind.targets, Kind.refs]
  | data sp l s =>
    simp only [Kind.refs]
    constructor
    · rintro ⟨h, hc⟩
      have : (Kind.data sp l s).targets = [] := List.length_eq_zero_iff.mp (by omega)
      rw [this] at h; cases h
    · rintro (⟨_, h, _⟩ | ⟨_, h, _⟩) <;> cases h

theorem refs_zero (k : Kind) : k.refs = 0 ↔ k = .circle := by
  cases k <;> simp [Kind.refs, Kind.targets]

theorem lost_iff (k : Kind) (hk : k ≠ .circle) (r : List Ev) : Lost k r ↔ ∃ t, (t ∈ k.targets ∧ k.refs = 1) ∧ computed t r := by
  constructor
  · intro h
    cases k with
    | mach => exact h.elim
    | data sp l s => exact h.elim
    | circle => exact absurd rfl hk
    | equ l => exact ⟨.sym l, (kind_one _ _).mpr (.inl ⟨l, rfl, rfl⟩), h⟩
    | org s => exact ⟨.space s, (kind_one _ _).mpr (.inr ⟨s, rfl, rfl⟩), h⟩
  · rintro ⟨t, h, hc⟩
    rcases (kind_one _ _).mp h with ⟨l, rfl, rfl⟩ | ⟨s, rfl, rfl⟩
    · exact hc
    · exact hc

theorem refs_pos (k : Kind) (t : Target) (h : t ∈ k.targets) : 1 ≤ k.refs := by
  cases k with
  | mach => cases h
  | circle => cases h
  | data => simp [Kind.refs]
  | equ => simp [Kind.refs, Kind.targets]
  | org => simp [Kind.refs, Kind.targets]

open Classical in
/-- Whatever has happened so far: what is checked in the end. -/
theorem checked_from : ∀ (r : List Ev) (s : State) (cur : Stack), Inv s r →
    List.Perm (finish (run s r) cur).checked
      (s.checked ++ ((s.posts.filter fun p => ¬ Gone s r p).map fun p => (p.stmt, p.stack)) ++ due r)
  | [], s, cur, h => by
    have hg : ∀ p, ¬ Gone s [] p := by rintro p ⟨t, _, c, f, hm⟩; cases hm
    have hf : (s.posts.filter fun p => ¬ Gone s [] p) = s.posts := List.filter_eq_self.mpr fun p _ => by simp [hg p]
    rw [hf]
    simp only [run, List.foldl_nil, finish, due, List.append_nil]
    have : (s.posts.map fun p => (p.stmt, collectorStack p.stack cur)) = s.posts.map fun p => (p.stmt, p.stack) :=
      List.map_congr_left fun p hp => by rw [collectorStack_eq (h.stacks p hp)]
    rw [this]
  | .now i st :: r, s, cur, h => by
    have hst : st ≠ [] := h.proper.place (i, st) (by simp [processed])
    have h' : Inv (step s (.now i st)) r := by
      refine ⟨⟨?_, ?_, ?_⟩, ?_, h.stacks, ?_⟩
      · have := h.proper.once; simp only [processed, List.map_cons, List.nodup_cons] at this; exact this.2
      · exact fun p hp => h.proper.place p (by simp [processed, hp])
      · exact h.proper.fresh
      · intro p hp; have := h.posts p hp; simp only [processed, List.map_cons, List.mem_cons, not_or] at this; exact this.2
      · intro t j c hr
        have := h.target t j c hr
        simp only [processed, List.map_cons, List.mem_cons, not_or, defined] at this
        exact ⟨this.1, this.2.1.2, this.2.2⟩
    have ih := checked_from r _ cur h'
    refine ih.trans ?_
    have hg : ∀ p, Gone (step s (.now i st)) r p ↔ Gone s (.now i st :: r) p := by
      intro p
      unfold Gone
      simp only [computed_cons, step]
      simp
    simp only [step, due, hg, collectorStack_eq hst]
    rw [show (fun p => decide ¬ Gone { s with checked := s.checked ++ [(i, st)] } r p) = fun p => decide ¬ Gone s (.now i st :: r) p from by
      funext p
      have := hg p
      simp only [step, collectorStack_eq hst] at this
      simp only [this]]
    simp only [List.append_assoc]
    refine List.Perm.append_left _ ?_
    rw [List.singleton_append]
    exact List.perm_middle.symm
  | .wait i st k :: r, s, cur, h => by
    have hst : st ≠ [] := h.proper.place (i, st) (by simp [processed])
    have hon := h.proper.once
    simp only [processed, List.map_cons, List.nodup_cons] at hon
    have hfr := h.proper.fresh
    simp only [defined, List.nodup_append] at hfr
    have hnone : ∀ t ∈ k.targets, s.refs t = none := by
      intro t ht
      cases hr : s.refs t with
      | none => rfl
      | some q =>
        obtain ⟨j, c⟩ := q
        exact absurd (by simp [defined, ht]) (h.target t j c hr).1
    by_cases hk : k = .circle
    · subst hk
      have h' : Inv s r := by
        refine ⟨⟨hon.2, fun p hp => h.proper.place p (by simp [processed, hp]), hfr.2.1⟩, ?_, h.stacks, ?_⟩
        · intro p hp; have := h.posts p hp; simp only [processed, List.map_cons, List.mem_cons, not_or] at this; exact this.2
        · intro t j c hr
          have := h.target t j c hr
          simp only [processed, List.map_cons, List.mem_cons, not_or, defined, List.mem_append] at this
          exact ⟨this.1.2, this.2.1.2, this.2.2⟩
      have ih := checked_from r s cur h'
      have hg : ∀ p, Gone s (.wait i st .circle :: r) p ↔ Gone s r p := by
        intro p
        unfold Gone
        simp only [computed_cons]
        simp
      have hl : Lost .circle r := trivial
      rw [due, if_pos hl]
      simp only [hg]
      exact ih
    have hz : k.refs ≠ 0 := fun e => hk ((refs_zero k).mp e)
    have href := addRefs i k.refs k.targets s.refs hnone hfr.1
    have h' : Inv (step s (.wait i st k)) r := by
      refine ⟨⟨hon.2, ?_, hfr.2.1⟩, ?_, ?_, ?_⟩
      · exact fun p hp => h.proper.place p (by simp [processed, hp])
      · intro p hp
        simp only [step, if_neg hz, List.mem_append, List.mem_singleton] at hp
        rcases hp with hp | rfl
        · have := h.posts p hp; simp only [processed, List.map_cons, List.mem_cons, not_or] at this; exact this.2
        · exact hon.1
      · intro p hp
        simp only [step, if_neg hz, List.mem_append, List.mem_singleton] at hp
        rcases hp with hp | rfl
        · exact h.stacks p hp
        · exact hst
      · intro t j c hr
        simp only [step, if_neg hz, href] at hr
        split at hr
        · rename_i ht
          cases hr
          exact ⟨fun hd => hfr.2.2 t ht t hd rfl, hon.1, refs_pos k t ht⟩
        · have := h.target t j c hr
          simp only [processed, List.map_cons, List.mem_cons, not_or, defined, List.mem_append] at this
          exact ⟨this.1.2, this.2.1.2, this.2.2⟩
    have ih := checked_from r _ cur h'
    refine ih.trans ?_
    have hold : ∀ p ∈ s.posts, (Gone (step s (.wait i st k)) r p ↔ Gone s (.wait i st k :: r) p) := by
      intro p hp
      have hne : p.stmt ≠ i := fun e => by
        have := h.posts p hp
        simp only [processed, List.map_cons, List.mem_cons, not_or] at this
        exact this.1 e
      unfold Gone
      simp only [computed_cons, step, if_neg hz, href]
      constructor
      · rintro ⟨t, ht, hc⟩
        split at ht
        · simp only [Option.some.injEq, Prod.mk.injEq] at ht; exact absurd ht.1.symm hne
        · exact ⟨t, ht, .inr hc⟩
      · rintro ⟨t, ht, hc⟩
        rcases hc with ⟨_, _, hc⟩ | hc
        · cases hc
        · refine ⟨t, ?_, hc⟩
          rw [if_neg]
          · exact ht
          · intro hm; rw [hnone t hm] at ht; cases ht
    have hnew : Gone (step s (.wait i st k)) r ⟨i, st⟩ ↔ Lost k r := by
      rw [lost_iff k hk]
      unfold Gone
      simp only [step, if_neg hz, href]
      constructor
      · rintro ⟨t, ht, hc⟩
        split at ht
        · rename_i hm
          simp only [Option.some.injEq, Prod.mk.injEq, true_and] at ht
          exact ⟨t, ⟨hm, ht⟩, hc⟩
        · have := (h.target t i 1 ht).2.1
          simp [processed] at this
      · rintro ⟨t, ⟨hm, h1⟩, hc⟩
        exact ⟨t, by simp [hm, h1], hc⟩
    have hposts : ((step s (.wait i st k)).posts.filter fun p => ¬ Gone (step s (.wait i st k)) r p) =
        (s.posts.filter fun p => ¬ Gone s (.wait i st k :: r) p) ++ if Lost k r then [] else [⟨i, st⟩] := by
      have e : (step s (.wait i st k)).posts = s.posts ++ [⟨i, st⟩] := by simp [step, hz]
      rw [e, List.filter_append]
      congr 1
      · exact List.filter_congr fun p hp => by simp [hold p hp]
      · by_cases hl : Lost k r
        · simp [hnew.mpr hl, hl]
        · have : ¬ Gone (step s (.wait i st k)) r ⟨i, st⟩ := fun g => hl (hnew.mp g)
          simp [this, hl]
    rw [hposts]
    have hch : (step s (.wait i st k)).checked = s.checked := by simp [step, hz]
    rw [hch, List.map_append, due]
    by_cases hl : Lost k r
    · simp [hl]
    · simp [hl]
  | .resolve t0 c0 f0 :: r, s, cur, h => by
    have hprop : Proper r := ⟨h.proper.once, h.proper.place, h.proper.fresh⟩
    cases hr0 : s.refs t0 with
    | none =>
      have hstep : step s (.resolve t0 c0 f0) = { s with late := s.late ++ f0.filterMap (showAt c0) } := by
        simp [step, tryErase, hr0]
      have h' : Inv (step s (.resolve t0 c0 f0)) r := by
        rw [hstep]; exact ⟨hprop, h.posts, h.stacks, h.target⟩
      have ih := checked_from r _ cur h'
      refine ih.trans ?_
      have hg : ∀ p, Gone (step s (.resolve t0 c0 f0)) r p ↔ Gone s (.resolve t0 c0 f0 :: r) p := by
        intro p
        rw [hstep]
        unfold Gone
        simp only [computed_cons]
        constructor
        · rintro ⟨t, ht, hc⟩; exact ⟨t, ht, .inr hc⟩
        · rintro ⟨t, ht, hc⟩
          rcases hc with ⟨_, _, hc⟩ | hc
          · cases hc; rw [hr0] at ht; cases ht
          · exact ⟨t, ht, hc⟩
      have h1 : (step s (.resolve t0 c0 f0)).posts = s.posts := by rw [hstep]
      have h2 : (step s (.resolve t0 c0 f0)).checked = s.checked := by rw [hstep]
      rw [h1, h2, due]
      simp only [hg]
      exact List.Perm.refl _
    | some q =>
      obtain ⟨i, c⟩ := q
      have hc1 := (h.target t0 i c hr0).2.2
      have hrefs : (step s (.resolve t0 c0 f0)).refs = fun x => if x = t0 then none else s.refs x := by
        simp [step, tryErase, hr0]
      have hposts : (step s (.resolve t0 c0 f0)).posts = if c = 1 then s.posts.filter (fun p => p.stmt ≠ i) else s.posts := by
        have : c - 1 = 0 ↔ c = 1 := by omega
        simp [step, tryErase, hr0, this]
      have hch : (step s (.resolve t0 c0 f0)).checked = s.checked := by simp [step, tryErase, hr0]
      have hsub : ∀ p ∈ (step s (.resolve t0 c0 f0)).posts, p ∈ s.posts := by
        intro p hp
        rw [hposts] at hp
        split at hp
        · exact (List.mem_filter.mp hp).1
        · exact hp
      have h' : Inv (step s (.resolve t0 c0 f0)) r := by
        refine ⟨hprop, fun p hp => h.posts p (hsub p hp), fun p hp => h.stacks p (hsub p hp), ?_⟩
        intro t j d hd
        rw [hrefs] at hd
        dsimp only at hd
        split at hd
        · cases hd
        · exact h.target t j d hd
      have ih := checked_from r _ cur h'
      refine ih.trans ?_
      have hg : ∀ p, Gone s (.resolve t0 c0 f0 :: r) p ↔ (c = 1 ∧ p.stmt = i) ∨ Gone (step s (.resolve t0 c0 f0)) r p := by
        intro p
        unfold Gone
        rw [hrefs]
        simp only [computed_cons]
        constructor
        · rintro ⟨t, ht, hc⟩
          by_cases he : t = t0
          · subst he
            rw [hr0] at ht; cases ht
            exact .inl ⟨rfl, rfl⟩
          · rcases hc with ⟨_, _, hc⟩ | hc
            · cases hc; exact absurd rfl he
            · exact .inr ⟨t, by simp [he, ht], hc⟩
        · rintro (⟨rfl, hp⟩ | ⟨t, ht, hc⟩)
          · exact ⟨t0, by rw [hr0, hp], .inl ⟨c0, f0, rfl⟩⟩
          · split at ht
            · cases ht
            · exact ⟨t, ht, .inr hc⟩
      have hfil : ((step s (.resolve t0 c0 f0)).posts.filter fun p => ¬ Gone (step s (.resolve t0 c0 f0)) r p) =
          s.posts.filter fun p => ¬ Gone s (.resolve t0 c0 f0 :: r) p := by
        rw [hposts]
        by_cases h1 : c = 1
        · rw [if_pos h1, List.filter_filter]
          refine List.filter_congr fun p _ => ?_
          have := hg p
          simp only [h1, true_and] at this
          by_cases ha : p.stmt = i <;> by_cases hb : Gone (step s (.resolve t0 c0 f0)) r p <;> simp [this, ha, hb]
        · rw [if_neg h1]
          refine List.filter_congr fun p _ => ?_
          have := hg p
          simp only [h1, false_and, false_or] at this
          simp [this]
      rw [hfil, hch, due]

theorem inv_start (evs : List Ev) (h : Proper evs) : Inv {} evs := ⟨h, by simp, by simp, by simp⟩

/-- In every history: which statements are checked, each once, and where. -/
theorem C142_checked_partial (evs : List Ev) (h : Proper evs) (cur : Stack) :
    List.Perm (finish (run {} evs) cur).checked (due evs) := by
  simpa using checked_from evs {} cur (inv_start evs h)

theorem due_plain : ∀ (evs : List Ev), Plain evs → due evs = processed evs
  | [], _ => rfl
  | .now i st :: r, h => by
    rw [due, processed, due_plain r fun i st k hm => h i st k (by simp [hm])]
  | .wait i st k :: r, h => by
    have hk : ¬ Lost k r := by
      rcases h i st k (by simp) with rfl | ⟨_, _, _, rfl⟩ <;> exact id
    rw [due, if_neg hk, processed, due_plain r fun i st k hm => h i st k (by simp [hm])]
  | .resolve t c f :: r, h => by
    rw [due, processed, due_plain r fun i st k hm => h i st k (by simp [hm])]

/-- Machine instructions, DC and DS: every statement is checked exactly once, whatever it had to wait for and whether or not that was
found, and the check goes by the place where the statement was processed. -/
theorem C142_once_partial (evs : List Ev) (h : Proper evs) (hp : Plain evs) (cur : Stack) :
    List.Perm (finish (run {} evs) cur).checked (processed evs) := by
  rw [← due_plain evs hp]; exact C142_checked_partial evs h cur

theorem due_sub : ∀ (evs : List Ev), ∀ p ∈ due evs, p ∈ processed evs
  | [], _, hp => hp
  | .now i st :: r, p, hp => by
    rw [due] at hp
    rcases List.mem_cons.mp hp with rfl | hp
    · simp [processed]
    · simp [processed, due_sub r p hp]
  | .wait i st k :: r, p, hp => by
    rw [due] at hp
    split at hp
    · simp [processed, due_sub r p hp]
    · rcases List.mem_cons.mp hp with rfl | hp
      · simp [processed]
      · simp [processed, due_sub r p hp]
  | .resolve t c f :: r, p, hp => by
    rw [due] at hp
    simp [processed, due_sub r p hp]

/-- What a check finds in a statement is shown in the file of the statement, with the statements that led to it when it was processed. -/
theorem C142_shown_partial (evs : List Ev) (h : Proper evs) (cur : Stack) (chk : Nat → List (Nat × Nat)) :
    (∀ d ∈ messages chk { finish (run {} evs) cur with late := [] }, ∃ i st m, (i, st) ∈ processed evs ∧ m ∈ chk i ∧ Shown m st d) ∧
    (∀ i st m, (i, st) ∈ due evs → m ∈ chk i → ∃ d ∈ messages chk (finish (run {} evs) cur), Shown m st d) := by
  have hc := C142_checked_partial evs h cur
  constructor
  · intro d hd
    simp only [messages, List.append_nil, List.mem_flatMap, List.mem_filterMap] at hd
    obtain ⟨p, hp, m, hm, hs⟩ := hd
    have hpr := due_sub evs p (hc.mem_iff.mp hp)
    obtain ⟨d', h1, h2⟩ := showAt_some p.2 (h.place p hpr) m
    rw [h1] at hs; cases hs
    exact ⟨p.1, p.2, m, hpr, hm, h2⟩
  · intro i st m hi hm
    obtain ⟨d, h1, h2⟩ := showAt_some st (h.place _ (due_sub evs _ hi)) m
    refine ⟨d, ?_, h2⟩
    simp only [messages, List.mem_append, List.mem_flatMap, List.mem_filterMap]
    exact .inl ⟨(i, st), hc.mem_iff.mpr hi, m, hm, h1⟩

/-- As many messages as mistakes: none is lost and none is repeated. -/
theorem C142_messages_partial (evs : List Ev) (h : Proper evs) (hp : Plain evs) (cur : Stack) (chk : Nat → List (Nat × Nat)) :
    (messages chk { finish (run {} evs) cur with late := [] }).length = ((processed evs).map fun p => (chk p.1).length).sum := by
  have hc := C142_once_partial evs h hp cur
  have hl : ∀ (l : List (Nat × Stack)), (∀ p ∈ l, p.2 ≠ []) →
      (l.flatMap fun c => (chk c.1).filterMap (showAt c.2)).length = (l.map fun p => (chk p.1).length).sum := by
    intro l hne
    rw [List.length_flatMap]
    congr 1
    refine List.map_congr_left fun p hp => ?_
    have : ∀ (ms : List (Nat × Nat)), (ms.filterMap (showAt p.2)).length = ms.length := by
      intro ms
      induction ms with
      | nil => rfl
      | cons m ms ih =>
        obtain ⟨d, h1, _⟩ := showAt_some p.2 (hne p hp) m
        rw [List.filterMap_cons_some h1]; simp [ih]
    exact this _
  have h1 := hl (finish (run {} evs) cur).checked fun p hp' => h.place p (hc.mem_iff.mp hp')
  simp only [messages, List.append_nil]
  rw [h1]
  exact (hc.map _).sum_nat

/-- **Violated**: an EQU or ORG that had to wait is not checked once its value is known or given up; whatever is wrong with it is not reported. -/
theorem C142_unchecked_negation (evs : List Ev) (h : Proper evs) (cur : Stack) (i : Nat) (st : Stack) (k : Kind) (before after : List Ev)
    (he : evs = before ++ .wait i st k :: after) (hl : Lost k after) : ∀ st', (i, st') ∉ (finish (run {} evs) cur).checked := by
  subst he
  intro st' hm
  have hd := (C142_checked_partial _ h cur).mem_iff.mp hm
  have hpa : ∀ (b : List Ev), processed (b ++ .wait i st k :: after) = processed b ++ (i, st) :: processed after := by
    intro b
    induction b with
    | nil => rfl
    | cons e b ih => cases e <;> simp [processed, ih]
  have hn := h.once
  rw [hpa, List.map_append, List.map_cons, List.nodup_append] at hn
  have hrec : ∀ (b : List Ev), (i, st') ∈ due (b ++ .wait i st k :: after) → (i, st') ∈ processed b ∨ (i, st') ∈ due after := by
    intro b
    induction b with
    | nil => intro hd; simp only [List.nil_append, due, if_pos hl] at hd; exact .inr hd
    | cons e b ih =>
      intro hd
      cases e with
      | now j s =>
        simp only [List.cons_append, due, List.mem_cons] at hd
        rcases hd with hd | hd
        · exact .inl (by simp [processed, hd])
        · exact (ih hd).imp (by simp +contextual [processed]) id
      | wait j s q =>
        simp only [List.cons_append, due] at hd
        split at hd
        · exact (ih hd).imp (by simp +contextual [processed]) id
        · rcases List.mem_cons.mp hd with hd | hd
          · exact .inl (by simp [processed, hd])
          · exact (ih hd).imp (by simp +contextual [processed]) id
      | resolve t c f =>
        simp only [List.cons_append, due] at hd
        exact (ih hd).imp (by simp [processed]) id
  rcases hrec before hd with hb | ha
  · exact hn.2.2 i (List.mem_map.mpr ⟨_, hb, rfl⟩) i (by simp) rfl
  · have := due_sub after _ ha
    exact (List.nodup_cons.mp hn.2.1).1 (List.mem_map.mpr ⟨_, this, rfl⟩)

/-- **Violated**: what is found about the location of an ORG when it is known is shown in the file of the statement that is processed then, though
with the line of the ORG. -/
theorem C142_late_negation (s : State) (t : Target) (outer : Stack) (own : Loc) (found : Nat × Nat) :
    ⟨found.1, own.file, found.2, outer.reverse⟩ ∈ (step s (.resolve t (outer ++ [own]) [found])).late := by
  have hs : showAt (outer ++ [own]) found = some ⟨found.1, own.file, found.2, outer.reverse⟩ := by simp [showAt]
  simp only [step, tryErase]
  split <;> simp [hs]

theorem late_run (P : Diag → Prop) : ∀ (evs : List Ev) (s : State), (∀ d ∈ s.late, P d) →
    (∀ t cur found, .resolve t cur found ∈ evs → ∀ m ∈ found, ∀ d, showAt cur m = some d → P d) → ∀ d ∈ (run s evs).late, P d
  | [], _, h, _ => h
  | e :: r, s, h, hr => by
    have ih := late_run P r (step s e) ?_ fun t cur found hm => hr t cur found (by simp [hm])
    · exact ih
    · cases e with
      | now i st => exact h
      | wait i st k =>
        simp only [step]
        split
        · exact h
        · exact h
      | resolve t cur found =>
        have hl : (step s (.resolve t cur found)).late = s.late ++ found.filterMap (showAt cur) := by
          simp only [step, tryErase]
          split <;> rfl
        rw [hl]
        intro d hd
        rcases List.mem_append.mp hd with hd | hd
        · exact h d hd
        · obtain ⟨m, hm, hs⟩ := List.mem_filterMap.mp hd
          exact hr t cur found (by simp) m hm d hs

/-- In a program without macros and COPY all messages, including those about ORG, are shown in its file. -/
theorem C142_one_file_partial (evs : List Ev) (h : Proper evs) (cur : Stack) (chk : Nat → List (Nat × Nat)) (f : File)
    (hp : ∀ p ∈ processed evs, ∃ l, p.2 = [⟨f, l⟩]) (hr : ∀ t st found, .resolve t st found ∈ evs → ∃ l, st = [⟨f, l⟩]) :
    ∀ d ∈ messages chk (finish (run {} evs) cur), d.file = f ∧ d.related = [] := by
  intro d hd
  rw [messages, List.mem_append] at hd
  rcases hd with hd | hd
  · obtain ⟨p, hpm, hd⟩ := List.mem_flatMap.mp hd
    obtain ⟨m, _, hs⟩ := List.mem_filterMap.mp hd
    obtain ⟨l, hl⟩ := hp p (due_sub evs p ((C142_checked_partial evs h cur).mem_iff.mp hpm))
    rw [hl] at hs
    cases hs
    exact ⟨rfl, rfl⟩
  · refine late_run (fun d => d.file = f ∧ d.related = []) evs {} (by simp) ?_ d hd
    intro t st found hm m _ d hs
    obtain ⟨l, rfl⟩ := hr t st found hm
    cases hs
    exact ⟨rfl, rfl⟩

/-! ### Examples -/

/-- A program (file 0) calling a macro (file 1): a machine instruction and a DC in the macro that wait, an EQU and an ORG that wait, another
machine instruction that is checked at once; what they wait for is found when line 20 is processed. -/
def sample : List Ev :=
  [.wait 1 [⟨0, 10⟩, ⟨1, 2⟩] .mach, .wait 2 [⟨0, 10⟩, ⟨1, 3⟩] (.data (some 0) (some 5) none), .wait 3 [⟨0, 10⟩, ⟨1, 4⟩] (.equ 6),
   .wait 4 [⟨0, 10⟩, ⟨1, 5⟩] (.org 1), .wait 5 [⟨0, 15⟩] (.equ 7), .now 6 [⟨0, 16⟩], .resolve (.sym 6) [⟨0, 20⟩] [],
   .wait 7 [⟨0, 17⟩] .circle, .resolve (.space 0) [⟨0, 20⟩] [], .resolve (.len 5) [⟨0, 20⟩] [], .resolve (.space 1) [⟨0, 20⟩] [(68, 5)]]

theorem sample_proper : Proper sample := ⟨by decide, by decide, by decide⟩

/-- Checked: all but the EQU and the ORG that were found. Statement 2 is kept although all it is registered for has been computed. -/
example : (finish (run {} sample) [⟨0, 30⟩]).checked =
    [(6, [⟨0, 16⟩]), (1, [⟨0, 10⟩, ⟨1, 2⟩]), (2, [⟨0, 10⟩, ⟨1, 3⟩]), (5, [⟨0, 15⟩])] := by decide

example : Plain [.wait 1 [⟨0, 10⟩, ⟨1, 2⟩] .mach, .wait 2 [⟨0, 10⟩, ⟨1, 3⟩] (.data (some 0) (some 5) none), .now 6 [⟨0, 16⟩]] := by
  intro i st k h
  simp only [List.mem_cons, Ev.wait.injEq, reduceCtorEq, List.not_mem_nil, or_false] at h
  rcases h with ⟨_, _, rfl⟩ | ⟨_, _, rfl⟩
  · exact .inl rfl
  · exact .inr ⟨_, _, _, rfl⟩

/-- Open code only: an ORG in line 5 that is found wrong when line 20 is processed. -/
example : let evs : List Ev := [.wait 4 [⟨0, 5⟩] (.org 1), .wait 5 [⟨0, 6⟩] .mach, .resolve (.space 1) [⟨0, 20⟩] [(68, 5)]]
    Proper evs ∧ (∀ p ∈ processed evs, ∃ l, p.2 = [⟨0, l⟩]) ∧
    messages (fun i => if i = 5 then [(10, 6)] else []) (finish (run {} evs) [⟨0, 30⟩]) = [⟨10, 0, 6, []⟩, ⟨68, 0, 5, []⟩] := by
  refine ⟨⟨by decide, by decide, by decide⟩, ?_, by decide⟩
  intro p hp
  simp only [processed, List.mem_cons, List.not_mem_nil, or_false] at hp
  rcases hp with rfl | rfl
  · exact ⟨5, rfl⟩
  · exact ⟨6, rfl⟩

/-- The EQU of line 4 of the macro: one mistake, no message. -/
theorem C142_unchecked_witness : (messages (fun i => if i = 3 then [(2, 4)] else []) { finish (run {} sample) [⟨0, 30⟩] with late := [] }) = [] := by
  decide

/-- The ORG of line 5 of the macro: the message is shown in line 5 of the program, and not with the call in line 10. -/
theorem C142_late_witness : (finish (run {} sample) [⟨0, 30⟩]).late = [⟨68, 0, 5, []⟩] := by decide

end Verif.Waiting
