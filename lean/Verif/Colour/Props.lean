import Verif.Colour.Spec
import Verif.Lsp.Props
import Mathlib.Tactic.ByContra
import Mathlib.Tactic.Convert

namespace Verif.Colour
open Verif.Lsp (Token Enc encode)

variable {leg : List String}

/-- Scope `sc` has range `r` in the map. -/
def Has (m : Scopes) (sc : Scope) (r : Range) : Prop := ∃ x ∈ m, x.1 = sc ∧ r ∈ x.2.ranges

/-- The decoration types of the map are different ones, have been created and have the colours of their scopes. -/
structure WF (s : State) (m : Scopes) : Prop where
  low : ∀ x ∈ m, x.2.handle < s.next
  col : ∀ x ∈ m, s.colours x.2.handle = colourName x.1
  uniq : (m.map (·.2.handle)).Nodup

/-- What creating decoration types leaves alone. -/
structure Ext (s s' : State) : Prop where
  docs : s'.docs = s.docs
  visible : s'.visible = s.visible
  shows : s'.shows = s.shows
  hlasm : s'.hlasm = s.hlasm
  next : s.next ≤ s'.next
  colours : ∀ h, h < s.next → s'.colours h = s.colours h

theorem Ext.refl (s : State) : Ext s s := ⟨rfl, rfl, rfl, rfl, Nat.le_refl _, fun _ _ => rfl⟩

theorem Ext.trans {a b c : State} (h1 : Ext a b) (h2 : Ext b c) : Ext a c :=
  ⟨h2.docs.trans h1.docs, h2.visible.trans h1.visible, h2.shows.trans h1.shows, h2.hlasm.trans h1.hlasm,
    Nat.le_trans h1.next h2.next,
    fun h hh => (h2.colours h (Nat.lt_of_lt_of_le hh h1.next)).trans (h1.colours h hh)⟩

theorem Ext.dispose (s : State) (h : Nat) : Ext s (s.dispose h) := ⟨rfl, rfl, rfl, rfl, Nat.le_refl _, fun _ _ => rfl⟩

theorem Ext.create (s : State) (sc : Scope) : Ext s (s.create sc).1 := by
  refine ⟨rfl, rfl, rfl, rfl, Nat.le_succ _, fun h hh => ?_⟩
  simp only [State.create]
  rw [if_neg (by omega)]

theorem WF.ext {s s' : State} {m : Scopes} (h : WF s m) (he : Ext s s') : WF s' m :=
  ⟨fun x hx => Nat.lt_of_lt_of_le (h.low x hx) he.next, fun x hx => (he.colours _ (h.low x hx)).trans (h.col x hx), h.uniq⟩

theorem WF.congr {s : State} {m m' : Scopes} (h : WF s m)
    (he : m'.map (fun x => (x.1, x.2.handle)) = m.map fun x => (x.1, x.2.handle)) : WF s m' := by
  have hm : ∀ x ∈ m', ∃ y ∈ m, y.1 = x.1 ∧ y.2.handle = x.2.handle := by
    intro x hx
    have : (x.1, x.2.handle) ∈ m'.map fun x => (x.1, x.2.handle) := List.mem_map.mpr ⟨x, hx, rfl⟩
    rw [he, List.mem_map] at this
    obtain ⟨y, hy, e⟩ := this
    simp only [Prod.mk.injEq] at e
    exact ⟨y, hy, e⟩
  refine ⟨fun x hx => ?_, fun x hx => ?_, ?_⟩
  · obtain ⟨y, hy, -, e⟩ := hm x hx
    rw [← e]; exact h.low y hy
  · obtain ⟨y, hy, e1, e⟩ := hm x hx
    rw [← e, ← e1]; exact h.col y hy
  · have : m'.map (·.2.handle) = m.map (·.2.handle) := by
      have := congrArg (List.map Prod.snd) he
      simpa [List.map_map, Function.comp_def] using this
    rw [this]; exact h.uniq

theorem push_keys (sc : Scope) (r : Range) : ∀ m : Scopes,
    (push sc r m).map (fun x => (x.1, x.2.handle)) = m.map fun x => (x.1, x.2.handle)
  | [] => rfl
  | (k, d) :: rest => by
    simp only [push]
    split
    · simp
    · simp [push_keys sc r rest]

theorem push_has (sc : Scope) (r : Range) (sc' : Scope) (r' : Range) : ∀ m : Scopes, m.any (·.1 = sc) = true →
    (Has (push sc r m) sc' r' ↔ Has m sc' r' ∨ (sc' = sc ∧ r' = r))
  | [], h => by simp at h
  | (k, d) :: rest, h => by
    simp only [push]
    by_cases hk : k = sc
    · subst hk
      simp only [if_true, Has, List.mem_cons, exists_eq_or_imp, List.mem_append, List.mem_nil_iff, or_false]
      grind
    · rw [if_neg hk]
      have ih := push_has sc r sc' r' rest (by simpa [hk] using h)
      simp only [Has, List.mem_cons, exists_eq_or_imp] at ih ⊢
      rw [ih]
      grind

theorem append_has (m : Scopes) (sc : Scope) (h : Nat) (sc' : Scope) (r : Range) :
    Has (m ++ [(sc, ⟨[], h⟩)]) sc' r ↔ Has m sc' r := by
  simp only [Has, List.mem_append, List.mem_singleton]
  constructor
  · rintro ⟨x, hx | rfl, h1, h2⟩
    · exact ⟨x, hx, h1, h2⟩
    · simp at h2
  · rintro ⟨x, hx, h⟩
    exact ⟨x, .inl hx, h⟩

theorem WF.append {s : State} {m : Scopes} (h : WF s m) (sc : Scope) :
    WF (s.create sc).1 (m ++ [(sc, ⟨[], s.next⟩)]) := by
  have h1 := h.ext (Ext.create s sc)
  refine ⟨?_, ?_, ?_⟩
  · intro x hx
    rcases List.mem_append.mp hx with hx | hx
    · exact h1.low x hx
    · rw [List.mem_singleton] at hx; subst hx; exact Nat.lt_succ_self _
  · intro x hx
    rcases List.mem_append.mp hx with hx | hx
    · exact h1.col x hx
    · rw [List.mem_singleton] at hx; subst hx; simp [State.create]
  · rw [List.map_append, List.nodup_append]
    refine ⟨h.uniq, by simp, ?_⟩
    intro a ha b hb
    simp only [List.map_cons, List.map_nil, List.mem_singleton] at hb
    obtain ⟨x, hx, rfl⟩ := List.mem_map.mp ha
    have := h.low x hx
    omega

/-- The scope is in the map when a range is pushed. -/
def State.ensure (s : State) (sc : Scope) (m : Scopes) : State × Scopes :=
  if m.any (·.1 = sc) then (s, m)
  else
    let (s', h) := s.create sc
    (s', m ++ [(sc, ⟨[], h⟩)])

theorem ensure_spec {s : State} {m : Scopes} (sc : Scope) (h : WF s m) :
    WF (s.ensure sc m).1 (s.ensure sc m).2 ∧ Ext s (s.ensure sc m).1 ∧ (s.ensure sc m).1.screen = s.screen ∧
    (∀ x ∈ (s.ensure sc m).2, s.next ≤ x.2.handle ∨ ∃ y ∈ m, y.2.handle = x.2.handle) ∧
    (∀ sc' r, Has (s.ensure sc m).2 sc' r ↔ Has m sc' r) ∧ (s.ensure sc m).2.any (·.1 = sc) = true := by
  unfold State.ensure
  split
  next hm => exact ⟨h, Ext.refl s, rfl, fun x hx => .inr ⟨x, hx, rfl⟩, fun _ _ => Iff.rfl, hm⟩
  next hm =>
    refine ⟨h.append sc, Ext.create s sc, rfl, ?_, fun _ _ => append_has .., by simp⟩
    intro x hx
    rcases List.mem_append.mp hx with hx | hx
    · exact .inr ⟨x, hx, rfl⟩
    · rw [List.mem_singleton] at hx; subst hx; exact .inl (Nat.le_refl _)

theorem loop_cons (s : State) (m : Scopes) (line char dl dc len ty md : Nat) (rest : List Nat) :
    s.loop leg m line char (dl :: dc :: len :: ty :: md :: rest) =
      (s.ensure leg[ty]? m).1.loop leg
        (push leg[ty]? ⟨dl + line, if dl = 0 then dc + char else dc, (if dl = 0 then dc + char else dc) + len⟩
          (s.ensure leg[ty]? m).2) (dl + line) (if dl = 0 then dc + char else dc) rest := by
  simp only [State.loop, State.ensure]

theorem loop_spec : ∀ (data : List Nat) (s : State) (m : Scopes) (line char : Nat), WF s m →
    WF (s.loop leg m line char data).1 (s.loop leg m line char data).2 ∧ Ext s (s.loop leg m line char data).1 ∧
    (s.loop leg m line char data).1.screen = s.screen ∧
    (∀ x ∈ (s.loop leg m line char data).2, s.next ≤ x.2.handle ∨ ∃ y ∈ m, y.2.handle = x.2.handle) ∧
    (∀ sc r, Has (s.loop leg m line char data).2 sc r ↔
      Has m sc r ∨ ∃ p ∈ pieces line char data, p.range = r ∧ leg[p.kind]? = sc)
  | dl :: dc :: len :: ty :: md :: rest, s, m, line, char, h => by
    rw [loop_cons]
    obtain ⟨e1, e2, e3, e4, e5, e6⟩ := ensure_spec leg[ty]? h
    generalize s.ensure leg[ty]? m = out at e1 e2 e3 e4 e5 e6 ⊢
    generalize hc : (if dl = 0 then dc + char else dc) = c
    have hk := push_keys leg[ty]? ⟨dl + line, c, c + len⟩ out.2
    obtain ⟨l1, l2, l3, l4, l5⟩ := loop_spec rest out.1 _ (dl + line) c (e1.congr hk)
    generalize out.1.loop leg _ (dl + line) c rest = res at l1 l2 l3 l4 l5 ⊢
    refine ⟨l1, e2.trans l2, l3.trans e3, ?_, ?_⟩
    · intro x hx
      rcases l4 x hx with h1 | ⟨y, hy, h1⟩
      · exact .inl (Nat.le_trans e2.next h1)
      · have : (y.1, y.2.handle) ∈ out.2.map fun x => (x.1, x.2.handle) := by
          rw [← hk]; exact List.mem_map.mpr ⟨y, hy, rfl⟩
        obtain ⟨z, hz, e⟩ := List.mem_map.mp this
        simp only [Prod.mk.injEq] at e
        rcases e4 z hz with h2 | ⟨w, hw, h2⟩
        · exact .inl (by omega)
        · exact .inr ⟨w, hw, by omega⟩
    · intro sc r
      rw [l5, push_has _ _ _ _ _ e6, e5, or_assoc]
      refine or_congr_right ?_
      have hp : pieces line char (dl :: dc :: len :: ty :: md :: rest) =
          ⟨⟨dl + line, c, c + len⟩, ty⟩ :: pieces (dl + line) c rest := by
        simp only [pieces]
        split
        next h0 => subst hc; subst h0; simp [Nat.add_comm]
        next h0 => rw [if_neg h0] at hc; subst hc; simp [Nat.add_comm]
      rw [hp]
      simp only [List.mem_cons, exists_eq_or_imp]
      grind
  | [], s, m, _, _, h => by simpa [State.loop, pieces] using ⟨h, Ext.refl s, fun x y hx => .inr ⟨x, _, hx, rfl⟩⟩
  | [_], s, m, _, _, h => by simpa [State.loop, pieces] using ⟨h, Ext.refl s, fun x y hx => .inr ⟨x, _, hx, rfl⟩⟩
  | [_, _], s, m, _, _, h => by simpa [State.loop, pieces] using ⟨h, Ext.refl s, fun x y hx => .inr ⟨x, _, hx, rfl⟩⟩
  | [_, _, _], s, m, _, _, h => by simpa [State.loop, pieces] using ⟨h, Ext.refl s, fun x y hx => .inr ⟨x, _, hx, rfl⟩⟩
  | [_, _, _, _], s, m, _, _, h => by simpa [State.loop, pieces] using ⟨h, Ext.refl s, fun x y hx => .inr ⟨x, _, hx, rfl⟩⟩
termination_by data => data.length

theorem reset_spec : ∀ (m : Scopes) (s : State),
    WF (s.reset m).1 (s.reset m).2 ∧ Ext s (s.reset m).1 ∧ (∀ x ∈ (s.reset m).2, s.next ≤ x.2.handle ∧ x.2.ranges = []) ∧
    ∀ e h, (s.reset m).1.screen e h = if h ∈ m.map (·.2.handle) then [] else s.screen e h
  | [], s => by
    refine ⟨⟨by simp [State.reset], by simp [State.reset], by simp [State.reset]⟩, Ext.refl s, by simp [State.reset], ?_⟩
    simp [State.reset]
  | (sc, d) :: rest, s => by
    have he : Ext s ((s.dispose d.handle).create sc).1 := (Ext.dispose s d.handle).trans (Ext.create _ sc)
    obtain ⟨h1, h2, h3, h4⟩ := reset_spec rest ((s.dispose d.handle).create sc).1
    have hn : ((s.dispose d.handle).create sc).1.next = s.next + 1 := rfl
    simp only [State.reset]
    have hcr : ((s.dispose d.handle).create sc).2 = s.next := rfl
    generalize hs1 : ((s.dispose d.handle).create sc).1 = s1 at *
    generalize hr : s1.reset rest = res at h1 h2 h3 h4 ⊢
    refine ⟨⟨?_, ?_, ?_⟩, he.trans h2, ?_, ?_⟩
    · intro x hx
      rcases List.mem_cons.mp hx with rfl | hx
      · have := h2.next
        simp only [hcr]; omega
      · exact h1.low x hx
    · intro x hx
      rcases List.mem_cons.mp hx with rfl | hx
      · simp only [hcr]
        rw [h2.colours _ (by omega), ← hs1]
        simp [State.create, State.dispose]
      · exact h1.col x hx
    · simp only [List.map_cons, hcr, List.nodup_cons]
      refine ⟨?_, h1.uniq⟩
      intro hm
      obtain ⟨x, hx, e⟩ := List.mem_map.mp hm
      have := (h3 x hx).1
      omega
    · intro x hx
      rcases List.mem_cons.mp hx with rfl | hx
      · simp [hcr]
      · have := h3 x hx
        exact ⟨by omega, this.2⟩
    · intro e h
      rw [h4, ← hs1]
      simp only [List.map_cons, List.mem_cons, State.create, State.dispose]
      grind

/-! ### Drawing -/

theorem draw_frame (e : Editor) : ∀ (m : Scopes) (s : State), ∃ sc, s.draw e m = { s with screen := sc }
  | [], s => ⟨s.screen, rfl⟩
  | (_, d) :: rest, s => by
    obtain ⟨sc, h⟩ := draw_frame e rest (s.set e d.handle d.ranges)
    exact ⟨sc, by rw [State.draw, h]; rfl⟩

theorem draw_other (e : Editor) : ∀ (m : Scopes) (s : State) (e' : Editor) (h : Nat),
    e' ≠ e ∨ h ∉ m.map (·.2.handle) → (s.draw e m).screen e' h = s.screen e' h
  | [], s, _, _, _ => rfl
  | (_, d) :: rest, s, e', h, hh => by
    rw [State.draw, draw_other e rest _ e' h (by
      rcases hh with hh | hh
      · exact .inl hh
      · exact .inr fun hm => hh (by simp [hm]))]
    simp only [State.set]
    rw [if_neg]
    rintro ⟨rfl, rfl⟩
    rcases hh with hh | hh
    · exact hh rfl
    · exact hh (by simp)

theorem draw_own (e : Editor) : ∀ (m : Scopes) (s : State), (m.map (·.2.handle)).Nodup → ∀ x ∈ m,
    (s.draw e m).screen e x.2.handle = x.2.ranges
  | [], _, _, x, hx => by simp at hx
  | (k, d) :: rest, s, hn, x, hx => by
    simp only [List.map_cons, List.nodup_cons] at hn
    rw [State.draw]
    rcases List.mem_cons.mp hx with rfl | hx
    · rw [draw_other e rest _ e _ (.inr hn.1)]
      simp [State.set]
    · exact draw_own e rest _ hn.2 x hx

theorem paint_frame (s : State) (e : Editor) : ∃ sc, s.paint e = { s with screen := sc } := by
  unfold State.paint
  split
  · split
    · exact draw_frame ..
    · exact ⟨s.screen, rfl⟩
  · exact ⟨s.screen, rfl⟩

theorem paints_frame : ∀ (l : List Editor) (s : State), ∃ sc, l.foldl State.paint s = { s with screen := sc }
  | [], s => ⟨s.screen, rfl⟩
  | e :: l, s => by
    obtain ⟨sc, h⟩ := paint_frame s e
    obtain ⟨sc', h'⟩ := paints_frame l (s.paint e)
    refine ⟨sc', ?_⟩
    rw [List.foldl_cons, h', h]

theorem paint_other {s : State} {e e' : Editor} {h : Nat}
    (hh : ¬ (e' = e ∧ s.hlasm (s.shows e') = true ∧ ∃ m, s.docs (s.shows e') = some m ∧ h ∈ m.map (·.2.handle))) :
    (s.paint e).screen e' h = s.screen e' h := by
  unfold State.paint
  split
  next hl =>
    split
    next m hm =>
      apply draw_other
      by_cases he : e' = e
      · subst he
        exact .inr fun hx => hh ⟨rfl, hl, m, hm, hx⟩
      · exact .inl he
    · rfl
  · rfl

theorem paint_own {s : State} {e : Editor} {m : Scopes} (hl : s.hlasm (s.shows e) = true) (hm : s.docs (s.shows e) = some m)
    (hn : (m.map (·.2.handle)).Nodup) : ∀ x ∈ m, (s.paint e).screen e x.2.handle = x.2.ranges := by
  unfold State.paint
  rw [if_pos hl, hm]
  exact draw_own e m s hn

theorem paints_other : ∀ (l : List Editor) {s : State} {e : Editor} {h : Nat},
    ¬ (e ∈ l ∧ s.hlasm (s.shows e) = true ∧ ∃ m, s.docs (s.shows e) = some m ∧ h ∈ m.map (·.2.handle)) →
    (l.foldl State.paint s).screen e h = s.screen e h
  | [], _, _, _, _ => rfl
  | e0 :: l, s, e, h, hh => by
    rw [List.foldl_cons]
    obtain ⟨sc, hp⟩ := paint_frame s e0
    rw [paints_other l (by rw [hp]; exact fun ⟨h1, h2⟩ => hh ⟨by simp [h1], h2⟩)]
    exact paint_other fun ⟨h1, h2⟩ => hh ⟨by simp [h1], h2⟩

theorem paints_own : ∀ (l : List Editor) {s : State} {e : Editor} {m : Scopes}, e ∈ l →
    s.hlasm (s.shows e) = true → s.docs (s.shows e) = some m → (m.map (·.2.handle)).Nodup →
    ∀ x ∈ m, (l.foldl State.paint s).screen e x.2.handle = x.2.ranges
  | [], _, _, _, h, _, _, _, _, _ => by simp at h
  | e0 :: l, s, e, m, he, hl, hm, hn, x, hx => by
    rw [List.foldl_cons]
    obtain ⟨sc, hp⟩ := paint_frame s e0
    by_cases h1 : e ∈ l
    · exact paints_own l h1 (by rw [hp]; exact hl) (by rw [hp]; exact hm) hn x hx
    · rw [paints_other l (fun h => h1 h.1)]
      rcases List.mem_cons.mp he with rfl | h
      · exact paint_own hl hm hn x hx
      · exact absurd h h1

/-! ### The invariant -/

structure Inv (leg : List String) (s : State) (ans : Doc → Option (List Nat)) : Prop where
  wf : ∀ d m, s.docs d = some m → WF s m
  apart : ∀ d d' m m', d ≠ d' → s.docs d = some m → s.docs d' = some m' → ∀ x ∈ m, ∀ y ∈ m', x.2.handle ≠ y.2.handle
  hidden : ∀ e h, e ∉ s.visible → s.screen e h = []
  plain : ∀ e h, s.hlasm (s.shows e) = false → s.screen e h = []
  drawn : ∀ e m, e ∈ s.visible → s.hlasm (s.shows e) = true → s.docs (s.shows e) = some m →
    ∀ x ∈ m, s.screen e x.2.handle = x.2.ranges
  other : ∀ e h, s.screen e h ≠ [] → ∃ m, s.docs (s.shows e) = some m ∧ h ∈ m.map (·.2.handle)
  what : ∀ d, (s.docs d = none ∧ ans d = none) ∨ ∃ m data, s.docs d = some m ∧ ans d = some data ∧
    ∀ sc r, Has m sc r ↔ ∃ p ∈ pieces 0 0 data, p.range = r ∧ leg[p.kind]? = sc

/-- Like `Inv`, but editors of document `d` have not been drawn again. -/
theorem colorize_inv {s : State} {ans : Doc → Option (List Nat)} (wf : ∀ d m, s.docs d = some m → WF s m)
    (apart : ∀ d d' m m', d ≠ d' → s.docs d = some m → s.docs d' = some m' → ∀ x ∈ m, ∀ y ∈ m', x.2.handle ≠ y.2.handle)
    (hidden : ∀ e h, e ∉ s.visible → s.screen e h = []) (plain : ∀ e h, s.hlasm (s.shows e) = false → s.screen e h = [])
    (other : ∀ e h, s.screen e h ≠ [] → ∃ m, s.docs (s.shows e) = some m ∧ h ∈ m.map (·.2.handle))
    (what : ∀ d, (s.docs d = none ∧ ans d = none) ∨ ∃ m data, s.docs d = some m ∧ ans d = some data ∧
      ∀ sc r, Has m sc r ↔ ∃ p ∈ pieces 0 0 data, p.range = r ∧ leg[p.kind]? = sc) : Inv leg s.colorize ans := by
  obtain ⟨sc, hf⟩ := paints_frame s.visible s
  have hc : s.colorize = { s with screen := sc } := hf
  have hs : s.colorize.screen = sc := by rw [hc]
  have ho : ∀ {e h}, ¬ (e ∈ s.visible ∧ s.hlasm (s.shows e) = true ∧ ∃ m, s.docs (s.shows e) = some m ∧
      h ∈ m.map (·.2.handle)) → sc e h = s.screen e h := by
    intro e h hh
    rw [← hs]; exact paints_other s.visible hh
  rw [hc]
  refine ⟨fun d m hm => ⟨(wf d m hm).low, (wf d m hm).col, (wf d m hm).uniq⟩, apart, ?_, ?_, ?_, ?_, what⟩
  · intro e h hv
    show sc e h = []
    rw [ho (fun hh => hv hh.1)]; exact hidden e h hv
  · intro e h hl
    show sc e h = []
    rw [ho (fun hh => by have := hh.2.1; simp only at hl; rw [hl] at this; cases this)]; exact plain e h hl
  · intro e m hv hl hm x hx
    show sc e x.2.handle = _
    rw [← hs]
    exact paints_own (s := s) s.visible hv hl hm (wf _ _ hm).uniq x hx
  · intro e h hne
    by_cases hh : e ∈ s.visible ∧ s.hlasm (s.shows e) = true ∧ ∃ m, s.docs (s.shows e) = some m ∧ h ∈ m.map (·.2.handle)
    · exact hh.2.2
    · exact other e h (by rw [← ho hh]; exact hne)

theorem start_inv {s : State} (h : s.Start) : Inv leg s fun _ => none :=
  ⟨fun d m hm => by simp [h.docs] at hm, fun d _ m _ _ hm => by simp [h.docs] at hm, fun e k _ => h.screen e k,
    fun e k _ => h.screen e k, fun e m _ _ hm => by simp [h.docs] at hm, fun e k hne => absurd (h.screen e k) hne,
    fun d => .inl ⟨h.docs d, rfl⟩⟩

theorem apply_inv {s : State} {ans : Doc → Option (List Nat)} (hi : Inv leg s ans) (d : Doc) (data : List Nat) :
    Inv leg (s.apply leg d data) fun x => if x = d then some data else ans x := by
  obtain ⟨r1, r2, r3, r4⟩ := reset_spec ((s.docs d).getD []) s
  unfold State.apply
  generalize s.reset ((s.docs d).getD []) = res at r1 r2 r3 r4 ⊢
  obtain ⟨s1, m1⟩ := res
  simp only at r1 r2 r3 r4 ⊢
  obtain ⟨l1, l2, l3, l4, l5⟩ := loop_spec (leg := leg) data s1 m1 0 0 r1
  generalize s1.loop leg m1 0 0 data = out at l1 l2 l3 l4 l5 ⊢
  obtain ⟨s2, m2⟩ := out
  simp only at l1 l2 l3 l4 l5 ⊢
  have he := r2.trans l2
  have hnew : ∀ x ∈ m2, s.next ≤ x.2.handle := by
    intro x hx
    rcases l4 x hx with h | ⟨y, hy, h⟩
    · exact Nat.le_trans r2.next h
    · have := (r3 y hy).1
      omega
  have hscr : ∀ e h, s2.screen e h = if h ∈ ((s.docs d).getD []).map (·.2.handle) then [] else s.screen e h := by
    intro e h; rw [l3]; exact r4 e h
  apply colorize_inv
  · intro x m hm
    simp only at hm
    by_cases hx : x = d
    · rw [if_pos hx] at hm
      cases hm
      exact ⟨l1.low, l1.col, l1.uniq⟩
    · rw [if_neg hx, he.docs] at hm
      have := (hi.wf x m hm).ext he
      exact ⟨this.low, this.col, this.uniq⟩
  · intro x y m m' hxy hm hm' a ha b hb
    simp only at hm hm'
    by_cases hx : x = d
    · rw [if_pos hx] at hm
      cases hm
      rw [if_neg (fun h => hxy (hx.trans h.symm)), he.docs] at hm'
      have h1 := hnew a ha
      have h2 := (hi.wf y m' hm').low b hb
      omega
    · rw [if_neg hx, he.docs] at hm
      by_cases hy : y = d
      · rw [if_pos hy] at hm'
        cases hm'
        have h1 := hnew b hb
        have h2 := (hi.wf x m hm).low a ha
        omega
      · rw [if_neg hy, he.docs] at hm'
        exact hi.apart x y m m' hxy hm hm' a ha b hb
  · intro e h hv
    simp only [he.visible] at hv
    simp only [hscr]
    rw [hi.hidden e h hv, ite_self]
  · intro e h hl
    simp only [he.hlasm, he.shows] at hl
    simp only [hscr]
    rw [hi.plain e h hl, ite_self]
  · intro e h hne
    simp only [hscr] at hne
    by_cases hh : h ∈ ((s.docs d).getD []).map (·.2.handle)
    · rw [if_pos hh] at hne
      exact absurd rfl hne
    · rw [if_neg hh] at hne
      obtain ⟨m, hm, hmem⟩ := hi.other e h hne
      refine ⟨m, ?_, hmem⟩
      simp only [he.shows, he.docs]
      rw [if_neg]
      · exact hm
      · intro e1
        rw [e1] at hm
        rw [hm] at hh
        exact hh hmem
  · intro x
    simp only
    by_cases hx : x = d
    · simp only [if_pos hx]
      refine .inr ⟨m2, data, rfl, rfl, fun sc r => ?_⟩
      rw [l5]
      refine or_iff_right ?_
      rintro ⟨y, hy, -, hr⟩
      rw [(r3 y hy).2] at hr
      cases hr
    · simp only [if_neg hx, he.docs]
      exact hi.what x

theorem close_inv {s : State} {ans : Doc → Option (List Nat)} (hi : Inv leg s ans) {d : Doc} (b : Bool)
    (hd : ∀ e ∈ s.visible, s.shows e ≠ d) :
    Inv leg { s with docs := fun x => if x = d then none else s.docs x, hlasm := fun x => if x = d then b else s.hlasm x }
      fun x => if x = d then none else ans x := by
  have hsome : ∀ {x m}, (if x = d then none else s.docs x) = some m → x ≠ d ∧ s.docs x = some m := by
    intro x m h
    by_cases hx : x = d
    · simp [hx] at h
    · exact ⟨hx, by simpa [hx] using h⟩
  refine ⟨?_, ?_, hi.hidden, ?_, ?_, ?_, ?_⟩
  · intro x m hm
    have := hi.wf x m (hsome hm).2
    exact ⟨this.low, this.col, this.uniq⟩
  · intro x y m m' hxy hm hm'
    exact hi.apart x y m m' hxy (hsome hm).2 (hsome hm').2
  · intro e h hl
    by_cases hv : e ∈ s.visible
    · simp only [if_neg (hd e hv)] at hl
      exact hi.plain e h hl
    · exact hi.hidden e h hv
  · intro e m hv hl hm
    simp only [if_neg (hd e hv)] at hl
    exact hi.drawn e m hv hl (hsome hm).2
  · intro e h hne
    have hv : e ∈ s.visible := by
      by_cases hv : e ∈ s.visible
      · exact hv
      · exact absurd (hi.hidden e h hv) hne
    obtain ⟨m, hm, hh⟩ := hi.other e h hne
    exact ⟨m, by simp only [if_neg (hd e hv)]; exact hm, hh⟩
  · intro x
    by_cases hx : x = d
    · exact .inl ⟨by simp [hx], by simp [hx]⟩
    · simp only [if_neg hx]
      exact hi.what x

theorem visible_inv {s : State} {ans : Doc → Option (List Nat)} (hi : Inv leg s ans) (es : List Editor) :
    Inv leg (s.step leg (.visible es)) ans := by
  have hscr : ∀ e h, (if e ∈ s.visible ∧ e ∈ es then s.screen e h else []) ≠ [] →
      (e ∈ s.visible ∧ e ∈ es) ∧ s.screen e h ≠ [] := by
    intro e h hne
    by_cases hh : e ∈ s.visible ∧ e ∈ es
    · exact ⟨hh, by simpa [hh] using hne⟩
    · simp [hh] at hne
  simp only [State.step]
  split
  next hany =>
    apply colorize_inv
    · exact fun x m hm => ⟨(hi.wf x m hm).low, (hi.wf x m hm).col, (hi.wf x m hm).uniq⟩
    · exact hi.apart
    · intro e h hv
      simp only at hv ⊢
      rw [if_neg (fun hh => hv hh.2)]
    · intro e h hl
      simp only at hl ⊢
      rw [hi.plain e h hl, ite_self]
    · intro e h hne
      exact hi.other e h (hscr e h hne).2
    · exact hi.what
  next hany =>
    have hno : ∀ e ∈ es, s.hlasm (s.shows e) = false := by
      intro e he
      by_contra hc
      exact hany (List.any_eq_true.mpr ⟨e, he, by simpa using hc⟩)
    refine ⟨fun x m hm => ⟨(hi.wf x m hm).low, (hi.wf x m hm).col, (hi.wf x m hm).uniq⟩, hi.apart, ?_, ?_, ?_, ?_, hi.what⟩
    · intro e h hv
      simp only at hv ⊢
      rw [if_neg (fun hh => hv hh.2)]
    · intro e h hl
      simp only at hl ⊢
      rw [hi.plain e h hl, ite_self]
    · intro e m hv hl
      simp only at hv hl
      rw [hno e hv] at hl
      cases hl
    · intro e h hne
      exact hi.other e h (hscr e h hne).2

theorem run_inv : ∀ (ops : List Op) {s : State} {ans : Doc → Option (List Nat)}, Inv leg s ans → Fine leg s ops →
    Inv leg (s.run leg ops) fun d => lastAnswer d (ans d) ops
  | [], _, _, hi, _ => hi
  | op :: ops, s, ans, hi, hf => by
    obtain ⟨h1, h2⟩ := hf
    cases op with
    | answer d data =>
      have hne : data.isEmpty = false := by simpa using h1
      have hs : s.step leg (.answer d data) = s.apply leg d data := by simp [State.step, hne]
      rw [hs] at h2
      have := run_inv ops (apply_inv hi d data) h2
      simp only [State.run, hs, lastAnswer]
      convert this using 4
      exact eq_comm
    | visible es => exact run_inv ops (visible_inv hi es) h2
    | close d =>
      have hs : s.step leg (.close d) = { s with docs := fun x => if x = d then none else s.docs x, hlasm := fun x => if x = d then s.hlasm d else s.hlasm x } := by
        have : (fun x => if x = d then s.hlasm d else s.hlasm x) = s.hlasm := by
          funext x; split <;> simp_all
        simp only [State.step, this]
      have := run_inv ops (close_inv hi (s.hlasm d) h1) (hs ▸ h2)
      simp only [State.run, hs, lastAnswer]
      convert this using 4
      exact eq_comm
    | language d b =>
      have := run_inv ops (close_inv hi b h1) h2
      simp only [State.run, State.step, lastAnswer]
      convert this using 4
      exact eq_comm

theorem colour_eq (k : Nat) : colourName leg[k]? = kindColour leg k := by
  unfold colourName kindColour
  cases leg[k]? <;> rfl

/-- C126: in every editor that shows an HLASM document, exactly the pieces of the last answer are coloured, each with the
colour of its kind. -/
theorem C126_colours_partial {s : State} (h0 : s.Start) {ops : List Op} (hf : Fine leg s ops) {e : Editor}
    (he : e ∈ (s.run leg ops).visible) (hl : (s.run leg ops).hlasm ((s.run leg ops).shows e) = true) (r : Range) (c : String) :
    (s.run leg ops).Seen e r c ↔ ∃ data, lastAnswer ((s.run leg ops).shows e) none ops = some data ∧
      ∃ p ∈ pieces 0 0 data, p.range = r ∧ kindColour leg p.kind = c := by
  have hi := run_inv ops (start_inv (leg := leg) h0) hf
  generalize s.run leg ops = t at hi he hl ⊢
  constructor
  · rintro ⟨h, hr, rfl⟩
    obtain ⟨m, hm, hh⟩ := hi.other e h (by intro h1; rw [h1] at hr; cases hr)
    obtain ⟨x, hx, rfl⟩ := List.mem_map.mp hh
    rw [hi.drawn e m he hl hm x hx] at hr
    rcases hi.what (t.shows e) with ⟨h1, -⟩ | ⟨m', data, h1, h2, h3⟩
    · rw [h1] at hm; cases hm
    · rw [h1] at hm
      cases hm
      obtain ⟨p, hp, e1, e2⟩ := (h3 x.1 r).mp ⟨x, hx, rfl, hr⟩
      refine ⟨data, h2, p, hp, e1, ?_⟩
      rw [← colour_eq, e2, (hi.wf _ _ h1).col x hx]
  · rintro ⟨data, h2, p, hp, rfl, rfl⟩
    rcases hi.what (t.shows e) with ⟨-, h1⟩ | ⟨m, data', h1, h2', h3⟩
    · rw [h1] at h2; cases h2
    · rw [h2'] at h2
      cases h2
      obtain ⟨x, hx, e1, e2⟩ := (h3 leg[p.kind]? p.range).mpr ⟨p, hp, rfl, rfl⟩
      refine ⟨x.2.handle, ?_, ?_⟩
      · rw [hi.drawn e m he hl h1 x hx]; exact e2
      · rw [(hi.wf _ _ h1).col x hx, e1, colour_eq]

/-- Editors of other documents, and those that are not visible, have no colours of ours. -/
theorem C126_elsewhere_partial {s : State} (h0 : s.Start) {ops : List Op} (hf : Fine leg s ops) {e : Editor}
    (he : e ∉ (s.run leg ops).visible ∨ (s.run leg ops).hlasm ((s.run leg ops).shows e) = false) (r : Range) (c : String) :
    ¬ (s.run leg ops).Seen e r c := by
  have hi := run_inv ops (start_inv (leg := leg) h0) hf
  rintro ⟨h, hr, -⟩
  have : (s.run leg ops).screen e h = [] := by
    rcases he with he | he
    · exact hi.hidden e h he
    · exact hi.plain e h he
  rw [this] at hr
  cases hr

/-- An answer without tokens (the server sends one when it is interrupted) changes nothing. -/
theorem C126_empty (s : State) (d : Doc) : s.step leg (.answer d []) = s := rfl

/-- The names in the legend of the server are those of the colours meant for its kinds of text, and all of them can be set. -/
theorem C126_legend : ∀ k, k < meant.length →
    (meant[k]?.map (·.2)) = some (kindColour legend k) ∧ kindColour legend k ∈ declared := by
  decide +kernel

theorem pieces_flat : ∀ (es : List Enc) (line col : Nat), pieces line col (flat es) =
    (Verif.Lsp.decodeFrom line col es).map fun q => ⟨⟨q.1, q.2.1, q.2.1 + q.2.2.1⟩, q.2.2.2⟩
  | [], _, _ => rfl
  | e :: es, line, col => by
    simp only [flat, pieces, Verif.Lsp.decodeFrom]
    by_cases h : e.dLine = 0
    · simp only [h, if_true, List.map_cons, pieces_flat es, Nat.add_zero]
    · simp only [if_neg h, List.map_cons, pieces_flat es]

/-- The pieces coloured for the answer of the server are the tokens found by the analysis, in order; of tokens that start at the
same place the first. A token that ends on its line has exactly its extent. -/
theorem C126_tokens (ts : List Token) (hs : ts.Pairwise Verif.Lsp.Token.le)
    (hb : ∀ t ∈ ts, t.line < 2 ^ 64 ∧ t.col < 2 ^ 64) :
    pieces 0 0 (flat (encode ts)) = (Verif.Lsp.firstAtEach ts).map fun t => ⟨⟨t.line, t.col, t.col + t.length⟩, t.scope⟩ := by
  rw [pieces_flat, Verif.Lsp.C16_decode_encode ts hs hb, List.map_map]
  rfl

/-! ### Examples and what goes wrong -/

/-- Editors 0 and 1 show document 0, editor 2 shows document 1; both are HLASM. -/
def demo : State := { shows := fun e => if e < 2 then 0 else 1, hlasm := fun d => decide (d < 2) }

theorem demo_start : demo.Start := ⟨fun _ => rfl, fun _ _ => rfl⟩

/-- Everything seen in an editor, by decoration types. -/
def State.look (s : State) (e : Editor) : List (List Range × String) :=
  (List.range s.next).map fun h => (s.screen e h, s.colours h)

/-- A label and an instruction, then the label is gone and there is a remark; one editor becomes visible late. -/
def demoOps : List Op :=
  [.visible [0, 2], .answer 0 [0, 0, 3, 0, 0, 0, 4, 2, 1, 0], .answer 1 [2, 5, 1, 3, 0], .visible [0, 1],
   .answer 0 [0, 4, 2, 1, 0, 1, 9, 5, 1, 0, 0, 7, 3, 2, 0], .visible [0, 1, 2]]

theorem demo_fine : Fine legend demo demoOps := by
  refine ⟨trivial, by simp, by simp, trivial, by simp, trivial, trivial⟩

example : Fine legend demo demoOps ∧ (demo.run legend demoOps).visible = [0, 1, 2] ∧
    (demo.run legend demoOps).look 1 =
      [([], "hlasm.class"), ([], "hlasm.function"), ([], "hlasm.event"), ([], "hlasm.class"),
       ([⟨0, 4, 6⟩, ⟨1, 9, 14⟩], "hlasm.function"), ([⟨1, 16, 19⟩], "hlasm.comment")] ∧
    (demo.run legend demoOps).look 2 =
      [([], "hlasm.class"), ([], "hlasm.function"), ([⟨2, 5, 6⟩], "hlasm.event"), ([], "hlasm.class"), ([], "hlasm.function"),
       ([], "hlasm.comment")] :=
  ⟨demo_fine, by decide +kernel⟩

/-- The language of a document is changed while it is shown: the colours stay, in an editor that does not show HLASM, and
changing the language back and getting an answer does not remove them. -/
theorem C126_witness_language :
    (demo.run legend [.visible [0], .answer 0 [0, 0, 3, 0, 0], .language 0 false]).look 0 = [([⟨0, 0, 3⟩], "hlasm.class")] ∧
    (demo.run legend [.visible [0], .answer 0 [0, 0, 3, 0, 0], .language 0 false, .language 0 true,
      .answer 0 [0, 0, 3, 1, 0]]).look 0 = [([⟨0, 0, 3⟩], "hlasm.class"), ([⟨0, 0, 3⟩], "hlasm.function")] := by
  decide +kernel

/-- The last token of a document is deleted: the colours of the answer before stay. -/
theorem C126_witness_empty :
    (demo.run legend [.visible [0], .answer 0 [0, 0, 3, 0, 0], .answer 0 []]).look 0 = [([⟨0, 0, 3⟩], "hlasm.class")] ∧
    lastAnswer 0 none [.visible [0], .answer 0 [0, 0, 3, 0, 0], .answer 0 []] = some [] := by
  decide +kernel

/-- The tokens of a line with a continued remark. -/
example : pieces 0 0 (flat (encode [⟨0, 0, 3, 0⟩, ⟨0, 9, 11, 1⟩, ⟨0, 60, 20, 2⟩])) =
    [⟨⟨0, 0, 3⟩, 0⟩, ⟨⟨0, 9, 11⟩, 1⟩, ⟨⟨0, 60, 72⟩, 2⟩] := by decide +kernel

end Verif.Colour
