import Verif.Seek.Turns
import Verif.Ahead.ScanProps
/-!
C129: what a search ahead finds.
-/
namespace Verif.Seek
open Verif.Ord Verif.Ahead

/-! ### paths -/

theorem Path.append {P : Prog} {i : Nat} {p q : Pos} {us : List Line} (h : Path P i p us q) : ∀ {j : Nat} {r : Pos} {vs : List Line}, Path P j q vs r →
    Path P (i + j) p (us ++ vs) r := by
  induction h with
  | nil => intro j r vs h; simpa using h
  | cons hr _ ih =>
    intro j r vs h
    have := ih h
    rw [List.append_assoc, Nat.add_right_comm]
    exact .cons hr this

theorem Path.split {P : Prog} {i : Nat} {p q : Pos} {us : List Line} (h : Path P i p us q) : ∀ {j : Nat} {r : Pos} {ws : List Line}, Path P (i + j) p ws r →
    ∃ vs, ws = us ++ vs ∧ Path P j q vs r := by
  induction h with
  | nil => intro j r ws h; exact ⟨ws, rfl, by simpa using h⟩
  | @cons k p q r' o vs hr _ ih =>
    intro j r ws h
    rw [Nat.add_right_comm] at h
    cases h with
    | cons hr' h =>
      rw [hr] at hr'; cases hr'
      obtain ⟨vs', rfl, h'⟩ := ih h
      exact ⟨vs', by simp, h'⟩

theorem read_off {P : Prog} {p q : Pos} {o : Option Line} (hr : P.read p = some (o, q)) : p.off ≤ q.off := by
  have ha : ∀ k, p.off ≤ (p.adv k).off := fun k => by rcases p with ⟨off, _ | ⟨f, fs⟩⟩ <;> simp [Pos.adv]
  unfold Prog.read at hr
  rcases ht : P.top p with _ | ⟨l, ls⟩
  · rw [ht] at hr
    rcases hc : p.copy with _ | ⟨f, fs⟩ <;> rw [hc] at hr <;> cases hr
    exact Nat.le_refl _
  · rw [ht] at hr
    cases hr
    unfold Prog.after
    split
    · exact ha _
    · split <;> exact ha _
    · exact ha _

theorem Path.off {P : Prog} {i : Nat} {p q : Pos} {us : List Line} (h : Path P i p us q) : p.off ≤ q.off := by
  induction h with
  | nil => exact Nat.le_refl _
  | cons hr _ ih => exact Nat.le_trans (read_off hr) ih

theorem Path.valid {P : Prog} {i : Nat} {p q : Pos} {us : List Line} (h : Path P i p us q) (hp : P.valid p) : P.valid q := by
  induction h with
  | nil => exact hp
  | cons hr _ ih => exact ih (read_valid hp hr)

theorem Path.ahead {P : Prog} {i : Nat} {p q : Pos} {us : List Line} (h : Path P i p us q) (hp : P.valid p) {vs : List Line} (ha : Ahead P p vs) :
    ∃ ws, vs = us ++ ws ∧ Ahead P q ws := by
  induction h generalizing vs with
  | nil => exact ⟨vs, rfl, ha⟩
  | cons hr _ ih =>
    obtain ⟨ws, rfl, ha'⟩ := (read_ahead hp hr).1 ha
    obtain ⟨ws', rfl, ha''⟩ := ih (read_valid hp hr) ha'
    exact ⟨ws', by simp, ha''⟩

/-! ### the statements come from the program -/

theorem lookup_lines {n : Nat} {ls : List Line} : ∀ {fs : List (Nat × List Line)}, fs.lookup n = some ls → ∀ l ∈ ls, l ∈ fs.flatMap Prod.snd := by
  intro fs
  induction fs with
  | nil => intro h; cases h
  | cons f fs ih =>
    intro h l hl
    rw [List.lookup_cons] at h
    rw [List.flatMap_cons, List.mem_append]
    by_cases he : n = f.1
    · simp only [he, beq_self_eq_true] at h; cases h; exact .inl hl
    · rw [beq_eq_false_iff_ne.2 he] at h
      exact .inr (ih h l hl)

theorem member_lines {P : Prog} {n : Nat} {ms : List Line} (h : P.member n = some ms) : ∀ l ∈ ms, l ∈ P.lines := by
  intro l hl
  simp only [Prog.member, Option.map_eq_some_iff] at h
  obtain ⟨ls, h1, rfl⟩ := h
  split at hl
  · exact List.mem_append_right _ (lookup_lines h1 l hl)
  · cases hl

theorem top_lines {P : Prog} (p : Pos) : ∀ l ∈ P.top p, l ∈ P.lines := by
  intro l hl
  rcases p with ⟨off, _ | ⟨f, fs⟩⟩
  · exact List.mem_append_left _ (List.mem_of_mem_drop hl)
  · simp only [Prog.top, Prog.rest] at hl
    have := List.mem_of_mem_drop hl
    rcases hm : P.member f.name with _ | ms
    · simp [hm] at this
    · rw [hm, Option.getD_some] at this; exact member_lines hm l this

theorem read_lines {P : Prog} {p q : Pos} {l : Line} (hr : P.read p = some (some l, q)) : l ∈ P.lines := by
  unfold Prog.read at hr
  rcases ht : P.top p with _ | ⟨l', ls⟩
  · rw [ht] at hr
    rcases hc : p.copy with _ | ⟨f, fs⟩ <;> rw [hc] at hr <;> cases hr
  · rw [ht] at hr; cases hr; exact top_lines p l (by rw [ht]; simp)

theorem ahead_lines {P : Prog} {p : Pos} (h : P.valid p) {vs : List Line} (ha : Ahead P p vs) : ∀ l ∈ vs, l ∈ P.lines := by
  have he : P.Ends p := ends p.copy p.off h
  induction he generalizing vs with
  | intro p _ ih =>
    intro l hl
    rcases hr : P.read p with _ | ⟨o, q⟩
    · rw [(read_none hr).1 ha] at hl; cases hl
    · obtain ⟨ws, rfl, ha'⟩ := (read_ahead h hr).1 ha
      rcases List.mem_append.1 hl with hl | hl
      · rcases o with _ | l'
        · cases hl
        · simp only [Option.toList_some, List.mem_singleton] at hl; subst hl; exact read_lines hr
      · exact ih q ⟨o, hr⟩ (read_valid h hr) ha' l hl

/-! ### what is found -/

/-- The labels of the statements are known. -/
def Known (refs : Table) (seqs : List Nat) (vs : List Line) : Prop :=
  (∀ n x, (n, x) ∈ labelled vs → Definite x → refs n ≠ none) ∧ ∀ l ∈ vs, ∀ n, l.label = .seq n → n ∈ seqs

theorem labelled_append (a b : List Line) : labelled (a ++ b) = labelled a ++ labelled b := by simp [labelled]

theorem labelled_cons (l : Line) (ls : List Line) :
    labelled (l :: ls) = (match l.label with | .ord n => [(n, l.stmt)] | _ => []) ++ labelled ls := by
  rcases hl : l.label <;> simp [labelled, hl]

/-- What is known stays known. -/
def Got.le (g g' : Got) : Prop := (∀ n, g.refs n ≠ none → g'.refs n ≠ none) ∧ (∀ n ∈ g.seqs, n ∈ g'.seqs) ∧ g'.target = g.target

theorem Got.le_trans {a b c : Got} (h : a.le b) (h' : b.le c) : a.le c :=
  ⟨fun n hn => h'.1 n (h.1 n hn), fun n hn => h'.2.1 n (h.2.1 n hn), h'.2.2.trans h.2.2⟩

theorem note_known {E : Env} {T : Table} {g g' : Got} {l : Line} (h : g.note E T l = .ok g') : g.le g' ∧ Known g'.refs g'.seqs [l] := by
  unfold Got.note at h
  rcases hl : l.label with _ | n | n
  · simp only [Got.findSeq, Got.findOrd, hl] at h
    cases h
    refine ⟨⟨fun _ h => h, fun _ h => h, rfl⟩, ?_, ?_⟩
    · intro m x hm; simp [labelled_cons, hl, labelled] at hm
    · intro l' hl' m hm; simp only [List.mem_singleton] at hl'; subst hl'; rw [hl] at hm; cases hm
  · simp only [Got.findSeq, Got.findOrd, hl] at h
    have hin : ∀ {x : Nat}, (x = n ∨ x ∈ g.seqs) → x ∈ (if n ∈ g.seqs then g.seqs else n :: g.seqs) := by
      intro x hx
      split
      · rcases hx with rfl | hx <;> assumption
      · simpa using hx
    have hk : ∀ (r : Table) (s : List Nat), n ∈ s → Known r s [l] := by
      intro r s hs
      refine ⟨?_, ?_⟩
      · intro m x hm; simp [labelled_cons, hl, labelled] at hm
      · intro l' hl' m hm; simp only [List.mem_singleton] at hl'; subst hl'; rw [hl] at hm; cases hm; exact hs
    split at h <;> cases h
    · exact ⟨⟨fun _ h => h, fun _ h => hin (.inr h), rfl⟩, hk _ _ (hin (.inl rfl))⟩
    · exact ⟨⟨fun _ h => h, fun _ h => hin (.inr h), rfl⟩, hk _ _ (hin (.inl rfl))⟩
  · simp only [Got.findSeq, Got.findOrd, hl] at h
    rcases hs : lookStep E T (g.refs, g.todo) (n, l.stmt) with c | r
    · rw [hs] at h; cases h
    · rw [hs] at h
      cases h
      refine ⟨⟨fun m hm => ?_, fun _ h => h, rfl⟩, ?_, ?_⟩
      · rcases hm' : g.refs m with _ | s
        · exact absurd hm' hm
        · simp only [lookStep_keep hs hm']; simp
      · intro m x hm hd
        rw [labelled_cons, hl] at hm
        simp only [labelled, List.filterMap_nil, List.append_nil, List.mem_singleton, Prod.mk.injEq] at hm
        obtain ⟨rfl, rfl⟩ := hm
        rcases (lookStep_ok hs).2 with ⟨t, _, ht⟩ | ⟨ht, _⟩
        · simp only [ht, register, if_pos]; simp
        · exact absurd ht (hd E T)
      · intro l' hl' m hm; simp only [List.mem_singleton] at hl'; subst hl'; rw [hl] at hm; cases hm

theorem Known.append {refs : Table} {seqs : List Nat} {a b : List Line} (h : Known refs seqs a) (h' : Known refs seqs b) : Known refs seqs (a ++ b) := by
  constructor
  · intro n x hx; rw [labelled_append, List.mem_append] at hx; exact hx.elim (h.1 n x) (h'.1 n x)
  · intro l hl; exact (List.mem_append.1 hl).elim (h.2 l) (h'.2 l)

theorem Known.of_append {refs : Table} {seqs : List Nat} {a b : List Line} (h : Known refs seqs (a ++ b)) : Known refs seqs b := by
  constructor
  · intro n x hx; exact h.1 n x (by rw [labelled_append]; exact List.mem_append_right _ hx)
  · intro l hl; exact h.2 l (List.mem_append_right _ hl)

theorem Known.mono {refs refs' : Table} {seqs seqs' : List Nat} {a : List Line} (h : Known refs seqs a) (h1 : ∀ n, refs n ≠ none → refs' n ≠ none)
    (h2 : ∀ n ∈ seqs, n ∈ seqs') : Known refs' seqs' a := ⟨fun n x hx hd => h1 n (h.1 n x hx hd), fun l hl n hn => h2 n (h.2 l hl n hn)⟩

theorem feed_le {E : Env} {T : Table} : ∀ {vs : List Line} {g g' : Got}, feed E T g vs = .ok g' → g.le g' ∧ (g'.fin = false → Known g'.refs g'.seqs vs) := by
  intro vs
  induction vs with
  | nil => intro g g' h; cases h; exact ⟨⟨fun _ h => h, fun _ h => h, rfl⟩, fun _ => ⟨(fun _ _ h => by cases h), fun _ h => by cases h⟩⟩
  | cons l ls ih =>
    intro g g' h
    simp only [feed] at h
    split at h
    · rename_i hf; cases h; exact ⟨⟨fun _ h => h, fun _ h => h, rfl⟩, fun h => by rw [hf] at h; cases h⟩
    · simp only [bind, Except.bind] at h
      rcases hn : g.note E T l with c | g1
      · rw [hn] at h; cases h
      · rw [hn] at h
        obtain ⟨h1, h2⟩ := note_known hn
        obtain ⟨h3, h4⟩ := ih h
        exact ⟨Got.le_trans h1 h3, fun hf => Known.append (a := [l]) (h2.mono h3.1 h3.2.1) (h4 hf)⟩

/-- Only a label ends a search. -/
theorem note_fin {E : Env} {T : Table} {g g' : Got} {l : Line} (h : g.note E T l = .ok g') (h1 : g.fin = false) (h2 : g'.fin = true) : l.label ≠ .none := by
  intro hl
  simp only [Got.note, Got.findSeq, Got.findOrd, hl] at h
  cases h
  rw [h1] at h2; cases h2

/-- Where the next search may begin: at a place ahead up to which all labels are known. -/
theorem stop_path {P : Prog} {E : Env} {T : Table} {p q : Pos} {vs : List Line} {g g' : Got} (hP : P.plain) (hv : P.valid p)
    (hf : feed E T g vs = .ok g') (h : Stops P E T p vs g g' q) : ∃ k us, Path P k p us q.snapshot ∧ Known g'.refs g'.seqs us := by
  rcases h with ⟨k, h1, h2, h3⟩ | ⟨k, pre, l, post, p', ls, g0, rfl, h2, h3, rfl, h5, h6, h7, h8⟩
  · refine ⟨k, vs, ?_, (feed_le hf).2 h3⟩
    have : q.snapshot = q := by
      unfold Prog.read at h2
      rcases q with ⟨off, _ | ⟨f, fs⟩⟩
      · rfl
      · simp only at h2; split at h2 <;> cases h2
    rw [this]; exact h1
  · have hk0 := (feed_le h5).2 h6
    obtain ⟨hle, hk1⟩ := note_known h7
    have hv' := h2.valid hv
    have hl := (hP l (top_lines p' l (by rw [h3]; simp))).2 (note_fin h7 h6 h8)
    have hn : P.next p' l = p'.adv 1 := by
      unfold Prog.next
      rcases ho : l.op with _ | _ | a | _
      · rfl
      · rfl
      · exact absurd ho (hl.2 a)
      · rfl
    rw [hn]
    by_cases hc : p'.copy = []
    · refine ⟨k + 1, pre ++ [l], ?_, (hk0.mono hle.1 hle.2.1).append hk1⟩
      have hr : P.read p' = some (some l, p'.adv 1) := by
        simp only [Prog.read, h3, Prog.after]
        rcases ho : l.op with _ | _ | a | _
        · exact absurd ho hl.1
        · rfl
        · exact absurd ho (hl.2 a)
        · rfl
      have hs : (p'.adv 1).snapshot = p'.adv 1 := by
        rcases p' with ⟨off, _ | ⟨f, fs⟩⟩
        · rfl
        · cases hc
      rw [hs]
      exact h2.append (.cons (vs := []) hr .nil)
    · refine ⟨k, pre, ?_, hk0.mono hle.1 hle.2.1⟩
      have hs : (p'.adv 1).snapshot = p' := by
        rcases p' with ⟨off, _ | ⟨f, fs⟩⟩
        · exact absurd rfl hc
        · simp [Pos.adv, Pos.snapshot]
      rw [hs]; exact h2

/-! ### searches for attributes and for sequence symbols -/

theorem feed_ask {E : Env} {T : Table} : ∀ {vs : List Line} {g : Got} {r : Table × List SymId}, g.target = none → g.fin = g.todo.isEmpty →
    scan E T (g.refs, g.todo) (labelled vs) = .ok r → ∃ g', feed E T g vs = .ok g' ∧ g'.refs = r.1 ∧ g'.todo = r.2 ∧ g'.fin = g'.todo.isEmpty := by
  intro vs
  induction vs with
  | nil => intro g r _ hf h; cases h; exact ⟨g, rfl, rfl, rfl, hf⟩
  | cons l ls ih =>
    intro g r ht hf h
    rcases hfin : g.fin with _ | _
    · have hne : g.todo ≠ [] := by intro he; rw [hfin, he] at hf; cases hf
      simp only [feed, hfin, Bool.false_eq_true, if_false, bind, Except.bind, Got.note]
      rcases hl : l.label with _ | n | n
      · rw [labelled_cons, hl] at h
        simp only [Got.findSeq, Got.findOrd, hl]
        exact ih ht hf (by simpa using h)
      · rw [labelled_cons, hl] at h
        simp only [Got.findSeq, Got.findOrd, hl, ht, if_neg (show ¬ (none : Option Nat) = some n by simp)]
        exact ih (g := { g with target := none, seqs := if n ∈ g.seqs then g.seqs else n :: g.seqs }) rfl hf (by simpa using h)
      · rw [labelled_cons, hl] at h
        simp only [List.cons_append, List.nil_append] at h
        rcases scan_cons h with ⟨he, _⟩ | ⟨_, st', h1, h2⟩
        · exact absurd he hne
        · simp only [Got.findSeq, Got.findOrd, hl, h1]
          exact ih (g := { g with refs := st'.1, todo := st'.2, fin := g.target.isNone && st'.2.isEmpty }) ht (by simp [ht]) h2
    · have he : g.todo = [] := by rw [hfin] at hf; exact List.isEmpty_iff.1 hf.symm
      refine ⟨g, by simp [feed, hfin], ?_⟩
      have : r = (g.refs, g.todo) := by
        rcases hv : labelled (l :: ls) with _ | ⟨a, as⟩
        · rw [hv] at h; cases h; rfl
        · rw [hv] at h
          simp only [scan, he, if_true] at h
          rw [he]
          cases h; rfl
      rw [this]; exact ⟨rfl, rfl, hf⟩

theorem lookStep_total {E : Env} {T : Table} {x : Stmt} (h : ∃ r, look E T x = .ok r) (st : Table × List SymId) (n : SymId) : ∃ r, lookStep E T st (n, x) = .ok r := by
  obtain ⟨r, hr⟩ := h
  rcases r with _ | s
  · exact ⟨_, by simp [lookStep, hr, bind, Except.bind]; rfl⟩
  · exact ⟨_, by simp [lookStep, hr, bind, Except.bind]; rfl⟩

theorem scan_total {E : Env} {T : Table} : ∀ (ls : List (SymId × Stmt)) (st : Table × List SymId), (∀ a ∈ ls, ∃ r, look E T a.2 = .ok r) → ∃ r, scan E T st ls = .ok r := by
  intro ls
  induction ls with
  | nil => intro st _; exact ⟨st, rfl⟩
  | cons a ls ih =>
    intro st h
    unfold scan
    split
    · exact ⟨st, rfl⟩
    · obtain ⟨r, hr⟩ := lookStep_total (h a (by simp)) st a.1
      simp only [bind, Except.bind, hr]
      exact ih r fun b hb => h b (by simp [hb])

theorem feed_branch {E : Env} {T : Table} {t : Nat} : ∀ {vs : List Line} {g : Got}, (∀ l ∈ vs, ∃ r, look E T l.stmt = .ok r) → g.target = some t →
    g.fin = false → g.found = false → g.todo = [] →
    ∃ g', feed E T g vs = .ok g' ∧ (g'.found = true ↔ ∃ l ∈ vs, l.label = .seq t) ∧ g'.todo = [] := by
  intro vs
  induction vs with
  | nil => intro g _ _ _ hfo ht; exact ⟨g, rfl, by simp [hfo], ht⟩
  | cons l ls ih =>
    intro g hs ht hf hfo htd
    simp only [feed, hf, Bool.false_eq_true, if_false, bind, Except.bind, Got.note]
    have hs' : ∀ l ∈ ls, ∃ r, look E T l.stmt = .ok r := fun x hx => hs x (by simp [hx])
    rcases hl : l.label with _ | n | n
    · simp only [Got.findSeq, Got.findOrd, hl]
      obtain ⟨g', h1, h2, h3⟩ := ih hs' ht hf hfo htd
      exact ⟨g', h1, by rw [h2]; simp [hl], h3⟩
    · simp only [Got.findSeq, Got.findOrd, hl, ht]
      by_cases hn : t = n
      · subst hn
        simp only [if_true]
        refine ⟨{ g with target := some t, seqs := if t ∈ g.seqs then g.seqs else t :: g.seqs, found := true, fin := true }, ?_, ?_, htd⟩
        · cases ls <;> simp [feed, htd]
        · simp [hl]
      · rw [if_neg (by simpa using hn)]
        obtain ⟨g', h1, h2, h3⟩ := ih (g := { g with target := some t, seqs := if n ∈ g.seqs then g.seqs else n :: g.seqs, fin := false }) hs' rfl rfl hfo htd
        exact ⟨g', by simpa [hf] using h1, by rw [h2]; simp [hl, Ne.symm hn], h3⟩
    · obtain ⟨r, hr⟩ := lookStep_total (hs l (by simp)) (g.refs, g.todo) n
      simp only [Got.findSeq, Got.findOrd, hl, hr]
      have h2 : r.2 = [] := by have := (lookStep_ok hr).1; simpa [htd] using this
      obtain ⟨g', h1, h2, h3⟩ := ih (g := { g with refs := r.1, todo := r.2, fin := g.target.isNone && r.2.isEmpty }) hs' ht (by simp [ht]) hfo h2
      exact ⟨g', h1, by rw [h2]; simp [hl], h3⟩

/-! ### the program as a whole -/

/-- What holds at any time: labels between where the program is and where the last search has stopped are known. -/
def Inv (P : Prog) (K : Kept) (p : Pos) : Prop :=
  P.valid p ∧ (K.stop.off = 0 ∨ ∃ p0 i us j ws, P.valid p0 ∧ Path P i p0 us K.stop ∧ Known K.refs K.seqs us ∧ Path P j p0 ws p)

theorem Inv.start {P : Prog} {K : Kept} {p : Pos} (h : Inv P K p) : ∃ i us, Path P i p us (K.start p) ∧ Known K.refs K.seqs us := by
  have nil : Known K.refs K.seqs [] := ⟨(fun _ _ h => by cases h), fun _ h => by cases h⟩
  unfold Kept.start
  split
  · rename_i hlt
    rcases h.2 with h0 | ⟨p0, i, us, j, ws, hv, h1, h2, h3⟩
    · omega
    · rcases Nat.le_total j i with hij | hij
      · obtain ⟨d, rfl⟩ := Nat.exists_eq_add_of_le hij
        obtain ⟨vs, rfl, h4⟩ := h3.split h1
        exact ⟨d, vs, h4, h2.of_append⟩
      · obtain ⟨d, rfl⟩ := Nat.exists_eq_add_of_le hij
        obtain ⟨vs, rfl, h4⟩ := h1.split h3
        have := h4.off
        omega
  · exact ⟨0, [], .nil, nil⟩

theorem finish_some {r : Table} {l : List SymId} {n : SymId} (h : r n ≠ none) : Ahead.finish (r, l) n ≠ none := by
  rcases hs : r n with _ | s
  · exact absurd hs h
  · have := finish_keep (l := l) hs
    simp only [Ahead.finish, this]; simp

/-- A search, from what holds at any time. -/
theorem search_inv {P : Prog} {E : Env} {T : Table} {K : Kept} {p : Pos} {g g' : Got} {vs : List Line} (hP : P.plain) (hI : Inv P K p)
    (ha : Ahead P (K.start p) vs) (hg : g.fin = false) (hr : g.refs = K.refs) (hs : g.seqs = K.seqs) (hf : feed E T g vs = .ok g') :
    ∃ (k : Nat) (s : St), P.search E T k K p g = some (.ok (s.keep, s.got.found)) ∧ s.got = g' ∧ Inv P s.keep p := by
  obtain ⟨i, us, h1, h2⟩ := hI.start
  have hv := h1.valid hI.1
  obtain ⟨k, s, h3, h4, h5⟩ := turns_feed hv ha (fun l hl => (hP l (ahead_lines hv ha l hl)).1) hg hf
  refine ⟨k, s, by simp only [Prog.search, h3, Option.map_some, Except.map], h4, hI.1, .inr ?_⟩
  obtain ⟨j, ws, h6, h7⟩ := stop_path hP hv hf h5
  have hle := (feed_le hf).1
  rw [← hr, ← hs] at h2
  refine ⟨p, i + j, us ++ ws, 0, [], hI.1, h1.append h6, ?_, .nil⟩
  refine ((h2.mono hle.1 hle.2.1).append h7).mono ?_ ?_
  · intro n hn
    simp only [St.keep, h4]
    exact finish_some hn
  · intro n hn
    simp only [St.keep, h4]; exact hn

theorem sound_vs {P : Prog} {E : Env} {T : Table} (hS : P.sound E T) {p : Pos} (hv : P.valid p) {vs : List Line} (ha : Ahead P p vs) :
    ∀ l ∈ vs, ∃ r, look E T l.stmt = .ok r := fun l hl => hS l (ahead_lines hv ha l hl)

theorem sound_labelled {E : Env} {T : Table} {vs : List Line} (h : ∀ l ∈ vs, ∃ r, look E T l.stmt = .ok r) : ∀ a ∈ labelled vs, ∃ r, look E T a.2 = .ok r := by
  intro a hm
  simp only [labelled, List.mem_filterMap] at hm
  obtain ⟨l, hl, hx⟩ := hm
  split at hx
  · cases hx; exact h l hl
  · cases hx

theorem ask_feed {P : Prog} {E : Env} {T : Table} {K : Kept} {p : Pos} {todo : List SymId} (hS : P.sound E T) (hv : P.valid (K.start p)) {vs : List Line}
    (ha : Ahead P (K.start p) vs) : ∃ g', feed E T (K.ask todo) vs = .ok g' ∧ lookahead E T K.refs todo (labelled vs) = .ok (Ahead.finish (g'.refs, g'.todo)) := by
  obtain ⟨r, hr⟩ := scan_total (labelled vs) (K.refs, todo) (sound_labelled (sound_vs hS hv ha))
  obtain ⟨g', h1, h2, h3, _⟩ := feed_ask (g := K.ask todo) rfl rfl hr
  refine ⟨g', h1, ?_⟩
  simp only [lookahead, hr, bind, Except.bind, h2, h3]

/-- In programs without labels at MACRO and COPY the invariant holds. -/
theorem reached_inv {P : Prog} (hP : P.plain) {K : Kept} {p : Pos} (h : Reached P K p) : Inv P K p := by
  induction h with
  | start refs => exact ⟨(fun f hf => by cases hf), .inl rfl⟩
  | go _ hp ih =>
    refine ⟨hp.valid ih.1, ih.2.imp id ?_⟩
    rintro ⟨p0, i, us, j, ws, h0, h1, h2, h3⟩
    exact ⟨p0, i, us, _, _, h0, h1, h2, h3.append hp⟩
  | @ask K p todo E T k K' b _ ht hS hs ih =>
    obtain ⟨i, us, h1, _⟩ := ih.start
    have hv := h1.valid ih.1
    obtain ⟨vs, ha⟩ := ahead_total hv
    obtain ⟨g', hf, _⟩ := ask_feed (todo := todo) hS hv ha
    obtain ⟨k', s, h3, h4, h5⟩ := search_inv hP ih ha (by simp [Kept.ask, ht]) rfl rfl hf
    simp only [Prog.search, Option.map_eq_some_iff] at hs h3
    obtain ⟨r, hr, hr'⟩ := hs
    obtain ⟨r2, hr2, hr2'⟩ := h3
    have := turns_unique hr hr2
    subst this
    rw [hr2'] at hr'
    cases hr'
    exact h5
  | @branch K p t E T k K' b _ hS hs ih =>
    obtain ⟨i, us, h1, _⟩ := ih.start
    have hv := h1.valid ih.1
    obtain ⟨vs, ha⟩ := ahead_total hv
    obtain ⟨g', hf, _⟩ := feed_branch (t := t) (g := K.branch t) (sound_vs hS hv ha) rfl rfl rfl rfl
    obtain ⟨k', s, h3, h4, h5⟩ := search_inv hP ih ha rfl rfl rfl hf
    simp only [Prog.search, Option.map_eq_some_iff] at hs h3
    obtain ⟨r, hr, hr'⟩ := hs
    obtain ⟨r2, hr2, hr2'⟩ := h3
    have := turns_unique hr hr2
    subst this
    rw [hr2'] at hr'
    cases hr'
    exact h5

/-- C129: every search ends, whatever it looks for and whatever the texts are, members that copy each other included. -/
theorem C129_ends (P : Prog) (E : Env) (T : Table) (K : Kept) (p : Pos) (g : Got) (h : P.valid (K.start p)) : ∃ k r, P.search E T k K p g = some r := by
  obtain ⟨k, r, hr⟩ := turns_end E T h g
  exact ⟨k, _, by simp only [Prog.search, hr, Option.map_some]; rfl⟩

/-- C129: which statements are ahead is determined, at every position. -/
theorem C129_ahead (P : Prog) (p : Pos) (h : P.valid p) : ∃! vs, Ahead P p vs := by
  obtain ⟨vs, hv⟩ := ahead_total h
  exact ⟨vs, hv, fun ws hw => ahead_unique h hw hv⟩

/-- C129: attributes that are asked for are those of the first statement ahead with that label, wherever earlier searches have stopped. A
symbol that labels none of the statements ahead becomes unknown. What was known before stays. -/
theorem C129_asked_partial {P : Prog} {E : Env} {T : Table} {K : Kept} {p : Pos} {vs : List Line} {todo : List SymId} (hP : P.plain)
    (hR : Reached P K p) (hS : P.sound E T) (ha : Ahead P p vs) (ht : todo ≠ []) :
    ∃ k K' b, P.search E T k K p (K.ask todo) = some (.ok (K', b)) ∧
      (∀ n ∈ todo, K.refs n = none → ∀ pre x post s, labelled vs = pre ++ (n, x) :: post → (∀ a ∈ pre, n ≠ a.1) → Definite x → look E T x = .ok (some s) →
        K'.refs n = some s) ∧
      (∀ n ∈ todo, K.refs n = none → (∀ a ∈ labelled vs, n ≠ a.1) → K'.refs n = some (attrs .unknown 0xE4)) ∧
      (∀ n s, K.refs n = some s → K'.refs n = some s) := by
  have hI := reached_inv hP hR
  obtain ⟨i, us, h1, h2⟩ := hI.start
  have hv := h1.valid hI.1
  obtain ⟨ws, rfl, ha'⟩ := h1.ahead hI.1 ha
  obtain ⟨g', hf, hl⟩ := ask_feed (todo := todo) hS hv ha'
  obtain ⟨k, s, h3, h4, _⟩ := search_inv hP hI ha' (by simp [Kept.ask, ht]) rfl rfl hf
  have hrefs : s.keep.refs = Ahead.finish (g'.refs, g'.todo) := by simp only [St.keep, h4]
  refine ⟨k, s.keep, s.got.found, h3, ?_, ?_, ?_⟩
  · intro n hn hno pre x post v hsp hpre hd hx
    rw [hrefs]
    rw [labelled_append] at hsp
    rcases List.append_eq_append_iff.1 hsp with ⟨a, h5, h6⟩ | ⟨a, h5, h6⟩
    · rw [h6] at hl
      exact C108_search hl hn hno (fun b hb => hpre b (by rw [h5]; simp [hb])) hx
    · rcases a with _ | ⟨b, a⟩
      · simp only [List.nil_append] at h6
        rw [← h6] at hl
        exact C108_search (pre := []) hl hn hno (fun b hb => by cases hb) hx
      · simp only [List.cons_append, List.cons.injEq] at h6
        exact absurd hno (h2.1 n x (by rw [h5]; simp [h6.1]) hd)
  · intro n hn hno hnl
    obtain ⟨st, h5, h6⟩ := lookahead_ok hl
    obtain ⟨i1, i2⟩ := scan_missing _ (fun a ha => hnl a (by rw [labelled_append]; exact List.mem_append_right _ ha)) hn h5
    rw [hrefs, h6]
    exact finish_missing (i1.trans hno) i2
  · intro n v hv'
    rw [hrefs]
    exact C108_search_keeps hl hv'

/-- C129: a branch to a sequence symbol that was not met in any search yet finds it exactly if a statement ahead carries it, wherever earlier
searches have stopped. -/
theorem C129_branch_partial {P : Prog} {E : Env} {T : Table} {K : Kept} {p : Pos} {vs : List Line} {t : Nat} (hP : P.plain) (hR : Reached P K p)
    (hS : P.sound E T) (ha : Ahead P p vs) (ht : t ∉ K.seqs) :
    ∃ k K' b, P.search E T k K p (K.branch t) = some (.ok (K', b)) ∧ (b = true ↔ ∃ l ∈ vs, l.label = .seq t) := by
  have hI := reached_inv hP hR
  obtain ⟨i, us, h1, h2⟩ := hI.start
  have hv := h1.valid hI.1
  obtain ⟨ws, rfl, ha'⟩ := h1.ahead hI.1 ha
  obtain ⟨g', hf, hfo, _⟩ := feed_branch (t := t) (g := K.branch t) (sound_vs hS hv ha') rfl rfl rfl rfl
  obtain ⟨k, s, h3, h4, _⟩ := search_inv hP hI ha' rfl rfl rfl hf
  refine ⟨k, s.keep, s.got.found, h3, ?_⟩
  rw [h4, hfo]
  constructor
  · rintro ⟨l, hl, hl'⟩; exact ⟨l, by simp [hl], hl'⟩
  · rintro ⟨l, hl, hl'⟩
    rcases List.mem_append.1 hl with hl | hl
    · exact absurd (h2.2 l hl t hl') ht
    · exact ⟨l, hl, hl'⟩

/-! ### examples and witnesses -/

/-- A labelled instruction of so many bits. -/
def instr (n : SymId) (bits : Nat) : Line := ⟨.ord n, .machine bits, .other⟩
/-- A statement without label. -/
def bare (op : Op) : Line := ⟨.none, .plain, op⟩

/-- `COPY 7`, a macro definition with a label `1` in it, `2 L`, `.5 LR` and `1 LR`; member 7 holds `3 L`, `COPY 8` and `COPY 7`, member 8
holds `4 L`. -/
def sample : Prog :=
  ⟨[bare .other, bare (.copy (.member 7)), bare .macro, instr 1 48, bare .mend, instr 2 32, ⟨.seq 5, .machine 16, .other⟩, instr 1 16],
    [(7, [instr 3 32, bare (.copy (.member 8)), bare (.copy (.member 7))]), (8, [instr 4 32])]⟩

theorem sample_plain : sample.plain := by
  intro l hl
  simp only [Prog.lines, sample, List.flatMap_cons, List.flatMap_nil, List.append_nil, List.cons_append, List.nil_append, List.mem_cons, List.not_mem_nil,
    or_false] at hl
  rcases hl with rfl | rfl | rfl | rfl | rfl | rfl | rfl | rfl | rfl | rfl | rfl | rfl <;> simp [bare, instr]

theorem sample_sound (E : Env) (T : Table) : sample.sound E T := by
  intro l hl
  simp only [Prog.lines, sample, List.flatMap_cons, List.flatMap_nil, List.append_nil, List.cons_append, List.nil_append, List.mem_cons, List.not_mem_nil,
    or_false] at hl
  rcases hl with rfl | rfl | rfl | rfl | rfl | rfl | rfl | rfl | rfl | rfl | rfl | rfl <;> exact ⟨_, rfl⟩

/-- The statements ahead of the first one. -/
theorem sample_ahead : Ahead sample ⟨1, []⟩ [bare (.copy (.member 7)), instr 3 32, bare (.copy (.member 8)), instr 4 32, bare (.copy (.member 7)),
    bare .macro, instr 2 32, ⟨.seq 5, .machine 16, .other⟩, instr 1 16] := by
  have w : ∀ (names : List Nat) (l : Line) (ls vs : List Line), l.op = .other → Sees sample names ls vs → Sees sample names (l :: ls) (l :: vs) :=
    fun names l ls vs h1 h2 => .line (by rw [h1]; simp) (by intro n ms h; rw [h1] at h; cases h) h2
  have m8 : Sees sample [8, 7] [instr 4 32] [instr 4 32] := w _ _ _ _ rfl .nil
  have m7 : Sees sample [7] [instr 3 32, bare (.copy (.member 8)), bare (.copy (.member 7))] [instr 3 32, bare (.copy (.member 8)), instr 4 32, bare (.copy (.member 7))] := by
    refine w _ _ _ _ rfl (.copy (us := [instr 4 32]) (vs := [bare (.copy (.member 7))]) rfl rfl (by decide) m8 (.line (by simp [bare]) ?_ .nil))
    intro n ms h _; cases h; simp
  refine .code (.copy (us := [instr 3 32, bare (.copy (.member 8)), instr 4 32, bare (.copy (.member 7))]) rfl rfl (by decide) m7 (.defn rfl ?_))
  exact w _ _ _ _ rfl (w _ _ _ _ rfl (w _ _ _ _ rfl .nil))

/-- Nothing is known yet. -/
def fresh : Kept := ⟨⟨0, []⟩, fun _ => none, []⟩

theorem sample_reached : Reached sample fresh ⟨1, []⟩ := .go (.start _) (.cons (o := some (bare .other)) (vs := []) rfl .nil)

-- Asking for 4 stops in member 8. Asking for 1 then goes on there and finds the label behind the definition.
example (E : Env) (T : Table) : ∃ k K' b, sample.search E T k fresh ⟨1, []⟩ (fresh.ask [4, 9]) = some (.ok (K', b)) ∧ K'.refs 4 = some (machineAttrs 4) ∧
    K'.refs 9 = some (attrs .unknown 0xE4) := by
  obtain ⟨k, K', b, h1, h2, h3, _⟩ := C129_asked_partial (E := E) (T := T) (todo := [4, 9]) sample_plain sample_reached (sample_sound E T) sample_ahead (by simp)
  exact ⟨k, K', b, h1, h2 4 (by simp) rfl [(3, .machine 32)] (.machine 32) [(2, .machine 32), (1, .machine 16)] _ rfl (by simp) (by intro E T h; cases h) rfl,
    h3 9 (by simp) rfl (by decide)⟩

example (E : Env) (T : Table) : ∃ K1 K2, sample.search E T 9 fresh ⟨1, []⟩ (fresh.ask [4]) = some (.ok (K1, false)) ∧
    K1.stop = ⟨2, [⟨8, -1⟩, ⟨7, 1⟩]⟩ ∧ sample.search E T 30 K1 ⟨1, []⟩ (K1.ask [1]) = some (.ok (K2, false)) ∧ K2.refs 1 = some (machineAttrs 2) :=
  ⟨_, _, rfl, rfl, rfl, rfl⟩

-- The branch finds `.5` and does not find `.6`.
example (E : Env) (T : Table) : ∃ K1 K2, sample.search E T 30 fresh ⟨1, []⟩ (fresh.branch 5) = some (.ok (K1, true)) ∧
    sample.search E T 30 fresh ⟨1, []⟩ (fresh.branch 6) = some (.ok (K2, false)) := ⟨_, _, rfl, rfl⟩

/-- C129 fails: `COPY 'X'` (or any other operand that is no expression) ahead makes the search dereference a null pointer. -/
theorem C129_witness_null (E : Env) (T : Table) : (⟨[bare (.copy .odd), instr 1 16], []⟩ : Prog).search E T 1 fresh ⟨0, []⟩ (fresh.ask [1]) = some (.error .null) := rfl

/-- `1 COPY 7` and `2 L`, where member 7 holds one statement. -/
def copyLabel : Prog := ⟨[bare .other, ⟨.ord 1, .plain, .copy (.member 7)⟩, instr 2 32], [(7, [bare .other])]⟩

/-- C129 fails: a search that ends at the label of a COPY statement has entered the member already. The next search reads in front of the
member's first statement. -/
theorem C129_witness_copy (E : Env) (T : Table) : ∃ K, copyLabel.search E T 2 fresh ⟨1, []⟩ (fresh.ask [1]) = some (.ok (K, false)) ∧
    copyLabel.search E T 1 K ⟨1, []⟩ (K.ask [2]) = some (.error .index) := ⟨_, rfl, rfl⟩

/-- `1 MACRO`, `2 L`, `MEND` and `2 LR`. -/
def macroLabel : Prog := ⟨[bare .other, ⟨.ord 1, .plain, .macro⟩, instr 2 32, bare .mend, instr 2 16], []⟩

/-- C129 fails: a search that ends at the label of a MACRO statement is continued as if it were outside of the definition, so the next one
takes the attributes of a label in the definition. -/
theorem C129_witness_macro (E : Env) (T : Table) : ∃ K K', macroLabel.search E T 2 fresh ⟨1, []⟩ (fresh.ask [1]) = some (.ok (K, false)) ∧
    macroLabel.search E T 2 K ⟨1, []⟩ (K.ask [2]) = some (.ok (K', false)) ∧ K'.refs 2 = some (machineAttrs 4) ∧
    Ahead macroLabel ⟨1, []⟩ [⟨.ord 1, .plain, .macro⟩, instr 2 16] :=
  ⟨_, _, rfl, rfl, rfl, .code (.defn rfl (.line (by simp [instr]) (by intro n ms h; cases h) .nil))⟩

end Verif.Seek
