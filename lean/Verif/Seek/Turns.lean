import Verif.Seek.Read
/-!
Reading ends, and a search reads what is ahead until it has found what it wants.
-/
namespace Verif.Seek
open Verif.Ord Verif.Ahead

/-- Reading from `p` ends. -/
abbrev Prog.Ends (P : Prog) (p : Pos) : Prop := Acc (fun q p => ∃ o, P.read p = some (o, q)) p

/-- The members that are not among `names`. -/
def Prog.unused (P : Prog) (names : List Nat) : Nat := ((P.files.map Prod.fst).filter (· ∉ names)).length

theorem filter_lt {α : Type} (l : List α) (p q : α → Bool) (hpq : ∀ x ∈ l, p x = true → q x = true) {a : α} (ha : a ∈ l) (hp : p a = false)
    (hq : q a = true) : (l.filter p).length < (l.filter q).length := by
  induction l with
  | nil => cases ha
  | cons x l ih =>
    have hle : (l.filter p).length ≤ (l.filter q).length := by
      have : ∀ (l' : List α), (∀ x ∈ l', p x = true → q x = true) → (l'.filter p).length ≤ (l'.filter q).length := by
        intro l'
        induction l' with
        | nil => intro _; exact Nat.le_refl 0
        | cons y l' ih' =>
          intro h
          have h1 := ih' fun z hz => h z (by simp [hz])
          simp only [List.filter_cons]
          rcases hpy : p y <;> rcases hqy : q y <;> simp only [Bool.false_eq_true, if_false, if_true, List.length_cons] <;> try omega
          rw [h y (by simp) hpy] at hqy; cases hqy
      exact this l fun z hz => hpq z (by simp [hz])
    rcases List.mem_cons.1 ha with rfl | ha
    · simp only [List.filter_cons, hp, hq, Bool.false_eq_true, if_false, if_true, List.length_cons]; omega
    · have h1 := ih (fun z hz => hpq z (by simp [hz])) ha
      simp only [List.filter_cons]
      rcases hpy : p x <;> rcases hqy : q x <;> simp only [Bool.false_eq_true, if_false, if_true, List.length_cons] <;> try omega
      rw [hpq x (by simp) hpy] at hqy; cases hqy

theorem lookup_mem {n : Nat} {ls : List Line} : ∀ {fs : List (Nat × List Line)}, fs.lookup n = some ls → n ∈ fs.map Prod.fst := by
  intro fs
  induction fs with
  | nil => intro h; cases h
  | cons f fs ih =>
    intro h
    rw [List.lookup_cons] at h
    by_cases he : n = f.1
    · simp [he]
    · rw [beq_eq_false_iff_ne.2 he] at h
      simp only at h
      have := ih h
      simp only [List.map_cons, List.mem_cons]; exact .inr this

theorem unused_lt {P : Prog} {n : Nat} {names : List Nat} (h : (P.member n).isSome) (hn : n ∉ names) : P.unused (n :: names) < P.unused names := by
  obtain ⟨ms, hms⟩ := Option.isSome_iff_exists.1 h
  simp only [Prog.member, Option.map_eq_some_iff] at hms
  obtain ⟨ls, hl, _⟩ := hms
  refine filter_lt _ _ _ ?_ (lookup_mem hl) (by simp) (by simpa using hn)
  intro x _ hx
  simp only [List.mem_cons, not_or, decide_eq_true_eq] at hx ⊢
  exact hx.2

/-- Once the rest of the texts is read to its end, so is everything in front of it. -/
theorem ends_top {P : Prog} : ∀ (u k : Nat) (p : Pos), P.valid p → P.unused (p.copy.map Frame.name) = u → (P.top p).length = k →
    (∀ f fs, p.copy = f :: fs → P.Ends ⟨p.off, fs⟩) → P.Ends p := by
  intro u
  induction u using Nat.strongRecOn with
  | _ u ihu =>
    intro k
    induction k using Nat.strongRecOn with
    | _ k ihk =>
      intro p hv hu hk hf
      constructor
      rintro q ⟨o, hr⟩
      have hvq := read_valid hv hr
      unfold Prog.read at hr
      rcases ht : P.top p with _ | ⟨l, ls⟩
      · rw [ht] at hr
        rcases p with ⟨off, _ | ⟨f, fs⟩⟩
        · cases hr
        · cases hr; exact hf f fs rfl
      · rw [ht] at hr
        cases hr
        -- further in the same text
        have same : ∀ j, P.valid (p.adv (j + 1)) → P.Ends (p.adv (j + 1)) := by
          intro j hj
          refine ihk ((P.top (p.adv (j + 1))).length) ?_ (p.adv (j + 1)) hj (by rw [names_adv]; exact hu) rfl ?_
          · rw [top_adv hv.okay, ← hk, ht, List.length_drop, List.length_cons]; omega
          · intro f fs hc
            rcases p with ⟨off, _ | ⟨f', fs'⟩⟩
            · cases hc
            · cases hc; exact hf _ _ rfl
        unfold Prog.after at hvq ⊢
        rcases ho : l.op with _ | _ | a | _
        · simp only [ho] at hvq; exact same _ hvq
        · simp only [ho] at hvq; exact same _ hvq
        · rcases a with _ | _ | _ | n
          · simp only [ho] at hvq; exact same _ hvq
          · simp only [ho] at hvq; exact same _ hvq
          · simp only [ho] at hvq; exact same _ hvq
          · simp only [ho] at hvq ⊢
            by_cases hn : (P.member n).isSome ∧ n ∉ p.copy.map Frame.name
            · rw [if_pos hn] at hvq ⊢
              refine ihu _ ?_ _ _ hvq rfl rfl ?_
              · simp only [List.map_cons, names_adv]
                rw [← hu]; exact unused_lt hn.1 hn.2
              · intro f fs hc
                cases hc
                exact same 0 fun g hg => hvq g (by simp only [List.mem_cons]; exact .inr hg)
            · rw [if_neg hn] at hvq ⊢
              exact same _ hvq
        · simp only [ho] at hvq; exact same _ hvq

/-- Reading ends. -/
theorem ends {P : Prog} : ∀ (fs : List Frame) (off : Nat), P.valid ⟨off, fs⟩ → P.Ends ⟨off, fs⟩ := by
  intro fs
  induction fs with
  | nil => intro off h; exact ends_top _ _ _ h rfl rfl fun f fs hc => by cases hc
  | cons f fs ih =>
    intro off h
    refine ends_top _ _ _ h rfl rfl fun f' fs' hc => ?_
    cases hc
    exact ih off fun g hg => h g (by simp [show g ∈ fs from hg])

/-- What is ahead is determined. -/
theorem ahead_total {P : Prog} {p : Pos} (h : P.valid p) : ∃ vs, Ahead P p vs := by
  have he : P.Ends p := ends p.copy p.off h
  induction he with
  | intro p _ ih =>
    rcases hr : P.read p with _ | ⟨o, q⟩
    · exact ⟨[], (read_none hr).2 rfl⟩
    · obtain ⟨vs, hvs⟩ := ih q ⟨o, hr⟩ (read_valid h hr)
      exact ⟨_, (read_ahead h hr).2 ⟨vs, rfl, hvs⟩⟩

theorem ahead_unique {P : Prog} {p : Pos} (h : P.valid p) {vs ws : List Line} (h1 : Ahead P p vs) (h2 : Ahead P p ws) : vs = ws := by
  have he : P.Ends p := ends p.copy p.off h
  induction he generalizing vs ws with
  | intro p _ ih =>
    rcases hr : P.read p with _ | ⟨o, q⟩
    · rw [(read_none hr).1 h1, (read_none hr).1 h2]
    · obtain ⟨vs', rfl, h1'⟩ := (read_ahead h hr).1 h1
      obtain ⟨ws', rfl, h2'⟩ := (read_ahead h hr).1 h2
      rw [ih q ⟨o, hr⟩ (read_valid h hr) h1' h2']

/-! ### the turns of a search -/

/-- A statement that a COPY in a search goes wrong with. -/
def Line.odd (l : Line) : Prop := l.op = .copy .odd

theorem turn_none {P : Prog} (E : Env) (T : Table) {p : Pos} (h : P.okay p) (hr : P.read p = none) (m : Nat) (g : Got) : P.turn E T ⟨p, m, g⟩ = .ok none := by
  have hd : P.deliver p = .ok .over := by
    unfold Prog.read at hr
    rcases ht : P.top p with _ | ⟨l, ls⟩
    · rw [ht] at hr
      rcases hc : p.copy with _ | ⟨f, fs⟩
      · rw [deliver_end h ht, hc]
      · rw [hc] at hr; cases hr
    · rw [ht] at hr; cases hr
  unfold Prog.turn
  simp only [hd]
  split <;> rfl

theorem turn_left {P : Prog} (E : Env) (T : Table) {p q : Pos} (h : P.okay p) (hr : P.read p = some (none, q)) {g : Got} (hg : g.fin = false) :
    P.turn E T ⟨p, 0, g⟩ = .ok (some ⟨q, 0, g⟩) := by
  have hd : P.deliver p = .ok (.left q) := by
    unfold Prog.read at hr
    rcases ht : P.top p with _ | ⟨l, ls⟩
    · rw [ht] at hr
      rcases hc : p.copy with _ | ⟨f, fs⟩
      · rw [hc] at hr; cases hr
      · rw [hc] at hr; cases hr; rw [deliver_end h ht, hc]
    · rw [ht] at hr; cases hr
  simp [Prog.turn, hg, hd]

/-- The position right behind a statement, before the rest of a definition is skipped. -/
def Prog.next (P : Prog) (p : Pos) (l : Line) : Pos :=
  match l.op with
  | .copy (.member n) => if (P.member n).isSome ∧ n ∉ p.copy.map Frame.name then ⟨(p.adv 1).off, ⟨n, -1⟩ :: (p.adv 1).copy⟩ else p.adv 1
  | _ => p.adv 1

theorem turn_line {P : Prog} (E : Env) (T : Table) {p : Pos} (h : P.okay p) {l : Line} {ls : List Line} (ht : P.top p = l :: ls) {g : Got} (hg : g.fin = false) :
    P.turn E T ⟨p, 0, g⟩ = (match g.note E T l with
      | .error c => .error c
      | .ok g' => if l.op = .copy .odd then .error .null else .ok (some ⟨P.next p l, if l.op = .macro then 1 else 0, g'⟩)) := by
  have hd := deliver_line h ht
  simp only [Prog.turn, hg, hd, Prog.process, Bool.false_eq_true, if_false, if_true, bind, Except.bind]
  rcases g.note E T l with c | g'
  · rfl
  · simp only [Prog.next]
    rcases ho : l.op with _ | _ | a | _
    · simp [Except.map]
    · simp [Except.map]
    · rcases a with _ | _ | _ | n
      · simp [Prog.enter, Except.map]
      · simp [Prog.enter, Except.map]
      · simp [Prog.enter, Except.map]
      · simp only [Prog.enter, names_adv]
        rcases hm : P.member n with _ | ms
        · simp [Except.map]
        · by_cases hn : n ∈ p.copy.map Frame.name <;> simp [hn, Except.map]
    · simp [Except.map]

/-- After a statement the search goes on behind it, and behind the definition it begins. -/
theorem next_goes {P : Prog} (E : Env) (T : Table) {p : Pos} (h : P.valid p) {l : Line} {ls : List Line} (ht : P.top p = l :: ls) {g : Got} (hg : g.fin = false) :
    ∃ m, P.Goes E T ⟨P.next p l, if l.op = .macro then 1 else 0, g⟩ ⟨P.after p l ls, m, g⟩ ∧ (m = 0 ∨ P.read (P.after p l ls) = none) := by
  by_cases hm : l.op = .macro
  · rw [if_pos hm]
    have hp1 : P.okay (p.adv 1) := okay_adv h.okay (by rw [ht]; simp)
    have ht1 : P.top (p.adv 1) = ls := by rw [top_adv h.okay, ht]; rfl
    have hc : (p.adv 1).copy = [] ∨ closed (0 + 1) ls = true := by
      by_cases hc : p.copy = []
      · left; rcases p with ⟨off, _ | ⟨f, fs⟩⟩
        · rfl
        · cases hc
      · right
        have := closed_top h hc
        rw [ht] at this
        simpa [closed, hm] using this
    obtain ⟨m, hm1, hm2⟩ := skip_goes E T hg ls 0 (p.adv 1) hp1 ht1 hc
    have ha : P.after p l ls = (p.adv 1).adv (skip 0 ls) := by rw [Pos.adv_adv]; simp only [Prog.after, hm]; congr 1; omega
    have hn : P.next p l = p.adv 1 := by simp only [Prog.next, hm]
    rw [ha, hn]
    refine ⟨m, hm1, hm2.imp id fun ⟨h1, h2⟩ => ?_⟩
    have : ((p.adv 1).adv (skip 0 ls)).copy = [] := by
      generalize p.adv 1 = q at h1 ⊢
      rcases q with ⟨off, _ | ⟨f, fs⟩⟩
      · rfl
      · cases h1
    simp [Prog.read, h2, this]
  · rw [if_neg hm]
    have : P.after p l ls = P.next p l := by
      unfold Prog.after Prog.next
      rcases ho : l.op with _ | _ | a | _
      · exact absurd ho hm
      · rfl
      · rcases a with _ | _ | _ | n <;> rfl
      · rfl
    rw [this]
    exact ⟨0, .refl, .inl rfl⟩

/-- What is found in the statements `vs`, up to the end of the search. -/
def feed (E : Env) (T : Table) : Got → List Line → Except Crash Got
  | g, [] => .ok g
  | g, l :: ls => if g.fin then .ok g else do feed E T (← g.note E T l) ls

theorem turns_fin {P : Prog} {E : Env} {T : Table} {s : St} (h : s.got.fin = true) : P.turns E T 1 s = some (.ok s) := by
  simp [Prog.turns, Prog.turn, h]

/-- Where a search that begins with `g` and ends with `g'` ends: at the end of what is ahead, or right behind a statement. -/
def Stops (P : Prog) (E : Env) (T : Table) (p : Pos) (vs : List Line) (g g' : Got) (q : Pos) : Prop :=
  (∃ k, Path P k p vs q ∧ P.read q = none ∧ g'.fin = false) ∨
    ∃ k pre l post p' ls g0, vs = pre ++ l :: post ∧ Path P k p pre p' ∧ P.top p' = l :: ls ∧ q = P.next p' l ∧ feed E T g pre = .ok g0 ∧
      g0.fin = false ∧ g0.note E T l = .ok g' ∧ g'.fin = true

theorem Stops.left {P : Prog} {E : Env} {T : Table} {p q r : Pos} {vs : List Line} {g g' : Got} (hr : P.read p = some (none, q))
    (h : Stops P E T q vs g g' r) : Stops P E T p vs g g' r := by
  rcases h with ⟨k, h1, h2⟩ | ⟨k, pre, l, post, p', ls, g0, rfl, h2, h3⟩
  · exact .inl ⟨k + 1, .cons hr h1, h2⟩
  · exact .inr ⟨k + 1, pre, l, post, p', ls, g0, rfl, .cons hr h2, h3⟩

theorem Stops.cons {P : Prog} {E : Env} {T : Table} {p q r : Pos} {l : Line} {vs : List Line} {g g1 g' : Got} (hr : P.read p = some (some l, q))
    (hg : g.fin = false) (hn : g.note E T l = .ok g1) (h : Stops P E T q vs g1 g' r) : Stops P E T p (l :: vs) g g' r := by
  rcases h with ⟨k, h1, h2⟩ | ⟨k, pre, l', post, p', ls, g0, rfl, h2, h3, h4, h5, h6⟩
  · exact .inl ⟨k + 1, .cons hr h1, h2⟩
  · refine .inr ⟨k + 1, l :: pre, l', post, p', ls, g0, rfl, .cons hr h2, h3, h4, ?_, h6⟩
    simp only [feed, hg, Bool.false_eq_true, if_false, hn, bind, Except.bind]; exact h5

/-- A search finds what is in the statements ahead. -/
theorem turns_feed {P : Prog} {E : Env} {T : Table} {p : Pos} (h : P.valid p) : ∀ {vs : List Line} {g g' : Got}, Ahead P p vs → (∀ l ∈ vs, ¬ l.odd) →
    g.fin = false → feed E T g vs = .ok g' →
    ∃ k s, P.turns E T k ⟨p, 0, g⟩ = some (.ok s) ∧ s.got = g' ∧ Stops P E T p vs g g' s.pos := by
  have he : P.Ends p := ends p.copy p.off h
  induction he with
  | intro p _ ih =>
    intro vs g g' ha ho hg hf
    rcases hr : P.read p with _ | ⟨o, q⟩
    · have := (read_none hr).1 ha
      subst this
      cases hf
      refine ⟨1, ⟨p, 0, g⟩, ?_, rfl, .inl ⟨0, .nil, hr, hg⟩⟩
      simp [Prog.turns, turn_none E T h.okay hr]
    · obtain ⟨ws, rfl, ha'⟩ := (read_ahead h hr).1 ha
      have hv := read_valid h hr
      rcases o with _ | l
      · obtain ⟨k, s, h1, h2, h3⟩ := ih q ⟨none, hr⟩ hv ha' (fun l hl => ho l (by simpa using hl)) hg (by simpa using hf)
        refine ⟨k + 1, s, ?_, h2, h3.left hr⟩
        simp only [Prog.turns, turn_left E T h.okay hr hg]; exact h1
      · simp only [Option.toList_some, List.cons_append, List.nil_append] at hf ho ⊢
        obtain ⟨ls, ht⟩ : ∃ ls, P.top p = l :: ls := by
          have hr := hr
          unfold Prog.read at hr
          rcases ht : P.top p with _ | ⟨l', ls⟩
          · rw [ht] at hr
            rcases hc : p.copy with _ | ⟨f, fs⟩ <;> rw [hc] at hr <;> cases hr
          · rw [ht] at hr; cases hr; exact ⟨ls, rfl⟩
        have hq : q = P.after p l ls := by
          have hr := hr
          simp only [Prog.read, ht] at hr; cases hr; rfl
        have hodd : l.op ≠ .copy .odd := ho l (by simp)
        simp only [feed, hg, Bool.false_eq_true, if_false, bind, Except.bind] at hf
        rcases hn : g.note E T l with c | g1
        · rw [hn] at hf; cases hf
        · rw [hn] at hf
          simp only at hf
          have hturn := turn_line E T h.okay ht hg
          rw [hn] at hturn
          simp only [if_neg hodd] at hturn
          rcases hfin : g1.fin with _ | _
          · obtain ⟨m, hm1, hm2⟩ := next_goes E T h ht hfin
            obtain ⟨k, s, h1, h2, h3⟩ : ∃ k s, P.turns E T k ⟨q, m, g1⟩ = some (.ok s) ∧ s.got = g' ∧ Stops P E T q ws g1 g' s.pos := by
              rcases hm2 with rfl | hm2
              · exact ih q ⟨some l, hr⟩ hv ha' (fun x hx => ho x (by simp [hx])) hfin hf
              · rw [← hq] at hm2
                have := (read_none hm2).1 ha'
                subst this
                cases hf
                refine ⟨1, ⟨q, m, g'⟩, ?_, rfl, .inl ⟨0, .nil, hm2, hfin⟩⟩
                simp [Prog.turns, turn_none E T hv.okay hm2]
            rw [hq] at h1
            obtain ⟨k', hk'⟩ := turns_goes (.head hturn hm1) h1
            exact ⟨k', s, hk', h2, h3.cons hr hg hn⟩
          · have hg1 : g' = g1 := by
              cases ws with
              | nil => cases hf; rfl
              | cons w ws => simp only [feed, hfin, if_true] at hf; cases hf; rfl
            subst hg1
            obtain ⟨k', hk'⟩ := turns_goes (.single hturn) (turns_fin (P := P) (E := E) (T := T) (s := ⟨P.next p l, if l.op = .macro then 1 else 0, g'⟩) hfin)
            exact ⟨k', _, hk', rfl, .inr ⟨0, [], l, ws, p, ls, g, rfl, .nil, ht, rfl, rfl, hg, hn, hfin⟩⟩

/-- A search ends, from wherever reading is possible. -/
theorem turns_end {P : Prog} (E : Env) (T : Table) {p : Pos} (h : P.valid p) : ∀ (g : Got), ∃ k r, P.turns E T k ⟨p, 0, g⟩ = some r := by
  have he : P.Ends p := ends p.copy p.off h
  induction he with
  | intro p _ ih =>
    intro g
    by_cases hg' : g.fin = true
    · exact ⟨1, _, turns_fin hg'⟩
    have hg : g.fin = false := by simpa using hg'
    rcases hr : P.read p with _ | ⟨o, q⟩
    · exact ⟨1, .ok ⟨p, 0, g⟩, by simp [Prog.turns, turn_none E T h.okay hr]⟩
    have hv := read_valid h hr
    rcases o with _ | l
    · obtain ⟨k, r, h1⟩ := ih q ⟨none, hr⟩ hv g
      exact ⟨k + 1, r, by simp only [Prog.turns, turn_left E T h.okay hr hg]; exact h1⟩
    · obtain ⟨ls, ht⟩ : ∃ ls, P.top p = l :: ls := by
        have hr := hr
        unfold Prog.read at hr
        rcases ht : P.top p with _ | ⟨l', ls⟩
        · rw [ht] at hr
          rcases hc : p.copy with _ | ⟨f, fs⟩ <;> rw [hc] at hr <;> cases hr
        · rw [ht] at hr; cases hr; exact ⟨ls, rfl⟩
      have hq : q = P.after p l ls := by
        have hr := hr
        simp only [Prog.read, ht] at hr; cases hr; rfl
      have hturn := turn_line E T h.okay ht hg
      rcases hn : g.note E T l with c | g1
      · exact ⟨1, .error c, by simp [Prog.turns, hturn, hn]⟩
      rw [hn] at hturn
      by_cases hodd : l.op = .copy .odd
      · exact ⟨1, .error .null, by simp [Prog.turns, hturn, hodd]⟩
      simp only [if_neg hodd] at hturn
      rcases hfin : g1.fin with _ | _
      · obtain ⟨m, hm1, hm2⟩ := next_goes E T h ht hfin
        rw [← hq] at hm1 hm2
        obtain ⟨k, r, h1⟩ : ∃ k r, P.turns E T k ⟨q, m, g1⟩ = some r := by
          rcases hm2 with rfl | hm2
          · exact ih q ⟨some l, hr⟩ hv g1
          · exact ⟨1, .ok ⟨q, m, g1⟩, by simp [Prog.turns, turn_none E T hv.okay hm2]⟩
        obtain ⟨k', hk'⟩ := turns_goes (.head hturn hm1) h1
        exact ⟨k', r, hk'⟩
      · obtain ⟨k', hk'⟩ := turns_goes (.single hturn) (turns_fin (P := P) (E := E) (T := T) (s := ⟨P.next p l, if l.op = .macro then 1 else 0, g1⟩) hfin)
        exact ⟨k', _, hk'⟩

/-- Further turns change nothing. -/
theorem turns_unique {P : Prog} {E : Env} {T : Table} : ∀ {k k' : Nat} {s : St} {r r' : Except Crash St}, P.turns E T k s = some r → P.turns E T k' s = some r' → r = r' := by
  intro k
  induction k with
  | zero => intro k' s r r' h; cases h
  | succ k ih =>
    intro k' s r r' h h'
    rcases k' with _ | k'
    · cases h'
    · simp only [Prog.turns] at h h'
      generalize P.turn E T s = t at h h'
      rcases t with c | _ | s'
      · cases h; cases h'; rfl
      · cases h; cases h'; rfl
      · exact ih h h'

end Verif.Seek
