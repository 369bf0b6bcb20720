import Verif.Seek.Spec
import Mathlib.Logic.Relation
import Mathlib.Tactic.ByContra
/-!
Reading the statements ahead one by one, and that a search does so.
-/
namespace Verif.Seek
open Verif.Ord Verif.Ahead

/-- A position inside the texts, possibly inside of macro definitions. -/
def Prog.okay (P : Prog) (p : Pos) : Prop := ∀ f ∈ p.copy, -1 ≤ f.cur ∧ f.cur < ((P.member f.name).getD []).length

theorem Prog.valid.okay {P : Prog} {p : Pos} (h : P.valid p) : P.okay p := fun f hf => ⟨(h f hf).1, (h f hf).2.1⟩

theorem Pos.adv_zero (p : Pos) : p.adv 0 = p := by
  rcases p with ⟨off, _ | ⟨f, fs⟩⟩ <;> simp [Pos.adv]

theorem Pos.adv_adv (p : Pos) (a b : Nat) : (p.adv a).adv b = p.adv (a + b) := by
  rcases p with ⟨off, _ | ⟨f, fs⟩⟩
  · simp [Pos.adv, Nat.add_assoc]
  · simp [Pos.adv, Int.add_assoc]

theorem top_adv {P : Prog} {p : Pos} (h : P.okay p) (k : Nat) : P.top (p.adv k) = (P.top p).drop k := by
  rcases p with ⟨off, _ | ⟨f, fs⟩⟩
  · simp [Prog.top, Pos.adv, List.drop_drop]
  · have := (h f (by simp)).1
    simp only [Prog.top, Pos.adv, Prog.rest, List.drop_drop]
    congr 1; omega

theorem okay_adv {P : Prog} {p : Pos} (h : P.okay p) {k : Nat} (hk : k ≤ (P.top p).length) : P.okay (p.adv k) := by
  rcases p with ⟨off, _ | ⟨f, fs⟩⟩
  · intro g hg; cases hg
  · intro g hg
    simp only [Pos.adv, List.mem_cons] at hg
    rcases hg with rfl | hg
    · have := h f (by simp)
      simp only [Prog.top, Prog.rest, List.length_drop] at hk
      constructor <;> simp only <;> omega
    · exact h g (by simp [hg])

theorem deliver_line {P : Prog} {p : Pos} (h : P.okay p) {l : Line} {ls : List Line} (ht : P.top p = l :: ls) :
    P.deliver p = .ok (.line l (p.adv 1)) := by
  rcases p with ⟨off, _ | ⟨f, fs⟩⟩
  · simp only [Prog.top] at ht
    have : P.code[off]? = some l := by
      have := congrArg (fun x => x[0]?) ht
      simpa [List.getElem?_drop] using this
    simp only [Prog.deliver, this, Pos.adv]
  · have hb := h f (by simp)
    simp only [Prog.top, Prog.rest] at ht
    have hg : ((P.member f.name).getD [])[(f.cur + 1).toNat]? = some l := by
      have := congrArg (fun x => x[0]?) ht
      simpa [List.getElem?_drop] using this
    have hl : (f.cur + 1).toNat < ((P.member f.name).getD []).length := (List.getElem?_eq_some_iff.1 hg).1
    simp only [Prog.deliver]
    rw [if_neg (by omega), if_neg (by omega), hg]
    simp [Pos.adv]

theorem deliver_end {P : Prog} {p : Pos} (h : P.okay p) (ht : P.top p = []) :
    P.deliver p = .ok (match p.copy with | [] => .over | _ :: fs => .left { p with copy := fs }) := by
  rcases p with ⟨off, _ | ⟨f, fs⟩⟩
  · simp only [Prog.top] at ht
    have : P.code[off]? = none := by
      rw [List.getElem?_eq_none_iff]; simpa using ht
    simp only [Prog.deliver, this]
  · have hb := h f (by simp)
    simp only [Prog.top, Prog.rest, List.drop_eq_nil_iff] at ht
    simp only [Prog.deliver]
    rw [if_pos (by omega)]

theorem behind_skip (ls : List Line) : ∀ n, behind n ls = ls.drop (skip n ls) := by
  induction ls with
  | nil => intro n; rfl
  | cons l ls ih =>
    intro n
    rcases ho : l.op with _ | _ | a | _ <;> rcases n with _ | n <;> simp [behind, skip, ho, ih]

theorem skip_le (ls : List Line) : ∀ n, skip n ls ≤ ls.length := by
  induction ls with
  | nil => intro n; exact Nat.le_refl 0
  | cons l ls ih =>
    intro n
    rcases ho : l.op with _ | _ | a | _ <;> rcases n with _ | n <;> simp [skip, ho, ih]

theorem closed_skip (ls : List Line) : ∀ n, closed (n + 1) ls = true → closed 0 (ls.drop (skip n ls)) = true := by
  induction ls with
  | nil => intro n h; simp [closed] at h
  | cons l ls ih =>
    intro n h
    rcases ho : l.op with _ | _ | a | _ <;> rcases n with _ | n <;> simp only [closed, ho] at h <;> simp only [skip, ho] <;> first | exact h | (rw [List.drop_succ_cons]; exact ih _ h) | (rw [List.drop_succ_cons]; exact h)

/-- Turns of a search. -/
def Prog.Goes (P : Prog) (E : Env) (T : Table) : St → St → Prop := Relation.ReflTransGen fun s s' => P.turn E T s = .ok (some s')

theorem turns_goes {P : Prog} {E : Env} {T : Table} {s s' : St} (h : P.Goes E T s s') {k : Nat} {r : Except Crash St}
    (hk : P.turns E T k s' = some r) : ∃ k', P.turns E T k' s = some r := by
  induction h using Relation.ReflTransGen.head_induction_on with
  | refl => exact ⟨k, hk⟩
  | head h _ ih =>
    obtain ⟨k', hk'⟩ := ih
    exact ⟨k' + 1, by simp only [Prog.turns, h]; exact hk'⟩

/-- Inside a definition nothing is looked at until its end. -/
theorem skip_goes {P : Prog} (E : Env) (T : Table) {g : Got} (hg : g.fin = false) (ls : List Line) : ∀ (n : Nat) (p : Pos), P.okay p → P.top p = ls →
    (p.copy = [] ∨ closed (n + 1) ls = true) →
    ∃ m, P.Goes E T ⟨p, n + 1, g⟩ ⟨p.adv (skip n ls), m, g⟩ ∧ (m = 0 ∨ p.copy = [] ∧ P.top (p.adv (skip n ls)) = []) := by
  induction ls with
  | nil =>
    intro n p _ ht hc
    refine ⟨n + 1, ?_, ?_⟩
    · simp only [skip, Pos.adv_zero]; exact .refl
    · rcases hc with hc | hc
      · right; exact ⟨hc, by simpa only [skip, Pos.adv_zero] using ht⟩
      · simp [closed] at hc
  | cons l ls ih =>
    intro n p hp ht hc
    have hd := deliver_line hp ht
    have hp1 : P.okay (p.adv 1) := okay_adv hp (by rw [ht]; simp)
    have ht1 : P.top (p.adv 1) = ls := by rw [top_adv hp, ht]; rfl
    have hcp : (p.adv 1).copy = [] ↔ p.copy = [] := by rcases p with ⟨off, _ | ⟨f, fs⟩⟩ <;> simp [Pos.adv]
    have key : ∀ (n' : Nat), P.turn E T ⟨p, n + 1, g⟩ = .ok (some ⟨p.adv 1, n' + 1, g⟩) → skip n (l :: ls) = skip n' ls + 1 →
        ((p.adv 1).copy = [] ∨ closed (n' + 1) ls = true) →
        ∃ m, P.Goes E T ⟨p, n + 1, g⟩ ⟨p.adv (skip n (l :: ls)), m, g⟩ ∧ (m = 0 ∨ p.copy = [] ∧ P.top (p.adv (skip n (l :: ls))) = []) := by
      intro n' h1 h2 h3
      obtain ⟨m, hm, hm'⟩ := ih n' (p.adv 1) hp1 ht1 h3
      rw [Pos.adv_adv, Nat.add_comm 1, ← h2, hcp] at hm'
      rw [Pos.adv_adv, Nat.add_comm 1, ← h2] at hm
      exact ⟨m, .head h1 hm, hm'⟩
    rcases ho : l.op with _ | _ | a | _
    · refine key (n + 1) ?_ (by simp [skip, ho]) (hc.imp hcp.2 fun h => by simpa [closed, ho] using h)
      simp [Prog.turn, hg, hd, Prog.process, ho, bind, Except.bind, Except.map]
    · rcases n with _ | n
      · refine ⟨0, ?_, .inl rfl⟩
        refine Relation.ReflTransGen.single ?_
        simp [Prog.turn, hg, hd, Prog.process, ho, bind, Except.bind, Except.map, skip]
      · refine key n ?_ (by simp [skip, ho]) (hc.imp hcp.2 fun h => by simpa [closed, ho] using h)
        simp [Prog.turn, hg, hd, Prog.process, ho, bind, Except.bind, Except.map]
    · refine key n ?_ (by simp [skip, ho]) (hc.imp hcp.2 fun h => by simpa [closed, ho] using h)
      simp [Prog.turn, hg, hd, Prog.process, ho, bind, Except.bind, Except.map]
    · refine key n ?_ (by simp [skip, ho]) (hc.imp hcp.2 fun h => by simpa [closed, ho] using h)
      simp [Prog.turn, hg, hd, Prog.process, ho, bind, Except.bind, Except.map]

theorem names_adv (p : Pos) (k : Nat) : (p.adv k).copy.map Frame.name = p.copy.map Frame.name := by
  rcases p with ⟨off, _ | ⟨f, fs⟩⟩ <;> simp [Pos.adv]

theorem member_closed {P : Prog} {n : Nat} {ms : List Line} (h : P.member n = some ms) : closed 0 ms = true := by
  simp only [Prog.member, Option.map_eq_some_iff] at h
  obtain ⟨ls, _, rfl⟩ := h
  split
  · assumption
  · rfl

theorem closed_top {P : Prog} {p : Pos} (h : P.valid p) (hc : p.copy ≠ []) : closed 0 (P.top p) = true := by
  rcases p with ⟨off, _ | ⟨f, fs⟩⟩
  · exact absurd rfl hc
  · exact (h f (by simp)).2.2

theorem valid_adv {P : Prog} {p : Pos} (h : P.valid p) {k : Nat} (hk : k ≤ (P.top p).length) (hc : p.copy = [] ∨ closed 0 ((P.top p).drop k) = true) :
    P.valid (p.adv k) := by
  have ho := okay_adv h.okay hk
  have ht := top_adv h.okay k
  rcases p with ⟨off, _ | ⟨f, fs⟩⟩
  · intro g hg; cases hg
  · intro g hg
    have hg' := hg
    simp only [Pos.adv, List.mem_cons] at hg
    rcases hg with rfl | hg
    · refine ⟨(ho _ hg').1, (ho _ hg').2, ?_⟩
      rcases hc with hc | hc
      · cases hc
      · rw [← ht] at hc; exact hc
    · exact h g (by simp [hg])

theorem read_valid {P : Prog} {p q : Pos} {o : Option Line} (h : P.valid p) (hr : P.read p = some (o, q)) : P.valid q := by
  unfold Prog.read at hr
  rcases ht : P.top p with _ | ⟨l, ls⟩
  · rw [ht] at hr
    rcases p with ⟨off, _ | ⟨f, fs⟩⟩
    · cases hr
    · cases hr; exact fun g hg => h g (by simp [show g ∈ fs from hg])
  · rw [ht] at hr
    cases hr
    have h1 : l.op ≠ .macro → P.valid (p.adv 1) := fun hm => by
      refine valid_adv h (by rw [ht]; simp) ?_
      by_cases hc : p.copy = []
      · exact .inl hc
      · right
        have := closed_top h hc
        rw [ht] at this ⊢
        rcases ho : l.op with _ | _ | a | _
        · exact absurd ho hm
        · simp [closed, ho] at this
        · simpa [closed, ho] using this
        · simpa [closed, ho] using this
    unfold Prog.after
    rcases ho : l.op with _ | _ | a | _
    · refine valid_adv h (by rw [ht]; simpa using skip_le ls 0) ?_
      by_cases hc : p.copy = []
      · exact .inl hc
      · right
        have := closed_top h hc
        rw [ht] at this ⊢
        simp only [closed, ho] at this
        exact closed_skip ls 0 this
    · exact h1 (by simp [ho])
    · rcases a with _ | _ | _ | n
      · exact h1 (by simp [ho])
      · exact h1 (by simp [ho])
      · exact h1 (by simp [ho])
      · simp only
        split
        · rename_i hn
          intro g hg
          simp only [List.mem_cons] at hg
          rcases hg with rfl | hg
          · obtain ⟨ms, hms⟩ := Option.isSome_iff_exists.1 hn.1
            refine ⟨by simp, by simp only [hms, Option.getD_some]; omega, ?_⟩
            simp only [Prog.rest, hms, Option.getD_some]
            exact member_closed hms
          · exact h1 (by simp [ho]) g hg
        · exact h1 (by simp [ho])
    · exact h1 (by simp [ho])

/-- Reading a statement meets what is ahead. -/
theorem read_ahead {P : Prog} {p q : Pos} {o : Option Line} {ws : List Line} (h : P.valid p) (hr : P.read p = some (o, q)) :
    Ahead P p ws ↔ ∃ vs, ws = o.toList ++ vs ∧ Ahead P q vs := by
  have hto := top_adv h.okay
  unfold Prog.read at hr
  rcases ht : P.top p with _ | ⟨l, ls⟩
  · rw [ht] at hr
    rcases p with ⟨off, _ | ⟨f, fs⟩⟩
    · cases hr
    · cases hr
      simp only [Prog.top] at ht
      constructor
      · intro ha
        cases ha with
        | member h1 h2 => rw [ht] at h1; cases h1; exact ⟨_, rfl, h2⟩
      · rintro ⟨vs, rfl, ha⟩
        have : Sees P ((f :: fs).map Frame.name) (P.rest f) [] := by rw [ht]; exact .nil
        exact .member this ha
  · rw [ht] at hr
    cases hr
    -- for any position behind, by the text
    have conv : ∀ (k : Nat), (∃ vs, ws = l :: vs ∧ Ahead P (p.adv k) vs) ↔
        (p.copy = [] ∧ ∃ vs, ws = l :: vs ∧ Sees P [] ((l :: ls).drop k) vs) ∨
          (∃ f fs, p.copy = f :: fs ∧ ∃ us vs, ws = l :: us ++ vs ∧ Sees P (p.copy.map Frame.name) ((l :: ls).drop k) us ∧ SeesFrom P p.off fs vs) := by
      intro k
      have hk := hto k
      rw [ht] at hk
      rcases p with ⟨off, _ | ⟨f, fs⟩⟩
      · simp only [Prog.top, Pos.adv] at hk
        constructor
        · rintro ⟨vs, rfl, ha⟩
          cases ha with
          | code h1 => simp only [Pos.adv] at h1; rw [hk] at h1; exact .inl ⟨rfl, vs, rfl, h1⟩
        · rintro (⟨_, vs, rfl, h1⟩ | ⟨f, fs, hc, _⟩)
          · refine ⟨vs, rfl, .code ?_⟩
            simp only [Pos.adv]; rw [hk]; exact h1
          · cases hc
      · simp only [Prog.top, Pos.adv] at hk
        constructor
        · rintro ⟨vs, rfl, ha⟩
          simp only [Ahead, Pos.adv] at ha
          cases ha with
          | member h1 h2 =>
            rw [hk] at h1
            exact .inr ⟨f, fs, rfl, _, _, rfl, h1, h2⟩
        · rintro (⟨hc, _⟩ | ⟨f', fs', hc, us, vs, rfl, h1, h2⟩)
          · cases hc
          · cases hc
            refine ⟨us ++ vs, rfl, ?_⟩
            simp only [Ahead, Pos.adv]
            refine .member ?_ h2
            rw [hk]; exact h1
    have whole : Ahead P p ws ↔ (p.copy = [] ∧ Sees P [] (l :: ls) ws) ∨
          (∃ f fs, p.copy = f :: fs ∧ ∃ us vs, ws = us ++ vs ∧ Sees P (p.copy.map Frame.name) (l :: ls) us ∧ SeesFrom P p.off fs vs) := by
      rcases p with ⟨off, _ | ⟨f, fs⟩⟩
      · simp only [Prog.top] at ht
        constructor
        · intro ha
          cases ha with
          | code h1 => simp only at h1; rw [ht] at h1; exact .inl ⟨rfl, h1⟩
        · rintro (⟨_, h1⟩ | ⟨f, fs, hc, _⟩)
          · refine .code ?_; simp only; rw [ht]; exact h1
          · cases hc
      · simp only [Prog.top] at ht
        constructor
        · intro ha
          cases ha with
          | member h1 h2 => rw [ht] at h1; exact .inr ⟨f, fs, rfl, _, _, rfl, h1, h2⟩
        · rintro (⟨hc, _⟩ | ⟨f', fs', hc, us, vs, rfl, h1, h2⟩)
          · cases hc
          · cases hc; refine .member ?_ h2; rw [ht]; exact h1
    -- a statement after which reading goes on in the same text
    have plain : ∀ (k : Nat), (∀ names us, names = p.copy.map Frame.name → (Sees P names (l :: ls) us ↔ ∃ vs, us = l :: vs ∧ Sees P names ((l :: ls).drop k) vs)) →
        (Ahead P p ws ↔ ∃ vs, ws = (some l).toList ++ vs ∧ Ahead P (p.adv k) vs) := by
      intro k hs
      rw [whole]
      have := conv k
      simp only [Option.toList_some, List.cons_append, List.nil_append]
      rw [this]
      refine or_congr (and_congr_right fun hc => hs _ _ (by rw [hc]; rfl)) ?_
      constructor
      · rintro ⟨f, fs, hc, us, vs, rfl, h1, h2⟩
        obtain ⟨us', rfl, h1'⟩ := (hs _ _ rfl).1 h1
        exact ⟨f, fs, hc, us', vs, rfl, h1', h2⟩
      · rintro ⟨f, fs, hc, us, vs, rfl, h1, h2⟩
        exact ⟨f, fs, hc, l :: us, vs, rfl, (hs _ _ rfl).2 ⟨us, rfl, h1⟩, h2⟩
    have line1 : l.op ≠ .macro → (∀ n ms, l.op = .copy (.member n) → P.member n = some ms → n ∈ p.copy.map Frame.name) →
        (Ahead P p ws ↔ ∃ vs, ws = (some l).toList ++ vs ∧ Ahead P (p.adv 1) vs) := by
      intro h1 h2
      refine plain 1 fun names us hn => ?_
      subst hn
      constructor
      · intro hs
        cases hs with
        | defn h _ => exact absurd h h1
        | copy h3 h4 h5 _ _ => exact absurd (h2 _ _ h3 h4) h5
        | line _ _ h3 => exact ⟨_, rfl, h3⟩
      · rintro ⟨vs, rfl, hs⟩
        exact .line h1 h2 hs
    unfold Prog.after
    rcases ho : l.op with _ | _ | a | _
    · refine plain (skip 0 ls + 1) fun names us hn => ?_
      rw [List.drop_succ_cons, ← behind_skip]
      constructor
      · intro hs
        cases hs with
        | defn _ h => exact ⟨_, rfl, h⟩
        | copy h3 => rw [ho] at h3; cases h3
        | line h3 => exact absurd ho h3
      · rintro ⟨vs, rfl, hs⟩
        exact .defn ho hs
    · exact line1 (by simp [ho]) (by simp [ho])
    · rcases a with _ | _ | _ | n
      · exact line1 (by simp [ho]) (by simp [ho])
      · exact line1 (by simp [ho]) (by simp [ho])
      · exact line1 (by simp [ho]) (by simp [ho])
      · simp only
        split
        · rename_i hn
          obtain ⟨ms, hms⟩ := Option.isSome_iff_exists.1 hn.1
          have hrest : P.rest ⟨n, -1⟩ = ms := by simp [Prog.rest, hms]
          rw [whole]
          have c1 := conv 1
          simp only [Option.toList_some, List.cons_append, List.nil_append]
          have inv : ∀ us, Sees P (p.copy.map Frame.name) (l :: ls) us ↔
              ∃ a b, us = l :: a ++ b ∧ Sees P (n :: p.copy.map Frame.name) ms a ∧ Sees P (p.copy.map Frame.name) ls b := by
            intro us
            constructor
            · intro hs
              cases hs with
              | defn h _ => rw [ho] at h; cases h
              | copy h3 h4 h5 h6 h7 => rw [ho] at h3; cases h3; rw [hms] at h4; cases h4; exact ⟨_, _, rfl, h6, h7⟩
              | line _ h3 _ => exact absurd (h3 _ _ ho hms) hn.2
            · rintro ⟨a, b, rfl, h6, h7⟩
              exact .copy ho hms hn.2 h6 h7
          have hnames : (⟨n, -1⟩ :: (p.adv 1).copy : List Frame).map Frame.name = n :: p.copy.map Frame.name := by
            rw [List.map_cons, names_adv]
          constructor
          · rintro (⟨hc, h1⟩ | ⟨f, fs, hc, us, vs, rfl, h1, h2⟩)
            · rw [show ([] : List Nat) = p.copy.map Frame.name by rw [hc]; rfl] at h1
              obtain ⟨a, b, rfl, h6, h7⟩ := (inv _).1 h1
              refine ⟨a ++ b, rfl, .member (by rw [hnames, hrest]; exact h6) ?_⟩
              have := hto 1
              rw [ht] at this
              rcases p with ⟨off, _ | ⟨f, fs⟩⟩
              · simp only [Pos.adv, Prog.top] at this ⊢
                exact .code (by rw [this]; exact h7)
              · cases hc
            · obtain ⟨a, b, rfl, h6, h7⟩ := (inv _).1 h1
              refine ⟨a ++ (b ++ vs), by simp, .member (by rw [hnames, hrest]; exact h6) ?_⟩
              have := hto 1
              rw [ht] at this
              rcases p with ⟨off, _ | ⟨f', fs'⟩⟩
              · cases hc
              · cases hc
                simp only [Pos.adv, Prog.top] at this ⊢
                exact .member (by rw [this]; exact h7) h2
          · rintro ⟨vs, rfl, ha⟩
            cases ha with
            | member h6 h7 =>
              rw [hnames, hrest] at h6
              have := hto 1
              rw [ht] at this
              rcases p with ⟨off, _ | ⟨f, fs⟩⟩
              · simp only [Pos.adv, Prog.top] at this h7
                cases h7 with
                | code h8 =>
                  rw [this] at h8
                  refine .inl ⟨rfl, (inv _).2 ⟨_, _, rfl, h6, h8⟩⟩
              · simp only [Pos.adv, Prog.top] at this h7
                cases h7 with
                | member h8 h9 =>
                  rw [this] at h8
                  refine .inr ⟨f, fs, rfl, _, _, ?_, (inv _).2 ⟨_, _, rfl, h6, h8⟩, h9⟩
                  simp
        · rename_i hn
          refine line1 (by simp [ho]) ?_
          intro m ms h3 h4
          rw [ho] at h3; cases h3
          by_contra hc
          exact hn ⟨by rw [h4]; rfl, hc⟩
    · exact line1 (by simp [ho]) (by simp [ho])

theorem read_none {P : Prog} {p : Pos} {ws : List Line} (hr : P.read p = none) : Ahead P p ws ↔ ws = [] := by
  unfold Prog.read at hr
  rcases p with ⟨off, _ | ⟨f, fs⟩⟩
  · rcases ht : P.code.drop off with _ | ⟨l, ls⟩
    · constructor
      · intro ha
        cases ha with
        | code h1 => simp only at h1; rw [ht] at h1; cases h1; rfl
      · rintro rfl; refine .code ?_; simp only; rw [ht]; exact .nil
    · simp [Prog.top, ht] at hr
  · rcases ht : P.rest f with _ | ⟨l, ls⟩ <;> simp [Prog.top, ht] at hr

end Verif.Seek
