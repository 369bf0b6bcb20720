import Verif.SysVar.Spec
import Verif.Context.VarsProps
import Verif.CaStmt.Decl
/-! Lemmas for C141. -/
namespace Verif.SysVar
open Verif.Context

/-! ### Numbers -/

theorem toDec_one (n : Nat) (h : n < 10) : toDec n = [Spec.digit n 0] := by
  rw [toDec, if_pos h, CaStmt.digit_eq n h]
  simp [Spec.digit, Nat.mod_eq_of_lt h]

theorem toDec_snoc (n : Nat) (h : 10 ≤ n) : toDec n = toDec (n / 10) ++ [Spec.digit n 0] := by
  rw [toDec, if_neg (by omega), CaStmt.digit_eq _ (Nat.mod_lt _ (by decide))]
  simp [Spec.digit]

theorem digit_div (n k : Nat) : Spec.digit (n / 10) k = Spec.digit n (k + 1) := by
  unfold Spec.digit
  rw [Nat.div_div_eq_div_mul, Nat.pow_succ, Nat.mul_comm]

theorem toDec_two (n : Nat) (h : 10 ≤ n) (h' : n < 100) : toDec n = [Spec.digit n 1, Spec.digit n 0] := by
  rw [toDec_snoc n h, toDec_one _ (by omega), digit_div]; rfl

theorem toDec_four (n : Nat) (h : 1000 ≤ n) (h' : n < 10000) :
    toDec n = [Spec.digit n 3, Spec.digit n 2, Spec.digit n 1, Spec.digit n 0] := by
  rw [toDec_snoc n (by omega), toDec_snoc (n / 10) (by omega), toDec_two (n / 10 / 10) (by omega) (by omega)]
  simp only [digit_div, List.cons_append, List.nil_append]

theorem padded_two (n : Nat) (h : n < 100) : padded n = [Spec.digit n 1, Spec.digit n 0] := by
  unfold padded
  split
  · next h1 =>
    rw [toDec_one n h1]
    have : Spec.digit n 1 = cZero := by
      unfold Spec.digit
      rw [Nat.div_eq_of_lt (by simpa using h1)]; rfl
    rw [this]
  · next h1 => exact toDec_two n (by omega) h

theorem datc_eq (t : Tm) (h : Spec.Valid t) : datc t = Spec.datc t := by
  obtain ⟨h1, h2, h3, h4, h5, h6, h7⟩ := h
  unfold datc Spec.datc
  rw [toDec_four _ h1 h2, padded_two _ (by omega), padded_two _ (by omega)]
  rfl

theorem date_eq (t : Tm) (h : Spec.Valid t) : date t = Spec.date t := by
  obtain ⟨h1, h2, h3, h4, h5, h6, h7⟩ := h
  unfold date Spec.date
  rw [toDec_four _ h1 h2, padded_two _ (by omega), padded_two _ (by omega)]
  rfl

theorem time_eq (t : Tm) (h : Spec.Valid t) : time t = Spec.time t := by
  obtain ⟨h1, h2, h3, h4, h5, h6, h7⟩ := h
  unfold time Spec.time
  rw [padded_two _ (by omega), padded_two _ (by omega)]
  rfl

/-! ### What a statement leaves alone -/

/-- Objects made for local variables with names of system variables stay as they are. -/
def Same (s s' : St) : Prop := ∀ (a : Nat) (x : SetSym) k n, n ∈ Spec.names → s.heap[a]? = some x → x.owner = some (k, n) → s'.heap[a]? = some x

theorem Same.refl (s : St) : Same s s := fun _ _ _ _ _ h _ => h
theorem Same.trans {s t u : St} (h : Same s t) (h' : Same t u) : Same s u := fun a x k n hn hx ho => h' a x k n hn (h a x k n hn hx ho) ho

theorem same_newLocal (s : St) (n : Name) (ty : Ty) (sc : Bool) : Same s (s.newLocal n ty sc) :=
  fun _ _ _ _ _ hx _ => getElem?_append_some hx

theorem same_newGlobal (s : St) (n : Name) (ty : Ty) (sc : Bool) : Same s (s.newGlobal n ty sc) := by
  intro a x k m _ hx _
  unfold St.newGlobal
  split
  · exact hx
  · exact getElem?_append_some hx

theorem same_assign (s : St) (b base : Nat) (vs : List Val)
    (hb : ∀ (x : SetSym) k n, n ∈ Spec.names → s.heap[b]? = some x → x.owner ≠ some (k, n)) : Same s (s.assign b base vs) := by
  intro a x k n hn hx ho
  have : b ≠ a := by rintro rfl; exact hb x k n hn hx ho
  show (s.heap.modify b fun y => y.assign base vs)[a]? = some x
  rw [List.getElem?_modify, hx]; simp [this]

theorem same_insertSys (s : St) (p : Name × Val) : Same s (s.insertSys p) := by
  unfold St.insertSys
  split
  · exact Same.refl s
  · intro a x k n _ hx _
    have hl : a < s.heap.length := by rw [List.getElem?_eq_some_iff] at hx; exact hx.1
    show ((s.heap ++ [_]).modify s.heap.length fun y => y.assign 0 [p.2])[a]? = some x
    rw [List.getElem?_modify, getElem?_append_some hx]
    have : ¬ s.heap.length = a := by omega
    simp [this]

theorem same_insertGlob (s : St) (n : Name) : Same s (s.insertGlob n) := by
  unfold St.insertGlob
  split
  · exact fun _ _ _ _ _ h _ => h
  · exact Same.refl s

theorem top_vars_of_resolve {s : St} {m : Name} {b : Nat} (hb : s.resolve m = .sym b) : s.top.vars m = some b := by
  unfold St.resolve at hb
  cases hv' : s.top.vars m with
  | some c => simp [hv'] at hb; rw [hb]
  | none => simp only [hv'] at hb; split at hb <;> simp at hb

/-- The scopes after a statement that is neither a call nor a return. -/
structure Quiet (s s' : St) : Prop where
  same : Same s s'
  rest : s'.rest = s.rest
  id : s'.top.id = s.top.id
  vars : ∀ n a, s.top.vars n = some a → s'.top.vars n = some a
  new : ∀ n ∈ Spec.names, s.top.vars n = none → s'.top.vars n = none

theorem Quiet.refl (s : St) : Quiet s s := ⟨Same.refl s, rfl, rfl, fun _ _ h => h, fun _ _ h => h⟩

theorem quiet_newLocal {s : St} {n : Name} (ty : Ty) (sc : Bool) (hu : s.top.vars n = none) (hn : n ∉ Spec.names) : Quiet s (s.newLocal n ty sc) := by
  refine ⟨same_newLocal s n ty sc, rfl, rfl, ?_, ?_⟩
  · intro m a hm
    show upd s.top.vars n (some s.heap.length) m = some a
    unfold upd
    split
    · next e => subst e; rw [hu] at hm; simp at hm
    · exact hm
  · intro m hm hv
    show upd s.top.vars n (some s.heap.length) m = none
    unfold upd
    split
    · next e => subst e; exact absurd hm hn
    · exact hv

theorem quiet_newGlobal {s : St} {n : Name} (ty : Ty) (sc : Bool) (hu : s.top.vars n = none) (hn : n ∉ Spec.names) : Quiet s (s.newGlobal n ty sc) := by
  have hv : ∀ (b : Nat) m a, s.top.vars m = some a → upd s.top.vars n (some b) m = some a := by
    intro b m a hm
    unfold upd
    split
    · next e => subst e; rw [hu] at hm; simp at hm
    · exact hm
  have hw : ∀ (b : Nat) m, m ∈ Spec.names → s.top.vars m = none → upd s.top.vars n (some b) m = none := by
    intro b m hm hv
    unfold upd
    split
    · next e => subst e; exact absurd hm hn
    · exact hv
  refine ⟨same_newGlobal s n ty sc, ?_, ?_, ?_, ?_⟩
  · unfold St.newGlobal; split <;> rfl
  · unfold St.newGlobal; split <;> rfl
  · intro m a hm; unfold St.newGlobal; split <;> exact hv _ m a hm
  · intro m hm hm'; unfold St.newGlobal; split <;> exact hw _ m hm hm'

theorem quiet_assign {s : St} (b base : Nat) (vs : List Val)
    (hb : ∀ (x : SetSym) k n, n ∈ Spec.names → s.heap[b]? = some x → x.owner ≠ some (k, n)) : Quiet s (s.assign b base vs) :=
  ⟨same_assign s b base vs hb, rfl, rfl, fun _ _ h => h, fun _ _ h => h⟩

theorem Quiet.trans {s t u : St} (h : Quiet s t) (h' : Quiet t u) : Quiet s u :=
  ⟨h.same.trans h'.same, h'.rest.trans h.rest, h'.id.trans h.id, fun n a hn => h'.vars n a (h.vars n a hn),
    fun n hn hv => h'.new n hn (h.new n hn hv)⟩

theorem quiet_set {s : St} (inv : Inv s) (ty : Ty) (m : Name) (sub : Option Int) (vals : List Val) (hn : m ∉ Spec.names) :
    Quiet s (s.step (.set ty m sub vals)) := by
  simp only [St.step, St.setStmt]
  split
  · exact Quiet.refl s
  · next hr =>
    split
    · exact Quiet.refl s
    · refine (quiet_newLocal ty _ (resolve_undef hr).1 hn).trans (quiet_assign _ _ _ ?_)
      intro x k n hnn hx
      simp [St.newLocal] at hx
      subst hx
      intro e; simp at e; exact hn (e.2 ▸ hnn)
  · next b hb =>
    split
    · exact Quiet.refl s
    · split
      · exact Quiet.refl s
      · split
        · exact Quiet.refl s
        · split
          · exact Quiet.refl s
          · refine quiet_assign _ _ _ ?_
            intro x k n hnn hx ho
            obtain ⟨z, hz, hz'⟩ := inv.scopes s.top (by simp) m b (top_vars_of_resolve hb)
            rw [hx] at hz; simp at hz; subst hz
            rcases hz' with hz' | ⟨h2, _⟩
            · rw [ho] at hz'; simp at hz'; exact hn (hz'.2 ▸ hnn)
            · rw [ho] at h2; simp at h2

/-! ### The variables of a macro scope -/

/-- The scope has the variable, with a value. -/
def Has (heap : List SetSym) (sc : Scope) (p : Name × Val) : Prop := ∃ (a : Nat) (x : SetSym), sc.vars p.1 = some a ∧ heap[a]? = some x ∧
  x.owner = some (sc.id, p.1) ∧ x.scalar = true ∧ x.get = p.2

theorem Has.mono {s s' : St} {sc sc' : Scope} {p : Name × Val} (h : Has s.heap sc p) (hs : Same s s') (hp : p.1 ∈ Spec.names)
    (hid : sc'.id = sc.id) (hv : ∀ a, sc.vars p.1 = some a → sc'.vars p.1 = some a) : Has s'.heap sc' p := by
  obtain ⟨a, x, h1, h2, h3, h4, h5⟩ := h
  exact ⟨a, x, hv a h1, hs a x _ _ hp h2 h3, by rw [hid]; exact h3, h4, h5⟩

theorem has_insertSys (s : St) (p : Name × Val) (hu : s.top.vars p.1 = none) : Has (s.insertSys p).heap (s.insertSys p).top p := by
  unfold St.insertSys
  rw [hu]
  refine ⟨s.heap.length, ({ scalar := true, ty := p.2.ty, owner := some (s.top.id, p.1) } : SetSym).assign 0 [p.2], by simp [St.assign, St.newLocal, upd], ?_, rfl, rfl, rfl⟩
  simp only [St.assign, St.newLocal]
  rw [List.getElem?_modify, List.getElem?_append_right (Nat.le_refl _)]
  simp

theorem insertSys_vars (s : St) (p : Name × Val) (n : Name) (h : n ≠ p.1) : (s.insertSys p).top.vars n = s.top.vars n := by
  unfold St.insertSys
  split
  · rfl
  · show upd s.top.vars p.1 (some s.heap.length) n = _
    unfold upd; rw [if_neg h]

theorem insertSys_keeps (s : St) (p : Name × Val) (n : Name) (a : Nat) (h : s.top.vars n = some a) : (s.insertSys p).top.vars n = some a := by
  by_cases e : n = p.1
  · unfold St.insertSys; rw [← e, h]; exact h
  · rw [insertSys_vars s p n e, h]

theorem insertSys_rest (s : St) (p : Name × Val) : (s.insertSys p).rest = s.rest ∧ (s.insertSys p).globals = s.globals := by
  unfold St.insertSys; split <;> exact ⟨rfl, rfl⟩

theorem foldSys_facts : ∀ (l : List (Name × Val)) (s : St),
    Same s (l.foldl St.insertSys s) ∧ (l.foldl St.insertSys s).rest = s.rest ∧ (l.foldl St.insertSys s).globals = s.globals ∧
    (l.foldl St.insertSys s).top.id = s.top.id ∧ (∀ n a, s.top.vars n = some a → (l.foldl St.insertSys s).top.vars n = some a) ∧
    (∀ n, n ∉ l.map (·.1) → (l.foldl St.insertSys s).top.vars n = s.top.vars n)
  | [], s => ⟨Same.refl s, rfl, rfl, rfl, fun _ _ h => h, fun _ _ => rfl⟩
  | p :: l, s => by
    obtain ⟨h1, h2, h3, h4, h5, h6⟩ := foldSys_facts l (s.insertSys p)
    rw [List.foldl_cons]
    refine ⟨(same_insertSys s p).trans h1, h2.trans (insertSys_rest s p).1, h3.trans (insertSys_rest s p).2, h4.trans (insertSys_top s p).2,
      fun n a h => h5 n a (insertSys_keeps s p n a h), fun n hn => ?_⟩
    simp only [List.map_cons, List.mem_cons, not_or] at hn
    rw [h6 n hn.2, insertSys_vars s p n hn.1]

theorem foldSys_has : ∀ (l : List (Name × Val)) (s : St), (l.map (·.1)).Nodup → (∀ p ∈ l, s.top.vars p.1 = none) → (∀ p ∈ l, p.1 ∈ Spec.names) →
    ∀ p ∈ l, Has (l.foldl St.insertSys s).heap (l.foldl St.insertSys s).top p
  | [], _, _, _, _ => by intro p hp; exact absurd hp (by simp)
  | q :: l, s, hd, hu, hm => by
    intro p hp
    rw [List.foldl_cons]
    rw [List.map_cons, List.nodup_cons] at hd
    rcases List.mem_cons.mp hp with rfl | hp
    · obtain ⟨h1, _, _, h4, h5, _⟩ := foldSys_facts l (s.insertSys p)
      exact (has_insertSys s p (hu p (by simp))).mono h1 (hm p (by simp)) h4 (fun a h => h5 _ a h)
    · refine foldSys_has l (s.insertSys q) hd.2 ?_ (fun r hr => hm r (by simp [hr])) p hp
      intro r hr
      rw [insertSys_vars s q r.1 (fun e => hd.1 (e ▸ List.mem_map_of_mem (f := (·.1)) hr))]
      exact hu r (by simp [hr])

theorem insertGlob_facts (s : St) (n : Name) : (s.insertGlob n).rest = s.rest ∧ (s.insertGlob n).globals = s.globals ∧
    (s.insertGlob n).heap = s.heap ∧ (s.insertGlob n).top.id = s.top.id ∧
    (∀ m a, s.top.vars m = some a → (s.insertGlob n).top.vars m = some a) ∧
    (∀ m, m ≠ n → (s.insertGlob n).top.vars m = s.top.vars m) ∧
    (s.top.vars n = none → (s.insertGlob n).top.vars n = s.globals n) := by
  unfold St.insertGlob
  split
  · next a hv hg =>
    refine ⟨rfl, rfl, rfl, rfl, ?_, ?_, ?_⟩
    · intro m b hm
      show upd s.top.vars n (some a) m = some b
      unfold upd; split
      · next e => subst e; rw [hv] at hm; simp at hm
      · exact hm
    · intro m hm
      show upd s.top.vars n (some a) m = _
      unfold upd; rw [if_neg hm]
    · intro _
      show upd s.top.vars n (some a) n = _
      unfold upd; rw [if_pos rfl, hg]
  · next hx =>
    refine ⟨rfl, rfl, rfl, rfl, fun _ _ h => h, fun _ _ => rfl, ?_⟩
    intro hv
    cases hg : s.globals n with
    | none => exact hv
    | some a => exact absurd hg (hx a hv)

theorem foldGlob_facts : ∀ (l : List Name) (s : St), (l.foldl St.insertGlob s).rest = s.rest ∧ (l.foldl St.insertGlob s).globals = s.globals ∧
    (l.foldl St.insertGlob s).heap = s.heap ∧ (l.foldl St.insertGlob s).top.id = s.top.id ∧
    (∀ m a, s.top.vars m = some a → (l.foldl St.insertGlob s).top.vars m = some a) ∧
    (∀ m, m ∉ l → (l.foldl St.insertGlob s).top.vars m = s.top.vars m) ∧
    (∀ m a, m ∈ l → s.top.vars m = none → s.globals m = some a → (l.foldl St.insertGlob s).top.vars m = some a)
  | [], s => ⟨rfl, rfl, rfl, rfl, fun _ _ h => h, fun _ _ => rfl, fun _ _ h => absurd h (by simp)⟩
  | n :: l, s => by
    obtain ⟨h1, h2, h3, h4, h5, h6, h7⟩ := foldGlob_facts l (s.insertGlob n)
    obtain ⟨g1, g2, g3, g4, g5, g6, g7⟩ := insertGlob_facts s n
    rw [List.foldl_cons]
    refine ⟨h1.trans g1, h2.trans g2, h3.trans g3, h4.trans g4, fun m a h => h5 m a (g5 m a h), ?_, ?_⟩
    · intro m hm
      simp only [List.mem_cons, not_or] at hm
      rw [h6 m hm.2, g6 m hm.1]
    · intro m a hm hv hg
      by_cases e : m = n
      · subst e
        exact h5 m a (by rw [g7 hv, hg])
      · have hm' : m ∈ l := by rcases List.mem_cons.mp hm with h | h; exact absurd h e; exact h
        exact h7 m a hm' (by rw [g6 m e, hv]) (by rw [g2, hg])

end Verif.SysVar
