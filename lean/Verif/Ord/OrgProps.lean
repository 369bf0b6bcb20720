import Verif.Ord.Org
import Verif.Ord.LocCtrProps
/-!
C100: `ORG`.
-/
namespace Verif.Ord

/-! ### Specification of the counter: the current location and the highest one used so far -/

/-- `q` is `x`, moved up to the boundary if there is one. -/
def Upto (b : Nat) (x q : Int) : Prop := (b = 0 ∧ q = x) ∨ (b ≠ 0 ∧ IsNext ⟨0, b⟩ x q)

/-- What the statements mean: current location and highest location, before and after. -/
inductive Moves : OOp → Int × Int → Int × Int → Prop where
  | reserve {len al p h q} : IsNext al p q → Moves (.reserve len al) (p, h) (q + len, max h (q + len))
  | org {a b o p h q} : Upto b a q → Moves (.org a b o) (p, h) (q + o, max h (q + o))
  | highest {b o p h q} : Upto b h q → Moves (.highest b o) (p, h) (q + o, max h (q + o))

/-- What is assumed of a statement. Boundaries are powers of two. `ORG` stays inside the section, also before its third operand is applied,
and does not pass the highest location with its first operand to come back below it with the third. -/
def OrgFits : OOp → Int × Int → Int × Int → Prop
  | .reserve _ al, _, _ => Pow al ∧ al.byte < al.boundary
  | .org a b o, (_, h), (p', _) => (b = 0 ∨ Pow ⟨0, b⟩) ∧ 0 ≤ a ∧ 0 ≤ p' ∧ (b ≠ 0 → 0 ≤ a + o) ∧ (p' < h → a < h)
  | .highest b _, (_, h), (p', _) => (b = 0 ∨ Pow ⟨0, b⟩) ∧ h ≤ p'

/-- Statements one after another. -/
inductive Runs : List OOp → Int × Int → Int × Int → Prop where
  | nil {s} : Runs [] s s
  | cons {op ops s s' s''} : Moves op s s' → OrgFits op s s' → Runs ops s' s'' → Runs (op :: ops) s s''

/-! ### Invariant -/

structure OInv (c : OCtr) (s : Int × Int) : Prop where
  cur : c.cur.storage = s.1
  safe : c.cur.safe = s.1
  shape : (c.cur.max = true ∧ c.prev = [] ∧ s.2 = s.1) ∨ (c.cur.max = false ∧ s.1 < s.2 ∧ c.prev = [⟨s.2, s.2, true⟩])

theorem check_inv {c : OCtr} {p h : Int} (hc : c.cur.storage = p) (hs : c.cur.safe = p)
    (hsh : (c.cur.max = true ∧ c.prev = [] ∧ h ≤ p) ∨ (c.cur.max = false ∧ c.prev = [⟨h, h, true⟩])) :
    ∃ c', c.check = .ok c' ∧ OInv c' (p, max h p) := by
  unfold OCtr.check
  rcases hsh with ⟨hm, hp, hh⟩ | ⟨hm, hp⟩
  · rw [if_pos hm]
    exact ⟨c, rfl, hc, hs, .inl ⟨hm, hp, by simp; omega⟩⟩
  · rw [if_neg (by simp [hm]), hp]
    dsimp only
    by_cases hle : h ≤ c.cur.storage
    · rw [if_pos hle]
      exact ⟨_, rfl, hc, hs, .inl ⟨rfl, rfl, by simp; omega⟩⟩
    · rw [if_neg hle]
      exact ⟨c, rfl, hc, hs, .inr ⟨hm, by simp; omega, by rw [hp, max_eq_left (by omega)]⟩⟩

theorem alignTo_next {d : OData} {al : Al} {q : Int} (hp : Pow al) (hb : al.byte < al.boundary) (h : IsNext al d.storage q) (hs : d.safe = d.storage) :
    (d.alignTo al).storage = q ∧ (d.alignTo al).safe = q ∧ (d.alignTo al).max = d.max := by
  have hq : q = alignUp al d.storage := by
    have h2 := alignUp_next al d.storage hb
    exact le_antisymm (h.2.2 _ h2.1 h2.2.1) (h2.2.2 _ h.1 h.2.1)
  have ho := sizeOk_pow hp d.storage
  unfold OData.alignTo
  by_cases he : sz d.storage % al.boundary = al.byte
  · rw [if_pos he]
    have := sz_mod ho
    rw [he] at this
    rw [hq, alignUp_fix this.symm]
    exact ⟨rfl, hs, rfl⟩
  · rw [if_neg he]
    refine ⟨?_, ?_, rfl⟩
    · show d.storage + _ = _
      rw [padData_eq al _ (by omega) ho, hq]; rfl
    · show d.safe + _ = _
      rw [padData_eq al _ (by omega) ho, hq, hs]; rfl

theorem next_self (x : Int) : IsNext ⟨0, 1⟩ x x := ⟨Int.le_refl _, by simp, fun _ h _ => h⟩

theorem next_le {al x q} (h : IsNext al x q) : x ≤ q := h.1

/-- The alignment with which `ORG` reserves its offset. -/
theorem upto_next {b : Nat} {x q : Int} (h : Upto b x q) : IsNext ⟨0, if b ≠ 0 then b else 1⟩ x q := by
  rcases h with ⟨rfl, rfl⟩ | ⟨hb, h⟩
  · exact next_self _
  · simpa [hb] using h

theorem upto_pow {b : Nat} (h : b = 0 ∨ Pow ⟨0, b⟩) : Pow ⟨0, if b ≠ 0 then b else 1⟩ := by
  rcases h with rfl | h
  · exact ⟨0, by omega, rfl⟩
  · by_cases hb : b ≠ 0
    · rw [if_pos hb]; exact h
    · rw [if_neg hb]; exact ⟨0, by omega, rfl⟩

theorem upto_pos (b : Nat) : 0 < if b ≠ 0 then b else 1 := by split <;> omega

theorem upto_pad {b : Nat} {x q : Int} (hp : b = 0 ∨ Pow ⟨0, b⟩) (h : Upto b x q) : x + padOrg b x = q := by
  unfold padOrg
  rcases h with ⟨rfl, rfl⟩ | ⟨hb, h⟩
  · simp
  · rw [if_pos hb]
    have h2 := alignUp_next ⟨0, b⟩ x (by show 0 < b; omega)
    have hq : q = alignUp ⟨0, b⟩ x := le_antisymm (h.2.2 _ h2.1 h2.2.1) (h2.2.2 _ h.1 h.2.1)
    have ho := sizeOk_pow (hp.resolve_left hb) x
    have := pad_eq b 0 x (by omega) ho
    rw [hq]
    unfold alignUp
    simp only [Nat.add_zero] at this
    rw [this]

theorem step_reserve {c : OCtr} {p h q : Int} (hi : OInv c (p, h)) {len : Int} {al : Al} (hp : Pow al) (hb : al.byte < al.boundary)
    (hn : IsNext al p q) (hl : q + len < h → c.cur.max = false) : ∃ c', c.reserve len al = .ok c' ∧ OInv c' (q + len, max h (q + len)) := by
  obtain ⟨h1, h2, h3⟩ := alignTo_next (d := c.cur) hp hb (by rw [hi.cur]; exact hn) (by rw [hi.cur, hi.safe])
  apply check_inv
  · show (c.cur.alignTo al).storage + len = _; rw [h1]
  · show (c.cur.alignTo al).safe + len = _; rw [h2]
  · rcases hi.shape with ⟨hm, hpr, hs⟩ | ⟨hm, _, hpr⟩
    · refine .inl ⟨by show (c.cur.alignTo al).max = _; rw [h3, hm], hpr, ?_⟩
      by_contra hlt
      have := hl (by omega)
      rw [hm] at this; cases this
    · exact .inr ⟨by show (c.cur.alignTo al).max = _; rw [h3, hm], hpr⟩

theorem setValue_inv {c : OCtr} {p h : Int} (hi : OInv c (p, h)) {a : Int} {b : Nat} {o : Int} (hu : 0 ≤ a + padOrg b a + o) (ha : 0 ≤ a)
    (hbo : b ≠ 0 → 0 ≤ a + o) : ∃ c', c.setValue a b o = .ok c' ∧ OInv c' (a, max h a) := by
  have hc : c.cur.storage = p := hi.cur
  have hs : c.cur.safe = p := hi.safe
  unfold OCtr.setValue
  rw [if_neg (by omega), if_neg (by rintro (h | ⟨h, h'⟩) <;> [skip; have := hbo h] <;> omega)]
  unfold OCtr.split
  by_cases hd : a - c.cur.storage < 0 ∧ c.cur.max
  · rw [if_pos hd]
    have hsh := hi.shape
    simp only [hd.2, true_and, Bool.true_eq_false, false_and, or_false] at hsh
    apply check_inv
    · show c.cur.storage + (a - c.cur.storage) = a; omega
    · show c.cur.safe + (a - c.cur.storage) = a; omega
    · refine .inr ⟨rfl, ?_⟩
      show c.cur :: c.prev = _
      have hcur : c.cur = ⟨p, p, true⟩ := by
        cases hcc : c.cur; rw [hcc] at hc hs hd; simp_all
      rw [hsh.1, hcur]
      have : h = p := hsh.2
      rw [this]
  · rw [if_neg hd]
    apply check_inv
    · show c.cur.storage + (a - c.cur.storage) = a; omega
    · show c.cur.safe + (a - c.cur.storage) = a; omega
    · rcases hi.shape with ⟨hm, hpr, hsh⟩ | ⟨hm, _, hpr⟩
      · refine .inl ⟨hm, hpr, ?_⟩
        have hsh : h = p := hsh
        by_contra hlt
        exact hd ⟨by omega, hm⟩
      · exact .inr ⟨hm, hpr⟩

theorem step_org {c : OCtr} {p h q : Int} (hi : OInv c (p, h)) {a : Int} {b : Nat} {o : Int} (hup : Upto b a q)
    (hf : OrgFits (.org a b o) (p, h) (q + o, max h (q + o))) : ∃ c', c.org a b o = .ok c' ∧ OInv c' (q + o, max h (q + o)) := by
  obtain ⟨hpow, ha, hq, hbo, hback⟩ := hf
  have hpad := upto_pad hpow hup
  obtain ⟨c1, e1, i1⟩ := setValue_inv hi (a := a) (b := b) (o := o) (by rw [hpad]; exact hq) ha hbo
  unfold OCtr.org
  rw [e1]
  show ∃ c', c1.reserve o _ = .ok c' ∧ _
  by_cases hle : h ≤ a
  · have hno : ¬ q + o < h := fun hl => by have := hback hl; omega
    rw [max_eq_right hle] at i1
    -- the mark is `a`; what follows may lie below it
    have hm : c1.cur.max = true ∧ c1.prev = [] := by
      rcases i1.shape with ⟨hm, hpr, _⟩ | ⟨_, hlt, _⟩
      · exact ⟨hm, hpr⟩
      · exact absurd hlt (by simp)
    obtain ⟨h1, h2, h3⟩ := alignTo_next (d := c1.cur) (q := q) (upto_pow hpow) (upto_pos b) (by rw [i1.cur]; exact upto_next hup) (by rw [i1.cur, i1.safe])
    apply check_inv (h := h)
    · show (c1.cur.alignTo _).storage + o = _; rw [h1]
    · show (c1.cur.alignTo _).safe + o = _; rw [h2]
    · exact .inl ⟨by show (c1.cur.alignTo _).max = _; rw [h3]; exact hm.1, hm.2, by omega⟩
  · rw [max_eq_left (by omega)] at i1
    refine step_reserve i1 (upto_pow hpow) (upto_pos b) (upto_next hup) ?_
    intro _
    rcases i1.shape with ⟨_, _, hsh⟩ | ⟨hm, _, _⟩
    · exact absurd hsh (by simp; omega)
    · exact hm

theorem dropLower_inv {c : OCtr} {p h : Int} (hi : OInv c (p, h)) : OInv c.dropLower (h, h) ∧ c.dropLower.prev = [] := by
  unfold OCtr.dropLower
  rcases hi.shape with ⟨hm, hpr, hs⟩ | ⟨hm, hlt, hpr⟩
  · have hs : h = p := hs
    rw [hpr]
    dsimp only
    rw [hs]
    exact ⟨⟨hi.cur, hi.safe, .inl ⟨hm, hpr, rfl⟩⟩, hpr⟩
  · rw [hpr]
    dsimp only
    have hc : c.cur.storage = p := hi.cur
    have hlt : p < h := hlt
    rw [if_pos ⟨hm, by omega⟩]
    exact ⟨⟨rfl, rfl, .inl ⟨rfl, rfl, rfl⟩⟩, rfl⟩

theorem step_highest {c : OCtr} {p h q : Int} (hi : OInv c (p, h)) {b : Nat} {o : Int} (hup : Upto b h q)
    (hf : OrgFits (.highest b o) (p, h) (q + o, max h (q + o))) : ∃ c', c.orgHighest b o = .ok c' ∧ OInv c' (q + o, max h (q + o)) := by
  obtain ⟨hpow, hge⟩ := hf
  have hge : h ≤ q + o := hge
  obtain ⟨i0, hnil⟩ := dropLower_inv hi
  have hm0 : c.dropLower.cur.max = true := by
    rcases i0.shape with ⟨hm, _, _⟩ | ⟨_, hlt, _⟩
    · exact hm
    · exact absurd hlt (by simp)
  unfold OCtr.orgHighest
  rw [hnil]
  dsimp only
  have : ∃ c1, (if b ≠ 0 then c.dropLower.reserve 0 ⟨0, b⟩ else .ok c.dropLower) = Org.ok c1 ∧ c1.cur.storage = q ∧ c1.cur.safe = q ∧ c1.cur.max = true ∧ c1.prev = [] := by
    rcases hup with ⟨rfl, rfl⟩ | ⟨hb, hn⟩
    · exact ⟨_, if_neg (by simp), i0.cur, i0.safe, hm0, hnil⟩
    · rw [if_pos hb]
      obtain ⟨h1, h2, h3⟩ := alignTo_next (d := c.dropLower.cur) (q := q) (hpow.resolve_left hb) (show 0 < b by omega) (by rw [i0.cur]; exact hn) (by rw [i0.cur, i0.safe])
      refine ⟨{ c.dropLower with cur := (c.dropLower.cur.alignTo ⟨0, b⟩).append 0 }, ?_, ?_, ?_, ?_, hnil⟩
      · unfold OCtr.reserve OCtr.check
        rw [if_pos (by show (c.dropLower.cur.alignTo ⟨0, b⟩).max = true; rw [h3, hm0])]
      · show (c.dropLower.cur.alignTo ⟨0, b⟩).storage + 0 = q; omega
      · show (c.dropLower.cur.alignTo ⟨0, b⟩).safe + 0 = q; omega
      · show (c.dropLower.cur.alignTo ⟨0, b⟩).max = true; rw [h3, hm0]
  obtain ⟨c1, e1, k1, k2, k3, k4⟩ := this
  rw [e1]
  show ∃ c', c1.reserve o ⟨0, 1⟩ = .ok c' ∧ _
  obtain ⟨h1, h2, h3⟩ := alignTo_next (d := c1.cur) (q := q) (al := ⟨0, 1⟩) ⟨0, by omega, rfl⟩ (by decide) (by rw [k1]; exact next_self q) (by rw [k1, k2])
  apply check_inv (h := h)
  · show (c1.cur.alignTo _).storage + o = _; rw [h1]
  · show (c1.cur.alignTo _).safe + o = _; rw [h2]
  · exact .inl ⟨by show (c1.cur.alignTo _).max = _; rw [h3]; exact k3, k4, hge⟩

theorem step_inv {c : OCtr} {s s' : Int × Int} {op : OOp} (hi : OInv c s) (hm : Moves op s s') (hf : OrgFits op s s') :
    ∃ c', c.step op = .ok c' ∧ OInv c' s' := by
  cases hm with
  | reserve hn =>
    refine step_reserve hi hf.1 hf.2 hn ?_
    intro hlt
    rcases hi.shape with ⟨_, _, hs⟩ | ⟨hm, _, _⟩
    · have := hn.1
      simp only at hs
      omega
    · exact hm
  | org hu => exact step_org hi hu hf
  | highest hu => exact step_highest hi hu hf

theorem run_inv {ops : List OOp} {s s' : Int × Int} (h : Runs ops s s') : ∀ {c : OCtr}, OInv c s → ∃ c', c.run ops = .ok c' ∧ OInv c' s' := by
  induction h with
  | nil => intro c hi; exact ⟨c, rfl, hi⟩
  | cons hm hf _ ih =>
    intro c hi
    obtain ⟨c1, e1, i1⟩ := step_inv hi hm hf
    obtain ⟨c2, e2, i2⟩ := ih i1
    exact ⟨c2, by unfold OCtr.run; rw [e1]; exact e2, i2⟩

/-! ### C100: the counter -/

/-- C100 (partial): after any sequence of data and `ORG` statements the counter is at the location the last one asks for, and `ORG` without
operands leads to the highest location used so far. Missing: a third operand that leads back behind the highest location
(`C100_witness_offset`, `C100_witness_highest`); locations before the section that a boundary moves into it; gaps of unknown length. -/
theorem C100_counter_partial (ops : List OOp) (p h : Int) (hr : Runs ops (0, 0) (p, h)) :
    ∃ c, OCtr.init.run ops = .ok c ∧ c.cur.storage = p ∧ ∃ c', c.step (.highest 0 0) = .ok c' ∧ c'.cur.storage = h := by
  obtain ⟨c, e, hi⟩ := run_inv hr (c := OCtr.init) ⟨rfl, rfl, .inl ⟨rfl, rfl, rfl⟩⟩
  refine ⟨c, e, hi.cur, ?_⟩
  obtain ⟨c', e', hi'⟩ := step_inv (s' := (h + 0, max h (h + 0))) hi (.highest (.inl ⟨rfl, rfl⟩)) ⟨.inl rfl, by simp⟩
  exact ⟨c', e', by rw [hi'.cur]; simp⟩

/-- The locations reached, for the examples. -/
def Org.at : Org → Option Int
  | .ok c => some c.cur.storage
  | _ => none

/-- Violation: `DS 8C`, `ORG *,,-4`, `ORG`: the highest location is 8, the counter continues at 4. -/
theorem C100_witness_offset : (OCtr.init.run [.reserve 8 ⟨0, 1⟩, .org 8 0 (-4), .highest 0 0]).at = some 4 ∧
    Moves (.reserve 8 ⟨0, 1⟩) (0, 0) (8, 8) ∧ Moves (.org 8 0 (-4)) (8, 8) (4, 8) ∧ Moves (.highest 0 0) (4, 8) (8, 8) :=
  ⟨by decide, .reserve (next_self 0), .org (.inl ⟨rfl, rfl⟩), .highest (.inl ⟨rfl, rfl⟩)⟩

/-- Violation: `DS 10C`, `ORG ,,-20` puts the counter before the section without a diagnostic. -/
theorem C100_witness_highest : (OCtr.init.run [.reserve 10 ⟨0, 1⟩, .highest 0 (-20)]).at = some (-10) := by decide

/-- Non-vacuity: `DS 11C`, `ORG A+2`, `DS F`, `ORG A+5,8,-3`, `ORG ,4,2`. -/
example : Runs [.reserve 11 ⟨0, 1⟩, .org 2 0 0, .reserve 4 ⟨0, 4⟩, .org 5 8 (-3), .highest 4 2] (0, 0) (14, 14) ∧
    (OCtr.init.run [.reserve 11 ⟨0, 1⟩, .org 2 0 0, .reserve 4 ⟨0, 4⟩, .org 5 8 (-3), .highest 4 2]).at = some 14 := by
  have p2 : Pow ⟨0, 4⟩ := ⟨2, by omega, rfl⟩
  have p3 : Pow ⟨0, 8⟩ := ⟨3, by omega, rfl⟩
  refine ⟨?_, by decide⟩
  refine .cons (s' := (11, 11)) (.reserve (next_self 0)) ⟨⟨0, by omega, rfl⟩, by decide⟩ ?_
  refine .cons (s' := (2, 11)) (.org (.inl ⟨rfl, rfl⟩)) ⟨.inl rfl, by decide, by decide, by decide, by decide⟩ ?_
  refine .cons (s' := (8, 11)) (.reserve (q := 4) (alignUp_next ⟨0, 4⟩ 2 (by decide))) ⟨p2, by decide⟩ ?_
  refine .cons (s' := (5, 11)) (.org (q := 8) (.inr ⟨by decide, alignUp_next ⟨0, 8⟩ 5 (by decide)⟩)) ⟨.inr p3, by decide, by decide, by decide, by decide⟩ ?_
  refine .cons (s' := (14, 14)) (.highest (q := 12) (.inr ⟨by decide, alignUp_next ⟨0, 4⟩ 11 (by decide)⟩)) ⟨.inr p2, by decide⟩ ?_
  exact .nil

end Verif.Ord
