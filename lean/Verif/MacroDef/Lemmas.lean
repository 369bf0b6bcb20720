import Verif.MacroDef.Spec

/-!
The loop of the processor refines the specification of the body.
-/
namespace Verif.MacroDef

/-! ## Members -/

/-- The depth behind the statements, counted from `c`; `none` if it would be negative in between. -/
def dep : List Stmt → Nat → Option Nat
  | [], c => some c
  | t :: ts, c =>
    match t.op with
    | .mbegin => dep ts (c + 1)
    | .mend => if c = 0 then none else dep ts (c - 1)
    | _ => dep ts c

theorem copyNest_bad (ts : List Stmt) (n : Int) : (copyNest ts n true).2 = true := by
  induction ts generalizing n with
  | nil => rfl
  | cons t ts ih => simp only [copyNest]; split <;> simp [ih]

theorem copyNest_dep (ts : List Stmt) (c : Nat) : (∀ d : Nat, dep ts c = some d → copyNest ts (c : Int) false = ((d : Int), false)) ∧
    (dep ts c = none → (copyNest ts (c : Int) false).2 = true) := by
  induction ts generalizing c with
  | nil => simp [dep, copyNest]
  | cons t ts ih =>
    cases h : t.op with
    | mbegin => simpa [dep, copyNest, h] using ih (c + 1)
    | mend =>
      by_cases hc : c = 0
      · subst hc; simp [dep, copyNest, h, copyNest_bad]
      · have := ih (c - 1)
        have h1 : ((c : Int) - 1) = ((c - 1 : Nat) : Int) := by omega
        have h2 : decide (((c - 1 : Nat) : Int) < 0) = false := by simp
        simp only [dep, copyNest, h, hc, if_false]
        rw [h1, h2]; exact this
    | anop => simpa [dep, copyNest, h] using ih c
    | copy m => simpa [dep, copyNest, h] using ih c
    | other x => simpa [dep, copyNest, h] using ih c

theorem begins_cons (t : Stmt) (ts : List Stmt) : begins (t :: ts) = begins ts + if t.op = .mbegin then 1 else 0 := by
  simp [begins, List.countP_cons]

theorem ends_cons (t : Stmt) (ts : List Stmt) : ends (t :: ts) = ends ts + if t.op = .mend then 1 else 0 := by
  simp [ends, List.countP_cons]

theorem dep_iff (ts : List Stmt) (c d : Nat) :
    dep ts c = some d ↔ (∀ k, k ≤ ts.length → ends (ts.take k) ≤ c + begins (ts.take k)) ∧ c + begins ts = d + ends ts := by
  induction ts generalizing c with
  | nil => simp [dep, begins, ends]
  | cons t ts ih =>
    have key : ∀ x y c' : Nat, begins [t] = x → ends [t] = y → (c' : Int) = c + x - y →
        (((∀ k, k ≤ ts.length → ends (ts.take k) ≤ c' + begins (ts.take k)) ∧ c' + begins ts = d + ends ts) ↔
        (∀ k, k ≤ (t :: ts).length → ends ((t :: ts).take k) ≤ c + begins ((t :: ts).take k)) ∧ c + begins (t :: ts) = d + ends (t :: ts)) := by
      intro x y c' hx hy hc'
      have hb : ∀ l, begins (t :: l) = begins l + x := by
        intro l; rw [← hx]; simp [begins, List.countP_cons]
      have he : ∀ l, ends (t :: l) = ends l + y := by
        intro l; rw [← hy]; simp [ends, List.countP_cons]
      rw [hb, he]
      refine and_congr ⟨fun h k hk => ?_, fun h k hk => ?_⟩ (by omega)
      · cases k with
        | zero => simp [ends, begins]
        | succ k =>
          have := h k (by simpa using hk)
          rw [List.take_succ_cons, hb, he]
          omega
      · have := h (k + 1) (by simpa using hk)
        rw [List.take_succ_cons, hb, he] at this
        omega
    cases h : t.op with
    | mbegin => simp only [dep, h]; rw [ih]; exact key 1 0 _ (by simp [begins, h]) (by simp [ends, h]) (by omega)
    | mend =>
      simp only [dep, h]
      by_cases hc : c = 0
      · simp only [hc, if_true]
        refine ⟨fun h => (by simp at h), fun h' => ?_⟩
        have := h'.1 1 (by simp)
        simp [ends, begins, h] at this
      · rw [if_neg hc, ih]; exact key 0 1 _ (by simp [begins, h]) (by simp [ends, h]) (by omega)
    | anop => simp only [dep, h]; rw [ih]; exact key 0 0 _ (by simp [begins, h]) (by simp [ends, h]) (by omega)
    | copy m => simp only [dep, h]; rw [ih]; exact key 0 0 _ (by simp [begins, h]) (by simp [ends, h]) (by omega)
    | other x => simp only [dep, h]; rw [ih]; exact key 0 0 _ (by simp [begins, h]) (by simp [ends, h]) (by omega)

theorem balanced_iff (ts : List Stmt) : Balanced ts ↔ dep ts 0 = some 0 := by
  rw [dep_iff]; simp [Balanced]

theorem memberOf_eq (ts : List Stmt) : memberOf ts = if Balanced ts then ts else [] := by
  have h := copyNest_dep ts 0
  unfold memberOf
  simp only
  cases hd : dep ts 0 with
  | none =>
    have hb : ¬ Balanced ts := by rw [balanced_iff, hd]; simp
    have h' : (copyNest ts 0 false).2 = true := h.2 hd
    rw [if_neg hb, if_pos (Or.inr h')]
  | some d =>
    have h' : copyNest ts 0 false = ((d : Int), false) := h.1 d hd
    rw [h']
    by_cases h0 : d = 0
    · subst h0
      rw [if_pos ((balanced_iff ts).2 hd)]; simp
    · have hb : ¬ Balanced ts := by rw [balanced_iff, hd]; simpa using h0
      rw [if_neg hb, if_pos (Or.inl (by simp; omega))]

theorem dep_member (ts : List Stmt) : dep (memberOf ts) 0 = some 0 := by
  rw [memberOf_eq]
  by_cases h : Balanced ts
  · rw [if_pos h]; exact (balanced_iff ts).1 h
  · rw [if_neg h]; rfl

end Verif.MacroDef
