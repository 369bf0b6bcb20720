import Verif.Ca.ExprList
import Mathlib.Tactic.Common
/-!
C43: precedence of the operators of conditional assembly expressions.
-/
namespace Verif.Ca

/-! ### Specification -/

/-- An expression without parentheses: a first term, then binary operators each followed by a term. -/
structure Flat where
  first : Nat
  rest : List (Op × Nat)
  deriving DecidableEq, Repr

/-- How an operator is written: the operators with NOT are two words. -/
def opToks : Op → List Tok
  | .AND_NOT => [.op .AND, .op .NOT]
  | .OR_NOT => [.op .OR, .op .NOT]
  | .XOR_NOT => [.op .XOR, .op .NOT]
  | o => [.op o]

/-- What the user writes for the operators and terms behind the first term. -/
def restToks (l : List (Op × Nat)) : List Tok := l.flatMap fun x => opToks x.1 ++ [.term x.2]

/-- What the user writes. -/
def Flat.toks (f : Flat) : List Tok := .term f.first :: restToks f.rest

/-- The operators and terms of a tree of binary operators, from left to right. -/
inductive Reads : Expr → Flat → Prop
  | leaf (n : Nat) : Reads (.leaf (.term n)) ⟨n, []⟩
  | bin {o : Op} {l r : Expr} {fl fr : Flat} : Reads l fl → Reads r fr → Reads (.bin o l r) ⟨fl.first, fl.rest ++ (o, fr.first) :: fr.rest⟩

/-- The operator at the root of a tree has a priority number satisfying `P`. -/
def rootIs (p : Policy) (P : Nat → Prop) : Expr → Prop
  | .bin o _ _ => P (prio p o)
  | _ => True

/-- The tree respects the priorities: an operand of an operator is itself an operation only if that operation binds stronger (has a
smaller priority number) or, for the left operand, equally strong. -/
def Respects (p : Policy) : Expr → Prop
  | .bin o l r => rootIs p (· ≤ prio p o) l ∧ rootIs p (· < prio p o) r ∧ Respects p l ∧ Respects p r
  | _ => True

theorem reads_ops_le {p : Policy} {e : Expr} {f : Flat} (h : Reads e f) (hr : Respects p e) (b : Nat) (hb : rootIs p (· ≤ b) e) :
    ∀ x ∈ f.rest, prio p x.1 ≤ b := by
  induction h generalizing b with
  | leaf n => simp
  | @bin o l r fl fr hl hr' ihl ihr =>
    obtain ⟨h1, h2, h3, h4⟩ := hr
    simp only [rootIs] at hb
    intro x hx
    simp only [List.mem_append, List.mem_cons] at hx
    rcases hx with hx | rfl | hx
    · exact Nat.le_trans (ihl h3 _ h1 x hx) hb
    · exact hb
    · refine ihr h4 b ?_ x hx
      cases r with
      | bin o' l' r' => simp only [rootIs] at h2 ⊢; omega
      | _ => trivial

theorem reads_ops_lt {p : Policy} {e : Expr} {f : Flat} (h : Reads e f) (hr : Respects p e) (b : Nat) (hb : rootIs p (· < b) e) :
    ∀ x ∈ f.rest, prio p x.1 < b := by
  cases b with
  | zero =>
    cases e with
    | bin o l r => simp [rootIs] at hb
    | leaf t => cases h; simp
    | un o e => cases h
  | succ b =>
    intro x hx
    have := reads_ops_le h hr b (by cases e <;> simp only [rootIs] at * ; omega) x hx
    omega

/-- There is only one tree that respects the priorities. -/
theorem respects_unique {p : Policy} {e e' : Expr} {f : Flat} (h : Reads e f) (h' : Reads e' f) (hr : Respects p e) (hr' : Respects p e') :
    e = e' := by
  induction h generalizing e' with
  | leaf n =>
    generalize hf : (⟨n, []⟩ : Flat) = f at h'
    cases h' with
    | leaf n' => cases hf; rfl
    | bin _ _ => simp at hf
  | @bin o l r fl fr hl hr0 ihl ihr =>
    generalize hf : (⟨fl.first, fl.rest ++ (o, fr.first) :: fr.rest⟩ : Flat) = f at h'
    cases h' with
    | leaf n' => simp at hf
    | @bin o' l' r' fl' fr' hl' hr0' =>
      obtain ⟨a1, a2, a3, a4⟩ := hr
      obtain ⟨b1, b2, b3, b4⟩ := hr'
      simp only [Flat.mk.injEq] at hf
      obtain ⟨hf1, hf2⟩ := hf
      have key : fl.rest = fl'.rest ∧ (o, fr.first) :: fr.rest = (o', fr'.first) :: fr'.rest := by
        rcases List.append_eq_append_iff.1 hf2 with ⟨s, hs1, hs2⟩ | ⟨s, hs1, hs2⟩
        · cases s with
          | nil => exact ⟨by simpa using hs1.symm, by simpa using hs2⟩
          | cons x xs =>
            exfalso
            simp only [List.cons_append, List.cons.injEq] at hs2
            obtain ⟨rfl, hs2⟩ := hs2
            have c1 := reads_ops_le hl' b3 _ b1 (o, fr.first) (by rw [hs1]; simp)
            have c2 := reads_ops_lt hr0 a4 _ a2 (o', fr'.first) (by rw [hs2]; simp)
            simp only at c1 c2
            omega
        · cases s with
          | nil => exact ⟨by simpa using hs1, by simpa using hs2.symm⟩
          | cons x xs =>
            exfalso
            simp only [List.cons_append, List.cons.injEq] at hs2
            obtain ⟨rfl, hs2⟩ := hs2
            have c1 := reads_ops_le hl a3 _ a1 (o', fr'.first) (by rw [hs1]; simp)
            have c2 := reads_ops_lt hr0' b4 _ b2 (o, fr.first) (by rw [hs2]; simp)
            simp only at c1 c2
            omega
      obtain ⟨k1, k2⟩ := key
      simp only [List.cons.injEq, Prod.mk.injEq] at k2
      obtain ⟨⟨rfl, k3⟩, k4⟩ := k2
      have e1 : fl = fl' := by cases fl; cases fl'; simp_all
      have e2 : fr = fr' := by cases fr; cases fr'; simp_all
      subst e1 e2
      rw [ihl hl' a3 b3, ihr hr0' a4 b4]

/-! ### The code on expressions without parentheses -/

/-- Binary operators as a user can write them. -/
def Allowed (p : Policy) (f : Flat) : Prop := ∀ x ∈ f.rest, isBinary p x.1 = true

theorem retrieveBinary_opToks (p : Policy) (o : Op) (ho : isBinary p o = true) (n : Nat) (r : List Tok) :
    retrieveBinary p (opToks o ++ .term n :: r) = some (prio p o, o, .term n :: r) := by
  cases p <;> cases o <;> simp [isBinary] at ho <;> simp [opToks, retrieveBinary, isBinary, isUnary, multipleWords, withNot]

/-- `retrieve_term` on the operators and terms. -/
def termF (p : Policy) : Nat → Nat → List (Op × Nat) → Expr × List (Op × Nat)
  | _, a, [] => (.leaf (.term a), [])
  | q, a, (o, b) :: r => if prio p o ≥ q then (.leaf (.term a), (o, b) :: r) else ((.bin o (.leaf (.term a)) (termF p (prio p o) b r).1), (termF p (prio p o) b r).2)

theorem restToks_cons (o : Op) (b : Nat) (r : List (Op × Nat)) : restToks ((o, b) :: r) = opToks o ++ .term b :: restToks r := by
  simp [restToks]

theorem opToks_len (o : Op) : 1 ≤ (opToks o).length := by cases o <;> simp [opToks]

theorem retrieveTerm_eq (p : Policy) (l : List (Op × Nat)) (hl : ∀ x ∈ l, isBinary p x.1 = true) (f q a : Nat) (hf : l.length < f) :
    retrieveTerm p f q (.term a :: restToks l) = some ((termF p q a l).1, restToks (termF p q a l).2) := by
  induction l generalizing f q a with
  | nil =>
    obtain ⟨f, rfl⟩ : ∃ g, f = g + 1 := ⟨f - 1, by omega⟩
    simp [retrieveTerm, restToks, termF]
  | cons x r ih =>
    obtain ⟨o, b⟩ := x
    obtain ⟨f, rfl⟩ : ∃ g, f = g + 1 := ⟨f - 1, by simp at hf; omega⟩
    have ho : isBinary p o = true := hl (o, b) (by simp)
    have hb := retrieveBinary_opToks p o ho b (restToks r)
    rw [← restToks_cons] at hb
    unfold retrieveTerm
    have hne : restToks ((o, b) :: r) ≠ [] := by rw [restToks_cons]; simp
    have ihr := ih (fun x hx => hl x (by simp [hx])) f (prio p o) b (by simp at hf; omega)
    generalize ht : restToks ((o, b) :: r) = toks at *
    cases toks with
    | nil => exact absurd rfl hne
    | cons t ts =>
      simp only [hb, ihr]
      by_cases hq : prio p o ≥ q
      · simp only [if_pos hq, termF, ht]
      · simp [hq, termF]

/-- The operator `retrieve_term` hands back to its caller does not bind stronger than it asked for, and nothing is added. -/
theorem termF_spec (p : Policy) (q a : Nat) (l : List (Op × Nat)) :
    Respects p (termF p q a l).1 ∧ rootIs p (· < q) (termF p q a l).1 ∧ (termF p q a l).2.length ≤ l.length ∧
    ∃ pre, l = pre ++ (termF p q a l).2 ∧ Reads (termF p q a l).1 ⟨a, pre⟩ := by
  induction l generalizing q a with
  | nil => exact ⟨trivial, trivial, by simp [termF], [], rfl, .leaf a⟩
  | cons x r ih =>
    obtain ⟨o, b⟩ := x
    by_cases hq : prio p o ≥ q
    · simp only [termF, if_pos hq]
      exact ⟨trivial, trivial, Nat.le_refl _, [], rfl, .leaf a⟩
    · simp only [termF, if_neg hq]
      obtain ⟨h1, h2, h3, pre, h4, h5⟩ := ih (prio p o) b
      refine ⟨⟨trivial, h2, trivial, h1⟩, ?_, by simp; omega, (o, b) :: pre, by simpa using h4, ?_⟩
      · simp only [rootIs]; omega
      · exact Reads.bin (.leaf a) h5

/-- The loop of `resolve` on the operators and terms. -/
def loopF (p : Policy) (final : Expr) : List (Op × Nat) → Expr
  | [] => final
  | (o, b) :: r => loopF p (.bin o final (termF p (prio p o) b r).1) (termF p (prio p o) b r).2
termination_by l => l.length
decreasing_by
  have := (termF_spec p (prio p o) b r).2.2.1
  simp; omega

theorem termF_mem (p : Policy) (q a : Nat) (l : List (Op × Nat)) (x : Op × Nat) (hx : x ∈ (termF p q a l).2) : x ∈ l := by
  obtain ⟨_, _, _, pre, h, _⟩ := termF_spec p q a l
  rw [h]
  exact List.mem_append_right _ hx

theorem restToks_len (l : List (Op × Nat)) : l.length ≤ (restToks l).length := by
  induction l with
  | nil => simp
  | cons x r ih => obtain ⟨o, b⟩ := x; rw [restToks_cons]; simp; omega

theorem resolveLoop_eq (p : Policy) (l : List (Op × Nat)) (hl : ∀ x ∈ l, isBinary p x.1 = true) (f : Nat) (final : Expr) (hf : l.length < f) :
    resolveLoop p f final (restToks l) = some (loopF p final l) := by
  induction f generalizing l final with
  | zero => omega
  | succ f ih =>
    cases l with
    | nil => simp [restToks, resolveLoop, loopF]
    | cons x r =>
      obtain ⟨o, b⟩ := x
      have ho : isBinary p o = true := hl (o, b) (by simp)
      have hb := retrieveBinary_opToks p o ho b (restToks r)
      rw [← restToks_cons] at hb
      have hne : restToks ((o, b) :: r) ≠ [] := by rw [restToks_cons]; simp
      have ht := retrieveTerm_eq p r (fun x hx => hl x (by simp [hx])) ((Tok.term b :: restToks r).length + 1) (prio p o) b
        (by have := restToks_len r; simp; omega)
      have hlen := (termF_spec p (prio p o) b r).2.2.1
      have hi := ih (termF p (prio p o) b r).2 (fun x hx => hl x (by simp [termF_mem p _ _ _ x hx])) (.bin o final (termF p (prio p o) b r).1)
        (by simp at hf; omega)
      generalize hg : restToks ((o, b) :: r) = toks at *
      cases toks with
      | nil => exact absurd rfl hne
      | cons t ts =>
        simp only [resolveLoop, hb, ht, hi]
        rw [loopF]

theorem termF_zero (p : Policy) (a : Nat) (l : List (Op × Nat)) : termF p 0 a l = (.leaf (.term a), l) := by
  cases l with
  | nil => rfl
  | cons x r => obtain ⟨o, b⟩ := x; simp [termF]

theorem resolve_eq (p : Policy) (f : Flat) (h : Allowed p f) : resolve p f.toks = some (loopF p (.leaf (.term f.first)) f.rest) := by
  have hlen := restToks_len f.rest
  have h1 := retrieveTerm_eq p f.rest h (f.toks.length + 1) 0 f.first (by simp [Flat.toks]; omega)
  rw [termF_zero] at h1
  unfold resolve
  simp only [Flat.toks] at h1 ⊢
  rw [h1]
  exact resolveLoop_eq p f.rest h _ _ (by simp; omega)

theorem loopF_reads (p : Policy) (l : List (Op × Nat)) (final : Expr) (g : Flat) (hg : Reads final g) :
    Reads (loopF p final l) ⟨g.first, g.rest ++ l⟩ := by
  induction hn : l.length using Nat.strongRecOn generalizing l final g with
  | _ n ih =>
    cases l with
    | nil => simpa [loopF] using hg
    | cons x r =>
      obtain ⟨o, b⟩ := x
      obtain ⟨_, _, h3, pre, h4, h5⟩ := termF_spec p (prio p o) b r
      rw [loopF]
      have := ih (termF p (prio p o) b r).2.length (by simp at hn; omega) (termF p (prio p o) b r).2 (.bin o final (termF p (prio p o) b r).1) _
        (Reads.bin hg h5) rfl
      simp only [List.append_assoc, List.cons_append, ← h4] at this
      exact this

/-- The operators reached by the loop of `resolve` have ascending priority numbers, from `q` on: after an operator and all operators
absorbed by its right operand, the next one does not bind stronger than it. -/
def Ascending (p : Policy) (q : Nat) : List (Op × Nat) → Prop
  | [] => True
  | (o, b) :: r => q ≤ prio p o ∧ Ascending p (prio p o) (termF p (prio p o) b r).2
termination_by l => l.length
decreasing_by
  have := (termF_spec p (prio p o) b r).2.2.1
  simp; omega

theorem loopF_respects_sub (p : Policy) (l : List (Op × Nat)) (final : Expr) (h : Respects p (loopF p final l)) : Respects p final := by
  induction hn : l.length using Nat.strongRecOn generalizing l final with
  | _ n ih =>
    cases l with
    | nil => simpa [loopF] using h
    | cons x r =>
      obtain ⟨o, b⟩ := x
      have h3 := (termF_spec p (prio p o) b r).2.2.1
      rw [loopF] at h
      exact (ih _ (by simp at hn; omega) _ _ h rfl).2.2.1

theorem loopF_respects (p : Policy) (l : List (Op × Nat)) (final : Expr) (hf : Respects p final) (q : Nat) (hq : ∀ b, rootIs p (· ≤ b) final ↔ q ≤ b) :
    Respects p (loopF p final l) ↔ Ascending p q l := by
  induction hn : l.length using Nat.strongRecOn generalizing l final q with
  | _ n ih =>
    cases l with
    | nil => simp [loopF, Ascending, hf]
    | cons x r =>
      obtain ⟨o, b⟩ := x
      obtain ⟨h1, h2, h3, _⟩ := termF_spec p (prio p o) b r
      rw [loopF, Ascending]
      by_cases hc : q ≤ prio p o
      · have := ih _ (by simp at hn; omega) (termF p (prio p o) b r).2 (.bin o final (termF p (prio p o) b r).1)
          ⟨(hq _).2 hc, h2, hf, h1⟩ (prio p o) (by intro b; simp [rootIs]) rfl
        rw [this]
        simp [hc]
      · constructor
        · intro h
          have := loopF_respects_sub p _ _ h
          exact absurd ((hq _).1 this.1) hc
        · intro h; exact absurd h.1 hc

/-! ### The property -/

/-- C43: every expression of terms and binary operators is accepted, and its tree has the same operators and terms in the same order. -/
theorem C43_order (p : Policy) (f : Flat) (h : Allowed p f) : ∃ e, resolve p f.toks = some e ∧ Reads e f := by
  refine ⟨_, resolve_eq p f h, ?_⟩
  have := loopF_reads p f.rest (.leaf (.term f.first)) ⟨f.first, []⟩ (.leaf _)
  simpa using this

/-- C43 (partial): the tree is the one and only tree that respects the priorities exactly when, after an operator and the operators
absorbed by its right operand, the next operator does not bind stronger than it. The full property would hold without this condition. -/
theorem C43_precedence_partial (p : Policy) (f : Flat) (h : Allowed p f) :
    (∃ e, resolve p f.toks = some e ∧ Reads e f ∧ Respects p e ∧ ∀ e', Reads e' f → Respects p e' → e' = e) ↔ Ascending p 0 f.rest := by
  have hl := loopF_respects p f.rest (.leaf (.term f.first)) trivial 0 (by intro b; simp [rootIs])
  have hr : Reads (loopF p (.leaf (.term f.first)) f.rest) f := by
    have := loopF_reads p f.rest (.leaf (.term f.first)) ⟨f.first, []⟩ (.leaf _)
    simpa using this
  rw [← hl, resolve_eq p f h]
  constructor
  · rintro ⟨e, he, _, h2, _⟩
    cases he
    exact h2
  · intro h2
    exact ⟨_, rfl, hr, h2, fun e' h3 h4 => respects_unique h3 hr h4 h2⟩

/-- C43: operators of one priority are always evaluated from left to right. -/
theorem C43_same_priority (p : Policy) (f : Flat) (h : Allowed p f) (q : Nat) (hq : ∀ x ∈ f.rest, prio p x.1 = q) :
    ∃ e, resolve p f.toks = some e ∧ Reads e f ∧ Respects p e ∧ ∀ e', Reads e' f → Respects p e' → e' = e := by
  rw [C43_precedence_partial p f h]
  have : ∀ (l : List (Op × Nat)) (c : Nat), (∀ x ∈ l, prio p x.1 = q) → c ≤ q → Ascending p c l := by
    intro l
    induction hn : l.length using Nat.strongRecOn generalizing l with
    | _ n ih =>
      intro c hl hc
      cases l with
      | nil => simp [Ascending]
      | cons x r =>
        obtain ⟨o, b⟩ := x
        have h3 := (termF_spec p (prio p o) b r).2.2.1
        rw [Ascending]
        have ho := hl (o, b) (by simp)
        simp only at ho
        refine ⟨by omega, ih _ (by simp at hn; omega) _ rfl _ (fun x hx => hl x (by simp [termF_mem p _ _ _ x hx])) (by omega)⟩
  exact this _ _ hq (Nat.zero_le _)

/-- Two comparisons joined by AND or OR are grouped correctly. -/
theorem C43_two_comparisons (a b c d : Nat) (o1 o2 o3 : Op) (h1 : prio .binary o1 = 0 ∧ isBinary .binary o1) (h3 : prio .binary o3 = 0 ∧ isBinary .binary o3)
    (h2 : 2 ≤ prio .binary o2 ∧ isBinary .binary o2) :
    resolve .binary (Flat.toks ⟨a, [(o1, b), (o2, c), (o3, d)]⟩) =
      some (.bin o2 (.bin o1 (.leaf (.term a)) (.leaf (.term b))) (.bin o3 (.leaf (.term c)) (.leaf (.term d)))) := by
  rw [resolve_eq]
  · have e1 : ¬ (prio .binary o3 ≥ prio .binary o2) := by omega
    have e2 : prio .binary o2 ≥ prio .binary o1 := by omega
    simp [loopF, termF, e1, e2]
  · intro x hx
    simp at hx
    rcases hx with rfl | rfl | rfl
    · exact h1.2
    · exact h2.2
    · exact h3.2

/-- `A OR B EQ C AND D` is grouped `(A OR (B EQ C)) AND D` instead of `A OR ((B EQ C) AND D)`. -/
theorem C43_witness : resolve .binary (Flat.toks ⟨0, [(.OR, 1), (.EQ, 2), (.AND, 3)]⟩) =
      some (.bin .AND (.bin .OR (.leaf (.term 0)) (.bin .EQ (.leaf (.term 1)) (.leaf (.term 2)))) (.leaf (.term 3))) ∧
    ¬ ∀ p f, Allowed p f → ∃ e, resolve p f.toks = some e ∧ Respects p e := by
  refine ⟨by decide +kernel, fun h => ?_⟩
  obtain ⟨e, h1, h2⟩ := h .binary ⟨0, [(.OR, 1), (.EQ, 2), (.AND, 3)]⟩ (by intro x hx; simp at hx; rcases hx with rfl | rfl | rfl <;> rfl)
  have h3 : resolve .binary (Flat.toks ⟨0, [(.OR, 1), (.EQ, 2), (.AND, 3)]⟩) =
      some (.bin .AND (.bin .OR (.leaf (.term 0)) (.bin .EQ (.leaf (.term 1)) (.leaf (.term 2)))) (.leaf (.term 3))) := by decide +kernel
  rw [h3] at h1
  cases h1
  simp [Respects, rootIs, prio] at h2

/-- `A SLL NOT B AND C` is grouped `(A SLL NOT B) AND C`, although AND binds stronger than SLL: the operand of NOT hides the next
operator. And NOT is accepted as a binary operator. -/
theorem C43_witness_not : resolve .arith [.term 0, .op .SLL, .op .NOT, .term 1, .op .AND, .term 2] =
      some (.bin .AND (.bin .SLL (.leaf (.term 0)) (.un .NOT (.leaf (.term 1)))) (.leaf (.term 2))) ∧
    resolve .arith [.term 0, .op .NOT, .term 1] = some (.bin .NOT (.leaf (.term 0)) (.leaf (.term 1))) := by
  decide +kernel

example : Ascending .binary 0 [(.EQ, 1), (.AND, 2), (.EQ, 3), (.OR, 4), (.AND_NOT, 5)] ∧
    Allowed .binary ⟨0, [(.EQ, 1), (.AND, 2), (.EQ, 3), (.OR, 4), (.AND_NOT, 5)]⟩ := by
  refine ⟨by simp [Ascending, termF, prio], ?_⟩
  intro x hx
  simp at hx
  rcases hx with rfl | rfl | rfl | rfl | rfl <;> rfl

end Verif.Ca
