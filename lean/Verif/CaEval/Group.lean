import Verif.CaEval.Props
/-!
The trees of operators that lists are grouped to: which operators they contain.
-/
namespace Verif.CaEval

open Verif.Ca (A Op)

/-- An operator of the policy. -/
def opOk (p : Ca.Policy) (o : Op) : Prop := o = .NOT ∨ Ca.isBinary p o = true

def EWF (p : Ca.Policy) : Ca.Expr → Prop
  | .leaf _ => True
  | .un o e => o = .NOT ∧ EWF p e
  | .bin o l r => opOk p o ∧ EWF p l ∧ EWF p r

theorem retrieveBinary_ok (p : Ca.Policy) (ts : List Ca.Tok) (q : Nat) (o : Op) (rest : List Ca.Tok)
    (h : Ca.retrieveBinary p ts = some (q, o, rest)) : opOk p o := by
  unfold Ca.retrieveBinary at h
  split at h
  · rename_i o' rest'
    split at h
    · rename_i hc
      split at h
      · rename_i hm _
        simp only [Option.some.injEq, Prod.mk.injEq] at h
        obtain ⟨_, rfl, _⟩ := h
        cases p <;> cases o' <;> simp_all [Ca.multipleWords, Ca.withNot, opOk, Ca.isBinary]
      · simp only [Option.some.injEq, Prod.mk.injEq] at h
        obtain ⟨_, rfl, _⟩ := h
        rcases Bool.or_eq_true _ _ ▸ hc with h1 | h1
        · exact Or.inl (by simpa [Ca.isUnary] using h1)
        · exact Or.inr h1
    · cases h
  · cases h

theorem retrieveTerm_ok (p : Ca.Policy) : ∀ (f pr : Nat) (ts : List Ca.Tok) (e : Ca.Expr) (rest : List Ca.Tok),
    Ca.retrieveTerm p f pr ts = some (e, rest) → EWF p e := by
  intro f
  induction f with
  | zero => intro pr ts e rest h; simp [Ca.retrieveTerm] at h
  | succ f ih =>
    intro pr ts e rest h
    cases ts with
    | nil => simp [Ca.retrieveTerm] at h
    | cons t ts =>
      have plain : (match Ca.retrieveBinary p ts with
              | none => none
              | some (q, o, rest') =>
                if q ≥ pr then some (Ca.Expr.leaf t, ts)
                else match Ca.retrieveTerm p f q rest' with
                  | none => none
                  | some (r, rest'') => some (.bin o (.leaf t) r, rest'')) = some (e, rest) → EWF p e := by
        intro hs
        split at hs
        · cases hs
        · rename_i q o rest' hb
          split at hs
          · simp only [Option.some.injEq, Prod.mk.injEq] at hs; rw [← hs.1]; trivial
          · split at hs
            · cases hs
            · rename_i r rest'' hr
              simp only [Option.some.injEq, Prod.mk.injEq] at hs
              rw [← hs.1]
              exact ⟨retrieveBinary_ok p _ _ _ _ hb, trivial, ih _ _ _ _ hr⟩
      have last : some (Ca.Expr.leaf t, ([] : List Ca.Tok)) = some (e, rest) → EWF p e := by
        intro hs
        simp only [Option.some.injEq, Prod.mk.injEq] at hs; rw [← hs.1]; trivial
      cases t with
      | op o =>
        by_cases hu : Ca.isUnary o = true
        · simp only [Ca.retrieveTerm] at h
          rw [if_pos hu] at h
          cases hr : Ca.retrieveTerm p f (Ca.prio p o) ts with
          | none => rw [hr] at h; cases h
          | some x =>
            rw [hr] at h
            simp only [Option.some.injEq, Prod.mk.injEq] at h
            rw [← h.1]
            exact ⟨by simpa [Ca.isUnary] using hu, ih _ _ _ _ hr⟩
        · cases ts with
          | nil => simp only [Ca.retrieveTerm] at h; rw [if_neg hu] at h; exact last h
          | cons t2 ts => simp only [Ca.retrieveTerm] at h; rw [if_neg hu] at h; exact plain h
      | term n =>
        cases ts with
        | nil => simp only [Ca.retrieveTerm] at h; exact last h
        | cons t2 ts => simp only [Ca.retrieveTerm] at h; exact plain h

theorem resolveLoop_ok (p : Ca.Policy) : ∀ (f : Nat) (e : Ca.Expr) (ts : List Ca.Tok) (r : Ca.Expr), EWF p e →
    Ca.resolveLoop p f e ts = some r → EWF p r := by
  intro f
  induction f with
  | zero =>
    intro e ts r he h
    cases ts with
    | nil => simp only [Ca.resolveLoop, Option.some.injEq] at h; rw [← h]; exact he
    | cons t ts => simp [Ca.resolveLoop] at h
  | succ f ih =>
    intro e ts r he h
    cases ts with
    | nil => simp only [Ca.resolveLoop, Option.some.injEq] at h; rw [← h]; exact he
    | cons t ts =>
      simp only [Ca.resolveLoop] at h
      split at h
      · cases h
      · rename_i q o rest hb
        split at h
        · cases h
        · rename_i r' rest' hr
          exact ih (.bin o e r') rest' r ⟨retrieveBinary_ok p _ _ _ _ hb, he, retrieveTerm_ok p _ _ _ _ _ hr⟩ h

theorem resolve_ok (p : Ca.Policy) (ts : List Ca.Tok) (e : Ca.Expr) (h : Ca.resolve p ts = some e) : EWF p e := by
  unfold Ca.resolve at h
  split at h
  · cases h
  · rename_i e' rest hr
    exact resolveLoop_ok p _ _ _ _ (retrieveTerm_ok p _ _ _ _ _ hr) h

/-- The operators in the tree of a list of kind `K`. -/
def GWF (K : Kind) : Grp → Prop
  | .leaf _ => True
  | .opsym _ => True
  | .un o g => (K = .c → ∀ b, o ≠ .base b) ∧ (K ≠ .c → o = .base .NOT) ∧ GWF K g
  | .bin o l r => (K = .c → ∀ b, o ≠ .base b) ∧ (K = .a → ∃ b, o = .base b ∧ opOk .arith b) ∧
      (K = .b → ∃ b, o = .base b ∧ opOk .binary b) ∧ GWF K l ∧ GWF K r

theorem gwf_a (e : Ca.Expr) (h : EWF .arith e) : GWF .a (ofExpr e) := by
  induction e with
  | leaf t => cases t <;> trivial
  | un o e ih => exact ⟨by simp, by simp [h.1], ih h.2⟩
  | bin o l r ihl ihr => exact ⟨by simp, fun _ => ⟨o, rfl, h.1⟩, by simp, ihl h.2.1, ihr h.2.2⟩

theorem gwf_b (e : Ca.Expr) (h : EWF .binary e) : GWF .b (ofExpr e) := by
  induction e with
  | leaf t => cases t <;> trivial
  | un o e ih => exact ⟨by simp, by simp [h.1], ih h.2⟩
  | bin o l r ihl ihr => exact ⟨by simp, by simp, fun _ => ⟨o, rfl, h.1⟩, ihl h.2.1, ihr h.2.2⟩

/-- Operators of character expressions only. -/
def cops (ts : List CTok) : Prop := ∀ t ∈ ts, ∀ b, t ≠ .op (.base b)

theorem ctoks_cops {α : Type} (es : List (Elem α)) : ∀ i, cops (ctoksFrom i es) := by
  induction es with
  | nil => intro i t ht; simp [ctoksFrom] at ht
  | cons e es ih =>
    intro i t ht b
    cases e with
    | sym s =>
      cases s with
      | named n => simp only [ctoksFrom, List.mem_cons] at ht; rcases ht with rfl | ht; · simp
                   exact ih _ t ht b
      | op o =>
        cases o <;> simp only [ctoksFrom, List.mem_cons] at ht <;> rcases ht with rfl | ht <;> first | exact ih _ t ht b | simp
    | opfn o x y => simp only [ctoksFrom, List.mem_cons] at ht; rcases ht with rfl | ht; · simp
                    exact ih _ t ht b
    | term x y => simp only [ctoksFrom, List.mem_cons] at ht; rcases ht with rfl | ht; · simp
                  exact ih _ t ht b

theorem termC_ok : ∀ (ts : List CTok) (g : Grp) (rest : List CTok), cops ts → termC ts = some (g, rest) → GWF .c g ∧ cops rest := by
  intro ts
  induction ts with
  | nil => intro g rest _ h; simp [termC] at h
  | cons t ts ih =>
    intro g rest hc h
    have hc' : cops ts := fun x hx => hc x (List.mem_cons_of_mem _ hx)
    cases t with
    | op o =>
      simp only [termC, Option.map_eq_some_iff, Prod.mk.injEq, Prod.exists] at h
      obtain ⟨g', rest', h1, rfl, rfl⟩ := h
      obtain ⟨h2, h3⟩ := ih _ _ hc' h1
      exact ⟨⟨fun _ b hb => hc (.op o) (by simp) b (by rw [hb]), by simp, h2⟩, h3⟩
    | term i =>
      cases ts with
      | nil => simp only [termC, Option.some.injEq, Prod.mk.injEq] at h; obtain ⟨rfl, rfl⟩ := h; exact ⟨trivial, by intro t ht; simp at ht⟩
      | cons t ts =>
        cases t with
        | op o => simp only [termC, Option.some.injEq, Prod.mk.injEq] at h; obtain ⟨rfl, rfl⟩ := h; exact ⟨trivial, hc'⟩
        | term j => simp [termC] at h

theorem loopC_ok : ∀ (f : Nat) (g : Grp) (ts : List CTok) (r : Grp), GWF .c g → cops ts → loopC f g ts = some r → GWF .c r := by
  intro f
  induction f with
  | zero =>
    intro g ts r hg hc h
    cases ts with
    | nil => simp only [loopC, Option.some.injEq] at h; rw [← h]; exact hg
    | cons t ts => simp [loopC] at h
  | succ f ih =>
    intro g ts r hg hc h
    cases ts with
    | nil => simp only [loopC, Option.some.injEq] at h; rw [← h]; exact hg
    | cons t ts =>
      cases t with
      | term i => simp [loopC] at h
      | op o =>
        simp only [loopC] at h
        split at h
        · cases h
        · rename_i r' rest' hr
          have hc' : cops ts := fun x hx => hc x (List.mem_cons_of_mem _ hx)
          obtain ⟨h2, h3⟩ := termC_ok _ _ _ hc' hr
          exact ih (.bin o g r') rest' r ⟨fun _ b hb => hc (.op o) (by simp) b (by rw [hb]), by simp, by simp, hg, h2⟩ h3 h

theorem group_ok {α : Type} (k : Kind) (es : List (Elem α)) (g : Grp) (h : group k es = some g) : GWF k g := by
  cases k with
  | a =>
    simp only [group, Option.map_eq_some_iff] at h
    obtain ⟨e, h1, rfl⟩ := h
    exact gwf_a e (resolve_ok _ _ _ h1)
  | b =>
    simp only [group, Option.map_eq_some_iff] at h
    obtain ⟨e, h1, rfl⟩ := h
    exact gwf_b e (resolve_ok _ _ _ h1)
  | c =>
    simp only [group, groupC] at h
    split at h
    · cases h
    · rename_i g' rest hg
      obtain ⟨h2, h3⟩ := termC_ok _ _ _ (ctoks_cops es 0) hg
      exact loopC_ok _ _ _ _ h2 h3 h
  | undef => simp [group] at h

/-! The grouping of the specification -/

theorem spread_eq {α : Type} (es : List (Elem α)) : spread es = expand id es := by
  induction es with
  | nil => rfl
  | cons e es ih => cases e <;> simp [spread, expand, ih]

theorem toks_zip {α : Type} (es : List (Elem α)) : ∀ i, toksFrom i es = (es.zipIdx i).map fun x => match x.1 with
    | .sym (.op (.base o)) => .op o
    | _ => .term x.2 := by
  induction es with
  | nil => intro i; rfl
  | cons e es ih =>
    intro i
    cases e with
    | sym s =>
      cases s with
      | named n => simp [toksFrom, ih]
      | op o => cases o <;> simp [toksFrom, ih]
    | opfn o x y => simp [toksFrom, ih]
    | term x y => simp [toksFrom, ih]

theorem asGrp_eq (e : Ca.Expr) : asGrp e = ofExpr e := by
  induction e with
  | leaf t => cases t <;> rfl
  | un o e ih => simp [asGrp, ofExpr, ih]
  | bin o l r ihl ihr => simp [asGrp, ofExpr, ihl, ihr]

def chainT : List CTok → Option Grp
  | [] => none
  | [.term i] => some (.leaf i)
  | .op o :: ts => (chainT ts).map (.un o)
  | .term _ :: _ :: _ => none

theorem ctoks_nil {α : Type} (i : Nat) (es : List (Elem α)) (h : ctoksFrom i es = []) : es = [] := by
  cases es with
  | nil => rfl
  | cons e es =>
    cases e with
    | sym s =>
      cases s with
      | named n => simp [ctoksFrom] at h
      | op o => cases o <;> simp [ctoksFrom] at h
    | _ => simp [ctoksFrom] at h

theorem chain_eq {α : Type} (es : List (Elem α)) : ∀ i, chain i es = chainT (ctoksFrom i es) := by
  induction es with
  | nil => intro i; rfl
  | cons e es ih =>
    intro i
    have ht : ∀ (j : Nat) (x : Elem α) (l : List (Elem α)), ∃ t ts, ctoksFrom j (x :: l) = t :: ts := by
      intro j x l
      cases h : ctoksFrom j (x :: l) with
      | nil => cases ctoks_nil _ _ h
      | cons t ts => exact ⟨t, ts, rfl⟩
    cases e with
    | sym s =>
      cases s with
      | named n =>
        cases es with
        | nil => rfl
        | cons x l => obtain ⟨t, ts, h⟩ := ht (i + 1) x l; rw [ctoksFrom, h]; simp [chain, chainT]; all_goals (intro _ h'; cases h')
      | op o =>
        cases o with
        | base b =>
          cases es with
          | nil => rfl
          | cons x l => obtain ⟨t, ts, h⟩ := ht (i + 1) x l; rw [ctoksFrom, h]; simp [chain, chainT]
        | _ => simp [chain, ctoksFrom, chainT, ih]
    | opfn o x y =>
      cases es with
      | nil => rfl
      | cons x l => obtain ⟨t, ts, h⟩ := ht (i + 1) x l; rw [ctoksFrom, h]; simp [chain, chainT]; all_goals (intro _ h'; cases h')
    | term x y =>
      cases es with
      | nil => rfl
      | cons x l => obtain ⟨t, ts, h⟩ := ht (i + 1) x l; rw [ctoksFrom, h]; simp [chain, chainT]; all_goals (intro _ h'; cases h')

theorem termC_chain : ∀ (ts : List CTok) (g : Grp), termC ts = some (g, []) ↔ chainT ts = some g := by
  intro ts
  induction ts with
  | nil => intro g; simp [termC, chainT]
  | cons t ts ih =>
    intro g
    cases t with
    | op o =>
      simp only [termC, chainT, Option.map_eq_some_iff, Prod.mk.injEq, Prod.exists]
      constructor
      · rintro ⟨g', r, h, h1, rfl⟩; exact ⟨g', (ih g').1 h, h1⟩
      · rintro ⟨g', h, h1⟩; exact ⟨g', [], (ih g').2 h, h1, rfl⟩
    | term i =>
      cases ts with
      | nil => simp [termC, chainT]
      | cons t ts => cases t <;> simp [termC, chainT]

/-- Operators between terms stand at the top. -/
theorem loopC_bin : ∀ (f : Nat) (g : Grp) (ts : List CTok) (r : Grp), loopC f g ts = some r → (ts = [] ∧ r = g) ∨ ∃ o a b, r = .bin o a b := by
  intro f
  induction f with
  | zero =>
    intro g ts r h
    cases ts with
    | nil => simp only [loopC, Option.some.injEq] at h; exact Or.inl ⟨rfl, h.symm⟩
    | cons t ts => simp [loopC] at h
  | succ f ih =>
    intro g ts r h
    cases ts with
    | nil => simp only [loopC, Option.some.injEq] at h; exact Or.inl ⟨rfl, h.symm⟩
    | cons t ts =>
      cases t with
      | term i => simp [loopC] at h
      | op o =>
        simp only [loopC] at h
        split at h
        · cases h
        · rename_i r' rest' hr
          rcases ih _ _ _ h with ⟨_, h⟩ | h
          · exact Or.inr ⟨_, _, _, h⟩
          · exact Or.inr h

theorem grouped_ab {α : Type} (k : Kind) (hk : k ≠ .c) (es : List (Elem α)) : grouped k es = group k es := by
  have h : tokens es = toksFrom 0 es := (toks_zip es 0).symm
  have h2 : asGrp = ofExpr := funext asGrp_eq
  cases k <;> simp_all [grouped, group]

theorem grouped_group {α : Type} (k : Kind) (es : List (Elem α)) (g : Grp) (h : grouped k es = some g) : group k es = some g := by
  by_cases hk : k = .c
  · subst hk
    simp only [grouped, chain_eq, ← termC_chain] at h
    simp [group, groupC, h, loopC]
  · rw [← grouped_ab k hk]; exact h

theorem group_grouped {α : Type} (k : Kind) (es : List (Elem α)) (g : Grp) (h : group k es = some g) (hb : k = .c → ∀ o a b, g ≠ .bin o a b) :
    grouped k es = some g := by
  by_cases hk : k = .c
  · subst hk
    simp only [group, groupC] at h
    split at h
    · cases h
    · rename_i g' rest hg
      rcases loopC_bin _ _ _ _ h with ⟨rfl, rfl⟩ | ⟨o, a, b, h⟩
      · simp only [grouped, chain_eq, ← termC_chain]; exact hg
      · exact absurd h (hb rfl o a b)
  · rw [grouped_ab k hk]; exact h

end Verif.CaEval
