import Verif.Gram.Trees
/-! Operands, data definitions and lists of them are unambiguous as long as there are no literals. -/
namespace Verif.Gram

open Lexing (Pos Rng Ty)

/-- What an operand may not be followed by. -/
def gluesO : Ty → Bool
  | .lpar => true
  | t => gluesE t

theorem gluesO_E : ∀ t, gluesE t = true → gluesO t = true := by intro t; cases t <;> decide
theorem gluesE_T : ∀ t, glues t = true → gluesE t = true := by intro t; cases t <;> decide

theorem Free.mid {a b : List Tok} {t : Tok} : Free (a ++ t :: b) ↔ Free a ∧ t.ty ≠ .equals ∧ Free b := by
  rw [Free.append, Free.cons]

theorem NotHead.lpar {r : Rng} {ts : List Tok} : NotHead gluesE (sym .lpar '(' r :: ts) := NotHead.cons.mpr rfl
theorem NotHead.rpar {r : Rng} {ts : List Tok} : NotHead gluesE (sym .rpar ')' r :: ts) := NotHead.cons.mpr rfl
theorem NotHead.comma {r : Rng} {ts : List Tok} : NotHead gluesE (sym .comma ',' r :: ts) := NotHead.cons.mpr rfl

/-- The type of the first token of an expression. -/
theorem Expr.first (e : Expr) (r : List Tok) : ∃ t ts, e.yield ++ r = t :: ts ∧ t.ty ≠ .comma ∧ t.ty ≠ .rpar ∧ t.ty ≠ .apostrophe ∧ t.ty ≠ .space ∧
    t.ty ≠ .eolln ∧ t.ty ≠ .identifier := by
  cases e with | mk h t =>
  cases h with | mk s u =>
  rw [Expr.yield, Product.yield, List.append_assoc, List.append_assoc]
  generalize u.yield ++ (t.yield ++ r) = q
  cases s with
  | sign op p c => rw [Signed.yield]; cases op <;> exact ⟨_, _, rfl, by simp [AddOp.tok, sym], by simp [AddOp.tok, sym], by simp [AddOp.tok, sym], by simp [AddOp.tok, sym], by simp [AddOp.tok, sym], by simp [AddOp.tok, sym]⟩
  | term c =>
    obtain ⟨x, y, h1, h2⟩ := c.first_eq q
    rw [Signed.yield, h1]
    refine ⟨x, y, rfl, ?_⟩
    rw [h2]
    cases c <;> exact ⟨by simp [Term.first], by simp [Term.first], by simp [Term.first], by simp [Term.first], by simp [Term.first], by simp [Term.first]⟩

/-- What stands behind the displacement. -/
def MachOp.rest : MachOp → List Tok
  | .expr _ => []
  | .base _ l b r => sym .lpar '(' l :: (b.yield ++ [sym .rpar ')' r])
  | .both _ l x c b r => sym .lpar '(' l :: (x.yield ++ sym .comma ',' c :: (b.yield ++ [sym .rpar ')' r]))
  | .noIndex _ l c b r => sym .lpar '(' l :: sym .comma ',' c :: (b.yield ++ [sym .rpar ')' r])
  | .noBase _ l x c r => sym .lpar '(' l :: (x.yield ++ [sym .comma ',' c, sym .rpar ')' r])

/-- The displacement. -/
def MachOp.disp : MachOp → Expr
  | .expr d | .base d _ _ _ | .both d _ _ _ _ _ | .noIndex d _ _ _ _ | .noBase d _ _ _ _ => d

theorem MachOp.split (o : MachOp) : o.yield = o.disp.yield ++ o.rest := by
  cases o <;> simp [MachOp.yield, MachOp.disp, MachOp.rest]

theorem MachOp.rest_glue (o : MachOp) (r : List Tok) (h : NotHead gluesO r) : NotHead gluesE (o.rest ++ r) := by
  cases o with
  | expr e => exact h.mono gluesO_E
  | _ => exact NotHead.cons.mpr rfl

/-- What stands between the parentheses. -/
inductive Between where
  | base (b : Expr) (r : Rng)
  | both (x : Expr) (comma : Rng) (b : Expr) (r : Rng)
  | noIndex (comma : Rng) (b : Expr) (r : Rng)
  | noBase (x : Expr) (comma : Rng) (r : Rng)

/-- Its tokens. -/
def Between.yield : Between → List Tok
  | .base b r => b.yield ++ [sym .rpar ')' r]
  | .both x c b r => x.yield ++ sym .comma ',' c :: (b.yield ++ [sym .rpar ')' r])
  | .noIndex c b r => sym .comma ',' c :: (b.yield ++ [sym .rpar ')' r])
  | .noBase x c r => x.yield ++ [sym .comma ',' c, sym .rpar ')' r]

theorem Expr.not_comma (e : Expr) (r : List Tok) (c : Rng) (ts : List Tok) : e.yield ++ r ≠ sym .comma ',' c :: ts := by
  intro h
  obtain ⟨t, us, h1, h2, -⟩ := e.first r
  rw [h1] at h; injection h with h _
  exact h2 (by rw [h]; rfl)

theorem Expr.not_rpar (e : Expr) (r : List Tok) (c : Rng) (ts : List Tok) : e.yield ++ r ≠ sym .rpar ')' c :: ts := by
  intro h
  obtain ⟨t, us, h1, -, h2, -⟩ := e.first r
  rw [h1] at h; injection h with h _
  exact h2 (by rw [h]; rfl)

theorem tok_ne {a b : Ty} {c d : Char} {r s : Rng} (h : a ≠ b) : sym a c r ≠ sym b d s := by
  intro e; injection e with e _; exact h e

theorem Between.cancel (a b : Between) (r1 r2 : List Tok) (f1 : Free a.yield) (f2 : Free b.yield)
    (h : a.yield ++ r1 = b.yield ++ r2) : a = b ∧ r1 = r2 := by
  cases a with
  | base e r =>
    cases b with
    | base e' r' =>
      simp only [Between.yield, List.append_assoc, List.cons_append, List.nil_append] at h f1 f2
      obtain ⟨rfl, h2⟩ := Expr.cancel e e' _ _ (Free.append.mp f1).1 (Free.append.mp f2).1 .rpar .rpar h
      injection h2 with h3 h4
      exact ⟨by rw [sym_inj _ _ _ _ h3], h4⟩
    | both x c e' r' =>
      simp only [Between.yield, List.append_assoc, List.cons_append, List.nil_append] at h f1 f2
      obtain ⟨-, h2⟩ := Expr.cancel e x _ _ (Free.append.mp f1).1 (Free.append.mp f2).1 .rpar .comma h
      injection h2 with h3 h4; exact absurd h3 (tok_ne (by decide))
    | noIndex c e' r' =>
      simp only [Between.yield, List.append_assoc, List.cons_append, List.nil_append] at h f1 f2
      exact absurd h (e.not_comma _ _ _)
    | noBase x c r' =>
      simp only [Between.yield, List.append_assoc, List.cons_append, List.nil_append] at h f1 f2
      obtain ⟨-, h2⟩ := Expr.cancel e x _ _ (Free.append.mp f1).1 (Free.append.mp f2).1 .rpar .comma h
      injection h2 with h3 h4; exact absurd h3 (tok_ne (by decide))
  | both x c e r =>
    cases b with
    | base e' r' =>
      simp only [Between.yield, List.append_assoc, List.cons_append, List.nil_append] at h f1 f2
      obtain ⟨-, h2⟩ := Expr.cancel x e' _ _ (Free.append.mp f1).1 (Free.append.mp f2).1 .comma .rpar h
      injection h2 with h3 h4; exact absurd h3 (tok_ne (by decide))
    | both x' c' e' r' =>
      simp only [Between.yield, List.append_assoc, List.cons_append, List.nil_append] at h f1 f2
      rw [Free.mid, Free.append] at f1 f2
      obtain ⟨rfl, h2⟩ := Expr.cancel x x' _ _ f1.1 f2.1 .comma .comma h
      injection h2 with h3 h4
      obtain ⟨rfl, h5⟩ := Expr.cancel e e' _ _ f1.2.2.1 f2.2.2.1 .rpar .rpar h4
      injection h5 with h6 h7
      exact ⟨by rw [sym_inj _ _ _ _ h3, sym_inj _ _ _ _ h6], h7⟩
    | noIndex c' e' r' =>
      simp only [Between.yield, List.append_assoc, List.cons_append, List.nil_append] at h f1 f2
      exact absurd h (x.not_comma _ _ _)
    | noBase x' c' r' =>
      simp only [Between.yield, List.append_assoc, List.cons_append, List.nil_append] at h f1 f2
      obtain ⟨-, h2⟩ := Expr.cancel x x' _ _ (Free.append.mp f1).1 (Free.append.mp f2).1 .comma .comma h
      injection h2 with h3 h4; exact absurd h4 (e.not_rpar _ _ _)
  | noIndex c e r =>
    cases b with
    | base e' r' =>
      simp only [Between.yield, List.append_assoc, List.cons_append, List.nil_append] at h f1 f2
      exact absurd h.symm (e'.not_comma _ _ _)
    | both x' c' e' r' =>
      simp only [Between.yield, List.append_assoc, List.cons_append, List.nil_append] at h f1 f2
      exact absurd h.symm (x'.not_comma _ _ _)
    | noIndex c' e' r' =>
      simp only [Between.yield, List.append_assoc, List.cons_append, List.nil_append] at h f1 f2
      rw [Free.cons, Free.append] at f1 f2
      injection h with h1 h2
      obtain ⟨rfl, h5⟩ := Expr.cancel e e' _ _ f1.2.1 f2.2.1 .rpar .rpar h2
      injection h5 with h6 h7
      exact ⟨by rw [sym_inj _ _ _ _ h1, sym_inj _ _ _ _ h6], h7⟩
    | noBase x' c' r' =>
      simp only [Between.yield, List.append_assoc, List.cons_append, List.nil_append] at h f1 f2
      exact absurd h.symm (x'.not_comma _ _ _)
  | noBase x c r =>
    cases b with
    | base e' r' =>
      simp only [Between.yield, List.append_assoc, List.cons_append, List.nil_append] at h f1 f2
      obtain ⟨-, h2⟩ := Expr.cancel x e' _ _ (Free.append.mp f1).1 (Free.append.mp f2).1 .comma .rpar h
      injection h2 with h3 h4; exact absurd h3 (tok_ne (by decide))
    | both x' c' e' r' =>
      simp only [Between.yield, List.append_assoc, List.cons_append, List.nil_append] at h f1 f2
      obtain ⟨-, h2⟩ := Expr.cancel x x' _ _ (Free.append.mp f1).1 (Free.append.mp f2).1 .comma .comma h
      injection h2 with h3 h4; exact absurd h4.symm (e'.not_rpar _ _ _)
    | noIndex c' e' r' =>
      simp only [Between.yield, List.append_assoc, List.cons_append, List.nil_append] at h f1 f2
      exact absurd h (x.not_comma _ _ _)
    | noBase x' c' r' =>
      simp only [Between.yield, List.append_assoc, List.cons_append, List.nil_append] at h f1 f2
      obtain ⟨rfl, h2⟩ := Expr.cancel x x' _ _ (Free.append.mp f1).1 (Free.append.mp f2).1 .comma .comma h
      injection h2 with h3 h4
      injection h4 with h5 h6
      exact ⟨by rw [sym_inj _ _ _ _ h3, sym_inj _ _ _ _ h5], h6⟩

/-- An operand in parts. -/
def MachOp.parts : MachOp → Expr × Option (Rng × Between)
  | .expr e => (e, none)
  | .base d l b r => (d, some (l, .base b r))
  | .both d l x c b r => (d, some (l, .both x c b r))
  | .noIndex d l c b r => (d, some (l, .noIndex c b r))
  | .noBase d l x c r => (d, some (l, .noBase x c r))

theorem MachOp.parts_inj (a b : MachOp) (h : a.parts = b.parts) : a = b := by
  cases a <;> cases b <;> simp_all [MachOp.parts]

theorem MachOp.parts_yield (o : MachOp) : o.yield = o.parts.1.yield ++ match o.parts.2 with
    | none => []
    | some (l, b) => sym .lpar '(' l :: b.yield := by
  cases o <;> simp [MachOp.yield, MachOp.parts, Between.yield]

theorem MachOp.cancel (a b : MachOp) (r1 r2 : List Tok) (f1 : Free a.yield) (f2 : Free b.yield) (g1 : NotHead gluesO r1)
    (g2 : NotHead gluesO r2) (h : a.yield ++ r1 = b.yield ++ r2) : a = b ∧ r1 = r2 := by
  rw [MachOp.parts_yield] at f1 f2 h
  rw [MachOp.parts_yield b] at h
  suffices a.parts = b.parts ∧ r1 = r2 from ⟨MachOp.parts_inj _ _ this.1, this.2⟩
  revert f1 f2 h
  generalize a.parts = p
  generalize b.parts = q
  obtain ⟨d, x⟩ := p
  obtain ⟨d', x'⟩ := q
  intro f1 f2 h
  rw [List.append_assoc, List.append_assoc] at h
  rw [Free.append] at f1 f2
  cases x with
  | none =>
    cases x' with
    | none =>
      obtain ⟨rfl, h2⟩ := Expr.cancel d d' _ _ f1.1 f2.1 (g1.mono gluesO_E) (g2.mono gluesO_E) h
      exact ⟨rfl, h2⟩
    | some y =>
      obtain ⟨l, y⟩ := y
      obtain ⟨-, h2⟩ := Expr.cancel d d' _ _ f1.1 f2.1 (g1.mono gluesO_E) .lpar h
      have h2 : r1 = sym .lpar '(' l :: (y.yield ++ r2) := h2
      subst h2
      cases NotHead.cons.mp g1
  | some y =>
    obtain ⟨l, y⟩ := y
    cases x' with
    | none =>
      obtain ⟨-, h2⟩ := Expr.cancel d d' _ _ f1.1 f2.1 .lpar (g2.mono gluesO_E) h
      have h2 : sym .lpar '(' l :: (y.yield ++ r1) = r2 := h2
      subst h2
      cases NotHead.cons.mp g2
    | some y' =>
      obtain ⟨l', y'⟩ := y'
      obtain ⟨rfl, h2⟩ := Expr.cancel d d' _ _ f1.1 f2.1 .lpar .lpar h
      injection h2 with h3 h4
      obtain ⟨rfl, h5⟩ := Between.cancel y y' _ _ (Free.cons.mp f1.2).2 (Free.cons.mp f2.2).2 h4
      exact ⟨by rw [sym_inj _ _ _ _ h3], h5⟩

theorem MachOp.first (o : MachOp) (r : List Tok) : ∃ t ts, o.yield ++ r = t :: ts ∧ t.ty ≠ .comma ∧ t.ty ≠ .space ∧ t.ty ≠ .eolln := by
  rw [o.split, List.append_assoc]
  obtain ⟨t, ts, h, h1, -, -, h2, h3, -⟩ := o.disp.first (o.rest ++ r)
  exact ⟨t, ts, h, h1, h2, h3⟩

/-! ### lists -/

/-- What follows an operand in a list: a comma or the end. -/
def ends : Ty → Bool
  | .comma | .space | .eolln => true
  | _ => false

/-- The text begins with one of these. -/
def Ends (r : List Tok) : Prop := ∃ t ts, r = t :: ts ∧ ends t.ty = true

theorem Ends.notHead {P : Ty → Bool} (hp : P .comma = false ∧ P .space = false ∧ P .eolln = false) {r : List Tok} (h : Ends r) : NotHead P r := by
  obtain ⟨t, ts, rfl, ht⟩ := h
  rw [NotHead.cons]
  revert ht
  generalize t.ty = ty
  intro ht
  cases ty <;> first | exact hp.1 | exact hp.2.1 | exact hp.2.2 | cases ht

/-- Operands that can be told from what follows them. -/
structure Separable {α : Type} (f : α → List Tok) : Prop where
  cancel : ∀ (a b : α) (r1 r2 : List Tok), Free (f a) → Free (f b) → Ends r1 → Ends r2 → f a ++ r1 = f b ++ r2 → a = b ∧ r1 = r2
  first : ∀ (a : α) (r : List Tok), ∃ t ts, f a ++ r = t :: ts ∧ t.ty ≠ .comma ∧ t.ty ≠ .space ∧ t.ty ≠ .eolln

theorem machOp_separable : Separable MachOp.yield where
  cancel a b r1 r2 f1 f2 g1 g2 h :=
    MachOp.cancel a b r1 r2 f1 f2 (g1.notHead ⟨rfl, rfl, rfl⟩) (g2.notHead ⟨rfl, rfl, rfl⟩) h
  first := MachOp.first

theorem opt_cancel {α : Type} {f : α → List Tok} (s : Separable f) (a b : Option α) (r1 r2 : List Tok) (f1 : Free (optYield f a))
    (f2 : Free (optYield f b)) (g1 : Ends r1) (g2 : Ends r2) (h : optYield f a ++ r1 = optYield f b ++ r2) : a = b ∧ r1 = r2 := by
  cases a with
  | none =>
    cases b with
    | none => exact ⟨rfl, h⟩
    | some b =>
      exfalso
      obtain ⟨t, ts, h1, h2, h3, h4⟩ := s.first b r2
      have h : r1 = f b ++ r2 := h
      rw [h1] at h
      obtain ⟨x, xs, h5, h6⟩ := g1
      rw [h5] at h
      injection h with h7 h8
      subst h7
      revert h6 h2 h3 h4
      generalize x.ty = ty
      cases ty <;> simp [ends]
  | some a =>
    cases b with
    | none =>
      exfalso
      obtain ⟨t, ts, h1, h2, h3, h4⟩ := s.first a r1
      have h : f a ++ r1 = r2 := h
      rw [h1] at h
      obtain ⟨x, xs, h5, h6⟩ := g2
      rw [h5] at h
      injection h with h7 h8
      subst h7
      revert h6 h2 h3 h4
      generalize t.ty = ty
      cases ty <;> simp [ends]
    | some b => obtain ⟨rfl, h2⟩ := s.cancel a b r1 r2 f1 f2 g1 g2 h; exact ⟨rfl, h2⟩

/-- The end of the list: no comma follows. -/
def Closed (r : List Tok) : Prop := ∃ t ts, r = t :: ts ∧ (t.ty = .space ∨ t.ty = .eolln)

theorem Closed.ends {r : List Tok} (h : Closed r) : Ends r := by
  obtain ⟨t, ts, rfl, h | h⟩ := h <;> exact ⟨t, ts, rfl, by rw [h]; rfl⟩

/-- Tokens of the operands behind the first. -/
def restYield {α : Type} (f : α → List Tok) (l : List (Rng × Option α)) : List Tok :=
  l.flatMap fun p => sym .comma ',' p.1 :: optYield f p.2

theorem restYield_cons {α : Type} (f : α → List Tok) (p : Rng × Option α) (l : List (Rng × Option α)) :
    restYield f (p :: l) = sym .comma ',' p.1 :: (optYield f p.2 ++ restYield f l) := by
  rw [restYield, List.flatMap_cons, List.cons_append]; rfl

theorem rest_ends {α : Type} (f : α → List Tok) (l : List (Rng × Option α)) (r : List Tok) (h : Closed r) : Ends (restYield f l ++ r) := by
  cases l with
  | nil => exact h.ends
  | cons p l => exact ⟨_, _, rfl, rfl⟩

theorem rest_cancel {α : Type} {f : α → List Tok} (s : Separable f) : ∀ (a b : List (Rng × Option α)) (r1 r2 : List Tok),
    Free (restYield f a) → Free (restYield f b) → Closed r1 → Closed r2 → restYield f a ++ r1 = restYield f b ++ r2 → a = b ∧ r1 = r2
  | [], [], _, _, _, _, _, _, h => ⟨rfl, h⟩
  | [], p :: l, r1, r2, _, _, g1, _, h => by
    exfalso
    rw [restYield_cons] at h
    obtain ⟨t, ts, h1, h2⟩ := g1
    have h : r1 = _ := h
    rw [h1] at h; injection h with h3 h4
    rw [h3] at h2; rcases h2 with h2 | h2 <;> cases h2
  | p :: l, [], r1, r2, _, _, _, g2, h => by
    exfalso
    rw [restYield_cons] at h
    obtain ⟨t, ts, h1, h2⟩ := g2
    have h : _ = r2 := h
    rw [h1] at h; injection h with h3 h4
    rw [← h3] at h2; rcases h2 with h2 | h2 <;> cases h2
  | (p, x) :: l, (q, y) :: m, r1, r2, f1, f2, g1, g2, h => by
    rw [restYield_cons] at f1 f2 h
    rw [restYield_cons] at h
    rw [Free.cons, Free.append] at f1 f2
    rw [List.cons_append, List.cons_append, List.append_assoc, List.append_assoc] at h
    injection h with h1 h2
    obtain ⟨rfl, h3⟩ := opt_cancel s x y _ _ f1.2.1 f2.2.1 (rest_ends f l r1 g1) (rest_ends f m r2 g2) h2
    obtain ⟨rfl, h4⟩ := rest_cancel s l m r1 r2 f1.2.2 f2.2.2 g1 g2 h3
    have h5 : p = q := sym_inj _ _ _ _ h1
    exact ⟨by rw [h5], h4⟩

theorem OpList.cancel {α : Type} {f : α → List Tok} (s : Separable f) (a b : OpList α) (r1 r2 : List Tok) (f1 : Free (a.yield f))
    (f2 : Free (b.yield f)) (g1 : Closed r1) (g2 : Closed r2) (h : a.yield f ++ r1 = b.yield f ++ r2) : a = b ∧ r1 = r2 := by
  cases a with | mk x l => cases b with | mk y m =>
  rw [OpList.yield, Free.append] at f1 f2
  rw [OpList.yield, OpList.yield, List.append_assoc, List.append_assoc] at h
  obtain ⟨rfl, h3⟩ := opt_cancel s x y _ _ f1.1 f2.1 (rest_ends f l r1 g1) (rest_ends f m r2 g2) h
  obtain ⟨rfl, h4⟩ := rest_cancel s l m r1 r2 f1.2 f2.2 g1 g2 h3
  exact ⟨rfl, h4⟩

theorem Remark.closed (r : Remark) : Closed r.yield := by
  cases r with | mk m t p =>
  cases m with
  | none => exact ⟨_, _, rfl, .inr rfl⟩
  | some m => exact ⟨_, _, rfl, .inl rfl⟩

end Verif.Gram
