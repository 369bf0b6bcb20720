import Verif.Gram.Ops
/-! Operands of assembler instructions and data definitions are unambiguous as long as there are no literals. -/
namespace Verif.Gram

open Lexing (Pos Rng Ty)

/-- An expression of one term. -/
def Term.expr (t : Term) : Expr := .mk (.mk (.term t) .nil) .nil

theorem Term.expr_yield (t : Term) : t.expr.yield = t.yield := by
  simp [Term.expr, Expr.yield, Product.yield, Signed.yield, ETail.yield, PTail.yield]

/-- The inside of an expression that begins with a parenthesis. -/
theorem Expr.opens (e : Expr) (r : List Tok) (l : Rng) (rest : List Tok) (h : e.yield ++ r = sym .lpar '(' l :: rest) :
    ∃ (e' : Expr) (q : Rng) (tail : List Tok), rest = e'.yield ++ sym .rpar ')' q :: tail ∧ (Free e.yield → Free e'.yield) := by
  cases e with | mk p t =>
  cases p with | mk s u =>
  rw [Expr.yield, Product.yield, List.append_assoc, List.append_assoc] at h
  cases s with
  | sign op p c => rw [Signed.yield] at h; cases op <;> (injection h with h1 _; exact absurd h1 (tok_ne (by decide)))
  | term c =>
    rw [Signed.yield] at h
    have hf := c.first_eq (u.yield ++ (t.yield ++ r))
    obtain ⟨x, y, h1, h2⟩ := hf
    rw [h1] at h
    injection h with h3 h4
    rw [h3] at h2
    cases c with
    | par l' e' r' =>
      rw [Term.yield, List.cons_append, List.append_assoc] at h1
      injection h1 with h5 h6
      refine ⟨e', r', _, by rw [← h4, ← h6]; rfl, fun f => ?_⟩
      rw [Expr.yield, Product.yield, Signed.yield, Term.yield, List.append_assoc, Free.append, Free.cons, Free.append] at f
      exact f.1.2.1
    | _ => cases h2

/-- A list in parentheses is no expression. -/
theorem Expr.not_list (e b : Expr) (r : List Tok) (l c : Rng) (x : List Tok) (f1 : Free e.yield) (f2 : Free b.yield) :
    e.yield ++ r ≠ sym .lpar '(' l :: (b.yield ++ sym .comma ',' c :: x) := by
  intro h
  obtain ⟨e', q, tail, h1, h2⟩ := e.opens r l _ h
  obtain ⟨-, h3⟩ := Expr.cancel b e' _ _ f2 (h2 f1) .comma .rpar h1
  injection h3 with h4 _
  exact absurd h4 (tok_ne (by decide))

/-- A word is an expression unless it is no symbol and no number. -/
theorem IdCh.expr (w : IdCh) : w.kind = .identifier ∨ ∃ e : Expr, e.yield = [w.tok] ∧ Free e.yield := by
  cases w with | mk k t r =>
  cases k with
  | identifier => exact .inl rfl
  | num =>
    refine .inr ⟨(Term.num ⟨t, r, []⟩).expr, ?_, ?_⟩
    · rw [Term.expr_yield, Term.yield]; rfl
    · rw [Term.expr_yield, Term.yield]; exact Free.cons.mpr ⟨by simp [numTok], fun _ h => by cases h⟩
  | ordsymbol =>
    refine .inr ⟨(Term.id (.plain ⟨t, r, []⟩)).expr, ?_, ?_⟩
    · rw [Term.expr_yield, Term.yield]; rfl
    · rw [Term.expr_yield, Term.yield]; exact Free.cons.mpr ⟨by simp, fun _ h => by cases h⟩

theorem Expr.not_identifier (e : Expr) (r : List Tok) (w : IdCh) (ts : List Tok) (hw : w.kind = .identifier) : e.yield ++ r ≠ w.tok :: ts := by
  intro h
  obtain ⟨t, us, h1, -, -, -, -, -, h2⟩ := e.first r
  rw [h1] at h; injection h with h _
  exact h2 (by rw [h, IdCh.tok, hw]; rfl)

/-- An expression that begins with a word followed by a comma is this word. -/
theorem Expr.word (e : Expr) (r : List Tok) (w : IdCh) (c : Rng) (ts : List Tok) (f : Free e.yield) (g : NotHead gluesE r)
    (h : e.yield ++ r = w.tok :: sym .comma ',' c :: ts) : r = sym .comma ',' c :: ts := by
  rcases w.expr with hw | ⟨e', h1, h2⟩
  · exact absurd h (e.not_identifier r w _ hw)
  · have : e.yield ++ r = e'.yield ++ sym .comma ',' c :: ts := by rw [h, h1]; rfl
    exact (Expr.cancel e e' _ _ f h2 g .comma this).2

/-- What follows a part of a list in parentheses. -/
def CommaRpar (r : List Tok) : Prop := ∃ t ts, r = t :: ts ∧ (t.ty = .comma ∨ t.ty = .rpar)

theorem CommaRpar.notHead {P : Ty → Bool} (hp : P .comma = false ∧ P .rpar = false) {r : List Tok} (h : CommaRpar r) : NotHead P r := by
  obtain ⟨t, ts, rfl, ht⟩ := h
  rw [NotHead.cons]
  rcases ht with h | h <;> rw [h]
  · exact hp.1
  · exact hp.2

theorem Inners.follow (l : Inners) (q : Rng) (r : List Tok) : CommaRpar (l.yield ++ sym .rpar ')' q :: r) := by
  cases l with
  | nil => rw [Inners.yield]; exact ⟨_, _, rfl, .inr rfl⟩
  | cons c o l => rw [Inners.yield]; exact ⟨_, _, rfl, .inl rfl⟩

/-- The type of the first token of a part. -/
def Inner.first : Inner → Option Ty
  | .str _ => some .apostrophe
  | .id _ => some .ordsymbol
  | .num _ => some .num
  | .empty => none
  | .call _ _ _ _ _ => some .ordsymbol

theorem QId.first_eq (i : QId) (r : List Tok) : ∃ x y, i.yield ++ r = x :: y ∧ x.ty = .ordsymbol := by
  cases i <;> exact ⟨_, _, rfl, rfl⟩

theorem Inner.first_eq (a : Inner) (r : List Tok) (h : CommaRpar r) : ∃ x y, a.yield ++ r = x :: y ∧
    match a.first with
    | none => x.ty = .comma ∨ x.ty = .rpar
    | some t => x.ty = t := by
  cases a with
  | str s => rw [Inner.yield]; exact ⟨_, _, rfl, rfl⟩
  | id i => rw [Inner.yield]; exact i.first_eq r
  | num n => rw [Inner.yield]; exact ⟨_, _, rfl, rfl⟩
  | empty => rw [Inner.yield]; obtain ⟨t, ts, rfl, ht⟩ := h; exact ⟨_, _, rfl, ht⟩
  | call i l f rest r' => rw [Inner.yield, List.append_assoc]; exact i.first_eq _

theorem Inner.same (a b : Inner) (r1 r2 : List Tok) (g1 : CommaRpar r1) (g2 : CommaRpar r2) (h : a.yield ++ r1 = b.yield ++ r2) :
    a.first = b.first := by
  obtain ⟨x, y, h1, h2⟩ := a.first_eq r1 g1
  obtain ⟨x', y', h3, h4⟩ := b.first_eq r2 g2
  rw [h1, h3] at h
  injection h with h5 _
  subst h5
  revert h2 h4
  generalize x.ty = ty
  cases a <;> cases b <;> simp [Inner.first] <;> cases ty <;> simp

mutual
theorem Inner.cancel : ∀ (a b : Inner) (r1 r2 : List Tok), CommaRpar r1 → CommaRpar r2 → a.yield ++ r1 = b.yield ++ r2 → a = b ∧ r1 = r2
  | .str s, b, r1, r2, g1, g2, h => by
    have hs := Inner.same _ _ _ _ g1 g2 h
    cases b with
    | str s' =>
      simp only [Inner.yield] at h
      obtain ⟨rfl, h2⟩ := Str.cancel s s' _ _ (g1.notHead ⟨rfl, rfl⟩) (g2.notHead ⟨rfl, rfl⟩) h
      exact ⟨rfl, h2⟩
    | _ => cases hs
  | .num n, b, r1, r2, g1, g2, h => by
    have hs := Inner.same _ _ _ _ g1 g2 h
    cases b with
    | num m =>
      simp only [Inner.yield] at h
      obtain ⟨rfl, h2⟩ := Num.cancel n m _ _ (g1.notHead ⟨rfl, rfl⟩) (g2.notHead ⟨rfl, rfl⟩) h
      exact ⟨rfl, h2⟩
    | _ => cases hs
  | .empty, b, r1, r2, g1, g2, h => by
    have hs := Inner.same _ _ _ _ g1 g2 h
    cases b with
    | empty => simp only [Inner.yield] at h; exact ⟨rfl, h⟩
    | _ => cases hs
  | .id i, b, r1, r2, g1, g2, h => by
    have hs := Inner.same _ _ _ _ g1 g2 h
    cases b with
    | id j =>
      simp only [Inner.yield] at h
      obtain ⟨rfl, h2⟩ := QId.cancel i j _ _ (g1.notHead ⟨rfl, rfl⟩) (g2.notHead ⟨rfl, rfl⟩) h
      exact ⟨rfl, h2⟩
    | call j l f rest q =>
      simp only [Inner.yield, List.append_assoc, List.cons_append] at h
      obtain ⟨-, h2⟩ := QId.cancel i j _ _ (g1.notHead ⟨rfl, rfl⟩) (NotHead.cons.mpr rfl) h
      obtain ⟨t, ts, rfl, ht⟩ := g1
      injection h2 with h3 _
      subst h3
      rcases ht with ht | ht <;> cases ht
    | _ => cases hs
  | .call i l f rest q, b, r1, r2, g1, g2, h => by
    have hs := Inner.same _ _ _ _ g1 g2 h
    cases b with
    | id j =>
      simp only [Inner.yield, List.append_assoc, List.cons_append] at h
      obtain ⟨-, h2⟩ := QId.cancel i j _ _ (NotHead.cons.mpr rfl) (g2.notHead ⟨rfl, rfl⟩) h
      obtain ⟨t, ts, rfl, ht⟩ := g2
      injection h2 with h3 _
      subst h3
      rcases ht with ht | ht <;> cases ht
    | call j l' f' rest' q' =>
      simp only [Inner.yield, List.append_assoc, List.cons_append, List.nil_append] at h
      obtain ⟨rfl, h2⟩ := QId.cancel i j _ _ (NotHead.cons.mpr rfl) (NotHead.cons.mpr rfl) h
      injection h2 with h3 h4
      obtain ⟨rfl, h5⟩ := Inner.cancel f f' _ _ (rest.follow _ _) (rest'.follow _ _) h4
      obtain ⟨rfl, h6⟩ := Inners.cancel rest rest' q q' r1 r2 h5
      injection h6 with h7 h8
      exact ⟨by rw [sym_inj _ _ _ _ h3, sym_inj _ _ _ _ h7], h8⟩
    | _ => cases hs
theorem Inners.cancel : ∀ (a b : Inners) (q q' : Rng) (r1 r2 : List Tok),
    a.yield ++ sym .rpar ')' q :: r1 = b.yield ++ sym .rpar ')' q' :: r2 → a = b ∧ sym .rpar ')' q :: r1 = sym .rpar ')' q' :: r2
  | .nil, .nil, _, _, _, _, h => by simp only [Inners.yield] at h; exact ⟨rfl, h⟩
  | .nil, .cons c o l, _, _, _, _, h => by
    simp only [Inners.yield, List.cons_append] at h
    injection h with h1 _; exact absurd h1 (tok_ne (by decide))
  | .cons c o l, .nil, _, _, _, _, h => by
    simp only [Inners.yield, List.cons_append] at h
    injection h with h1 _; exact absurd h1 (tok_ne (by decide))
  | .cons c o l, .cons c' o' l', q, q', r1, r2, h => by
    simp only [Inners.yield, List.cons_append, List.append_assoc] at h
    injection h with h1 h2
    obtain ⟨rfl, h3⟩ := Inner.cancel o o' _ _ (l.follow _ _) (l'.follow _ _) h2
    obtain ⟨rfl, h4⟩ := Inners.cancel l l' q q' r1 r2 h3
    exact ⟨by rw [sym_inj _ _ _ _ h1], h4⟩
end

/-- How an operand begins. -/
inductive Begin where
  | par | str | other
deriving DecidableEq

/-- How a token begins an operand. -/
def beginOf : Ty → Begin
  | .lpar => .par
  | .apostrophe => .str
  | _ => .other

theorem Expr.begins (e : Expr) (r : List Tok) : ∃ x y, e.yield ++ r = x :: y ∧ beginOf x.ty ≠ .str := by
  obtain ⟨t, ts, h, -, -, h2, -⟩ := e.first r
  refine ⟨t, ts, h, ?_⟩
  revert h2
  generalize t.ty = ty
  cases ty <;> simp [beginOf]

theorem call_not_expr (i : QId) (e : Expr) (l : Rng) (x r : List Tok) (f1 : Free i.yield) (f2 : Free e.yield) (g : NotHead gluesO r) :
    i.yield ++ sym .lpar '(' l :: x ≠ e.yield ++ r := by
  intro h
  have hi : (Term.id i).expr.yield = i.yield := by rw [Term.expr_yield, Term.yield]
  rw [← hi] at h f1
  obtain ⟨-, h2⟩ := Expr.cancel _ e _ _ f1 f2 .lpar (g.mono gluesO_E) h
  subst h2
  cases NotHead.cons.mp g

theorem AsmOp.cancel (a b : AsmOp) (r1 r2 : List Tok) (f1 : Free a.yield) (f2 : Free b.yield) (g1 : Ends r1) (g2 : Ends r2)
    (h : a.yield ++ r1 = b.yield ++ r2) : a = b ∧ r1 = r2 := by
  have o1 : NotHead gluesO r1 := g1.notHead ⟨rfl, rfl, rfl⟩
  have o2 : NotHead gluesO r2 := g2.notHead ⟨rfl, rfl, rfl⟩
  have ord : ∀ (i : QId) (x y : List Tok) (t : Tok), t.ty ≠ .ordsymbol → i.yield ++ x ≠ t :: y := by
    intro i x y t ht h
    obtain ⟨u, v, h1, h2⟩ := i.first_eq x
    rw [h1] at h; injection h with h3 _; exact ht (by rw [← h3, h2])
  have quo : ∀ (e : Expr) (x y : List Tok) (q : Rng), e.yield ++ x ≠ sym .apostrophe '\'' q :: y := by
    intro e x y q h
    obtain ⟨u, v, h1, h2⟩ := e.begins x
    rw [h1] at h; injection h with h3 _; rw [h3] at h2; exact h2 rfl
  cases a with
  | call i l f rest q =>
    simp only [AsmOp.yield, List.append_assoc, List.cons_append, List.nil_append] at h f1
    cases b with
    | call j l' f' rest' q' =>
      simp only [AsmOp.yield, List.append_assoc, List.cons_append, List.nil_append] at h f2
      obtain ⟨rfl, h2⟩ := QId.cancel i j _ _ (NotHead.cons.mpr rfl) (NotHead.cons.mpr rfl) h
      injection h2 with h3 h4
      obtain ⟨rfl, h5⟩ := Inner.cancel f f' _ _ (rest.follow _ _) (rest'.follow _ _) h4
      obtain ⟨rfl, h6⟩ := Inners.cancel rest rest' q q' r1 r2 h5
      injection h6 with h7 h8
      exact ⟨by rw [sym_inj _ _ _ _ h3, sym_inj _ _ _ _ h7], h8⟩
    | triplet l' w1 c1 w2 c2 w3 q' => exact absurd h (ord i _ _ _ (by simp [sym]))
    | range l' b c e q' => exact absurd h (ord i _ _ _ (by simp [sym]))
    | expr e => exact absurd h (call_not_expr i e _ _ _ (Free.append.mp f1).1 f2 o2)
    | str s => exact absurd h (ord i _ _ _ (by simp [sym]))
  | triplet l w1 c1 w2 c2 w3 q =>
    simp only [AsmOp.yield, List.cons_append, List.nil_append] at h f1
    cases b with
    | call j l' f' rest' q' =>
      simp only [AsmOp.yield, List.append_assoc, List.cons_append, List.nil_append] at h f2
      exact absurd h.symm (ord j _ _ _ (by simp [sym]))
    | triplet l' w1' c1' w2' c2' w3' q' =>
      simp only [AsmOp.yield, List.cons_append, List.nil_append, List.cons.injEq] at h
      obtain ⟨h1, h2, h3, h4, h5, h6, h7, h8⟩ := h
      exact ⟨by rw [sym_inj _ _ _ _ h1, IdCh.tok_inj _ _ h2, sym_inj _ _ _ _ h3, IdCh.tok_inj _ _ h4, sym_inj _ _ _ _ h5,
        IdCh.tok_inj _ _ h6, sym_inj _ _ _ _ h7], h8⟩
    | range l' b c e q' =>
      simp only [AsmOp.yield, List.append_assoc, List.cons_append, List.nil_append] at h f2
      rw [Free.cons, Free.mid, Free.append] at f2
      injection h with h1 h2
      have h3 := Expr.word b _ w1 c1 _ f2.2.1 .comma h2.symm
      injection h3 with h4 h5
      have h6 := Expr.word e _ w2 c2 _ f2.2.2.2.1 .rpar h5
      injection h6 with h7 _
      exact absurd h7 (tok_ne (by decide))
    | expr e =>
      simp only [AsmOp.yield] at h f2
      obtain ⟨e', p, tail, h1, h2⟩ := e.opens r2 l _ h.symm
      have h3 := Expr.word e' _ w1 c1 _ (h2 f2) .rpar h1.symm
      injection h3 with h4 _
      exact absurd h4 (tok_ne (by decide))
    | str s =>
      simp only [AsmOp.yield, Str.yield] at h
      injection h with h1 _; exact absurd h1 (tok_ne (by decide))
  | range l d c e q =>
    simp only [AsmOp.yield, List.append_assoc, List.cons_append, List.nil_append] at h f1
    rw [Free.cons, Free.mid, Free.append] at f1
    cases b with
    | call j l' f' rest' q' =>
      simp only [AsmOp.yield, List.append_assoc, List.cons_append, List.nil_append] at h f2
      exact absurd h.symm (ord j _ _ _ (by simp [sym]))
    | triplet l' w1 c1 w2 c2 w3 q' =>
      simp only [AsmOp.yield, List.append_assoc, List.cons_append, List.nil_append] at h f2
      injection h with h1 h2
      have h3 := Expr.word d _ w1 c1 _ f1.2.1 .comma h2
      injection h3 with h4 h5
      have h6 := Expr.word e _ w2 c2 _ f1.2.2.2.1 .rpar h5
      injection h6 with h7 _
      exact absurd h7 (tok_ne (by decide))
    | range l' b' c' e' q' =>
      simp only [AsmOp.yield, List.append_assoc, List.cons_append, List.nil_append] at h f2
      rw [Free.cons, Free.mid, Free.append] at f2
      injection h with h1 h2
      obtain ⟨rfl, h3⟩ := Expr.cancel d b' _ _ f1.2.1 f2.2.1 .comma .comma h2
      injection h3 with h4 h5
      obtain ⟨rfl, h6⟩ := Expr.cancel e e' _ _ f1.2.2.2.1 f2.2.2.2.1 .rpar .rpar h5
      injection h6 with h7 h8
      exact ⟨by rw [sym_inj _ _ _ _ h1, sym_inj _ _ _ _ h4, sym_inj _ _ _ _ h7], h8⟩
    | expr e' =>
      simp only [AsmOp.yield] at h f2
      exact absurd h.symm (Expr.not_list e' d _ _ _ _ f2 f1.2.1)
    | str s =>
      simp only [AsmOp.yield, Str.yield] at h
      injection h with h1 _; exact absurd h1 (tok_ne (by decide))
  | expr e =>
    simp only [AsmOp.yield] at h f1
    cases b with
    | call j l' f' rest' q' =>
      simp only [AsmOp.yield, List.append_assoc, List.cons_append, List.nil_append] at h f2
      exact absurd h.symm (call_not_expr j e _ _ _ (Free.append.mp f2).1 f1 o1)
    | triplet l' w1 c1 w2 c2 w3 q' =>
      simp only [AsmOp.yield, List.append_assoc, List.cons_append, List.nil_append] at h f2
      obtain ⟨e', p, tail, h1, h2⟩ := e.opens r1 l' _ h
      have h3 := Expr.word e' _ w1 c1 _ (h2 f1) .rpar h1.symm
      injection h3 with h4 _
      exact absurd h4 (tok_ne (by decide))
    | range l' b' c' e' q' =>
      simp only [AsmOp.yield, List.append_assoc, List.cons_append, List.nil_append] at h f2
      rw [Free.cons, Free.mid, Free.append] at f2
      exact absurd h (Expr.not_list e b' _ _ _ _ f1 f2.2.1)
    | expr e' =>
      simp only [AsmOp.yield] at h f2
      obtain ⟨rfl, h2⟩ := Expr.cancel e e' _ _ f1 f2 (o1.mono gluesO_E) (o2.mono gluesO_E) h
      exact ⟨rfl, h2⟩
    | str s =>
      simp only [AsmOp.yield, Str.yield] at h
      exact absurd h (quo e _ _ _)
  | str s =>
    simp only [AsmOp.yield] at h f1
    cases b with
    | call j l' f' rest' q' =>
      simp only [AsmOp.yield, Str.yield, List.append_assoc, List.cons_append, List.nil_append] at h
      exact absurd h.symm (ord j _ _ _ (by simp [sym]))
    | triplet l' w1 c1 w2 c2 w3 q' =>
      simp only [AsmOp.yield, Str.yield] at h
      injection h with h1 _; exact absurd h1 (tok_ne (by decide))
    | range l' b' c' e' q' =>
      simp only [AsmOp.yield, Str.yield] at h
      injection h with h1 _; exact absurd h1 (tok_ne (by decide))
    | expr e' =>
      simp only [AsmOp.yield, Str.yield] at h
      exact absurd h.symm (quo e' _ _ _)
    | str s' =>
      simp only [AsmOp.yield] at h
      obtain ⟨rfl, h2⟩ := Str.cancel s s' _ _ (g1.notHead ⟨rfl, rfl, rfl⟩) (g2.notHead ⟨rfl, rfl, rfl⟩) h
      exact ⟨rfl, h2⟩

theorem AsmOp.first (o : AsmOp) (r : List Tok) : ∃ t ts, o.yield ++ r = t :: ts ∧ t.ty ≠ .comma ∧ t.ty ≠ .space ∧ t.ty ≠ .eolln := by
  cases o with
  | call i l f rest q =>
    rw [AsmOp.yield, List.append_assoc]
    obtain ⟨u, v, h1, h2⟩ := i.first_eq (sym .lpar '(' l :: (f.yield ++ (rest.yield ++ [sym .rpar ')' q])) ++ r)
    exact ⟨u, v, h1, by rw [h2]; decide, by rw [h2]; decide, by rw [h2]; decide⟩
  | triplet => exact ⟨_, _, rfl, by simp [sym], by simp [sym], by simp [sym]⟩
  | range => exact ⟨_, _, rfl, by simp [sym], by simp [sym], by simp [sym]⟩
  | expr e =>
    obtain ⟨t, ts, h, h1, -, -, h2, h3, -⟩ := e.first r
    exact ⟨t, ts, h, h1, h2, h3⟩
  | str s => exact ⟨_, _, rfl, by simp [sym], by simp [sym], by simp [sym]⟩

theorem asmOp_separable : Separable AsmOp.yield where
  cancel := AsmOp.cancel
  first := AsmOp.first

end Verif.Gram
