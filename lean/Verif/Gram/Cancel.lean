import Verif.Gram.Model
/-! The grammar of machine expressions is unambiguous as long as there are no literals. -/
namespace Verif.Gram

open Lexing (Pos Rng Ty)

/-- The text begins with none of these tokens. -/
def NotHead (P : Ty → Bool) (r : List Tok) : Prop := ∀ t, r.head? = some t → P t.ty = false

/-- Types of words. -/
def isWord : Ty → Bool
  | .identifier | .num | .ordsymbol => true
  | _ => false

/-- What may not follow a term. -/
def glues : Ty → Bool
  | .identifier | .num | .ordsymbol | .dot | .apostrophe | .attr => true
  | _ => false

/-- What may not follow a product. -/
def gluesP : Ty → Bool
  | .asterisk | .slash => true
  | t => glues t

/-- What may not follow an expression. -/
def gluesE : Ty → Bool
  | .plus | .minus => true
  | t => gluesP t

/-- No literal: no equals sign. -/
def Free (ts : List Tok) : Prop := ∀ t ∈ ts, t.ty ≠ .equals

theorem NotHead.mono {P Q : Ty → Bool} (h : ∀ t, Q t = true → P t = true) {r : List Tok} (hp : NotHead P r) : NotHead Q r := by
  intro t ht
  cases hq : Q t.ty with
  | false => rfl
  | true => rw [← hp t ht, h _ hq]

theorem gluesE_P : ∀ t, gluesP t = true → gluesE t = true := by intro t; cases t <;> decide
theorem gluesP_T : ∀ t, glues t = true → gluesP t = true := by intro t; cases t <;> decide
theorem glues_W : ∀ t, isWord t = true → glues t = true := by intro t; cases t <;> decide

theorem Free.append {a b : List Tok} : Free (a ++ b) ↔ Free a ∧ Free b := by
  constructor
  · intro h; exact ⟨fun t ht => h t (List.mem_append_left _ ht), fun t ht => h t (List.mem_append_right _ ht)⟩
  · rintro ⟨h1, h2⟩ t ht; exact (List.mem_append.mp ht).elim (h1 t) (h2 t)

theorem Free.cons {a : Tok} {b : List Tok} : Free (a :: b) ↔ a.ty ≠ .equals ∧ Free b := by
  constructor
  · intro h; exact ⟨h a (List.mem_cons_self ..), fun t ht => h t (List.mem_cons_of_mem _ ht)⟩
  · rintro ⟨h1, h2⟩ t ht
    rcases List.mem_cons.mp ht with rfl | ht
    · exact h1
    · exact h2 t ht

theorem NotHead.cons {P : Ty → Bool} {a : Tok} {r : List Tok} : NotHead P (a :: r) ↔ P a.ty = false :=
  ⟨fun h => h a rfl, fun h t ht => by injection ht with ht; rw [← ht]; exact h⟩

theorem NotHead.nil {P : Ty → Bool} : NotHead P [] := fun t ht => by cases ht

/-- A list of tokens of one class is cut off in one way. -/
theorem cancelList {α : Type} (f : α → Tok) (hf : ∀ a b, f a = f b → a = b) (P : Ty → Bool) (hP : ∀ a, P (f a).ty = true) :
    ∀ (l1 l2 : List α) (r1 r2 : List Tok), NotHead P r1 → NotHead P r2 → l1.map f ++ r1 = l2.map f ++ r2 → l1 = l2 ∧ r1 = r2
  | [], [], r1, r2, _, _, h => ⟨rfl, h⟩
  | a :: l, [], r1, r2, _, h2, h => by
    have h : f a :: (l.map f ++ r1) = r2 := h
    subst h; rw [NotHead.cons, hP] at h2; cases h2
  | [], a :: l, r1, r2, h1, _, h => by
    have h : r1 = f a :: (l.map f ++ r2) := h
    subst h; rw [NotHead.cons, hP] at h1; cases h1
  | a :: l, b :: m, r1, r2, h1, h2, h => by
    have h : f a :: (l.map f ++ r1) = f b :: (m.map f ++ r2) := h
    injection h with e1 e2
    obtain ⟨e3, e4⟩ := cancelList f hf P hP l m r1 r2 h1 h2 e2
    exact ⟨by rw [hf a b e1, e3], e4⟩

theorem Word.ty_inj : ∀ a b : Word, a.ty = b.ty → a = b := by
  intro a b; cases a <;> cases b <;> intro h <;> first | rfl | cases h

theorem IdCh.tok_inj (a b : IdCh) (h : a.tok = b.tok) : a = b := by
  cases a; cases b; simp only [IdCh.tok, Tok.mk.injEq] at h
  obtain ⟨h1, h2, h3⟩ := h
  rw [Word.ty_inj _ _ h1, h2, h3]

theorem sym_inj (ty : Ty) (c : Char) (a b : Rng) (h : sym ty c a = sym ty c b) : a = b := by injection h

theorem IdCh.word (a : IdCh) : isWord a.tok.ty = true := by cases a with | mk k t r => cases k <;> rfl

theorem Id.cancel (a b : Id) (r1 r2 : List Tok) (h1 : NotHead isWord r1) (h2 : NotHead isWord r2)
    (h : a.yield ++ r1 = b.yield ++ r2) : a = b ∧ r1 = r2 := by
  cases a; cases b
  simp only [Id.yield, List.cons_append, List.cons.injEq, Tok.mk.injEq, true_and] at h
  obtain ⟨⟨e1, e2⟩, e3⟩ := h
  obtain ⟨e4, e5⟩ := cancelList IdCh.tok IdCh.tok_inj isWord IdCh.word _ _ _ _ h1 h2 e3
  exact ⟨by rw [e1, e2, e4], e5⟩

theorem Id.head (a : Id) (r : List Tok) : ∃ t rest, a.yield ++ r = t :: rest ∧ t.ty = .ordsymbol := ⟨_, _, rfl, rfl⟩

theorem QId.cancel (a b : QId) (r1 r2 : List Tok) (h1 : NotHead glues r1) (h2 : NotHead glues r2)
    (h : a.yield ++ r1 = b.yield ++ r2) : a = b ∧ r1 = r2 := by
  have w1 := h1.mono glues_W
  have w2 := h2.mono glues_W
  have hd : ∀ (d : Rng) (x : List Tok), NotHead isWord (sym .dot '.' d :: x) := fun d x => NotHead.cons.mpr rfl
  cases a with
  | plain a =>
    cases b with
    | plain b => obtain ⟨e1, e2⟩ := Id.cancel a b r1 r2 w1 w2 h; exact ⟨by rw [e1], e2⟩
    | qualified q d n =>
      simp only [QId.yield, List.append_assoc, List.cons_append] at h
      obtain ⟨-, e2⟩ := Id.cancel a q _ _ w1 (hd _ _) h
      subst e2; have := h1 _ rfl; cases this
  | qualified q d n =>
    cases b with
    | plain b =>
      simp only [QId.yield, List.append_assoc, List.cons_append] at h
      obtain ⟨-, e2⟩ := Id.cancel q b _ _ (hd _ _) w2 h
      subst e2; have := h2 _ rfl; cases this
    | qualified q' d' n' =>
      simp only [QId.yield, List.append_assoc, List.cons_append] at h
      obtain ⟨e1, e2⟩ := Id.cancel q q' _ _ (hd _ _) (hd _ _) h
      injection e2 with e3 e4
      obtain ⟨e5, e6⟩ := Id.cancel n n' _ _ w1 w2 e4
      exact ⟨by rw [e1, sym_inj _ _ _ _ e3, e5], e6⟩

theorem numTok_inj (a b : Bytes × Rng) (h : numTok a = numTok b) : a = b := by
  cases a; cases b; simp only [numTok, Tok.mk.injEq, true_and] at h; rw [h.1, h.2]

/-- Types of numbers. -/
def isNum : Ty → Bool
  | .num => true
  | _ => false

theorem glues_N : ∀ t, isNum t = true → glues t = true := by intro t; cases t <;> decide

theorem Num.cancel (a b : Num) (r1 r2 : List Tok) (h1 : NotHead isNum r1) (h2 : NotHead isNum r2)
    (h : a.yield ++ r1 = b.yield ++ r2) : a = b ∧ r1 = r2 := by
  cases a; cases b
  simp only [Num.yield, List.cons_append, List.cons.injEq] at h
  obtain ⟨e1, e3⟩ := h
  obtain ⟨e4, e5⟩ := cancelList numTok numTok_inj isNum (fun _ => rfl) _ _ _ _ h1 h2 e3
  have := numTok_inj _ _ e1
  injection this with e6 e7
  exact ⟨by rw [e6, e7, e4], e5⟩

/-- Types of quotes. -/
def isQuote : Ty → Bool
  | .apostrophe | .attr => true
  | _ => false

theorem Quote.tok_inj (a b : Quote) (h : a.tok = b.tok) : a = b := by
  cases a with | mk a1 a2 => cases b with | mk b1 b2 =>
  simp only [Quote.tok, sym, Tok.mk.injEq, true_and] at h
  obtain ⟨h1, rfl⟩ := h
  cases a1 <;> cases b1 <;> first | rfl | cases h1

theorem Quote.quote (a : Quote) : isQuote a.tok.ty = true := by cases a with | mk a b => cases a <;> rfl

theorem str_ty (ty : Ty) (h : isStrCh ty = true) : isQuote ty = false ∧ ty ≠ .ampersand := by
  cases ty <;> first | exact ⟨rfl, by decide⟩ | cases h

/-- A string ends in one way. -/
theorem cancelStr : ∀ (l1 l2 : List StrCh) (q1 q2 : Quote) (r1 r2 : List Tok), NotHead isQuote r1 → NotHead isQuote r2 →
    l1.flatMap (·.yield) ++ q1.tok :: r1 = l2.flatMap (·.yield) ++ q2.tok :: r2 → l1 = l2 ∧ q1 = q2 ∧ r1 = r2
  | [], [], q1, q2, r1, r2, _, _, h => by
    injection h with e1 e2
    exact ⟨rfl, Quote.tok_inj _ _ e1, e2⟩
  | a :: l, [], q1, q2, r1, r2, _, h2, h => by
    exfalso
    rw [List.flatMap_cons, List.append_assoc] at h
    cases a with
    | one ty ht t r =>
      injection h with e1 e2
      have := Quote.quote q2
      rw [← e1] at this; rw [(str_ty ty ht).1] at this; cases this
    | amp x y =>
      injection h with e1 e2
      have := Quote.quote q2
      rw [← e1] at this; cases this
    | apo x y =>
      injection h with e1 e2
      have e2 : y.tok :: (l.flatMap (·.yield) ++ q1.tok :: r1) = r2 := e2
      subst e2; rw [NotHead.cons, Quote.quote] at h2; cases h2
  | [], a :: l, q1, q2, r1, r2, h1, _, h => by
    exfalso
    rw [List.flatMap_cons, List.append_assoc] at h
    cases a with
    | one ty ht t r =>
      injection h with e1 e2
      have := Quote.quote q1
      rw [e1] at this; rw [(str_ty ty ht).1] at this; cases this
    | amp x y =>
      injection h with e1 e2
      have := Quote.quote q1
      rw [e1] at this; cases this
    | apo x y =>
      injection h with e1 e2
      have e2 : r1 = y.tok :: (l.flatMap (·.yield) ++ q2.tok :: r2) := e2
      subst e2; rw [NotHead.cons, Quote.quote] at h1; cases h1
  | a :: l, b :: m, q1, q2, r1, r2, h1, h2, h => by
    rw [List.flatMap_cons, List.append_assoc, List.flatMap_cons, List.append_assoc] at h
    have fin : a = b → l.flatMap (·.yield) ++ q1.tok :: r1 = m.flatMap (·.yield) ++ q2.tok :: r2 →
        a :: l = b :: m ∧ q1 = q2 ∧ r1 = r2 := fun e he => by
      obtain ⟨x, y, z⟩ := cancelStr l m q1 q2 r1 r2 h1 h2 he
      exact ⟨by rw [e, x], y, z⟩
    cases a with
    | one ty ht t r =>
      cases b with
      | one ty' ht' t' r' =>
        injection h with e1 e2
        injection e1 with e3 e4 e5
        subst e3 e4 e5
        exact fin rfl e2
      | amp x y => injection h with e1 e2; injection e1 with e3; exact absurd e3 (str_ty ty ht).2
      | apo x y =>
        injection h with e1 e2
        have := Quote.quote x
        rw [← e1] at this; rw [(str_ty ty ht).1] at this; cases this
    | amp x y =>
      cases b with
      | one ty' ht' t' r' => injection h with e1 e2; injection e1 with e3; exact absurd e3.symm (str_ty ty' ht').2
      | amp x' y' =>
        injection h with e1 e2
        injection e2 with e2 e3
        exact fin (by rw [sym_inj _ _ _ _ e1, sym_inj _ _ _ _ e2]) e3
      | apo x' y' =>
        injection h with e1 e2
        have := Quote.quote x'
        rw [← e1] at this; cases this
    | apo x y =>
      cases b with
      | one ty' ht' t' r' =>
        injection h with e1 e2
        have := Quote.quote x
        rw [e1] at this; rw [(str_ty ty' ht').1] at this; cases this
      | amp x' y' =>
        injection h with e1 e2
        have := Quote.quote x
        rw [e1] at this; cases this
      | apo x' y' =>
        injection h with e1 e2
        injection e2 with e2 e3
        exact fin (by rw [Quote.tok_inj _ _ e1, Quote.tok_inj _ _ e2]) e3

theorem glues_Q : ∀ t, isQuote t = true → glues t = true := by intro t; cases t <;> decide

theorem Str.cancel (a b : Str) (r1 r2 : List Tok) (h1 : NotHead isQuote r1) (h2 : NotHead isQuote r2)
    (h : a.yield ++ r1 = b.yield ++ r2) : a = b ∧ r1 = r2 := by
  cases a; cases b
  simp only [Str.yield, List.cons_append, List.cons.injEq, List.append_assoc, List.nil_append] at h
  obtain ⟨e1, e2⟩ := h
  obtain ⟨x, y, z⟩ := cancelStr _ _ _ _ _ _ h1 h2 e2
  exact ⟨by rw [sym_inj _ _ _ _ e1, x, y], z⟩

theorem AddOp.tok_inj (a b : AddOp) (r r' : Rng) (h : a.tok r = b.tok r') : a = b ∧ r = r' := by
  cases a <;> cases b <;> simp [AddOp.tok, sym] at h ⊢ <;> exact h

theorem MulOp.tok_inj (a b : MulOp) (r r' : Rng) (h : a.tok r = b.tok r') : a = b ∧ r = r' := by
  cases a <;> cases b <;> simp [MulOp.tok, sym] at h ⊢ <;> exact h

/-- The second token decides what a term that begins with a symbol is. -/
theorem QId.second (a : QId) (r : List Tok) (h : NotHead glues r) (t u : Tok) (rest : List Tok)
    (he : a.yield ++ r = t :: u :: rest) : isQuote u.ty = false := by
  have key : ∀ (l : List IdCh) (x : List Tok), NotHead isQuote x → l.map IdCh.tok ++ x = u :: rest → isQuote u.ty = false := by
    intro l x hx e
    cases l with
    | nil =>
      have e : x = u :: rest := e
      subst e; exact NotHead.cons.mp hx
    | cons c l =>
      injection e with e1 e2
      rw [← e1]; cases c with | mk k _ _ => cases k <;> rfl
  cases a with
  | plain i =>
    injection he with e1 e2
    exact key _ _ (h.mono glues_Q) e2
  | qualified q d n =>
    simp only [QId.yield, List.append_assoc, List.cons_append] at he
    injection he with e1 e2
    exact key q.rest _ (NotHead.cons.mpr rfl) e2

theorem PTail.glue (t : PTail) (r : List Tok) (h : NotHead gluesP r) : NotHead glues (t.yield ++ r) := by
  cases t with
  | nil => exact h.mono gluesP_T
  | cons op r' c rest => cases op <;> exact NotHead.cons.mpr rfl

theorem ETail.glue (t : ETail) (r : List Tok) (h : NotHead gluesE r) : NotHead gluesP (t.yield ++ r) := by
  cases t with
  | nil => exact h.mono gluesE_P
  | cons op r' c rest => cases op <;> exact NotHead.cons.mpr rfl

/-- A value of an attribute reference is read in one way. -/
theorem AttrVal.cancel (a b : AttrVal) (r1 r2 : List Tok) (f1 : Free a.yield) (f2 : Free b.yield) (h1 : NotHead glues r1)
    (h2 : NotHead glues r2) (h : a.yield ++ r1 = b.yield ++ r2) : a = b ∧ r1 = r2 := by
  cases a with
  | literal eq d => rw [AttrVal.yield] at f1; exact absurd rfl (Free.cons.mp f1).1
  | loc r =>
    cases b with
    | literal eq d => rw [AttrVal.yield] at f2; exact absurd rfl (Free.cons.mp f2).1
    | loc r' => injection h with e1 e2; exact ⟨by rw [sym_inj _ _ _ _ e1], e2⟩
    | id i => cases i <;> (injection h with e1 e2; injection e1 with e3; cases e3)
  | id i =>
    cases b with
    | literal eq d => rw [AttrVal.yield] at f2; exact absurd rfl (Free.cons.mp f2).1
    | loc r' => cases i <;> (injection h with e1 e2; injection e1 with e3; cases e3)
    | id j => obtain ⟨e1, e2⟩ := QId.cancel i j r1 r2 h1 h2 h; exact ⟨by rw [e1], e2⟩

/-- The type of the first token of a term. -/
def Term.first : Term → Ty
  | .par _ _ _ => .lpar
  | .loc _ => .asterisk
  | .attr _ _ _ _ _ => .ordsymbol
  | .id _ => .ordsymbol
  | .num _ => .num
  | .selfDef _ _ _ => .ordsymbol
  | .literal _ _ => .equals

theorem Term.first_eq (t : Term) (r : List Tok) : ∃ x y, t.yield ++ r = x :: y ∧ x.ty = t.first := by
  cases t with
  | id i => cases i <;> exact ⟨_, _, rfl, rfl⟩
  | _ => exact ⟨_, _, rfl, rfl⟩

theorem Term.first_same (a b : Term) (r1 r2 : List Tok) (h : a.yield ++ r1 = b.yield ++ r2) : a.first = b.first := by
  obtain ⟨x, y, e1, e2⟩ := a.first_eq r1
  obtain ⟨x', y', e3, e4⟩ := b.first_eq r2
  rw [e1, e3] at h
  injection h with h1 h2
  rw [← e2, ← e4, h1]

mutual
theorem Expr.cancel : ∀ (a b : Expr) (r1 r2 : List Tok), Free a.yield → Free b.yield → NotHead gluesE r1 → NotHead gluesE r2 →
    a.yield ++ r1 = b.yield ++ r2 → a = b ∧ r1 = r2
  | .mk h t, .mk h' t', r1, r2, f1, f2, g1, g2, e => by
    simp only [Expr.yield] at f1 f2 e
    rw [Free.append] at f1 f2
    rw [List.append_assoc, List.append_assoc] at e
    obtain ⟨e1, e2⟩ := Product.cancel h h' _ _ f1.1 f2.1 (t.glue r1 g1) (t'.glue r2 g2) e
    obtain ⟨e3, e4⟩ := ETail.cancel t t' r1 r2 f1.2 f2.2 g1 g2 e2
    exact ⟨by rw [e1, e3], e4⟩
theorem ETail.cancel : ∀ (a b : ETail) (r1 r2 : List Tok), Free a.yield → Free b.yield → NotHead gluesE r1 → NotHead gluesE r2 →
    a.yield ++ r1 = b.yield ++ r2 → a = b ∧ r1 = r2
  | .nil, .nil, _, _, _, _, _, _, e => ⟨rfl, e⟩
  | .nil, .cons op r s rest, r1, r2, _, _, g1, _, e => by
    have e : r1 = op.tok r :: (s.yield ++ rest.yield ++ r2) := e
    subst e; cases op <;> (have := NotHead.cons.mp g1; cases this)
  | .cons op r s rest, .nil, r1, r2, _, _, _, g2, e => by
    have e : op.tok r :: (s.yield ++ rest.yield ++ r1) = r2 := e
    subst e; cases op <;> (have := NotHead.cons.mp g2; cases this)
  | .cons op r s rest, .cons op' r' s' rest', r1, r2, f1, f2, g1, g2, e => by
    simp only [ETail.yield] at f1 f2 e
    rw [Free.cons, Free.append] at f1 f2
    rw [List.cons_append, List.cons_append, List.append_assoc, List.append_assoc] at e
    injection e with e1 e2
    obtain ⟨e3, e4⟩ := AddOp.tok_inj _ _ _ _ e1
    obtain ⟨e5, e6⟩ := Product.cancel s s' _ _ f1.2.1 f2.2.1 (rest.glue r1 g1) (rest'.glue r2 g2) e2
    obtain ⟨e7, e8⟩ := ETail.cancel rest rest' r1 r2 f1.2.2 f2.2.2 g1 g2 e6
    exact ⟨by rw [e3, e4, e5, e7], e8⟩
theorem Product.cancel : ∀ (a b : Product) (r1 r2 : List Tok), Free a.yield → Free b.yield → NotHead gluesP r1 → NotHead gluesP r2 →
    a.yield ++ r1 = b.yield ++ r2 → a = b ∧ r1 = r2
  | .mk h t, .mk h' t', r1, r2, f1, f2, g1, g2, e => by
    simp only [Product.yield] at f1 f2 e
    rw [Free.append] at f1 f2
    rw [List.append_assoc, List.append_assoc] at e
    obtain ⟨e1, e2⟩ := Signed.cancel h h' _ _ f1.1 f2.1 (t.glue r1 g1) (t'.glue r2 g2) e
    obtain ⟨e3, e4⟩ := PTail.cancel t t' r1 r2 f1.2 f2.2 g1 g2 e2
    exact ⟨by rw [e1, e3], e4⟩
theorem PTail.cancel : ∀ (a b : PTail) (r1 r2 : List Tok), Free a.yield → Free b.yield → NotHead gluesP r1 → NotHead gluesP r2 →
    a.yield ++ r1 = b.yield ++ r2 → a = b ∧ r1 = r2
  | .nil, .nil, _, _, _, _, _, _, e => ⟨rfl, e⟩
  | .nil, .cons op r s rest, r1, r2, _, _, g1, _, e => by
    have e : r1 = op.tok r :: (s.yield ++ rest.yield ++ r2) := e
    subst e; cases op <;> (have := NotHead.cons.mp g1; cases this)
  | .cons op r s rest, .nil, r1, r2, _, _, _, g2, e => by
    have e : op.tok r :: (s.yield ++ rest.yield ++ r1) = r2 := e
    subst e; cases op <;> (have := NotHead.cons.mp g2; cases this)
  | .cons op r s rest, .cons op' r' s' rest', r1, r2, f1, f2, g1, g2, e => by
    simp only [PTail.yield] at f1 f2 e
    rw [Free.cons, Free.append] at f1 f2
    rw [List.cons_append, List.cons_append, List.append_assoc, List.append_assoc] at e
    injection e with e1 e2
    obtain ⟨e3, e4⟩ := MulOp.tok_inj _ _ _ _ e1
    obtain ⟨e5, e6⟩ := Signed.cancel s s' _ _ f1.2.1 f2.2.1 (rest.glue r1 g1) (rest'.glue r2 g2) e2
    obtain ⟨e7, e8⟩ := PTail.cancel rest rest' r1 r2 f1.2.2 f2.2.2 g1 g2 e6
    exact ⟨by rw [e3, e4, e5, e7], e8⟩
theorem Signed.cancel : ∀ (a b : Signed) (r1 r2 : List Tok), Free a.yield → Free b.yield → NotHead glues r1 → NotHead glues r2 →
    a.yield ++ r1 = b.yield ++ r2 → a = b ∧ r1 = r2
  | .term t, .term t', r1, r2, f1, f2, g1, g2, e => by
    obtain ⟨e1, e2⟩ := Term.cancel t t' r1 r2 f1 f2 g1 g2 e
    exact ⟨by rw [e1], e2⟩
  | .term t, .sign op r c, r1, r2, _, _, _, _, e => by
    exfalso
    obtain ⟨x, y, e1, e2⟩ := t.first_eq r1
    have e : t.yield ++ r1 = op.tok r :: (c.yield ++ r2) := e
    rw [e1] at e
    injection e with e3 e4
    rw [e3] at e2
    cases op <;> cases t <;> cases e2
  | .sign op r c, .term t, r1, r2, _, _, _, _, e => by
    exfalso
    obtain ⟨x, y, e1, e2⟩ := t.first_eq r2
    have e : op.tok r :: (c.yield ++ r1) = t.yield ++ r2 := e
    rw [e1] at e
    injection e with e3 e4
    rw [← e3] at e2
    cases op <;> cases t <;> cases e2
  | .sign op r c, .sign op' r' c', r1, r2, f1, f2, g1, g2, e => by
    simp only [Signed.yield] at f1 f2 e
    rw [Free.cons] at f1 f2
    injection e with e1 e2
    obtain ⟨e3, e4⟩ := AddOp.tok_inj _ _ _ _ e1
    obtain ⟨e5, e6⟩ := Signed.cancel c c' r1 r2 f1.2 f2.2 g1 g2 e2
    exact ⟨by rw [e3, e4, e5], e6⟩
theorem Term.cancel : ∀ (a b : Term) (r1 r2 : List Tok), Free a.yield → Free b.yield → NotHead glues r1 → NotHead glues r2 →
    a.yield ++ r1 = b.yield ++ r2 → a = b ∧ r1 = r2
  | .par l e r, b, r1, r2, f1, f2, g1, g2, h => by
    have hf := Term.first_same _ _ _ _ h
    cases b with
    | par l' e' r' =>
      simp only [Term.yield] at f1 f2 h
      rw [Free.cons, Free.append] at f1 f2
      rw [List.cons_append, List.cons_append, List.append_assoc, List.append_assoc] at h
      injection h with h1 h2
      obtain ⟨e1, e2⟩ := Expr.cancel e e' _ _ f1.2.1 f2.2.1 (NotHead.cons.mpr rfl) (NotHead.cons.mpr rfl) h2
      injection e2 with e3 e4
      exact ⟨by rw [sym_inj _ _ _ _ h1, e1, sym_inj _ _ _ _ e3], e4⟩
    | _ => cases hf
  | .loc r, b, r1, r2, f1, f2, g1, g2, h => by
    have hf := Term.first_same _ _ _ _ h
    cases b with
    | loc r' => injection h with e1 e2; exact ⟨by rw [sym_inj _ _ _ _ e1], e2⟩
    | _ => cases hf
  | .attr t ht r q v, b, r1, r2, f1, f2, g1, g2, h => by
    have hf := Term.first_same _ _ _ _ h
    cases b with
    | attr t' ht' r' q' v' =>
      simp only [Term.yield] at f1 f2 h
      rw [Free.cons, Free.cons] at f1 f2
      injection h with h1 h2
      injection h2 with h2 h3
      injection h1 with h4 h5 h6
      obtain ⟨e1, e2⟩ := AttrVal.cancel v v' r1 r2 f1.2.2 f2.2.2 g1 g2 h3
      subst h5 h6 e1
      have := sym_inj _ _ _ _ h2
      subst this
      exact ⟨rfl, e2⟩
    | id i =>
      have := QId.second i r2 g2 _ _ _ h.symm
      cases this
    | selfDef t' r' s => injection h with h1 h2; injection h2 with h2 h3; injection h2 with h4; cases h4
    | _ => cases hf
  | .id i, b, r1, r2, f1, f2, g1, g2, h => by
    have hf := Term.first_same _ _ _ _ h
    cases b with
    | id j => obtain ⟨e1, e2⟩ := QId.cancel i j r1 r2 g1 g2 h; exact ⟨by rw [e1], e2⟩
    | attr t ht r q v => have := QId.second i r1 g1 _ _ _ h; cases this
    | selfDef t r s => have := QId.second i r1 g1 _ _ _ h; cases this
    | _ => cases hf
  | .num n, b, r1, r2, f1, f2, g1, g2, h => by
    have hf := Term.first_same _ _ _ _ h
    cases b with
    | num m =>
      obtain ⟨e1, e2⟩ := Num.cancel n m r1 r2 (g1.mono glues_N) (g2.mono glues_N) h
      exact ⟨by rw [e1], e2⟩
    | _ => cases hf
  | .selfDef t r s, b, r1, r2, f1, f2, g1, g2, h => by
    have hf := Term.first_same _ _ _ _ h
    cases b with
    | attr t' ht' r' q' v' => injection h with h1 h2; injection h2 with h2 h3; injection h2 with h4; cases h4
    | id i => have := QId.second i r2 g2 _ _ _ h.symm; cases this
    | selfDef t' r' s' =>
      injection h with h1 h2
      injection h1 with h4 h5 h6
      obtain ⟨e1, e2⟩ := Str.cancel s s' r1 r2 (g1.mono glues_Q) (g2.mono glues_Q) h2
      exact ⟨by rw [h5, h6, e1], e2⟩
    | _ => cases hf
  | .literal eq d, b, r1, r2, f1, f2, g1, g2, h => by
    rw [Term.yield] at f1; exact absurd rfl (Free.cons.mp f1).1
end

end Verif.Gram
