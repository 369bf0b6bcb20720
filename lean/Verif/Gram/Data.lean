import Verif.Gram.Asm
/-! Data definitions are unambiguous as long as there are no literals in them. -/
namespace Verif.Gram

open Lexing (Pos Rng Ty)

theorem CommaRpar.lpar {r : List Tok} (h : CommaRpar r) {q : Rng} {ts : List Tok} : r ≠ sym .lpar '(' q :: ts := by
  rintro rfl
  obtain ⟨t, us, h1, h2⟩ := h
  injection h1 with h1 _
  subst h1
  rcases h2 with h2 | h2 <;> cases h2

theorem EA.cancel (a b : EA) (r1 r2 : List Tok) (f1 : Free a.yield) (f2 : Free b.yield) (g1 : CommaRpar r1) (g2 : CommaRpar r2)
    (h : a.yield ++ r1 = b.yield ++ r2) : a = b ∧ r1 = r2 := by
  cases a with
  | expr e =>
    cases b with
    | expr e' =>
      simp only [EA.yield] at h f1 f2
      obtain ⟨rfl, h2⟩ := Expr.cancel e e' _ _ f1 f2 (g1.notHead ⟨rfl, rfl⟩) (g2.notHead ⟨rfl, rfl⟩) h
      exact ⟨rfl, h2⟩
    | addr d l b r =>
      simp only [EA.yield, List.append_assoc, List.cons_append] at h f1 f2
      obtain ⟨-, h2⟩ := Expr.cancel e d _ _ f1 (Free.append.mp f2).1 (g1.notHead ⟨rfl, rfl⟩) .lpar h
      exact absurd h2 g1.lpar
  | addr d l x r =>
    simp only [EA.yield, List.append_assoc, List.cons_append, List.nil_append] at h f1
    cases b with
    | expr e =>
      simp only [EA.yield] at h f2
      obtain ⟨-, h2⟩ := Expr.cancel d e _ _ (Free.append.mp f1).1 f2 .lpar (g2.notHead ⟨rfl, rfl⟩) h
      exact absurd h2.symm g2.lpar
    | addr d' l' b' r' =>
      simp only [EA.yield, List.append_assoc, List.cons_append, List.nil_append] at h f2
      rw [Free.mid, Free.append] at f1 f2
      obtain ⟨rfl, h2⟩ := Expr.cancel d d' _ _ f1.1 f2.1 .lpar .lpar h
      injection h2 with h3 h4
      obtain ⟨rfl, h5⟩ := Expr.cancel x b' _ _ f1.2.2.1 f2.2.2.1 .rpar .rpar h4
      injection h5 with h6 h7
      exact ⟨by rw [sym_inj _ _ _ _ h3, sym_inj _ _ _ _ h6], h7⟩

theorem EATail.follow (l : EATail) (q : Rng) (r : List Tok) : CommaRpar (l.yield ++ sym .rpar ')' q :: r) := by
  cases l with
  | nil => rw [EATail.yield]; exact ⟨_, _, rfl, .inr rfl⟩
  | cons c o l => rw [EATail.yield]; exact ⟨_, _, rfl, .inl rfl⟩

theorem EATail.cancel : ∀ (a b : EATail) (q q' : Rng) (r1 r2 : List Tok), Free a.yield → Free b.yield →
    a.yield ++ sym .rpar ')' q :: r1 = b.yield ++ sym .rpar ')' q' :: r2 → a = b ∧ sym .rpar ')' q :: r1 = sym .rpar ')' q' :: r2
  | .nil, .nil, _, _, _, _, _, _, h => by simp only [EATail.yield] at h; exact ⟨rfl, h⟩
  | .nil, .cons c o l, _, _, _, _, _, _, h => by
    simp only [EATail.yield, List.cons_append] at h
    injection h with h1 _; exact absurd h1 (tok_ne (by decide))
  | .cons c o l, .nil, _, _, _, _, _, _, h => by
    simp only [EATail.yield, List.cons_append] at h
    injection h with h1 _; exact absurd h1 (tok_ne (by decide))
  | .cons c o l, .cons c' o' l', q, q', r1, r2, f1, f2, h => by
    simp only [EATail.yield, List.cons_append, List.append_assoc] at h f1 f2
    rw [Free.cons, Free.append] at f1 f2
    injection h with h1 h2
    obtain ⟨rfl, h3⟩ := EA.cancel o o' _ _ f1.2.1 f2.2.1 (l.follow _ _) (l'.follow _ _) h2
    obtain ⟨rfl, h4⟩ := EATail.cancel l l' q q' r1 r2 f1.2.2 f2.2.2 h3
    exact ⟨by rw [sym_inj _ _ _ _ h1], h4⟩

/-- The parts of a data definition. -/
inductive Item where
  | group (l : Rng) (f : EA) (rest : EATail) (r : Rng)
  | word (d : DId)
  | str (q1 : Quote) (chs : List StrCh) (q2 : Quote)

/-- Tokens of a part. -/
def Item.yield : Item → List Tok
  | .group l f rest r => sym .lpar '(' l :: (f.yield ++ (rest.yield ++ [sym .rpar ')' r]))
  | .word d => d.yield
  | .str q1 chs q2 => q1.tok :: (chs.flatMap (·.yield) ++ [q2.tok])

/-- Tokens of all of them. -/
def itemsYield : List Item → List Tok
  | [] => []
  | i :: l => i.yield ++ itemsYield l

/-- What words of a data definition consist of. -/
def isDCh : Ty → Bool
  | .identifier | .num | .ordsymbol | .minus | .dot => true
  | _ => false

/-- What may not follow a data definition. -/
def gluesD : Ty → Bool
  | .lpar | .apostrophe | .attr => true
  | t => isDCh t

theorem gluesD_D : ∀ t, isDCh t = true → gluesD t = true := by intro t; cases t <;> decide
theorem gluesD_Q : ∀ t, isQuote t = true → gluesD t = true := by intro t; cases t <;> decide

/-- Neither two words nor two strings in a row. -/
def Apart : List Item → Prop
  | .word d :: .word e :: l => False ∧ Apart (.word e :: l)
  | .str _ _ _ :: .str q1 c q2 :: l => False ∧ Apart (.str q1 c q2 :: l)
  | _ :: l => Apart l
  | [] => True

theorem DCh.ty (c : DCh) : isDCh c.tok.ty = true := by
  cases c with
  | word k t r => cases k <;> rfl
  | minus r => rfl
  | dot r => rfl

theorem DCh.tok_inj (a b : DCh) (h : a.tok = b.tok) : a = b := by
  cases a with
  | word k t r =>
    cases b with
    | word k' t' r' =>
      simp only [DCh.tok, Tok.mk.injEq] at h
      rw [Word.ty_inj _ _ h.1, h.2.1, h.2.2]
    | minus r' => cases k <;> (injection h with h; cases h)
    | dot r' => cases k <;> (injection h with h; cases h)
  | minus r =>
    cases b with
    | word k' t' r' => cases k' <;> (injection h with h; cases h)
    | minus r' => rw [sym_inj _ _ _ _ h]
    | dot r' => injection h with h; cases h
  | dot r =>
    cases b with
    | word k' t' r' => cases k' <;> (injection h with h; cases h)
    | minus r' => injection h with h; cases h
    | dot r' => rw [sym_inj _ _ _ _ h]

theorem DId.cancel (a b : DId) (r1 r2 : List Tok) (h1 : NotHead isDCh r1) (h2 : NotHead isDCh r2) (h : a.yield ++ r1 = b.yield ++ r2) :
    a = b ∧ r1 = r2 := by
  cases a; cases b
  simp only [DId.yield, List.cons_append, List.cons.injEq] at h
  obtain ⟨h3, h4⟩ := cancelList DCh.tok DCh.tok_inj isDCh DCh.ty _ _ _ _ h1 h2 h.2
  exact ⟨by rw [DCh.tok_inj _ _ h.1, h3], h4⟩

/-- Kinds of parts. -/
inductive Kind where
  | group | word | str | none
deriving DecidableEq

/-- The kind of a part. -/
def Item.kind : Item → Kind
  | .group _ _ _ _ => .group
  | .word _ => .word
  | .str _ _ _ => .str

/-- What a token begins. -/
def kindOf : Ty → Kind
  | .lpar => .group
  | .apostrophe | .attr => .str
  | t => if isDCh t then .word else .none

theorem Item.first (i : Item) (r : List Tok) : ∃ t ts, i.yield ++ r = t :: ts ∧ kindOf t.ty = i.kind := by
  cases i with
  | group l f rest q => exact ⟨_, _, rfl, rfl⟩
  | word d =>
    refine ⟨_, _, rfl, ?_⟩
    obtain ⟨f, rest⟩ := d
    cases f with
    | word k t r => cases k <;> rfl
    | minus r => rfl
    | dot r => rfl
  | str q1 c q2 =>
    refine ⟨_, _, rfl, ?_⟩
    obtain ⟨a, b⟩ := q1
    cases a <;> rfl

theorem notHead_item (i : Item) (r : List Tok) (P : Ty → Bool) (h : ∀ t, kindOf t = i.kind → P t = false) : NotHead P (i.yield ++ r) := by
  obtain ⟨t, ts, h1, h2⟩ := i.first r
  rw [h1, NotHead.cons]
  exact h _ h2

theorem kind_D {k : Kind} (h : k ≠ .word) (h' : k ≠ .none) : ∀ t, kindOf t = k → isDCh t = false := by
  intro t ht
  cases t <;> simp [kindOf, isDCh] at ht ⊢ <;> exact h ht.symm

theorem kind_Q {k : Kind} (h : k ≠ .str) : ∀ t, kindOf t = k → isQuote t = false := by
  intro t ht
  cases t <;> simp [kindOf, isQuote] at ht ⊢ <;> exact h ht.symm

theorem Item.kind_some (i : Item) : i.kind ≠ .none := by cases i <;> simp [Item.kind]

theorem Apart.tail {i : Item} {l : List Item} (h : Apart (i :: l)) : Apart l := by
  cases l with
  | nil => trivial
  | cons j l => cases i <;> cases j <;> simp [Apart] at h ⊢ <;> exact h

theorem Apart.word {d : DId} {l : List Item} (h : Apart (.word d :: l)) (r : List Tok) (g : NotHead gluesD r) : NotHead isDCh (itemsYield l ++ r) := by
  cases l with
  | nil => exact g.mono gluesD_D
  | cons j l =>
    rw [itemsYield, List.append_assoc]
    refine notHead_item j _ _ (kind_D ?_ j.kind_some)
    cases j <;> simp [Apart, Item.kind] at h ⊢

theorem Apart.str {q1 : Quote} {c : List StrCh} {q2 : Quote} {l : List Item} (h : Apart (.str q1 c q2 :: l)) (r : List Tok) (g : NotHead gluesD r) :
    NotHead isQuote (itemsYield l ++ r) := by
  cases l with
  | nil => exact g.mono gluesD_Q
  | cons j l =>
    rw [itemsYield, List.append_assoc]
    refine notHead_item j _ _ (kind_Q ?_)
    cases j <;> simp [Apart, Item.kind] at h ⊢

theorem gluesD_kind (t : Ty) (h : gluesD t = false) : kindOf t = .none := by
  cases t <;> simp [gluesD, isDCh, kindOf] at h ⊢

theorem items_cancel : ∀ (l m : List Item) (r1 r2 : List Tok), Apart l → Apart m → Free (itemsYield l) → Free (itemsYield m) →
    NotHead gluesD r1 → NotHead gluesD r2 → itemsYield l ++ r1 = itemsYield m ++ r2 → l = m ∧ r1 = r2
  | [], [], _, _, _, _, _, _, _, _, h => ⟨rfl, h⟩
  | [], i :: m, r1, r2, _, _, _, _, g1, _, h => by
    exfalso
    rw [itemsYield, itemsYield, List.append_assoc] at h
    obtain ⟨t, ts, h1, h2⟩ := i.first (itemsYield m ++ r2)
    have h : r1 = _ := h
    rw [h1] at h
    subst h
    rw [gluesD_kind _ (NotHead.cons.mp g1)] at h2
    exact i.kind_some h2.symm
  | i :: l, [], r1, r2, _, _, _, _, _, g2, h => by
    exfalso
    rw [itemsYield, itemsYield, List.append_assoc] at h
    obtain ⟨t, ts, h1, h2⟩ := i.first (itemsYield l ++ r1)
    have h : _ = r2 := h
    rw [h1] at h
    subst h
    rw [gluesD_kind _ (NotHead.cons.mp g2)] at h2
    exact i.kind_some h2.symm
  | i :: l, j :: m, r1, r2, a1, a2, f1, f2, g1, g2, h => by
    have ih := items_cancel l m r1 r2 a1.tail a2.tail
    rw [itemsYield, Free.append] at f1 f2
    rw [itemsYield, itemsYield, List.append_assoc, List.append_assoc] at h
    have hk : i.kind = j.kind := by
      obtain ⟨t, ts, h1, h2⟩ := i.first (itemsYield l ++ r1)
      obtain ⟨t', ts', h3, h4⟩ := j.first (itemsYield m ++ r2)
      rw [h1, h3] at h
      injection h with h5 _
      rw [← h2, ← h4, h5]
    suffices i = j ∧ itemsYield l ++ r1 = itemsYield m ++ r2 by
      obtain ⟨rfl, h2⟩ := this
      obtain ⟨rfl, h3⟩ := ih f1.2 f2.2 g1 g2 h2
      exact ⟨rfl, h3⟩
    cases i with
    | group o f rest q =>
      cases j with
      | group o' f' rest' q' =>
        simp only [Item.yield, List.cons_append, List.append_assoc, List.nil_append] at h f1 f2
        injection h with h1 h2
        rw [Free.cons, Free.append, Free.append] at f1 f2
        obtain ⟨rfl, h3⟩ := EA.cancel f f' _ _ f1.1.2.1 f2.1.2.1 (rest.follow _ _) (rest'.follow _ _) h2
        obtain ⟨rfl, h4⟩ := EATail.cancel rest rest' _ _ _ _ f1.1.2.2.1 f2.1.2.2.1 h3
        injection h4 with h5 h6
        exact ⟨by rw [sym_inj _ _ _ _ h1, sym_inj _ _ _ _ h5], h6⟩
      | _ => cases hk
    | word d =>
      cases j with
      | word d' =>
        obtain ⟨rfl, h2⟩ := DId.cancel d d' _ _ (a1.word _ g1) (a2.word _ g2) h
        exact ⟨rfl, h2⟩
      | _ => cases hk
    | str q c q' =>
      cases j with
      | str p d p' =>
        simp only [Item.yield, List.cons_append, List.append_assoc, List.nil_append] at h
        injection h with h1 h2
        obtain ⟨rfl, rfl, h3⟩ := cancelStr c d q' p' _ _ (a1.str _ g1) (a2.str _ g2) h2
        exact ⟨by rw [Quote.tok_inj _ _ h1], h3⟩
      | _ => cases hk

/-- A parenthesised expression as a part. -/
def Pars.item : Pars → Item
  | .mk l e r => .group l (.expr e) .nil r

/-- The parts of the duplication factor. -/
def Dupl.items : Dupl → List Item
  | .none => []
  | .some p => [p.item]

/-- The parts of the modifiers. -/
def Mods.items : Mods → List Item
  | .zero => []
  | .one p1 d1 => [p1.item, .word d1]
  | .two p1 d1 p2 d2 => [p1.item, .word d1, p2.item, .word d2]
  | .three p1 d1 p2 d2 p3 d3 => [p1.item, .word d1, p2.item, .word d2, p3.item, .word d3]

/-- A value as a part. -/
def Nominal.item : Nominal → Item
  | .str q1 c q2 => .str q1 c q2
  | .exprs l f rest r => .group l f rest r

/-- The parts of the value. -/
def NomO.items : NomO → List Item
  | .none => []
  | .nom n => [n.item]
  | .exprNom p n => [p.item, n.item]

/-- All parts. -/
def DataDef.items : DataDef → List Item
  | .mk d i m n => d.items ++ (.word i :: (m.items ++ n.items))

theorem itemsYield_append (l m : List Item) : itemsYield (l ++ m) = itemsYield l ++ itemsYield m := by
  induction l with
  | nil => rfl
  | cons i l ih => rw [List.cons_append, itemsYield, itemsYield, ih, List.append_assoc]

theorem Item.word_yield (d : DId) : (Item.word d).yield = d.yield := rfl

theorem Pars.item_yield (p : Pars) : p.item.yield = p.yield := by
  cases p; simp [Pars.item, Item.yield, Pars.yield, EA.yield, EATail.yield]

theorem Dupl.items_yield (d : Dupl) : itemsYield d.items = d.yield := by
  cases d <;> simp [Dupl.items, itemsYield, Dupl.yield, Pars.item_yield]

theorem Mods.items_yield (d : Mods) : itemsYield d.items = d.yield := by
  cases d <;> simp [Mods.items, itemsYield, Mods.yield, Pars.item_yield, Item.word_yield]

theorem Nominal.item_yield (n : Nominal) : n.item.yield = n.yield := by
  cases n <;> simp [Nominal.item, Item.yield, Nominal.yield]

theorem NomO.items_yield (d : NomO) : itemsYield d.items = d.yield := by
  cases d <;> simp [NomO.items, itemsYield, NomO.yield, Pars.item_yield, Nominal.item_yield]

theorem DataDef.items_yield (d : DataDef) : itemsYield d.items = d.yield := by
  cases d with | mk d i m n =>
  simp [DataDef.items, DataDef.yield, itemsYield_append, itemsYield, Dupl.items_yield, Mods.items_yield, NomO.items_yield, Item.yield]

theorem DataDef.apart (d : DataDef) : Apart d.items := by
  cases d with | mk d i m n =>
  rcases d with _ | ⟨_, _, _⟩ <;> rcases m with _ | ⟨⟨_, _, _⟩, _⟩ | ⟨⟨_, _, _⟩, _, ⟨_, _, _⟩, _⟩ | ⟨⟨_, _, _⟩, _, ⟨_, _, _⟩, _, ⟨_, _, _⟩, _⟩ <;>
    rcases n with _ | (_ | _) | ⟨⟨_, _, _⟩, _ | _⟩ <;>
    simp [DataDef.items, Dupl.items, Mods.items, NomO.items, Pars.item, Nominal.item, Apart]

theorem Pars.item_inj {p q : Pars} (h : p.item = q.item) : p = q := by
  cases p; cases q; simp only [Pars.item, Item.group.injEq, EA.expr.injEq] at h
  obtain ⟨h1, h2, -, h3⟩ := h
  rw [h1, h2, h3]

theorem Pars.item_iff (p q : Pars) : p.item = q.item ↔ p = q := ⟨Pars.item_inj, fun h => by rw [h]⟩

theorem Nominal.item_inj {p q : Nominal} (h : p.item = q.item) : p = q := by
  cases p <;> cases q <;> simp_all [Nominal.item]

theorem Nominal.item_iff (p q : Nominal) : p.item = q.item ↔ p = q := ⟨Nominal.item_inj, fun h => by rw [h]⟩

theorem Pars.item_word (p : Pars) (d : DId) : p.item ≠ .word d := by cases p; simp [Pars.item]
theorem Nominal.item_word (p : Nominal) (d : DId) : p.item ≠ .word d := by cases p <;> simp [Nominal.item]

theorem mods_inj (m m' : Mods) (n n' : NomO) (h : m.items ++ n.items = m'.items ++ n'.items) : m = m' ∧ n = n' := by
  cases m <;> cases m' <;> cases n <;> cases n' <;>
    simp [Mods.items, NomO.items, Pars.item_iff, Nominal.item_iff, Pars.item_word, Nominal.item_word, (Pars.item_word _ _).symm,
      (Nominal.item_word _ _).symm] at h ⊢ <;> simp_all

theorem DataDef.items_inj (a b : DataDef) (h : a.items = b.items) : a = b := by
  cases a with | mk d i m n => cases b with | mk d' i' m' n' =>
  cases d with
  | none =>
    cases d' with
    | none =>
      simp only [DataDef.items, Dupl.items, List.nil_append, List.cons.injEq, Item.word.injEq] at h
      obtain ⟨rfl, h⟩ := h
      obtain ⟨rfl, rfl⟩ := mods_inj _ _ _ _ h
      rfl
    | some p =>
      simp only [DataDef.items, Dupl.items, List.nil_append, List.cons_append, List.cons.injEq] at h
      exact absurd h.1.symm (p.item_word _)
  | some p =>
    cases d' with
    | none =>
      simp only [DataDef.items, Dupl.items, List.nil_append, List.cons_append, List.cons.injEq] at h
      exact absurd h.1 (p.item_word _)
    | some q =>
      simp only [DataDef.items, Dupl.items, List.nil_append, List.cons_append, List.cons.injEq, Item.word.injEq] at h
      obtain ⟨h1, rfl, h⟩ := h
      obtain ⟨rfl, rfl⟩ := mods_inj _ _ _ _ h
      rw [Pars.item_inj h1]

theorem DataDef.cancel (a b : DataDef) (r1 r2 : List Tok) (f1 : Free a.yield) (f2 : Free b.yield) (g1 : NotHead gluesD r1)
    (g2 : NotHead gluesD r2) (h : a.yield ++ r1 = b.yield ++ r2) : a = b ∧ r1 = r2 := by
  rw [← DataDef.items_yield] at f1 f2 h
  rw [← DataDef.items_yield] at h
  obtain ⟨h1, h2⟩ := items_cancel _ _ _ _ a.apart b.apart f1 f2 g1 g2 h
  exact ⟨DataDef.items_inj _ _ h1, h2⟩

theorem dataDef_separable : Separable DataDef.yield where
  cancel a b r1 r2 f1 f2 g1 g2 h :=
    DataDef.cancel a b r1 r2 f1 f2 (g1.notHead ⟨rfl, rfl, rfl⟩) (g2.notHead ⟨rfl, rfl, rfl⟩) h
  first a r := by
    rw [← DataDef.items_yield]
    have : ∃ i l, a.items = i :: l := by
      cases a with | mk d i m n => cases d <;> exact ⟨_, _, rfl⟩
    obtain ⟨i, l, hi⟩ := this
    rw [hi, itemsYield, List.append_assoc]
    obtain ⟨t, ts, h1, h2⟩ := i.first (itemsYield l ++ r)
    refine ⟨t, ts, h1, ?_⟩
    have := i.kind_some
    rw [← h2] at this
    refine ⟨?_, ?_, ?_⟩ <;> intro h <;> rw [h] at this <;> exact this rfl

end Verif.Gram
