import Verif.Gram.Data
/-! Operands are separated by commas outside of parentheses and strings. -/
namespace Verif.Gram

open Lexing (Pos Rng Ty)

/-- Where the reader is behind a text. -/
def Where.run (w : Where) (ts : List Tok) : Where := ts.foldl (fun w t => w.step t.ty) w

theorem Where.run_append (w : Where) (a b : List Tok) : w.run (a ++ b) = (w.run a).run b := by
  rw [Where.run, Where.run, Where.run, List.foldl_append]

theorem Where.run_cons (w : Where) (t : Tok) (b : List Tok) : w.run (t :: b) = (w.step t.ty).run b := rfl

/-- Outside of a string at this depth. -/
def Where.At (w : Where) (d : Nat) : Prop := w = .out d ∨ w = .quoted d

/-- No comma in the text separates. -/
def Quiet : Where → List Tok → Prop
  | _, [] => True
  | w, t :: ts => ¬(w.top = true ∧ t.ty = .comma) ∧ Quiet (w.step t.ty) ts

theorem Quiet.append {a b : List Tok} : ∀ {w : Where}, Quiet w (a ++ b) ↔ Quiet w a ∧ Quiet (w.run a) b := by
  induction a with
  | nil => intro w; exact ⟨fun h => ⟨trivial, h⟩, fun h => h.2⟩
  | cons t a ih =>
    intro w
    rw [List.cons_append, Quiet, Quiet, ih, Where.run_cons]
    exact ⟨fun h => ⟨⟨h.1, h.2.1⟩, h.2.2⟩, fun h => ⟨h.1.1, h.1.2, h.2⟩⟩

/-- Passing over the text at a depth: nothing separates, and the reader comes out at the same depth. -/
def Passes (d : Nat) (w : Where) (ts : List Tok) : Prop := Quiet w ts ∧ (w.run ts).At d

theorem Passes.append {d : Nat} {w : Where} {a b : List Tok} (h1 : Passes d w a) (h2 : Passes d (w.run a) b) : Passes d w (a ++ b) :=
  ⟨Quiet.append.mpr ⟨h1.1, h2.1⟩, by rw [Where.run_append]; exact h2.2⟩

/-- Tokens that change nothing outside of strings. -/
def plain : Ty → Bool
  | .apostrophe | .lpar | .rpar | .comma | .attr => false
  | _ => true

theorem step_plain {w : Where} {d : Nat} (h : w.At d) {t : Ty} (ht : plain t = true) : w.step t = .out d := by
  rcases h with rfl | rfl <;> cases t <;> first | rfl | cases ht

/-- A token that is not a quote outside of strings. -/
theorem step_at {w : Where} {d : Nat} (h : w.At d) {t : Ty} (ht : isQuote t = false) : w.step t = stepOut d t := by
  rcases h with rfl | rfl
  · rfl
  · cases t <;> first | rfl | cases ht

theorem passes_nil {d : Nat} {w : Where} (h : w.At d) : Passes d w [] := ⟨trivial, h⟩

theorem passes_plain {d : Nat} {w : Where} (h : w.At d) (t : Tok) (ht : plain t.ty = true) {ts : List Tok} (hs : Passes d (.out d) ts) :
    Passes d w (t :: ts) := by
  refine ⟨⟨?_, ?_⟩, ?_⟩
  · rintro ⟨-, h2⟩; rw [h2] at ht; cases ht
  · rw [step_plain h ht]; exact hs.1
  · rw [Where.run_cons, step_plain h ht]; exact hs.2

theorem passes_all {d : Nat} : ∀ (ts : List Tok), (∀ t ∈ ts, plain t.ty = true) → ∀ {w : Where}, w.At d → Passes d w ts
  | [], _, _, h => passes_nil h
  | t :: ts, ht, _, h => passes_plain h t (ht t (List.mem_cons_self ..)) (passes_all ts (fun x hx => ht x (List.mem_cons_of_mem _ hx)) (.inl rfl))

/-- In parentheses. -/
theorem passes_par {d : Nat} {w : Where} (h : w.At d) (l r : Rng) {ts : List Tok} (hs : Passes (d + 1) (.out (d + 1)) ts) :
    Passes d w (sym .lpar '(' l :: (ts ++ [sym .rpar ')' r])) := by
  have e : w.step (sym .lpar '(' l).ty = .out (d + 1) := step_at h rfl
  have e2 : ((Where.out (d + 1)).run ts).step (sym .rpar ')' r).ty = .out d := step_at hs.2 rfl
  refine ⟨⟨(by rintro ⟨-, h2⟩; cases h2), ?_⟩, ?_⟩
  · rw [e, Quiet.append]
    exact ⟨hs.1, (by rintro ⟨-, h2⟩; cases h2), trivial⟩
  · rw [Where.run_cons, e, Where.run_append, Where.run_cons, e2]
    exact .inl rfl

/-- A comma in parentheses. -/
theorem passes_comma {d : Nat} {w : Where} (h : w.At (d + 1)) (c : Rng) {ts : List Tok} (hs : Passes (d + 1) (.out (d + 1)) ts) :
    Passes (d + 1) w (sym .comma ',' c :: ts) := by
  have e : w.step (sym .comma ',' c).ty = .out (d + 1) := step_at h rfl
  refine ⟨⟨?_, by rw [e]; exact hs.1⟩, by rw [Where.run_cons, e]; exact hs.2⟩
  rintro ⟨h2, -⟩
  rcases h with rfl | rfl <;> cases h2

theorem Id.plain (i : Id) : ∀ t ∈ i.yield, Verif.Gram.plain t.ty = true := by
  intro t ht
  rw [Id.yield] at ht
  rcases List.mem_cons.mp ht with rfl | ht
  · rfl
  · obtain ⟨c, -, rfl⟩ := List.mem_map.mp ht
    cases c with | mk k _ _ => cases k <;> rfl

theorem QId.plainT (i : QId) : ∀ t ∈ i.yield, Verif.Gram.plain t.ty = true := by
  cases i with
  | plain i => exact i.plain
  | qualified q d n =>
    intro t ht
    rcases List.mem_append.mp ht with ht | ht
    · exact q.plain t ht
    · rcases List.mem_cons.mp ht with rfl | ht
      · rfl
      · exact n.plain t ht

theorem Num.plain (n : Num) : ∀ t ∈ n.yield, Verif.Gram.plain t.ty = true := by
  intro t ht
  rw [Num.yield] at ht
  rcases List.mem_cons.mp ht with rfl | ht
  · rfl
  · obtain ⟨c, -, rfl⟩ := List.mem_map.mp ht; rfl

theorem QId.passes (i : QId) {d : Nat} {w : Where} (h : w.At d) : Passes d w i.yield := passes_all _ i.plainT h
theorem Num.passes (i : Num) {d : Nat} {w : Where} (h : w.At d) : Passes d w i.yield := passes_all _ i.plain h

theorem step_inside_quote (d : Nat) (q : Quote) : (Where.inside d).step q.tok.ty = .quoted d := by
  cases q with | mk a r => cases a <;> simp [Where.step, Quote.tok, sym]

theorem step_quoted_quote (d : Nat) (q : Quote) : (Where.quoted d).step q.tok.ty = .inside d := by
  cases q with | mk a r => cases a <;> simp [Where.step, Quote.tok, sym]

theorem step_inside (d : Nat) {t : Ty} (h : isQuote t = false) : (Where.inside d).step t = .inside d := by
  cases t <;> first | rfl | cases h

theorem quote_not_comma (q : Quote) : q.tok.ty ≠ .comma := by
  cases q with | mk a r => cases a <;> simp [Quote.tok, sym]

theorem chs_run (d : Nat) : ∀ cs : List StrCh, Quiet (.inside d) (cs.flatMap (·.yield)) ∧ (Where.inside d).run (cs.flatMap (·.yield)) = .inside d
  | [] => ⟨trivial, rfl⟩
  | c :: cs => by
    have ih := chs_run d cs
    rw [List.flatMap_cons, Quiet.append, Where.run_append]
    have key : Quiet (.inside d) c.yield ∧ (Where.inside d).run c.yield = .inside d := by
      cases c with
      | one ty h t r =>
        have e : (Where.inside d).step ty = .inside d := step_inside d (str_ty ty h).1
        exact ⟨⟨(by rintro ⟨h, -⟩; cases h), trivial⟩, e⟩
      | amp a b => exact ⟨⟨(by rintro ⟨h, -⟩; cases h), (by rintro ⟨h, -⟩; cases h), trivial⟩, rfl⟩
      | apo a b =>
        refine ⟨⟨(by rintro ⟨h, -⟩; cases h), ?_, trivial⟩, ?_⟩
        · rw [step_inside_quote]; rintro ⟨-, h⟩; exact quote_not_comma b h
        · rw [StrCh.yield, Where.run_cons, step_inside_quote, Where.run_cons, step_quoted_quote]; rfl
    rw [key.2]
    exact ⟨⟨key.1, ih.1⟩, ih.2⟩

/-- A string behind something that is not one. -/
theorem Str.passes (s : Str) (d : Nat) : Passes d (.out d) s.yield := by
  have hc := chs_run d s.chs
  have hs : (Where.out d).step (sym .apostrophe '\'' s.open').ty = .inside d := rfl
  rw [Str.yield]
  refine ⟨⟨(by rintro ⟨-, h⟩; cases h), ?_⟩, ?_⟩
  · rw [hs, Quiet.append, hc.2]
    exact ⟨hc.1, (by rintro ⟨h, -⟩; cases h), trivial⟩
  · rw [Where.run_cons, hs, Where.run_append, hc.2, Where.run_cons, step_inside_quote]
    exact .inr rfl

theorem AddOp.plain (o : AddOp) (r : Rng) : Verif.Gram.plain (o.tok r).ty = true := by cases o <;> rfl
theorem MulOp.plain (o : MulOp) (r : Rng) : Verif.Gram.plain (o.tok r).ty = true := by cases o <;> rfl

mutual
theorem Expr.passes : ∀ (e : Expr) (d : Nat) (w : Where), w.At d → Free e.yield → Passes d w e.yield
  | .mk h t, d, w, hw, f => by
    rw [Expr.yield] at f ⊢
    rw [Free.append] at f
    have h1 := Product.passes h d w hw f.1
    exact h1.append (ETail.passes t d _ h1.2 f.2)
theorem ETail.passes : ∀ (e : ETail) (d : Nat) (w : Where), w.At d → Free e.yield → Passes d w e.yield
  | .nil, d, w, hw, f => by rw [ETail.yield]; exact passes_nil hw
  | .cons op r s rest, d, w, hw, f => by
    rw [ETail.yield] at f ⊢
    rw [Free.cons, Free.append] at f
    have h1 := Product.passes s d (.out d) (.inl rfl) f.2.1
    exact passes_plain hw _ (op.plain r) (h1.append (ETail.passes rest d _ h1.2 f.2.2))
theorem Product.passes : ∀ (e : Product) (d : Nat) (w : Where), w.At d → Free e.yield → Passes d w e.yield
  | .mk h t, d, w, hw, f => by
    rw [Product.yield] at f ⊢
    rw [Free.append] at f
    have h1 := Signed.passes h d w hw f.1
    exact h1.append (PTail.passes t d _ h1.2 f.2)
theorem PTail.passes : ∀ (e : PTail) (d : Nat) (w : Where), w.At d → Free e.yield → Passes d w e.yield
  | .nil, d, w, hw, f => by rw [PTail.yield]; exact passes_nil hw
  | .cons op r s rest, d, w, hw, f => by
    rw [PTail.yield] at f ⊢
    rw [Free.cons, Free.append] at f
    have h1 := Signed.passes s d (.out d) (.inl rfl) f.2.1
    exact passes_plain hw _ (op.plain r) (h1.append (PTail.passes rest d _ h1.2 f.2.2))
theorem Signed.passes : ∀ (e : Signed) (d : Nat) (w : Where), w.At d → Free e.yield → Passes d w e.yield
  | .term t, d, w, hw, f => Term.passes t d w hw f
  | .sign op r c, d, w, hw, f => by
    rw [Signed.yield] at f ⊢
    rw [Free.cons] at f
    exact passes_plain hw _ (op.plain r) (Signed.passes c d _ (.inl rfl) f.2)
theorem Term.passes : ∀ (e : Term) (d : Nat) (w : Where), w.At d → Free e.yield → Passes d w e.yield
  | .par l e r, d, w, hw, f => by
    rw [Term.yield] at f ⊢
    rw [Free.cons, Free.append] at f
    exact passes_par hw l r (Expr.passes e (d + 1) _ (.inl rfl) f.2.1)
  | .loc r, d, w, hw, f => by
    rw [Term.yield]; exact passes_plain hw _ rfl (passes_nil (.inl rfl))
  | .attr t ht r q v, d, w, hw, f => by
    rw [Term.yield] at f ⊢
    rw [Free.cons, Free.cons] at f
    refine passes_plain hw _ rfl ?_
    have key : Passes d (.out d) v.yield := by
      cases v with
      | literal eq x => have := f.2.2; rw [AttrVal.yield] at this; exact absurd rfl (Free.cons.mp this).1
      | loc s => rw [AttrVal.yield]; exact passes_plain (.inl rfl) _ rfl (passes_nil (.inl rfl))
      | id i => rw [AttrVal.yield]; exact i.passes (.inl rfl)
    exact ⟨⟨(by rintro ⟨-, h⟩; cases h), key.1⟩, key.2⟩
  | .id i, d, w, hw, f => by rw [Term.yield]; exact i.passes hw
  | .num n, d, w, hw, f => by rw [Term.yield]; exact n.passes hw
  | .selfDef t r s, d, w, hw, f => by
    rw [Term.yield]
    exact passes_plain hw _ rfl (s.passes d)
  | .literal eq x, d, w, hw, f => by rw [Term.yield] at f; exact absurd rfl (Free.cons.mp f).1
end

theorem MachOp.passes (o : MachOp) (f : Free o.yield) : Passes 0 (.out 0) o.yield := by
  have hd : ∀ d : Expr, ∀ x : List Tok, Free d.yield → (∀ w : Where, w.At 0 → Passes 0 w x) → Passes 0 (.out 0) (d.yield ++ x) := by
    intro d x fd hx
    have h1 := d.passes 0 (.out 0) (.inl rfl) fd
    exact h1.append (hx _ h1.2)
  cases o with
  | expr e => exact e.passes 0 _ (.inl rfl) f
  | base d l b r =>
    rw [MachOp.yield] at f ⊢
    rw [Free.mid, Free.append] at f
    exact hd d _ f.1 fun w hw => passes_par hw l r (b.passes 1 _ (.inl rfl) f.2.2.1)
  | both d l x c b r =>
    rw [MachOp.yield] at f ⊢
    rw [Free.mid, Free.mid, Free.append] at f
    refine hd d _ f.1 fun w hw => ?_
    have h1 := x.passes 1 (.out 1) (.inl rfl) f.2.2.1
    have := passes_par hw l r (h1.append (passes_comma h1.2 c (b.passes 1 (.out 1) (.inl rfl) f.2.2.2.2.1)))
    simp only [List.append_assoc, List.cons_append] at this
    exact this
  | noIndex d l c b r =>
    rw [MachOp.yield] at f ⊢
    rw [Free.mid, Free.cons, Free.append] at f
    refine hd d _ f.1 fun w hw => ?_
    exact passes_par hw l r (passes_comma (.inl rfl) c (b.passes 1 (.out 1) (.inl rfl) f.2.2.2.1))
  | noBase d l x c r =>
    rw [MachOp.yield] at f ⊢
    rw [Free.mid, Free.append] at f
    refine hd d _ f.1 fun w hw => ?_
    have h1 := x.passes 1 (.out 1) (.inl rfl) f.2.2.1
    have := passes_par hw l r (h1.append (passes_comma h1.2 c (passes_nil (.inl rfl))))
    simp only [List.append_assoc, List.cons_append, List.nil_append] at this
    exact this

mutual
theorem Inner.passes : ∀ (a : Inner) (d : Nat), Passes (d + 1) (.out (d + 1)) a.yield
  | .str s, d => by rw [Inner.yield]; exact s.passes _
  | .id i, d => by rw [Inner.yield]; exact i.passes (.inl rfl)
  | .num i, d => by rw [Inner.yield]; exact i.passes (.inl rfl)
  | .empty, d => by rw [Inner.yield]; exact passes_nil (.inl rfl)
  | .call i l f rest r, d => by
    rw [Inner.yield]
    have h1 := i.passes (d := d + 1) (w := .out (d + 1)) (.inl rfl)
    have h2 := Inner.passes f (d + 1)
    have := passes_par h1.2 l r (h2.append (Inners.passes rest (d + 1) _ h2.2))
    rw [List.append_assoc] at this
    exact h1.append this
theorem Inners.passes : ∀ (a : Inners) (d : Nat) (w : Where), w.At (d + 1) → Passes (d + 1) w a.yield
  | .nil, d, w, hw => by rw [Inners.yield]; exact passes_nil hw
  | .cons c o rest, d, w, hw => by
    rw [Inners.yield]
    have h2 := Inner.passes o d
    exact passes_comma hw c (h2.append (Inners.passes rest d _ h2.2))
end

theorem AsmOp.passes (o : AsmOp) (f : Free o.yield) : Passes 0 (.out 0) o.yield := by
  cases o with
  | call i l x rest r =>
    rw [AsmOp.yield]
    have h1 := i.passes (d := 0) (w := .out 0) (.inl rfl)
    have h2 := x.passes 0
    have := passes_par h1.2 l r (h2.append (rest.passes 0 _ h2.2))
    rw [List.append_assoc] at this
    exact h1.append this
  | triplet l w1 c1 w2 c2 w3 r =>
    have hp : ∀ w : IdCh, Verif.Gram.plain w.tok.ty = true := by
      intro w; cases w with | mk k _ _ => cases k <;> rfl
    have := passes_par (d := 0) (w := .out 0) (.inl rfl) l r (ts := [w1.tok, sym .comma ',' c1, w2.tok, sym .comma ',' c2, w3.tok])
      (passes_plain (.inl rfl) _ (hp w1) (passes_comma (.inl rfl) c1 (passes_plain (.inl rfl) _ (hp w2) (passes_comma (.inl rfl) c2
        (passes_plain (.inl rfl) _ (hp w3) (passes_nil (.inl rfl)))))))
    exact this
  | range l b c e r =>
    rw [AsmOp.yield] at f ⊢
    rw [Free.cons, Free.mid, Free.append] at f
    have h1 := b.passes 1 (.out 1) (.inl rfl) f.2.1
    have := passes_par (d := 0) (w := .out 0) (.inl rfl) l r (h1.append (passes_comma h1.2 c (e.passes 1 (.out 1) (.inl rfl) f.2.2.2.1)))
    simp only [List.append_assoc, List.cons_append] at this
    exact this
  | expr e => exact e.passes 0 _ (.inl rfl) f
  | str s => exact s.passes 0

/-- Operands that do not separate themselves. -/
def Whole {α : Type} (f : α → List Tok) : Prop := ∀ a, Free (f a) → Passes 0 (.out 0) (f a)

theorem cut_ne (ts : List Tok) : ∀ w : Where, cut w ts ≠ [] := by
  cases ts with
  | nil => intro w; simp [cut]
  | cons t ts =>
    intro w
    rw [cut]
    split
    · simp
    · split <;> simp

theorem cut_quiet : ∀ (ts rest : List Tok) (w : Where), Quiet w ts →
    cut w (ts ++ rest) = match cut (w.run ts) rest with
      | [] => [ts]
      | x :: xs => (ts ++ x) :: xs
  | [], rest, w, _ => by
    have := cut_ne rest w
    change cut w rest = match cut w rest with
      | [] => [[]]
      | x :: xs => x :: xs
    cases h : cut w rest with
    | nil => exact absurd h this
    | cons x xs => rfl
  | t :: ts, rest, w, h => by
    rw [List.cons_append, cut, if_neg h.1, cut_quiet ts rest _ h.2, Where.run_cons]
    cases hc : cut ((w.step t.ty).run ts) rest with
    | nil => exact absurd hc (cut_ne _ _)
    | cons x xs => rfl

theorem opt_passes {α : Type} {f : α → List Tok} (h : Whole f) (o : Option α) (hf : Free (optYield f o)) : Passes 0 (.out 0) (optYield f o) := by
  cases o with
  | none => exact passes_nil (.inl rfl)
  | some a => exact h a hf

theorem cut_rest {α : Type} {f : α → List Tok} (h : Whole f) : ∀ (o : Option α) (l : List (Rng × Option α)), Free (optYield f o) →
    Free (restYield f l) → cut (.out 0) (optYield f o ++ restYield f l) = optYield f o :: l.map fun p => optYield f p.2
  | o, [], fo, _ => by
    have ho := opt_passes h o fo
    rw [cut_quiet _ _ _ ho.1]
    have e : cut ((Where.out 0).run (optYield f o)) (restYield f ([] : List (Rng × Option α))) = [[]] := rfl
    rw [e]
    simp
  | o, (r, p) :: l, fo, fl => by
    have ho := opt_passes h o fo
    rw [restYield_cons] at fl ⊢
    rw [Free.cons, Free.append] at fl
    have ih := cut_rest h p l fl.2.1 fl.2.2
    rw [cut_quiet _ _ _ ho.1]
    have : cut ((Where.out 0).run (optYield f o)) (sym .comma ',' (r, p).1 :: (optYield f (r, p).2 ++ restYield f l)) =
        [] :: optYield f p :: l.map fun p => optYield f p.2 := by
      rw [cut, if_pos ⟨by rcases ho.2 with e | e <;> rw [e] <;> rfl, rfl⟩, ih]
    rw [this]
    simp

theorem cut_list {α : Type} {f : α → List Tok} (h : Whole f) (l : OpList α) (hf : Free (l.yield f)) :
    cut (.out 0) (l.yield f) = optYield f l.first :: l.rest.map fun p => optYield f p.2 := by
  rw [OpList.yield, Free.append] at hf
  exact cut_rest h l.first l.rest hf.1 hf.2

end Verif.Gram
