import Verif.Subst.Spec
/-!
C112: what texts with variable symbols stand for.
-/
namespace Verif.Subst

open Lexing (Ty)
open MacroDef (Var)

/-! ### chains and texts, with the state of the loop -/

/-- `was_var` behind a chain; points that are cleared do not count. -/
def flag (w : Bool) : List Pt → Bool
  | [] => w
  | .var (some _) :: r => flag true r
  | .var none :: r => flag w r
  | .str t :: r => flag (if t.isEmpty then w else false) r
  | _ :: r => flag false r

/-- Whether the text ends in a variable symbol; `&()` does not count. -/
def ends (w : Bool) : List W → Bool
  | [] => w
  | .var _ :: r => ends true r
  | .tok _ _ :: r => ends false r
  | .empty _ :: r => ends false r

theorem flag_append (w : Bool) (a b : List Pt) : flag w (a ++ b) = flag (flag w a) b := by
  induction a generalizing w with
  | nil => rfl
  | cons x a ih =>
    cases x with
    | var v => cases v <;> simp only [List.cons_append, flag, ih]
    | str t => simp only [List.cons_append, flag, ih]
    | dot => simp only [List.cons_append, flag, ih]
    | equ => simp only [List.cons_append, flag, ih]
    | sub l => simp only [List.cons_append, flag, ih]

theorem ends_append (w : Bool) (a b : List W) : ends w (a ++ b) = ends (ends w a) b := by
  induction a generalizing w with
  | nil => rfl
  | cons x a ih => cases x <;> simp only [List.cons_append, ends, ih]

theorem replaced_append (env : Var → Bytes) (w : Bool) (a b : List W) :
    replaced env w (a ++ b) = replaced env w a ++ replaced env (ends w a) b := by
  induction a generalizing w with
  | nil => rfl
  | cons x a ih => cases x <;> simp only [List.cons_append, ends, replaced, ih, List.append_assoc]

theorem flag_clear (w : Bool) (a : List Pt) : flag w (clear a) = flag w a := by
  induction a generalizing w with
  | nil => rfl
  | cons x a ih =>
    unfold clear at ih ⊢
    rw [List.filter_cons]
    cases x with
    | var v => cases v <;> simp [kept, flag, ih]
    | str t =>
      by_cases ht : t = []
      · subst ht; simp [kept, flag, ih]
      · simp [kept, flag, ih, ht]
    | dot => simp [kept, flag, ih]
    | equ => simp [kept, flag, ih]
    | sub l => simp [kept, flag, ih]

theorem clear_append (a b : List Pt) : clear (a ++ b) = clear a ++ clear b := List.filter_append ..

theorem clear_clear (a : List Pt) : clear (clear a) = clear a := by simp [clear]

theorem eval_append (env : Var → Bytes) (w : Bool) (a b : List Pt) (h : ∀ t, Pt.str t ∈ a → t ≠ []) (s t : Bytes)
    (ha : eval env w a = some s) (hb : eval env (flag w a) b = some t) : eval env w (a ++ b) = some (s ++ t) := by
  induction a generalizing w s with
  | nil =>
    simp only [eval, Option.some.injEq] at ha
    subst ha
    exact hb
  | cons x a ih =>
    have h' : ∀ t, Pt.str t ∈ a → t ≠ [] := fun t ht => h t (List.mem_cons_of_mem _ ht)
    cases x with
    | var v =>
      cases v with
      | none => simp [eval] at ha
      | some v =>
        simp only [eval, Option.bind_eq_bind, Option.bind_eq_some_iff, Option.pure_def, Option.some.injEq] at ha
        obtain ⟨u, hu, rfl⟩ := ha
        simp only [List.cons_append, eval, ih true h' u hu hb, Option.bind_eq_bind, Option.bind_some, Option.pure_def,
          List.append_assoc]
    | str v =>
      have hv : v.isEmpty = false := by
        have := h v List.mem_cons_self
        cases v with
        | nil => exact absurd rfl this
        | cons _ _ => rfl
      simp only [flag, hv] at hb
      simp only [eval, Option.bind_eq_bind, Option.bind_eq_some_iff, Option.pure_def, Option.some.injEq] at ha
      obtain ⟨u, hu, rfl⟩ := ha
      simp only [List.cons_append, eval, ih false h' u hu hb, Option.bind_eq_bind, Option.bind_some, Option.pure_def,
        List.append_assoc]
    | dot =>
      simp only [eval, Option.bind_eq_bind, Option.bind_eq_some_iff, Option.pure_def, Option.some.injEq] at ha
      obtain ⟨u, hu, rfl⟩ := ha
      simp only [List.cons_append, eval, ih false h' u hu hb, Option.bind_eq_bind, Option.bind_some, Option.pure_def,
        List.append_assoc]
    | equ =>
      simp only [eval, Option.bind_eq_bind, Option.bind_eq_some_iff, Option.pure_def, Option.some.injEq] at ha
      obtain ⟨u, hu, rfl⟩ := ha
      simp only [List.cons_append, eval, ih false h' u hu hb, Option.bind_eq_bind, Option.bind_some, Option.pure_def,
        List.append_assoc]
    | sub l =>
      simp only [eval, Option.bind_eq_bind, Option.bind_eq_some_iff, Option.pure_def, Option.some.injEq] at ha
      obtain ⟨k, hk, u, hu, rfl⟩ := ha
      simp only [List.cons_append, eval, hk, ih false h' u hu hb, Option.bind_eq_bind, Option.bind_some, Option.pure_def,
        List.append_assoc]

theorem clear_str (a : List Pt) : ∀ t, Pt.str t ∈ clear a → t ≠ [] := by
  intro t ht
  have := (List.mem_filter.1 ht).2
  rintro rfl
  simp [kept] at this

/-- Started with `was_var = w`, the cleared chain evaluates to the replaced text and ends in the same state. -/
def Same (w : Bool) (c : List Pt) (ws : List W) : Prop :=
  flag w c = ends w ws ∧ ∀ env, eval env w (clear c) = some (replaced env w ws)

theorem Same.append {w : Bool} {a b : List Pt} {u v : List W} (ha : Same w a u) (hb : Same (ends w u) b v) :
    Same w (a ++ b) (u ++ v) := by
  refine ⟨by rw [flag_append, ends_append, ha.1, hb.1], fun env => ?_⟩
  rw [clear_append, replaced_append]
  refine eval_append env w _ _ (clear_str a) _ _ (ha.2 env) ?_
  rw [flag_clear, ha.1]
  exact hb.2 env

theorem Same.nil (w : Bool) : Same w [] [] := ⟨rfl, fun env => by simp [clear, eval, replaced]⟩

theorem Same.clear {w : Bool} {a : List Pt} {u : List W} (h : Same w a u) : Same w (clear a) u :=
  ⟨by rw [flag_clear]; exact h.1, fun env => by rw [clear_clear]; exact h.2 env⟩

/-- Only tokens. -/
def Toks (ws : List W) : Prop := ∀ x ∈ ws, ∃ ty t, x = .tok ty t

/-- The text of tokens. -/
def plain : List W → Bytes
  | [] => []
  | .tok _ t :: r => t ++ plain r
  | _ :: r => plain r

theorem plain_append (a b : List W) : plain (a ++ b) = plain a ++ plain b := by
  induction a with
  | nil => rfl
  | cons x a ih => cases x <;> simp [plain, ih]

theorem Toks.append {a b : List W} (ha : Toks a) (hb : Toks b) : Toks (a ++ b) := by
  intro x hx
  rcases List.mem_append.1 hx with h | h
  · exact ha x h
  · exact hb x h

theorem Toks.cons {x : W} {a : List W} (hx : ∃ ty t, x = .tok ty t) (ha : Toks a) : Toks (x :: a) := by
  intro y hy
  rcases List.mem_cons.1 hy with rfl | h
  · exact hx
  · exact ha y h

theorem Toks.nil : Toks [] := by intro x hx; cases hx

theorem replaced_toks (env : Var → Bytes) (ws : List W) (h : Toks ws) : replaced env false ws = plain ws := by
  induction ws with
  | nil => rfl
  | cons x ws ih =>
    obtain ⟨ty, t, rfl⟩ := h x List.mem_cons_self
    simp [replaced, plain, ih (fun y hy => h y (List.mem_cons_of_mem _ hy))]

theorem ends_toks (ws : List W) (h : Toks ws) : ends false ws = false := by
  induction ws with
  | nil => rfl
  | cons x ws ih =>
    obtain ⟨ty, t, rfl⟩ := h x List.mem_cons_self
    simp [ends, ih (fun y hy => h y (List.mem_cons_of_mem _ hy))]

/-- A piece of text without variable symbols. -/
theorem Same.str {t : Bytes} {ws : List W} (h : Toks ws) (ht : t = plain ws) : Same false [.str t] ws := by
  refine ⟨?_, fun env => ?_⟩
  · rw [ends_toks ws h]; simp [flag]
  · rw [replaced_toks env ws h, ← ht]
    by_cases h0 : t = []
    · subst h0; simp [Verif.Subst.clear, List.filter_cons, kept, eval]
    · simp [Verif.Subst.clear, List.filter_cons, kept, eval, h0]

/-- The same behind a variable symbol, if the text does not begin with a full stop. -/
theorem Same.str' {w : Bool} {t : Bytes} {ty : Ty} {x : Bytes} {ws : List W} (h : Toks ws) (hd : ty ≠ .dot)
    (ht : t = plain (.tok ty x :: ws)) (hx : x ≠ []) : Same w [.str t] (.tok ty x :: ws) := by
  have h0 : t ≠ [] := by rw [ht]; simp [plain, hx]
  refine ⟨?_, fun env => ?_⟩
  · have : t.isEmpty = false := by cases t with | nil => exact absurd rfl h0 | cons _ _ => rfl
    simp [flag, this, ends, ends_toks ws h]
  · have hk : kept (.str t) = true := by simp [kept, h0]
    rw [Verif.Subst.clear, List.filter_cons, if_pos hk]
    simp [eval, replaced, hd, replaced_toks env ws h, ht, plain]

/-! ### characters -/

theorem chText_glyph (ty : Ty) (t : Bytes) (h : isLSp ty = true ∨ isOp ty = true) : token ty t = .tok ty (chText ty t) := by
  unfold token
  cases ty <;> first | rfl | (exfalso; rcases h with h | h <;> revert h <;> decide)

theorem ch_toks {p : Ty → Bool} (c : Ch p) : Toks c.yield := by
  cases c with
  | one ty h t ne => exact .cons ⟨_, _, rfl⟩ .nil
  | amp => exact .cons ⟨_, _, rfl⟩ (.cons ⟨_, _, rfl⟩ .nil)

/-- The kinds of characters of the grammar. -/
def Good (p : Ty → Bool) : Prop := ∀ ty, p ty = true → isLSp ty = true ∨ isOp ty = true

theorem good_l : Good isL := by intro ty h; exact .inl (by simp [isLSp, h])
theorem good_lsp : Good isLSp := fun _ h => .inl h
theorem good_op : Good isOp := fun _ h => .inr h
theorem good_common : Good isCommon := by intro ty h; exact .inl (by simp [isLSp, isL, h])
theorem good_macStr : Good isMacStr := fun _ h => .inl h

theorem ch_plain {p : Ty → Bool} (hp : Good p) (c : Ch p) : plain c.yield = c.value := by
  cases c with
  | one ty h t ne => simp [Ch.yield, chText_glyph ty t (hp ty h), plain, Ch.value]
  | amp => rfl

theorem yields_nil {α : Type} (f : α → List W) : yields f [] = [] := rfl
theorem yields_cons {α : Type} (f : α → List W) (a : α) (l : List α) : yields f (a :: l) = f a ++ yields f l := rfl

theorem toks_yields {α : Type} {f : α → List W} (l : List α) (h : ∀ a ∈ l, Toks (f a)) : Toks (yields f l) := by
  induction l with
  | nil => exact .nil
  | cons a l ih =>
    rw [yields_cons]
    exact (h a List.mem_cons_self).append (ih fun b hb => h b (List.mem_cons_of_mem _ hb))

theorem plain_yields {α : Type} {f : α → List W} {g : α → Bytes} (l : List α) (h : ∀ a ∈ l, plain (f a) = g a) :
    plain (yields f l) = l.flatMap g := by
  induction l with
  | nil => rfl
  | cons a l ih =>
    rw [yields_cons, plain_append, h a List.mem_cons_self, ih fun b hb => h b (List.mem_cons_of_mem _ hb)]
    rfl

theorem chs_toks {p : Ty → Bool} (l : List (Ch p)) : Toks (yields Ch.yield l) := toks_yields l fun c _ => ch_toks c
theorem chs_plain {p : Ty → Bool} (hp : Good p) (l : List (Ch p)) : plain (yields Ch.yield l) = values l :=
  plain_yields l fun c _ => ch_plain hp c

theorem quote_tok (q : Quote) : ∃ ty, q.yield = .tok ty (c1 '\'') ∧ ty ≠ .dot := by
  cases q with
  | mk a => cases a <;> exact ⟨_, rfl, by decide⟩

/-- A quote. -/
theorem Same.quote (w : Bool) (q : Quote) : Same w [.str (c1 '\'')] [q.yield] := by
  obtain ⟨ty, e, hd⟩ := quote_tok q
  rw [e]
  exact .str' .nil hd (by simp [plain]) (by decide)

theorem chV_same {p : Ty → Bool} (hp : Good p) (w : Bool) (c : ChV p) (hn : Named c.yield) : Same w [c.point] c.yield := by
  cases c with
  | one ty h t ne =>
    have ht := chText_glyph ty t (hp ty h)
    simp only [ChV.yield, ChV.point]
    rw [ht]
    by_cases he : ty = .equals
    · subst he
      exact ⟨rfl, fun env => by simp [clear, List.filter_cons, kept, eval, replaced, chText]⟩
    · by_cases hd : ty = .dot
      · subst hd
        exact ⟨rfl, fun env => by cases w <;> simp [clear, List.filter_cons, kept, eval, replaced, chText]⟩
      · rw [if_neg he, if_neg hd]
        have hx : chText ty t ≠ [] := by cases ty <;> first | exact ne | (simp only [chText]; decide)
        exact .str' .nil hd (by simp [plain]) hx
  | amp => exact .str' (ty := .ampersand) (x := c1 '&') (.cons ⟨_, _, rfl⟩ .nil) (by decide) (by decide) (by decide)
  | equals => exact .str' (ty := .equals) (x := c1 '=') .nil (by decide) (by decide) (by decide)
  | var s =>
    cases s with
    | named v => exact ⟨rfl, fun env => by simp [clear, List.filter_cons, kept, eval, replaced, VarSym.point, ChV.point, ChV.yield, VarSym.yield]⟩
    | empty t => exact absurd (by simp [ChV.yield, VarSym.yield]) (hn t)

theorem Named.left {a b : List W} (h : Named (a ++ b)) : Named a := fun t ht => h t (List.mem_append_left _ ht)
theorem Named.right {a b : List W} (h : Named (a ++ b)) : Named b := fun t ht => h t (List.mem_append_right _ ht)
theorem Named.tail {x : W} {a : List W} (h : Named (x :: a)) : Named a := fun t ht => h t (List.mem_cons_of_mem _ ht)

theorem sym_same (w : Bool) (s : VarSym) (hn : Named [s.yield]) : Same w [s.point] [s.yield] :=
  chV_same good_l w (.var s) hn

theorem list_same {α : Type} {f : α → List W} {g : α → List Pt} (l : List α)
    (h : ∀ a ∈ l, ∀ w, Named (f a) → Same w (g a) (f a)) (w : Bool) (hn : Named (yields f l)) : Same w (l.flatMap g) (yields f l) := by
  induction l generalizing w with
  | nil => exact .nil w
  | cons a l ih =>
    rw [yields_cons] at hn ⊢
    rw [List.flatMap_cons]
    exact (h a List.mem_cons_self w hn.left).append (ih (fun b hb => h b (List.mem_cons_of_mem _ hb)) _ hn.right)

theorem points_same {p : Ty → Bool} (hp : Good p) (w : Bool) (l : List (ChV p)) (hn : Named (yields ChV.yield l)) :
    Same w (points l) (yields ChV.yield l) := by
  have : points l = l.flatMap fun c => [c.point] := by
    unfold points
    induction l with
    | nil => rfl
    | cons a l ih => rw [List.map_cons, List.flatMap_cons, ← ih hn.right]; rfl
  rw [this]
  exact list_same l (fun c _ w h => chV_same hp w c h) w hn

/-- The state behind a quote. -/
theorem ends_quote (w : Bool) (q : Quote) : ends w [q.yield] = false := by
  obtain ⟨ty, e, _⟩ := quote_tok q
  rw [e]; rfl

theorem quote_toks (q : Quote) : Toks [q.yield] := by
  obtain ⟨ty, e, _⟩ := quote_tok q
  rw [e]; exact .cons ⟨_, _, rfl⟩ .nil

theorem quote_plain (q : Quote) : plain [q.yield] = c1 '\'' := by
  obtain ⟨ty, e, _⟩ := quote_tok q
  rw [e]; rfl

/-- A text that begins with a quote. -/
theorem Same.quoted {w : Bool} {t : Bytes} {q : Quote} {ws : List W} (h : Toks ws) (ht : t = c1 '\'' ++ plain ws) :
    Same w [.str t] (q.yield :: ws) := by
  obtain ⟨ty, e, hd⟩ := quote_tok q
  rw [e]
  exact .str' h hd (by rw [ht]; rfl) (by decide)

theorem strV_raw {p : Ty → Bool} (hp : Good p) (s : StrV p) (hn : Named s.yield) : Same false s.raw s.yield := by
  unfold StrV.raw StrV.yield at *
  have h1 : Same false [.str (values s.pre)] (yields Ch.yield s.pre) := .str (chs_toks _) (chs_plain hp _).symm
  have h2 := h1.append (sym_same _ s.sym (fun t ht => hn t (by
    rw [List.mem_singleton] at ht
    rw [← ht]; simp)))
  have h3 := h2.append (points_same hp _ s.post (hn.right.tail))
  simpa using h3

theorem strV_same (s : StrV isL) (hn : Named s.yield) : Same false s.chain s.yield := (strV_raw good_l s hn).clear

theorem quoted_toks (q : Quoted) : Toks q.yield := by
  unfold Quoted.yield
  obtain ⟨t1, e1, _⟩ := quote_tok q.q1
  obtain ⟨t2, e2, _⟩ := quote_tok q.q2
  rw [e1, e2]
  exact .cons ⟨_, _, rfl⟩ ((chs_toks _).append (.cons ⟨_, _, rfl⟩ (chs_toks _)))

theorem quoted_plain (q : Quoted) : plain q.yield = q.value := by
  unfold Quoted.yield Quoted.value
  obtain ⟨t1, e1, _⟩ := quote_tok q.q1
  obtain ⟨t2, e2, _⟩ := quote_tok q.q2
  rw [e1, e2]
  simp [plain, plain_append, chs_plain good_l]

/-- A list of texts in quotes. -/
theorem quoteds_same (w : Bool) (l : List Quoted) : Same w [.str (l.flatMap Quoted.value)] (yields Quoted.yield l) := by
  cases l with
  | nil => exact ⟨rfl, fun env => by simp [clear, List.filter_cons, kept, eval, yields, replaced]⟩
  | cons q l =>
    have ht : Toks (yields Quoted.yield (q :: l)) := toks_yields _ fun a _ => quoted_toks a
    have hv : plain (yields Quoted.yield (q :: l)) = (q :: l).flatMap Quoted.value := plain_yields _ fun a _ => quoted_plain a
    rw [yields_cons] at ht hv ⊢
    obtain ⟨t1, e1, d1⟩ := quote_tok q.q1
    rw [Quoted.yield, List.cons_append, e1] at ht hv ⊢
    exact .str' (fun x hx => ht x (List.mem_cons_of_mem _ hx)) d1 hv.symm (by decide)

theorem noSpaceV_same (w : Bool) (n : NoSpaceV) (hn : Named n.yield) : Same w n.chain n.yield := by
  cases n with
  | behind q1 i q2 s =>
    simp only [NoSpaceV.yield, NoSpaceV.chain] at *
    have h1 : Same w [.str (c1 '\'' ++ values i ++ c1 '\'')] (q1.yield :: (yields Ch.yield i ++ [q2.yield])) := by
      refine .quoted ((chs_toks _).append (quote_toks q2)) ?_
      rw [plain_append, chs_plain good_l, quote_plain, List.append_assoc]
    have e : ends w (q1.yield :: (yields Ch.yield i ++ [q2.yield])) = false := by
      rw [← List.cons_append, ends_append, ends_quote]
    have h2 := h1.append (by rw [e]; exact strV_same s (hn.tail.right.tail))
    simpa using h2
  | inside q1 s q2 b =>
    simp only [NoSpaceV.yield, NoSpaceV.chain] at *
    have h1 := (Same.quote w q1).append (by rw [ends_quote]; exact strV_same s hn.tail.left)
    have h2 := h1.append (Same.quote _ q2)
    have e : ends w ([q1.yield] ++ s.yield ++ [q2.yield]) = false := by rw [ends_append, ends_quote]
    have h3 := h2.append (by rw [e]; exact .str (chs_toks b) (chs_plain good_l b).symm)
    simpa using h3
  | both q1 s q2 t =>
    simp only [NoSpaceV.yield, NoSpaceV.chain] at *
    have h1 := (Same.quote w q1).append (by rw [ends_quote]; exact strV_same s hn.tail.left)
    have h2 := h1.append (Same.quote _ q2)
    have e : ends w ([q1.yield] ++ s.yield ++ [q2.yield]) = false := by rw [ends_append, ends_quote]
    have h3 := h2.append (by rw [e]; exact strV_same t hn.tail.right.tail)
    simpa using h3

theorem noSpaceU_same (w : Bool) (n : NoSpaceU) (hn : Named n.yield) : Same w n.chain n.yield := by
  cases n with
  | v n => exact noSpaceV_same w n hn
  | plain q =>
    have := quoteds_same w [q]
    simpa [yields, NoSpaceU.chain, NoSpaceU.yield] using this

theorem vApo_same (w : Bool) (a : VApo) (hn : Named a.yield) : Same w a.chain a.yield := by
  unfold VApo.chain VApo.yield at *
  exact (quoteds_same w a.pre).append ((noSpaceV_same _ a.v hn.right.left).append
    (list_same a.post (fun n _ w h => noSpaceU_same w n h) _ hn.right.right))

theorem spaced_toks (s : Spaced) : Toks s.yield := by
  unfold Spaced.yield
  obtain ⟨t1, e1, _⟩ := quote_tok s.q1
  rw [e1]
  exact .cons ⟨_, _, rfl⟩ ((chs_toks _).append (quote_toks _))

theorem spaced_plain (s : Spaced) : plain s.yield = s.value := by
  unfold Spaced.yield Spaced.value
  obtain ⟨t1, e1, _⟩ := quote_tok s.q1
  rw [e1]
  simp [plain, plain_append, chs_plain good_lsp, quote_plain]

theorem spaceds_toks (l : List Spaced) : Toks (yields Spaced.yield l) := toks_yields _ fun a _ => spaced_toks a
theorem spaceds_plain (l : List Spaced) : plain (yields Spaced.yield l) = l.flatMap Spaced.value := plain_yields _ fun a _ => spaced_plain a

theorem spacedU_same (w : Bool) (u : SpacedU) (hn : Named u.yield) : Same w u.chain u.yield := by
  cases u with
  | plain s =>
    simp only [SpacedU.chain, SpacedU.yield, Spaced.yield]
    refine .quoted ((chs_toks _).append (quote_toks _)) ?_
    simp [Spaced.value, plain_append, chs_plain good_lsp, quote_plain]
  | v q1 s q2 =>
    simp only [SpacedU.chain, SpacedU.yield] at *
    have h1 := (Same.quote w q1).append (by rw [ends_quote]; exact strV_raw good_lsp s hn.tail.left)
    have h2 := h1.append (Same.quote _ q2)
    simpa using h2

theorem spacedU_ends (w : Bool) (u : SpacedU) : ends w u.yield = false := by
  cases u with
  | plain s => simp only [SpacedU.yield, Spaced.yield]; rw [← List.cons_append, ends_append, ends_quote]
  | v q1 s q2 => simp only [SpacedU.yield]; rw [← List.cons_append, ends_append, ends_quote]

theorem vApoSp_ends (w : Bool) (a : VApoSp) : ends w a.yield = false := by
  have h : ∀ (l : List SpacedU), ends false (yields SpacedU.yield l) = false := by
    intro l
    induction l with
    | nil => rfl
    | cons u l ih => rw [yields_cons, ends_append, spacedU_ends, ih]
  have e : a.yield = (yields Spaced.yield a.pre ++ a.q1.yield :: a.s.yield) ++ ([a.q2.yield] ++ yields SpacedU.yield a.post) := by
    simp [VApoSp.yield]
  rw [e, ends_append, ends_append, ends_quote, h]

theorem vApoSp_same (a : VApoSp) (hn : Named a.yield) : Same false a.chain a.yield := by
  unfold VApoSp.chain VApoSp.yield at *
  have h1 : Same false [.str (a.pre.flatMap Spaced.value ++ c1 '\'')] (yields Spaced.yield a.pre ++ [a.q1.yield]) :=
    .str ((spaceds_toks _).append (quote_toks _)) (by rw [plain_append, spaceds_plain, quote_plain])
  have e : ends false (yields Spaced.yield a.pre ++ [a.q1.yield]) = false := by rw [ends_append, ends_quote]
  have h2 := h1.append (by rw [e]; exact strV_raw good_lsp a.s hn.right.tail.left)
  have h3 := h2.append (Same.quote _ a.q2)
  have h4 := h3.append (list_same a.post (fun u _ w h => spacedU_same w u h) _ hn.right.tail.right.tail)
  simpa using h4

theorem lString_toks (s : LString) : Toks s.yield := (ch_toks _).append (chs_toks _)
theorem lString_plain (s : LString) : plain s.yield = s.value := by
  simp [LString.yield, LString.value, plain_append, ch_plain good_l, chs_plain good_l]
theorem spacedC_toks (s : SpacedC) : Toks s.yield := (spaced_toks _).append (spaceds_toks _)
theorem spacedC_plain (s : SpacedC) : plain s.yield = s.value := by
  simp [SpacedC.yield, SpacedC.value, plain_append, spaced_plain, spaceds_plain]
theorem quotedC_same (w : Bool) (q : QuotedC) : Same w [.str q.value] q.yield := by
  have := quoteds_same w (q.first :: q.rest)
  simpa [yields, QuotedC.yield, QuotedC.value] using this

theorem spacedC_same (s : SpacedC) : Same false [.str s.value] s.yield := .str (spacedC_toks s) (spacedC_plain s).symm
theorem lString_same (s : LString) : Same false [.str s.value] s.yield := .str (lString_toks s) (lString_plain s).symm

theorem common_same (c : Common) (hn : Named c.yield) : Same false c.chain c.yield := by
  cases c with
  | apoV a s => exact (vApoSp_same a hn.left).append (by rw [vApoSp_ends]; exact strV_same s hn.right)
  | spacedV c s => exact (spacedC_same c).append (by rw [ends_toks _ (spacedC_toks c)]; exact strV_same s hn.right)
  | apoString a s => exact (vApoSp_same a hn.left).append (by rw [vApoSp_ends]; exact lString_same s)

theorem label_same (l : Label) (hn : Named l.yield) : Same false l.raw l.yield := by
  cases l with
  | apo a => exact vApoSp_same a hn
  | common c => exact common_same c hn
  | commonApo c a => exact (common_same c hn.left).append (vApo_same _ a hn.right)
  | commonQuoted c q => exact (common_same c hn.left).append (quotedC_same _ q)
  | spacedApo c s a =>
    exact (spacedC_same c).append (by
      rw [ends_toks _ (spacedC_toks c)]
      exact (lString_same s).append (vApo_same _ a hn.right.right))
  | v s => exact strV_same s hn
  | stringApo s a => exact (lString_same s).append (vApo_same _ a hn.right)
  | vApo s a => exact (strV_same s hn.left).append (vApo_same _ a hn.right)
  | vQuoted s q => exact (strV_same s hn.left).append (quotedC_same _ q)

/-- The text a chain stands for. -/
theorem Same.result {c : List Pt} {ws : List W} (h : Same false c ws) (env : Var → Bytes) :
    eval env false (Verif.Subst.clear c) = some (replaced env false ws) := h.2 env

/-! ### operands of model statements -/

theorem strCh_toks (c : StrCh) : Toks c.yield := by
  cases c with
  | ch c => exact ch_toks c
  | quotes q1 q2 => exact (quote_toks q1).append (quote_toks q2)

theorem strCh_model (c : StrCh) : plain c.yield = c.model := by
  cases c with
  | ch c => exact ch_plain good_lsp c
  | quotes q1 q2 =>
    have : plain [q1.yield, q2.yield] = plain [q1.yield] ++ plain [q2.yield] := plain_append [q1.yield] [q2.yield]
    rw [StrCh.yield, this, quote_plain, quote_plain]; rfl

theorem strCh_value (c : StrCh) (h : ¬ c.Doubled) : plain c.yield = c.value := by
  cases c with
  | quotes q1 q2 => exact absurd trivial h
  | ch c =>
    rw [StrCh.yield, ch_plain good_lsp, StrCh.value, if_neg]
    cases c with
    | amp => exact absurd trivial h
    | one ty hty t ne =>
      simp only [Ch.value]
      cases ty <;> first | exact h | (simp only [chText]; decide)

theorem before_toks (b : Before) : Toks b.yield := by
  cases b with
  | ch c => exact ch_toks c
  | string chs q => exact .cons ⟨_, _, rfl⟩ ((toks_yields _ fun a _ => strCh_toks a).append (quote_toks q))

theorem before_plain (b : Before) (h : ¬ b.Doubled) : plain b.yield = b.value := by
  cases b with
  | ch c => exact ch_plain good_op c
  | string chs q =>
    have hs : plain (yields StrCh.yield chs) = chs.flatMap StrCh.value :=
      plain_yields _ fun a ha => strCh_value a fun hd => h ⟨a, ha, hd⟩
    simp [Before.yield, token, glyph, plain, plain_append, hs, quote_plain, Before.value]

theorem strChV_model (w : Bool) (c : StrChV) (hn : Named c.yield) : Same w [c.model] c.yield := by
  cases c with
  | ch c => exact chV_same good_lsp w c hn
  | quotes q1 q2 => exact Same.quoted (quote_toks q2) (by rw [quote_plain])

theorem strChV_point (w : Bool) (c : StrChV) (hd : ¬ c.Doubled) (hn : Named c.yield) : Same w [c.point] c.yield := by
  cases c with
  | ch c => exact chV_same good_lsp w c hn
  | quotes q1 q2 => exact absurd trivial hd

theorem map_flatMap {α β : Type} (f : α → β) (l : List α) : l.map f = l.flatMap fun a => [f a] := by
  induction l with
  | nil => rfl
  | cons a l ih => rw [List.map_cons, List.flatMap_cons, ih]; rfl

theorem first_same (f : First) (hn : Named f.yield) : Same false f.chain f.yield := by
  cases f with
  | sym s => exact sym_same _ s hn
  | string q1 pre s post q2 =>
    simp only [First.yield, First.chain] at *
    have h1 := (Same.quote false q1).append (v := yields StrCh.yield pre) (b := [.str (pre.flatMap StrCh.model)]) (by
      rw [ends_quote]
      exact .str (toks_yields _ fun a _ => strCh_toks a) (plain_yields _ fun a _ => strCh_model a).symm)
    have h2 := h1.append (sym_same _ s (fun t ht => hn t (by
      rw [List.mem_singleton] at ht
      rw [← ht]; simp)))
    have h3 := h2.append (list_same (f := StrChV.yield) (g := fun a => [a.model]) post
      (fun a _ w h => strChV_model w a h) _ hn.tail.right.tail.left)
    have h4 := h3.append (Same.quote _ q2)
    rw [← map_flatMap] at h4
    simpa using h4

theorem after_same (w : Bool) (a : After) (hd : ¬ a.Doubled) (hn : Named a.yield) : Same w a.chain a.yield := by
  cases a with
  | ch c => exact chV_same good_op w c hn
  | string q1 chs q2 =>
    simp only [After.yield, After.chain] at *
    have h1 : Same (ends w [q1.yield]) (clear (chs.map StrChV.point)) (yields StrChV.yield chs) := by
      rw [map_flatMap]
      exact (list_same (g := fun a => [a.point]) chs
        (fun a ha w h => strChV_point w a (fun h => hd ⟨a, ha, h⟩) h) _ hn.tail.left).clear
    have h2 := ((Same.quote w q1).append h1).append (Same.quote _ q2)
    simpa using h2

theorem operand_same (o : Operand) (hb : ∀ b ∈ o.before, ¬ b.Doubled) (ha : ∀ a ∈ o.after, ¬ a.Doubled) (hn : Named o.yield) :
    Same false (.str (o.before.flatMap Before.value) :: (o.first.chain ++ o.after.flatMap After.chain)) o.yield := by
  have t : Toks (yields Before.yield o.before) := toks_yields _ fun a _ => before_toks a
  have h1 : Same false [.str (o.before.flatMap Before.value)] (yields Before.yield o.before) :=
    .str t (plain_yields _ fun b hb' => before_plain b (hb b hb')).symm
  have h2 := h1.append (v := o.first.yield ++ yields After.yield o.after) (b := o.first.chain ++ o.after.flatMap After.chain) (by
    rw [ends_toks _ t]
    exact (first_same _ hn.right.left).append
      (list_same o.after (fun a h w hn => after_same w a (ha a h) hn) _ hn.right.right))
  exact h2

/-! ### operands of macros -/

/-- Nothing `clear_concat_chain` would take away. -/
def Full (c : List Pt) : Prop := ∀ p ∈ c, kept p = true

theorem Full.clear {c : List Pt} (h : Full c) : Verif.Subst.clear c = c := List.filter_eq_self.2 h

theorem Full.append {a b : List Pt} (ha : Full a) (hb : Full b) : Full (a ++ b) := by
  intro p hp
  rcases List.mem_append.1 hp with h | h
  · exact ha p h
  · exact hb p h

theorem chV_kept {p : Ty → Bool} (c : ChV p) (hn : Named c.yield) : kept c.point = true := by
  cases c with
  | one ty h t ne =>
    simp only [ChV.point]
    by_cases he : ty = .equals
    · simp [he, kept]
    · by_cases hd : ty = .dot
      · simp [hd, kept]
      · rw [if_neg he, if_neg hd]
        have hx : chText ty t ≠ [] := by cases ty <;> first | exact ne | (simp only [chText]; decide)
        simp [kept, hx]
  | amp => rfl
  | equals => rfl
  | var s =>
    cases s with
    | named v => rfl
    | empty t => exact absurd (by simp [ChV.yield, VarSym.yield]) (hn t)

theorem points_full {p : Ty → Bool} (l : List (ChV p)) (hn : Named (yields ChV.yield l)) : Full (points l) := by
  intro q hq
  obtain ⟨c, hc, rfl⟩ := List.mem_map.1 hq
  refine chV_kept c fun t ht => hn t ?_
  exact List.mem_flatMap.2 ⟨c, hc, ht⟩

theorem literal_toks (l : Literal) : Toks l.yield := by
  intro x hx
  obtain ⟨t, _, rfl⟩ := List.mem_map.1 hx
  exact ⟨_, _, rfl⟩

theorem literal_plain (l : Literal) : plain l.yield = l.text := by
  cases l with
  | mk ts =>
    simp only [Literal.yield, Literal.text]
    induction ts with
    | nil => rfl
    | cons t ts ih => simp [plain, ih]

theorem full_one {p : Pt} (h : kept p = true) : Full [p] := by
  intro q hq
  rw [List.mem_singleton] at hq
  rwa [hq]

mutual
theorem macCh_same (c : MacCh) (hn : Named c.yield) : Full c.chain ∧ ∀ w, Same w c.chain c.yield := by
  cases c with
  | ch c => exact ⟨full_one (chV_kept c hn), fun w => chV_same good_common w c hn⟩
  | attr => exact ⟨full_one rfl, fun w => Same.quote w ⟨true⟩⟩
  | string chs q =>
    simp only [MacCh.yield, MacCh.chain] at *
    refine ⟨?_, fun w => ?_⟩
    · exact (full_one rfl).append ((points_full chs hn.tail.left).append (full_one rfl))
    · exact (Same.quote w ⟨false⟩).append ((points_same good_macStr _ chs hn.tail.left).append (Same.quote _ q))
  | sublist f r =>
    simp only [MacCh.yield, MacCh.chain] at *
    refine ⟨full_one rfl, fun w => ?_⟩
    have h1 := subElem_eval f hn.tail.left
    have h2 := subElems_eval r hn.tail.right.left
    have hl : ∀ env, evalList env (f.chain :: SubElem.chains r) = some (replaced env false (f.yield ++ SubElem.yieldRest r)) := by
      intro env
      exact h2 f.chain f.yield env (h1 env)
    have e1 : ends w (token .lpar [] :: (f.yield ++ (SubElem.yieldRest r ++ [token .rpar []]))) = false := by
      have : token .lpar [] :: (f.yield ++ (SubElem.yieldRest r ++ [token .rpar []]))
          = (token .lpar [] :: (f.yield ++ SubElem.yieldRest r)) ++ [token .rpar []] := by simp
      rw [this, ends_append]; rfl
    refine ⟨by rw [e1]; rfl, fun env => ?_⟩
    have : f.yield ++ (SubElem.yieldRest r ++ [token .rpar []]) = (f.yield ++ SubElem.yieldRest r) ++ [token .rpar []] := by simp
    rw [this]
    simp only [token, glyph, replaced, replaced_append]
    simp [clear, List.filter_cons, kept, eval, hl, replaced, replaced_append]
theorem macChs_same (l : List MacCh) (hn : Named (MacCh.yields l)) :
    Full (MacCh.chains l) ∧ ∀ w, Same w (MacCh.chains l) (MacCh.yields l) := by
  cases l with
  | nil => exact ⟨fun p hp => (by cases hp), fun w => by simpa [MacCh.chains, MacCh.yields] using Same.nil w⟩
  | cons c cs =>
    simp only [MacCh.yields, MacCh.chains] at *
    have h1 := macCh_same c hn.left
    have h2 := macChs_same cs hn.right
    exact ⟨h1.1.append h2.1, fun w => (h1.2 w).append (h2.2 _)⟩
theorem subElem_eval (e : SubElem) (hn : Named e.yield) : ∀ env, eval env false e.chain = some (replaced env false e.yield) := by
  intro env
  cases e with
  | chs l =>
    simp only [SubElem.yield, SubElem.chain] at *
    have h := macChs_same l hn
    rw [← (h.2 false).2 env, h.1.clear]
  | literal l =>
    simp only [SubElem.yield, SubElem.chain]
    rw [replaced_toks env _ (literal_toks l), literal_plain]
    simp [eval]
theorem subElems_eval (r : List SubElem) (hn : Named (SubElem.yieldRest r)) : ∀ (c : List Pt) (ws : List W) env,
    eval env false c = some (replaced env false ws) →
    evalList env (c :: SubElem.chains r) = some (replaced env false (ws ++ SubElem.yieldRest r)) := by
  intro c ws env h
  cases r with
  | nil => simpa [SubElem.chains, SubElem.yieldRest, evalList] using h
  | cons e es =>
    simp only [SubElem.yieldRest, SubElem.chains] at *
    have h1 := subElem_eval e hn.tail.left env
    have h2 := subElems_eval es hn.tail.right e.chain e.yield env h1
    simp [evalList, h, h2, replaced_append, token, glyph, replaced]
end

theorem macEntry_same (e : MacEntry) (hn : Named e.yield) : Same false (e.first.chain ++ MacCh.chains e.rest) e.yield := by
  refine Same.append ?_ ((macChs_same e.rest hn.right).2 _)
  have hn' := hn.left
  cases he : e.first with
  | ch c => rw [he] at hn'; exact (macCh_same c hn').2 false
  | literal l => exact .str (literal_toks l) (literal_plain l).symm
  | keyLiteral n l =>
    simp only [MacFirst.yield, MacFirst.chain]
    have h1 : Same false [.str n] [token .ordsymbol n] := .str (.cons ⟨_, _, rfl⟩ .nil) (by simp [token, glyph, plain])
    have h2 : Same false [.str (c1 '=')] [token .equals []] := .str (.cons ⟨_, _, rfl⟩ .nil) (by simp [token, glyph, plain])
    have h3 : Same false [.str l.text] l.yield := .str (literal_toks l) (literal_plain l).symm
    exact h1.append (Same.append h2 h3)

/-! ### no null pointers in model statements -/

/-- No sublists. -/
def Flat (c : List Pt) : Prop := ∀ l, Pt.sub l ∉ c

theorem Flat.append {a b : List Pt} (ha : Flat a) (hb : Flat b) : Flat (a ++ b) := by
  intro l hl
  rcases List.mem_append.1 hl with h | h
  · exact ha l h
  · exact hb l h

theorem Flat.clear {a : List Pt} (h : Flat a) : Flat (Verif.Subst.clear a) := fun l hl => h l (List.mem_filter.1 hl).1
theorem Flat.nil : Flat [] := by intro l hl; cases hl
theorem Flat.str {t : Bytes} {a : List Pt} (h : Flat a) : Flat (.str t :: a) := by
  intro l hl
  rcases List.mem_cons.1 hl with e | h'
  · cases e
  · exact h l h'

theorem flat_flatMap {α : Type} {f : α → List Pt} (l : List α) (h : ∀ a, Flat (f a)) : Flat (l.flatMap f) := by
  intro s hs
  obtain ⟨a, _, ha⟩ := List.mem_flatMap.1 hs
  exact h a s ha

theorem sym_flat (s : VarSym) {a : List Pt} (h : Flat a) : Flat (s.point :: a) := by
  intro l hl
  rcases List.mem_cons.1 hl with e | h'
  · cases s <;> cases e
  · exact h l h'

theorem chV_flat {p : Ty → Bool} (c : ChV p) : Flat [c.point] := by
  intro l hl
  rw [List.mem_singleton] at hl
  cases c with
  | one ty h t ne => simp only [ChV.point] at hl; split at hl <;> (try split at hl) <;> cases hl
  | amp => cases hl
  | equals => cases hl
  | var s => cases s <;> cases hl

theorem points_flat {p : Ty → Bool} (l : List (ChV p)) : Flat (points l) := by
  unfold points
  rw [map_flatMap]
  exact flat_flatMap l chV_flat

theorem strV_flat {p : Ty → Bool} (s : StrV p) : Flat s.raw := .str (sym_flat _ (points_flat _))
theorem strVC_flat (s : StrV isL) : Flat s.chain := (strV_flat s).clear

theorem noSpaceV_flat (n : NoSpaceV) : Flat n.chain := by
  cases n with
  | behind _ i _ s => exact .str (strVC_flat s)
  | inside _ s _ b => exact .str ((strVC_flat s).append (.str (.str .nil)))
  | both _ s _ t => exact .str ((strVC_flat s).append (.str (strVC_flat t)))

theorem noSpaceU_flat (n : NoSpaceU) : Flat n.chain := by
  cases n with
  | v n => exact noSpaceV_flat n
  | plain q => exact .str .nil

theorem vApo_flat (a : VApo) : Flat a.chain := .str ((noSpaceV_flat _).append (flat_flatMap _ noSpaceU_flat))

theorem spacedU_flat (u : SpacedU) : Flat u.chain := by
  cases u with
  | plain s => exact .str .nil
  | v _ s _ => exact .str ((strV_flat s).append (.str .nil))

theorem vApoSp_flat (a : VApoSp) : Flat a.chain :=
  .str (((strV_flat _).append (.str .nil)).append (flat_flatMap _ spacedU_flat))

theorem common_flat (c : Common) : Flat c.chain := by
  cases c with
  | apoV a s => exact (vApoSp_flat a).append (strVC_flat s)
  | spacedV c s => exact .str (strVC_flat s)
  | apoString a s => exact (vApoSp_flat a).append (.str .nil)

theorem label_flat (l : Label) : Flat l.raw := by
  cases l with
  | apo a => exact vApoSp_flat a
  | common c => exact common_flat c
  | commonApo c a => exact (common_flat c).append (vApo_flat a)
  | commonQuoted c q => exact (common_flat c).append (.str .nil)
  | spacedApo c s a => exact .str (.str (vApo_flat a))
  | v s => exact strVC_flat s
  | stringApo s a => exact .str (vApo_flat a)
  | vApo s a => exact (strVC_flat s).append (vApo_flat a)
  | vQuoted s q => exact (strVC_flat s).append (.str .nil)

theorem strChV_flat (c : StrChV) : Flat [c.model] ∧ Flat [c.point] := by
  cases c with
  | ch c => exact ⟨chV_flat c, chV_flat c⟩
  | quotes _ _ => exact ⟨.str .nil, .str .nil⟩

theorem first_flat (f : First) : Flat f.chain := by
  cases f with
  | sym s => exact sym_flat s .nil
  | string _ pre s post _ =>
    refine .str (.str (sym_flat s (Flat.append ?_ (.str .nil))))
    rw [map_flatMap]
    exact flat_flatMap _ fun c => (strChV_flat c).1

theorem after_flat (a : After) : Flat a.chain := by
  cases a with
  | ch c => exact chV_flat c
  | string _ chs _ =>
    refine .str (Flat.append (Flat.clear ?_) (.str .nil))
    rw [map_flatMap]
    exact flat_flatMap _ fun c => (strChV_flat c).2

theorem eval_some (env : Var → Bytes) (w : Bool) (c : List Pt) (h : Flat c) : ∃ t, eval env w (clear c) = some t := by
  induction c generalizing w with
  | nil => exact ⟨[], by simp [clear, eval]⟩
  | cons x c ih =>
    have h' : Flat c := fun l hl => h l (List.mem_cons_of_mem _ hl)
    unfold clear at ih ⊢
    rw [List.filter_cons]
    split
    · rename_i hk
      cases x with
      | sub l => exact absurd List.mem_cons_self (h l)
      | var v =>
        cases v with
        | none => cases hk
        | some v => obtain ⟨t, ht⟩ := ih true h'; exact ⟨env v ++ t, by simp [eval, ht]⟩
      | str s => obtain ⟨t, ht⟩ := ih false h'; exact ⟨s ++ t, by simp [eval, ht]⟩
      | dot => obtain ⟨t, ht⟩ := ih false h'; exact ⟨_, by simp only [eval, ht]; rfl⟩
      | equ => obtain ⟨t, ht⟩ := ih false h'; exact ⟨_, by simp only [eval, ht]; rfl⟩
    · exact ih w h'

/-! ### C112 -/

/-- A label with variable symbols stands for its text with the variable symbols replaced. -/
theorem C112_label_partial (l : Label) (hn : Named l.yield) (env : Var → Bytes) :
    eval env false l.chain = some (replaced env false l.yield) := (label_same l hn).2 env

/-- So does an operation code. -/
theorem C112_instruction_partial (s : StrV isL) (hn : Named s.yield) (env : Var → Bytes) :
    eval env false s.chain = some (replaced env false s.yield) := (strV_raw good_l s hn).2 env

/-- So does an operand of a model statement, if strings other than the one with the first variable symbol have no doubled quotes. -/
theorem C112_operand_partial (o : Operand) (hb : ∀ b ∈ o.before, ¬ b.Doubled) (ha : ∀ a ∈ o.after, ¬ a.Doubled) (hn : Named o.yield)
    (env : Var → Bytes) : eval env false o.chain = some (replaced env false o.yield) := (operand_same o hb ha hn).2 env

/-- So does an operand of a macro, to any depth of sublists. -/
theorem C112_macro_partial (e : MacEntry) (hn : Named e.yield) (env : Var → Bytes) :
    eval env false e.chain = some (replaced env false e.yield) := (macEntry_same e hn).2 env

/-- Labels, operation codes and operands of model statements always have a text, even with `&()`. -/
theorem C112_always (env : Var → Bytes) :
    (∀ l : Label, ∃ t, eval env false l.chain = some t) ∧ (∀ s : StrV isL, ∃ t, eval env false s.chain = some t)
    ∧ ∀ o : Operand, ∃ t, eval env false o.chain = some t :=
  ⟨fun l => eval_some env false _ (label_flat l), fun s => eval_some env false _ (strV_flat s),
    fun o => eval_some env false _ (.str ((first_flat o.first).append (flat_flatMap _ after_flat)))⟩

theorem named_of {ws : List W} (h : (ws.all fun x => match x with | .empty _ => false | _ => true) = true) : Named ws := by
  intro t ht
  have := List.all_eq_true.1 h _ ht
  cases this

/-- `&A`. -/
def varA : Var := ⟨0, "A".toUTF8.toList, false, false, 0⟩

/-- All variable symbols have the value `X`. -/
def env0 : Var → Bytes := fun _ => c1 'X'

/-- `A`. -/
def chA : Ch isLSp := .one .ordsymbol rfl (c1 'A') (by decide)

/-- Doubled quotes in a string in front of the first variable symbol are lost: `'A''A','&A'` becomes `'A'A','X'`. -/
theorem C112_before_witness : ∃ (o : Operand) (env : Var → Bytes), Named o.yield ∧ (∀ a ∈ o.after, ¬ a.Doubled)
    ∧ replaced env false o.yield = "'A''A','X'".toUTF8.toList ∧ eval env false o.chain = some "'A'A','X'".toUTF8.toList :=
  ⟨⟨[.string [.ch chA, .quotes ⟨false⟩ ⟨false⟩, .ch chA] ⟨false⟩, .ch (.one .comma rfl (c1 ',') (by decide))],
    .string ⟨false⟩ [] (.named varA) [] ⟨false⟩, []⟩, env0,
    named_of (by decide +kernel), (by intro a ha; cases ha), by decide +kernel, by decide +kernel⟩

/-- So are those in a string behind: `'&A','A''A'` becomes `'X','A'A'`. -/
theorem C112_after_witness : ∃ (o : Operand) (env : Var → Bytes), Named o.yield ∧ (∀ b ∈ o.before, ¬ b.Doubled)
    ∧ replaced env false o.yield = "'X','A''A'".toUTF8.toList ∧ eval env false o.chain = some "'X','A'A'".toUTF8.toList :=
  ⟨⟨[], .string ⟨false⟩ [] (.named varA) [] ⟨false⟩,
    [.ch (.one .comma rfl (c1 ',') (by decide)),
      .string ⟨false⟩ [.ch (.one .ordsymbol rfl (c1 'A') (by decide)), .quotes ⟨false⟩ ⟨false⟩,
        .ch (.one .ordsymbol rfl (c1 'A') (by decide))] ⟨false⟩]⟩, env0,
    named_of (by decide +kernel), (by intro a ha; cases ha), by decide +kernel, by decide +kernel⟩

/-- Doubled ampersands in front become one, `'&&','&A'` becomes `'&','X'`. -/
theorem C112_ampersands_witness : ∃ (o : Operand) (env : Var → Bytes), Named o.yield
    ∧ replaced env false o.yield = "'&&','X'".toUTF8.toList ∧ eval env false o.chain = some "'&','X'".toUTF8.toList :=
  ⟨⟨[.string [.ch .amp] ⟨false⟩, .ch (.one .comma rfl (c1 ',') (by decide))],
    .string ⟨false⟩ [] (.named varA) [] ⟨false⟩, []⟩, env0, named_of (by decide +kernel), by decide +kernel, by decide +kernel⟩

/-- `&()` vanishes from labels without a message: `A&()` becomes `A`. -/
theorem C112_empty_witness : ∃ (l : Label) (env : Var → Bytes), replaced env false l.yield = "A&()".toUTF8.toList
    ∧ eval env false l.chain = some "A".toUTF8.toList :=
  ⟨.v ⟨[.one .ordsymbol rfl (c1 'A') (by decide)], .empty "&()".toUTF8.toList, []⟩, env0, by decide +kernel, by decide +kernel⟩

/-- In a sublist of a macro operand, `(&())`, it makes the server dereference a null pointer. -/
theorem C112_crash_witness : ∃ e : MacEntry, e.yield = [token .lpar [], .empty "&()".toUTF8.toList, token .rpar []]
    ∧ ∀ env, eval env false e.chain = none :=
  ⟨⟨.ch (.sublist (.chs [.ch (.var (.empty "&()".toUTF8.toList))]) []), []⟩, rfl, fun env => by
    simp [MacEntry.chain, MacFirst.chain, MacCh.chain, MacCh.chains, SubElem.chain, SubElem.chains, clear, List.filter_cons, kept,
      eval, evalList, ChV.point, VarSym.point]⟩

/-- `K==F` can be read in two ways; in only one of them the second point is the equals sign that makes it a keyword operand. -/
theorem C112_keyword_witness : ∃ e f : MacEntry, e.yield = f.yield ∧ (∃ r, e.chain = .str (c1 'K') :: .equ :: r)
    ∧ ∃ r, f.chain = .str (c1 'K') :: .str (c1 '=') :: r :=
  ⟨⟨.ch (.ch (.one .ordsymbol rfl (c1 'K') (by decide))),
      [.ch (.one .equals rfl (c1 '=') (by decide)), .ch (.one .equals rfl (c1 '=') (by decide)),
        .ch (.one .ordsymbol rfl (c1 'F') (by decide))]⟩,
    ⟨.keyLiteral (c1 'K') ⟨[(.equals, c1 '='), (.ordsymbol, c1 'F')]⟩, []⟩, by rfl, ⟨_, rfl⟩, ⟨_, rfl⟩⟩

/-! Cases that meet the hypotheses. -/

/-- `A&A..B`: the first full stop is left out, the second one stays. -/
example : ∃ l : Label, Named l.yield ∧ replaced env0 false l.yield = "AX.B".toUTF8.toList
    ∧ eval env0 false l.chain = some "AX.B".toUTF8.toList :=
  ⟨.v ⟨[.one .ordsymbol rfl (c1 'A') (by decide)], .named varA, [.one .dot rfl (c1 '.') (by decide), .one .dot rfl (c1 '.') (by decide),
    .one .ordsymbol rfl (c1 'B') (by decide)]⟩, named_of (by decide +kernel), by decide +kernel, by decide +kernel⟩

/-- `A'&A.A'`, a label with quotes. -/
example : ∃ l : Label, Named l.yield ∧ eval env0 false l.chain = some "A'XA'".toUTF8.toList :=
  ⟨.stringApo ⟨.one .ordsymbol rfl (c1 'A') (by decide), []⟩ ⟨[], .inside ⟨false⟩ ⟨[], .named varA, [.one .dot rfl (c1 '.') (by decide),
    .one .ordsymbol rfl (c1 'A') (by decide)]⟩ ⟨false⟩ [], []⟩, named_of (by decide +kernel), by decide +kernel⟩

/-- `L&A`. -/
example : ∃ s : StrV isL, Named s.yield ∧ eval env0 false s.chain = some "LX".toUTF8.toList :=
  ⟨⟨[.one .ordsymbol rfl (c1 'L') (by decide)], .named varA, []⟩, named_of (by decide +kernel), by decide +kernel⟩

/-- `A,'A''&A'`: the doubled quote of the string with the first variable symbol stays. -/
example : ∃ o : Operand, Named o.yield ∧ (∀ b ∈ o.before, ¬ b.Doubled) ∧ (∀ a ∈ o.after, ¬ a.Doubled)
    ∧ eval env0 false o.chain = some "A,'A''X'".toUTF8.toList :=
  ⟨⟨[.ch (.one .ordsymbol rfl (c1 'A') (by decide)), .ch (.one .comma rfl (c1 ',') (by decide))],
    .string ⟨false⟩ [.ch chA, .quotes ⟨false⟩ ⟨false⟩] (.named varA) [] ⟨false⟩, []⟩, named_of (by decide +kernel),
    (by intro b hb; simp at hb; rcases hb with rfl | rfl <;> exact fun h => h), (by intro a ha; cases ha), by decide +kernel⟩

/-- `K=(A,(&A.B),)`. -/
example : ∃ e : MacEntry, Named e.yield ∧ eval env0 false e.chain = some "K=(A,(XB),)".toUTF8.toList :=
  ⟨⟨.ch (.ch (.one .ordsymbol rfl (c1 'K') (by decide))), [.ch (.one .equals rfl (c1 '=') (by decide)),
    .sublist (.chs [.ch (.one .ordsymbol rfl (c1 'A') (by decide))]) [.chs [.sublist (.chs [.ch (.var (.named varA)),
      .ch (.one .dot rfl (c1 '.') (by decide)), .ch (.one .ordsymbol rfl (c1 'B') (by decide))]) []], .chs []]]⟩,
    named_of (by decide +kernel), by decide +kernel⟩

end Verif.Subst
