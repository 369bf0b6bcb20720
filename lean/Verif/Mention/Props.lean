import Verif.Mention.Spec
import Verif.Attr.Props
/-! C109: which mentions of symbols are found. -/
namespace Verif.Mention

open Lexing (Pos Rng)

theorem only_append (k : Kind) (a b : List Occ) : only k (a ++ b) = only k a ++ only k b := List.filter_append ..
theorem only_nil (k : Kind) : only k [] = [] := rfl

theorem upper_eq (t : Bytes) : Attr.upper t = capitals t := by
  refine List.map_congr_left fun c _ => ?_
  have h : ∀ c : UInt8, (if 97 ≤ c && c ≤ 122 then c - 32 else c) = if c ∈ small then c - 32 else c :=
    Verif.forall_byte _ (by decide +kernel)
  exact h c

theorem isName_iff (t : Bytes) : isName t = true ↔ Attr.Spec.IsSymbol t ∧ t.length ≤ 63 := by
  cases t with
  | nil => exact ⟨fun h => (by cases h), fun ⟨⟨c, t, h, _⟩, _⟩ => (by cases h)⟩
  | cons c t =>
    simp only [isName, Bool.and_eq_true, decide_eq_true_eq, List.all_eq_true]
    constructor
    · rintro ⟨⟨h1, h2⟩, h3⟩; exact ⟨⟨c, t, rfl, h1, h3⟩, h2⟩
    · rintro ⟨⟨c', t', h, h1, h3⟩, h2⟩; injection h with e1 e2; exact ⟨⟨e1 ▸ h1, h2⟩, h3⟩

theorem only_text (k : Kind) (t : Bytes) (r : Rng) : only k (text t r) = textColl k t r := by
  unfold text textColl
  rcases Attr.symbolName_eq t with ⟨h, h1, h2⟩ | ⟨h, h1⟩
  · rw [if_pos ((isName_iff t).mpr ⟨h1, h2⟩), h, ← upper_eq]
    cases k <;> rfl
  · rw [if_neg (fun x => h1 ((isName_iff t).mp x)), h]
    cases k <;> rfl

theorem only_record (k kind : Kind) (n : Bytes) (r : Rng) : only k [⟨kind, n, r, none⟩] = record k kind n r := by
  cases k <;> cases kind <;> rfl

theorem Mach.found (k : Kind) : ∀ e : Mach, only k e.all = e.coll k
  | .sym n r => only_record k .ord n r
  | .attr n r => only_record k .ord n r
  | .un e => e.found k
  | .bin l r => by rw [all, coll, only_append, l.found k, r.found k]
  | .const => rfl
  | .selfDef => rfl
  | .loc => rfl
  | .dflt => rfl

theorem textColl_var (v : Bytes) (r : Rng) : textColl .var v r = [] := rfl

mutual
theorem Var.found (k : Kind) (o : Occ) : ∀ v : Var, (only k v.all).count o = (v.coll k).count o + (only k v.buried).count o
  | .basic n s r => by
    have : only k (⟨.var, n, r, none⟩ :: s.all) = (if k = .var then [⟨.var, n, r, none⟩] else []) ++ only k s.all := by
      cases k <;> rfl
    simp only [Var.all, Var.coll, Var.buried, this, List.count_append]
  | .created c s r => by
    have h := c.foundIn k o true
    simp only [Var.all, Var.coll, Var.buried, only_append, List.count_append, h]
    by_cases hk : k = .var
    · simp only [if_pos hk]; omega
    · simp only [if_neg hk, List.count_nil]; omega
theorem Chain.found (k : Kind) (o : Occ) (t : Bool) : ∀ (c : Chain) (alone : Bool),
    (only k (c.all t alone)).count o + (only k (c.glued t alone)).count o = (c.coll k).count o + (only k c.buried).count o
  | .nil, _ => rfl
  | .str v r rest, alone => by
    have h := rest.found k o t false
    simp only [Chain.all, Chain.coll, Chain.buried, Chain.glued, only_append, List.count_append, ← only_text]
    split <;> simp only [only_nil, List.count_nil] <;> omega
  | .var v rest, alone => by
    have h := rest.found k o t false
    have h1 := v.found k o
    have h2 : (if k = .var then v.coll k else []) = v.coll k := by
      split
      · rfl
      · cases v <;> simp [Var.coll, *]
    simp only [Chain.all, Chain.coll, Chain.buried, Chain.glued, only_append, List.count_append, h2]
    omega
  | .dot rest, alone => by
    have h := rest.found k o t false
    simpa only [Chain.all, Chain.coll, Chain.buried, Chain.glued] using h
  | .sub l rest, alone => by
    have h := rest.found k o t false
    have h1 := l.found k o t
    simp only [Chain.all, Chain.coll, Chain.buried, Chain.glued, only_append, List.count_append]
    omega
theorem Chains.found (k : Kind) (o : Occ) (t : Bool) : ∀ (c : Chains),
    (only k (c.all t)).count o + (only k (c.glued t)).count o = (c.coll k).count o + (only k c.buried).count o
  | .nil => rfl
  | .cons c rest => by
    have h := rest.found k o t
    have h1 := c.found k o t true
    simp only [Chains.all, Chains.coll, Chains.buried, Chains.glued, only_append, List.count_append]
    omega
/-- In names of variable symbols texts are no symbols. -/
theorem Chain.foundIn (k : Kind) (o : Occ) : ∀ (c : Chain) (alone : Bool),
    (only k (c.all false alone)).count o = (if k = .var then (c.coll k).count o else 0) + (only k c.buried).count o
  | .nil, _ => by cases k <;> rfl
  | .str v r rest, alone => by
    have h := rest.foundIn k o false
    simp only [Chain.all, Chain.coll, Chain.buried, Bool.false_and, Bool.false_eq_true, if_false, List.nil_append, h, List.count_append]
    split
    · subst k; rw [textColl_var]; simp
    · rfl
  | .var v rest, alone => by
    have h := rest.foundIn k o false
    have h1 := v.found k o
    have h2 : k ≠ .var → v.coll k = [] := fun hk => by cases v <;> simp [Var.coll, hk]
    simp only [Chain.all, Chain.coll, Chain.buried, only_append, List.count_append, h]
    split
    · omega
    · rw [h2 ‹_›] at h1; simp at h1; omega
  | .dot rest, alone => by
    have h := rest.foundIn k o false
    simpa only [Chain.all, Chain.coll, Chain.buried] using h
  | .sub l rest, alone => by
    have h := rest.foundIn k o false
    have h1 := l.foundIn k o
    simp only [Chain.all, Chain.coll, Chain.buried, only_append, List.count_append]
    split <;> simp_all <;> omega
theorem Chains.foundIn (k : Kind) (o : Occ) : ∀ (c : Chains),
    (only k (c.all false)).count o = (if k = .var then (c.coll k).count o else 0) + (only k c.buried).count o
  | .nil => by cases k <;> rfl
  | .cons c rest => by
    have h := rest.foundIn k o
    have h1 := c.foundIn k o true
    simp only [Chains.all, Chains.coll, Chains.buried, only_append, List.count_append]
    split <;> simp_all <;> omega
theorem Expr.found (k : Kind) (o : Occ) : ∀ e : Expr, (only k e.all).count o = (e.coll k).count o + (only k e.buried).count o
  | .const => rfl
  | .list es => es.found k o
  | .func ps d => by
    have h := ps.found k o
    have h1 := d.found k o
    simp only [Expr.all, Expr.coll, Expr.buried, only_append, List.count_append]
    omega
  | .string v d s c => by
    have h1 := d.found k o
    simp only [Expr.all, Expr.coll, Expr.buried, only_append, List.count_append]
    omega
  | .sym n r => by simp only [Expr.all, Expr.coll, Expr.buried, only_record, only_nil, List.count_nil, Nat.add_zero]
  | .attrOrd n r => by simp only [Expr.all, Expr.coll, Expr.buried, only_record, only_nil, List.count_nil, Nat.add_zero]
  | .attrVar v => v.found k o
  | .var v => v.found k o
  | .un e => e.found k o
  | .bin l r => by
    have h := l.found k o
    have h1 := r.found k o
    simp only [Expr.all, Expr.coll, Expr.buried, only_append, List.count_append]
    omega
theorem Exprs.found (k : Kind) (o : Occ) : ∀ e : Exprs, (only k e.all).count o = (e.coll k).count o + (only k e.buried).count o
  | .nil => rfl
  | .cons e rest => by
    have h := e.found k o
    have h1 := rest.found k o
    simp only [Exprs.all, Exprs.coll, Exprs.buried, only_append, List.count_append]
    omega
theorem OptExpr.found (k : Kind) (o : Occ) : ∀ e : OptExpr, (only k e.all).count o = (e.coll k).count o + (only k e.buried).count o
  | .none => rfl
  | .some e => e.found k o
end

theorem optMach_eq (k : Kind) (e : Option Mach) : only k (optAll e) = optMach k e := by
  cases e with
  | none => rfl
  | some e => exact e.found k

theorem Nominal.found (k : Kind) (n : Nominal) : only k n.all = n.coll k := by
  cases n with
  | expr e => exact e.found k
  | addr d b => rw [all, coll, only_append, d.found k, b.found k]

theorem only_flatMap {α : Type} (k : Kind) (f : α → List Occ) (l : List α) : only k (l.flatMap f) = l.flatMap fun a => only k (f a) := by
  induction l with
  | nil => rfl
  | cons a l ih => rw [List.flatMap_cons, only_append, ih, List.flatMap_cons]

theorem Operand.found (k : Kind) (o : Occ) (p : Operand) :
    (only k p.all).count o + (only k p.glued).count o = (p.coll k).count o + (only k p.buried).count o := by
  cases p with
  | model c => exact c.found k o true true
  | macChain c => exact c.found k o true true
  | caVar v => have := v.found k o; simpa [all, glued, coll, buried, only_nil] using this
  | caExpr e => have := e.found k o; simpa [all, glued, coll, buried, only_nil] using this
  | caBranch e n r =>
    have := e.found k o
    simp only [all, glued, coll, buried, only_append, only_nil, List.count_append, only_record]; simp; omega
  | caSeq n r => simp only [all, glued, coll, buried, only_record]
  | data d p l s e n =>
    simp only [all, glued, coll, buried, only_append, only_flatMap, optMach_eq, Nominal.found]
  | _ => simp only [all, glued, coll, buried, only_append, optMach_eq, only_nil]

theorem operands_found (k : Kind) (o : Occ) (l : List Operand) :
    (only k (l.flatMap (·.all))).count o + (only k (l.flatMap (·.glued))).count o =
      (l.flatMap (·.coll k)).count o + (only k (l.flatMap (·.buried))).count o := by
  induction l with
  | nil => rfl
  | cons p l ih =>
    have := p.found k o
    simp only [List.flatMap_cons, only_append, List.count_append]
    omega

theorem vars_found (k : Kind) (o : Occ) (l : List Var) :
    (only k (l.flatMap (·.all))).count o = (l.flatMap (·.coll k)).count o + (only k (l.flatMap (·.buried))).count o := by
  induction l with
  | nil => rfl
  | cons p l ih =>
    have := p.found k o
    simp only [List.flatMap_cons, only_append, List.count_append]
    omega

theorem Label.found (k : Kind) (o : Occ) (l : Label) :
    (only k l.all).count o + (only k l.glued).count o = (l.coll k).count o + (only k l.buried).count o := by
  cases l with
  | conc c => exact c.found k o true true
  | var v => exact v.found k o
  | ord n r => simp only [all, glued, buried, only_record, Label.coll]
  | seq n r => simp only [all, glued, buried, only_record, Label.coll]
  | _ => rfl

theorem Instr.found (C : Codes) (k : Kind) (o : Occ) (i : Instr) :
    (only k (i.all C)).count o + (only k i.glued).count o = (i.coll C k).count o + (only k i.buried).count o := by
  cases i with
  | conc c => exact c.found k o false true
  | ord n r => simp only [Instr.all, glued, buried, Instr.coll]; cases C n <;> cases k <;> rfl
  | empty => rfl

theorem Field.found (k : Kind) (o : Occ) (f : Field) :
    (only k f.all).count o + (only k f.glued).count o = (f.coll k).count o + (only k f.buried).count o := by
  cases f with
  | operands l => exact operands_found k o l
  | deferred vs => exact vars_found k o vs

theorem Stmt.found (C : Codes) (k : Kind) (o : Occ) (s : Stmt) :
    (only k (s.all C ++ s.glued)).count o = (s.coll C k ++ only k s.buried).count o := by
  have hl := s.label.found k o
  have hi := s.instr.found C k o
  have hf := s.field.found k o
  simp only [Stmt.all, Stmt.glued, Stmt.buried, Stmt.coll, only_append, List.count_append]
  omega

/-- What is collected of a statement are all its mentions of the kind except those in subscripts of variable symbols and in character
strings, each as often as it is written, and parts of names made with variable symbols that look like symbols. -/
theorem C109_collected_partial (C : Codes) (k : Kind) (s : Stmt) :
    (s.coll C k ++ only k s.buried).Perm (only k (s.all C ++ s.glued)) :=
  List.perm_iff_count.mpr fun o => (s.found C k o).symm

end Verif.Mention
