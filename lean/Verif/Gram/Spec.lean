import Verif.Gram.Model
/-!
What operands are supposed to mean, independently of the grammar.
-/
namespace Verif.Gram

open Lexing (Pos Rng Ty)

/-- The name of a symbol: a token that begins with a letter, then words, all together. -/
inductive Spelled : Bytes → List Tok → Prop where
  | mk (t : Tok) (ws : List Tok) (h : t.ty = .ordsymbol) (hw : ∀ w ∈ ws, w.ty = .ordsymbol ∨ w.ty = .identifier ∨ w.ty = .num) :
    Spelled (t.text ++ ws.flatMap (·.text)) (t :: ws)

/-- A symbol, with a qualifier or without. -/
inductive SymbolSpelled : Bytes → List Tok → Prop where
  | plain {n : Bytes} {ts : List Tok} (h : Spelled n ts) : SymbolSpelled n ts
  | qualified {q n : Bytes} {ts us : List Tok} (r : Rng) (hq : Spelled q ts) (hn : Spelled n us) :
    SymbolSpelled n (ts ++ sym .dot '.' r :: us)

/-- A quote, as either of its tokens. -/
def Tok.isQuote (t : Tok) : Prop := (t.ty = .apostrophe ∨ t.ty = .attr) ∧ t.text = [39]

/-- The inside of a string: doubled quotes and ampersands stand for one. -/
inductive Inside : Bytes → List Tok → Prop where
  | nil : Inside [] []
  | one {v : Bytes} {ts : List Tok} (t : Tok)
    (h : t.ty ∈ [Ty.asterisk, .minus, .plus, .lt, .gt, .slash, .equals, .vertical, .identifier, .num, .ordsymbol, .dot, .comma, .lpar,
      .rpar, .space])
    (hi : Inside v ts) : Inside (t.text ++ v) (t :: ts)
  | amp {v : Bytes} {ts : List Tok} (a b : Rng) (hi : Inside v ts) :
    Inside (38 :: v) (sym .ampersand '&' a :: sym .ampersand '&' b :: ts)
  | quote {v : Bytes} {ts : List Tok} (a b : Tok) (ha : a.isQuote) (hb : b.isQuote) (hi : Inside v ts) :
    Inside (39 :: v) (a :: b :: ts)

/-- Letters of attributes of symbols. -/
def attrLetters : List Bytes := "DdOoNnSsKkIiLlTt".toList.map fun c => [UInt8.ofNat c.toNat]

/-- The terms and their spellings. -/
inductive LeafSpelled : Leaf → List Tok → Prop where
  | loc (r : Rng) : LeafSpelled .loc [sym .asterisk '*' r]
  | symbol {n : Bytes} {ts : List Tok} (h : SymbolSpelled n ts) : LeafSpelled (.symbol n) ts
  | number (ts : List Tok) (ne : ts ≠ []) (h : ∀ t ∈ ts, t.ty = .num) : LeafSpelled (.number (ts.flatMap (·.text))) ts
  | selfDef {v : Bytes} {ts : List Tok} (t close : Tok) (r : Rng) (ht : t.ty = .ordsymbol) (hc : close.isQuote) (hi : Inside v ts) :
    LeafSpelled (.selfDef t.text v) (t :: sym .apostrophe '\'' r :: (ts ++ [close]))
  | attr {n : Bytes} {ts : List Tok} (t : Tok) (r : Rng) (ht : t.ty = .ordsymbol) (hl : t.text ∈ attrLetters) (h : SymbolSpelled n ts) :
    LeafSpelled (.attr t.text n (span ts)) (t :: sym .attr '\'' r :: ts)
  | attrLoc (t : Tok) (r s : Rng) (ht : t.ty = .ordsymbol) (hl : t.text ∈ attrLetters) :
    LeafSpelled .dflt [t, sym .attr '\'' r, sym .asterisk '*' s]

/-- The signs of binary operators. -/
def BinOp.tok (o : BinOp) (r : Rng) : Tok := match o with
  | .add => sym .plus '+' r
  | .sub => sym .minus '-' r
  | .mul => sym .asterisk '*' r
  | .div => sym .slash '/' r

/-- The expression is written this way: its terms and operators in their order, nothing else, and each part of it knows where it
stands. -/
inductive Written : Tree → List Tok → Prop where
  | leaf {k : Leaf} {ts : List Tok} (h : LeafSpelled k ts) : Written (.leaf k (span ts)) ts
  | plus {e : Tree} {ts : List Tok} (r : Rng) (h : Written e ts) :
    Written (.un .add e (span (sym .plus '+' r :: ts))) (sym .plus '+' r :: ts)
  | minus {e : Tree} {ts : List Tok} (r : Rng) (h : Written e ts) :
    Written (.un .sub e (span (sym .minus '-' r :: ts))) (sym .minus '-' r :: ts)
  | par {e : Tree} {ts : List Tok} (l r : Rng) (h : Written e ts) :
    Written (.un .par e (span (sym .lpar '(' l :: (ts ++ [sym .rpar ')' r])))) (sym .lpar '(' l :: (ts ++ [sym .rpar ')' r]))
  | bin {a b : Tree} {ts us : List Tok} (op : BinOp) (r : Rng) (ha : Written a ts) (hb : Written b us) :
    Written (.bin op a b (span (ts ++ op.tok r :: us))) (ts ++ op.tok r :: us)

/-- How tightly the outermost operator binds: sums 0, products 1, signs 2, terms and parentheses 3. -/
def Tree.level : Tree → Nat
  | .bin .add _ _ _ | .bin .sub _ _ _ => 0
  | .bin .mul _ _ _ | .bin .div _ _ _ => 1
  | .un .add _ _ | .un .sub _ _ => 2
  | .un .par _ _ => 3
  | .leaf _ _ => 3

/-- Operators group as in arithmetic: products before sums, equal operators from the left, signs belong to the term behind them. -/
def Tree.Grouped : Tree → Prop
  | .leaf _ _ => True
  | .un .par e _ => e.Grouped
  | .un _ e _ => e.Grouped ∧ 2 ≤ e.level
  | .bin .add l r _ | .bin .sub l r _ => l.Grouped ∧ r.Grouped ∧ 1 ≤ r.level
  | .bin _ l r _ => l.Grouped ∧ r.Grouped ∧ 1 ≤ l.level ∧ 2 ≤ r.level

/-- There is no literal in the text. -/
def NoLiteral (ts : List Tok) : Prop := ∀ t ∈ ts, t.ty ≠ .equals

/-- An expression is read from a text. -/
def Reads (ts : List Tok) (t : Tree) : Prop := ∃ c : Expr, c.yield = ts ∧ c.ast = t

/-- The grouped expression written this way. -/
def Meant (ts : List Tok) (t : Tree) : Prop := Written t ts ∧ t.Grouped

/-- Machine operands as they are written. -/
inductive OperandMeant : List Tok → Operand → Prop where
  | expr {ts : List Tok} {e : Tree} (h : Meant ts e) : OperandMeant ts (.expr e (span ts))
  | base {ts us : List Tok} {d b : Tree} (l r : Rng) (hd : Meant ts d) (hb : Meant us b) :
    OperandMeant (ts ++ sym .lpar '(' l :: (us ++ [sym .rpar ')' r]))
      (.address d none (some b) (span (ts ++ sym .lpar '(' l :: (us ++ [sym .rpar ')' r]))) .oneOp)
  | both {ts us vs : List Tok} {d x b : Tree} (l c r : Rng) (hd : Meant ts d) (hx : Meant us x) (hb : Meant vs b) :
    OperandMeant (ts ++ sym .lpar '(' l :: (us ++ sym .comma ',' c :: (vs ++ [sym .rpar ')' r])))
      (.address d (some x) (some b) (span (ts ++ sym .lpar '(' l :: (us ++ sym .comma ',' c :: (vs ++ [sym .rpar ')' r])))) .present)
  | noIndex {ts vs : List Tok} {d b : Tree} (l c r : Rng) (hd : Meant ts d) (hb : Meant vs b) :
    OperandMeant (ts ++ sym .lpar '(' l :: sym .comma ',' c :: (vs ++ [sym .rpar ')' r]))
      (.address d none (some b) (span (ts ++ sym .lpar '(' l :: sym .comma ',' c :: (vs ++ [sym .rpar ')' r]))) .firstOmitted)
  | noBase {ts us : List Tok} {d x : Tree} (l c r : Rng) (hd : Meant ts d) (hx : Meant us x) :
    OperandMeant (ts ++ sym .lpar '(' l :: (us ++ [sym .comma ',' c, sym .rpar ')' r]))
      (.address d (some x) none (span (ts ++ sym .lpar '(' l :: (us ++ [sym .comma ',' c, sym .rpar ')' r]))) .secondOmitted)

/-- The operand the text reads as. -/
def OperandReads (ts : List Tok) (o : Operand) : Prop := ∃ c : MachOp, c.yield = ts ∧ c.operand = o

/-! ### operands are separated by commas outside of parentheses and strings -/

/-- Where a reader of the field is: outside of strings at a depth of parentheses, inside of one, or just behind a quote that ends it
unless another one follows. -/
inductive Where where
  | out (depth : Nat)
  | inside (depth : Nat)
  | quoted (depth : Nat)
deriving DecidableEq, Repr

/-- Outside of strings. -/
def stepOut (d : Nat) : Ty → Where
  | .apostrophe => .inside d
  | .lpar => .out (d + 1)
  | .rpar => .out (d - 1)
  | _ => .out d

/-- The next token. -/
def Where.step : Where → Ty → Where
  | .out d, t => stepOut d t
  | .inside d, t => if t = .apostrophe ∨ t = .attr then .quoted d else .inside d
  | .quoted d, t => if t = .apostrophe ∨ t = .attr then .inside d else stepOut d t

/-- A comma here separates operands. -/
def Where.top : Where → Bool
  | .out 0 | .quoted 0 => true
  | _ => false

/-- The text cut at its separating commas. -/
def cut : Where → List Tok → List (List Tok)
  | _, [] => [[]]
  | w, t :: ts =>
    if w.top ∧ t.ty = .comma then [] :: cut (.out 0) ts
    else match cut (w.step t.ty) ts with
      | [] => [[t]]
      | x :: xs => (t :: x) :: xs

end Verif.Gram
