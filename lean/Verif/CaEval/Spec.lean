import Verif.CaEval.Model
/-!
What conditional assembly expressions mean, by the documented rules: every expression has values of certain kinds, composed of the values of its
parts. `denote env e k = some v` says that `e` is a valid expression of kind `k` and that its value is `v`.
-/
namespace Verif.CaEval

open Verif.Ca (A Op)

/-- Numbers are 32 bits wide. -/
def inRange (z : Int) : Bool := decide (-2147483648 ≤ z) && decide (z ≤ 2147483647)

def exact (z : Int) : Option Val := if inRange z then some (.a (BitVec.ofInt 32 z)) else none

/-- Only 0 and 1 are logical values. -/
def truth (v : A) : Option Val := if v = 0 then some (.b false) else if v = 1 then some (.b true) else none

/-- A number where an expression of kind `k` is expected. -/
def number (k : Kind) (v : A) : Option Val :=
  match k with
  | .a => some (.a v)
  | .b => truth v
  | _ => none

/-- The value of a variable symbol where an expression of kind `k` is expected: character values may be self-defining terms, the empty one
counts as zero among numbers. -/
def variableVal (env : Env) (k : Kind) : Val → Option Val
  | .a v => number k v
  | .b v => match k with
    | .a => some (.a (if v then 1 else 0))
    | .b => some (.b v)
    | _ => none
  | .c s => match k with
    | .a => if s = [] then some (.a 0) else (env.selfDef s).map .a
    | .b => (env.selfDef s).bind truth
    | .c => some (.c s)
    | _ => none

def Val.num? : Option Val → Option A
  | some (.a v) => some v
  | _ => none

def Val.chars? : Option Val → Option Bytes
  | some (.c v) => some v
  | _ => none

def Val.bool? : Option Val → Option Bool
  | some (.b v) => some v
  | _ => none

/-- `n` copies of a string, if they are not too long. -/
def copies (s : Bytes) (n : A) : Option Val :=
  if n.toInt < 0 ∨ s.length * n.toInt.toNat > 4064 then none else some (.c (List.replicate n.toInt.toNat s).flatten)

/-- How many characters are wanted: without a count, all from `start` on. -/
def wanted (s : Bytes) (start : A) : Option A → Int
  | some c => c.toInt
  | none => s.length - start.toInt + 1

/-- `count` characters from the one at position `start` on, counted from 1. -/
def substr (s : Bytes) (start : A) (count : Option A) : Option Bytes :=
  if start.toInt < 0 ∨ wanted s start count < 0 ∨ (start.toInt = 0 ∧ wanted s start count > 0) ∨ start.toInt > s.length then none
  else some (if wanted s start count = 0 then [] else (s.drop (start.toInt.toNat - 1)).take (wanted s start count).toNat)

/-- The signatures of the built-in functions. -/
inductive Sig where
  | numOfChars | numOfTwo | charsOfNum | charsOfChars

def sig : Fn → Sig
  | .FIND | .INDEX => .numOfTwo
  | .B2A | .C2A | .D2A | .DCLEN | .ISBIN | .ISDEC | .ISHEX | .ISSYM | .X2A => .numOfChars
  | .A2B | .A2C | .A2D | .A2X | .BYTE | .SIGNED => .charsOfNum
  | .B2C | .B2D | .B2X | .C2B | .C2D | .C2X | .D2B | .D2C | .D2X | .DCVAL | .DEQUOTE | .DOUBLE | .ESYM | .LOWER | .SYSATTRA | .SYSATTRP
  | .UPPER | .X2B | .X2C | .X2D => .charsOfChars

def arithVal : AOp → Int → Int → Option Val
  | .add, x, y => exact (x + y)
  | .sub, x, y => exact (x - y)
  | .mul, x, y => exact (x * y)
  | .div, x, y => if y = 0 then some (.a 0) else exact (x.tdiv y)

def related : Ca.Rel → Int → Int → Bool
  | .EQ, x, y => x = y
  | .NE, x, y => x ≠ y
  | .LE, x, y => x ≤ y
  | .LT, x, y => x < y
  | .GE, x, y => x ≥ y
  | .GT, x, y => x > y

/-- A comparison of numbers. Those that are too far apart are left out: the code subtracts them, see `C47_witness_overflow`. -/
def compareNum (o : Ca.Rel) (x y : A) : Option Val := if inRange (x.toInt - y.toInt) then some (.b (related o x.toInt y.toInt)) else none

/-- A comparison of strings: by length, then by the order of the characters in EBCDIC (C47). -/
def compareChars (env : Env) (o : Ca.Rel) (x y : Bytes) : Val :=
  let xs := x.map (·.toNat)
  let ys := y.map (·.toNat)
  .b (related o (if xs.length = ys.length then Ca.strCompare (env.toE xs) (env.toE ys) else (xs.length : Int) - ys.length) 0)

/-- An operator in front of its operand. -/
def unVal (env : Env) (k : Kind) (o : Opn) (d : Kind → Option Val) : Option Val :=
  match k, o with
  | .a, .base .NOT => (Val.num? (d .a)).map fun x => .a (~~~ x)
  | .b, .base .NOT => (Val.bool? (d .b)).map fun x => .b (!x)
  | .c, .BYTE => (Val.num? (d .a)).bind fun x => (env.fCA .BYTE x).map .c
  | .c, .SIGNED => (Val.num? (d .a)).bind fun x => (env.fCA .SIGNED x).map .c
  | .c, .DOUBLE => (Val.chars? (d .c)).bind fun x => (env.fCC .DOUBLE x).map .c
  | .c, .LOWER => (Val.chars? (d .c)).bind fun x => (env.fCC .LOWER x).map .c
  | .c, .UPPER => (Val.chars? (d .c)).bind fun x => (env.fCC .UPPER x).map .c
  | _, _ => none

def both {α : Type} (get : Option Val → Option α) (l r : Option Val) (f : α → α → Val) : Option Val :=
  (get l).bind fun x => (get r).map fun y => f x y

/-- The operators that compare. -/
def relOf (o : Op) : Option Ca.Rel :=
  [(Op.EQ, Ca.Rel.EQ), (.NE, .NE), (.LT, .LT), (.LE, .LE), (.GT, .GT), (.GE, .GE)].lookup o

/-- An operator between its operands. The operands of a comparison are strings if the left one is a character expression. -/
def binVal (env : Env) (k : Kind) (o : Op) (ch : Bool) (l r : Kind → Option Val) : Option Val :=
  match k, o with
  | .a, .SLA => both Val.num? (l .a) (r .a) fun x y => .a (Ca.shiftOperands x y .SLA)
  | .a, .SLL => both Val.num? (l .a) (r .a) fun x y => .a (Ca.shiftOperands x y .SLL)
  | .a, .SRA => both Val.num? (l .a) (r .a) fun x y => .a (Ca.shiftOperands x y .SRA)
  | .a, .SRL => both Val.num? (l .a) (r .a) fun x y => .a (Ca.shiftOperands x y .SRL)
  | .a, .FIND => both Val.chars? (l .c) (r .c) fun x y => .a (env.fACC .FIND x y)
  | .a, .INDEX => both Val.chars? (l .c) (r .c) fun x y => .a (env.fACC .INDEX x y)
  | .a, .AND => both Val.num? (l .a) (r .a) fun x y => .a (x &&& y)
  | .a, .OR => both Val.num? (l .a) (r .a) fun x y => .a (x ||| y)
  | .a, .XOR => both Val.num? (l .a) (r .a) fun x y => .a (x ^^^ y)
  | .b, .AND => both Val.bool? (l .b) (r .b) fun x y => .b (x && y)
  | .b, .OR => both Val.bool? (l .b) (r .b) fun x y => .b (x || y)
  | .b, .XOR => both Val.bool? (l .b) (r .b) fun x y => .b (x ^^ y)
  | .b, .AND_NOT => both Val.bool? (l .b) (r .b) fun x y => .b (x && !y)
  | .b, .OR_NOT => both Val.bool? (l .b) (r .b) fun x y => .b (x || !y)
  | .b, .XOR_NOT => both Val.bool? (l .b) (r .b) fun x y => .b (x ^^ !y)
  | .b, o => match relOf o with
    | none => none
    | some rel =>
      if ch then both Val.chars? (l .c) (r .c) (compareChars env rel)
      else (Val.num? (l .a)).bind fun x => (Val.num? (r .a)).bind fun y => compareNum rel x y
  | _, _ => none

/-- Whether a part of a list is a character expression. -/
def charOf {α : Type} (es : List (Elem α)) : Grp → Bool
  | .leaf i => match es[i]? with
    | some (.term ch _) => ch
    | _ => false
  | _ => false

/-- The value of a part of a list of kind `K`, where `k` is expected. -/
def denoteG (env : Env) (es : List (Elem (Option Val))) (K : Kind) : Grp → Kind → Option Val
  | .leaf i, k => match es[i]? with
    | some (.term _ res) => res k
    | some (.sym s) => (env.sym s).bind (number k)
    | _ => none
  | .opsym o, k => (env.sym (.op o)).bind (number k)
  | .un o g, k => if K = k then unVal env K o (denoteG env es K g) else none
  | .bin (.base o) l r, k => if K = k then binVal env K o (charOf es l) (denoteG env es K l) (denoteG env es K r) else none
  | .bin _ _ _, _ => none

/-- An operator directly in front of a parenthesis is an operator, what is in the parenthesis its operand. -/
def spread {α : Type} : List (Elem α) → List (Elem α)
  | [] => []
  | .opfn o _ arg :: es => [.sym (.op (.base o)), .term false arg] ++ spread es
  | e :: es => e :: spread es

/-- The elements of arithmetic and logical expressions for C43: the names of their operators, and terms with their positions. -/
def tokens {α : Type} (es : List (Elem α)) : List Ca.Tok :=
  es.zipIdx.map fun x => match x.1 with
    | .sym (.op (.base o)) => .op o
    | _ => .term x.2

def asGrp : Ca.Expr → Grp
  | .leaf (.op o) => .opsym (.base o)
  | .leaf (.term i) => .leaf i
  | .un o e => .un (.base o) (asGrp e)
  | .bin o l r => .bin (.base o) (asGrp l) (asGrp r)

/-- Character expressions in parentheses: operators in front of a single term. The first argument is the position. -/
def chain {α : Type} : Nat → List (Elem α) → Option Grp
  | _, [] => none
  | i, [.sym (.op (.base _))] => some (.leaf i)
  | _, .sym (.op (.base _)) :: _ => none
  | i, .sym (.op o) :: es => (chain (i + 1) es).map (.un o)
  | i, [_] => some (.leaf i)
  | _, _ :: _ => none

/-- How the elements of a list are grouped, for arithmetic and logical expressions as said in C43. -/
def grouped {α : Type} (k : Kind) (es : List (Elem α)) : Option Grp :=
  match k with
  | .a => (Ca.resolve .arith (tokens es)).map asGrp
  | .b => (Ca.resolve .binary (tokens es)).map asGrp
  | .c => chain 0 es
  | .undef => none

/-- The value of a list. -/
def denoteList (env : Env) (k : Kind) (es : List (Elem (Option Val))) : Option Val :=
  match grouped k (spread es) with
  | none => none
  | some g => denoteG env (spread es) k g k

/-- The first operand of an expression. -/
def firstOf : Src → Src
  | .arith _ l _ => firstOf l
  | .conc l _ => firstOf l
  | e => e

/-- Expressions that the code takes for character expressions: those that begin with a string that is not repeated or with a type attribute. -/
def recognised (e : Src) : Bool := match firstOf e with
  | .attr c _ => c
  | .str _ dup _ _ => dup.isAbsent
  | _ => false

mutual
/-- Whether an expression is a character expression. -/
def charSrc : Src → Bool
  | .attr c _ => c
  | .str .. => true
  | .conc .. => true
  | .fn f .. => match sig f with
    | .charsOfNum | .charsOfChars => true
    | _ => false
  | .list es => charList es
  | _ => false
/-- A list is a character expression if it is one in parentheses or one of the operators in front of an operand. -/
def charList : List Src → Bool
  | [e] => charSrc e
  | .sym (.op (.base _)) :: _ => false
  | .sym (.op _) :: .sym (.op (.base _)) :: _ => false
  | .sym (.op _) :: _ :: _ => true
  | _ => false
end

mutual
/-- The value of an expression where one of kind `k` is expected. -/
def denote (env : Env) : Src → Kind → Option Val
  | .absent, _ => none
  | .num v, k => number k v
  | .sym s, k => (env.sym s).bind (number k)
  | .var n, k => (env.var n).bind (variableVal env k)
  | .attr false n, k => (env.attrA n).bind (number k)
  | .attr true n, k => if k = .c then (env.attrC n).map .c else none
  | .str n dup start count, k =>
    if k ≠ .c then none else
    (env.chain n).bind fun s =>
    if s.length > 4064 then none else
    (if start.isAbsent then some s else
      (Val.num? (denote env start .a)).bind fun b =>
      if count.isAbsent then substr s b none else (Val.num? (denote env count .a)).bind fun c => substr s b (some c)).bind fun s =>
    if dup.isAbsent then some (.c s) else (Val.num? (denote env dup .a)).bind (copies s)
  | .fn f p q dup, k =>
    match sig f with
    | .numOfTwo => if k ≠ .a ∨ dup.isAbsent = false then none else
      (Val.chars? (denote env p .c)).bind fun x => (Val.chars? (denote env q .c)).map fun y => .a (env.fACC f x y)
    | .numOfChars => if k ≠ .a ∨ dup.isAbsent = false ∨ q.isAbsent = false then none else
      (Val.chars? (denote env p .c)).bind fun x => (env.fAC f x).map .a
    | .charsOfNum => if k ≠ .c ∨ q.isAbsent = false then none else
      ((Val.num? (denote env p .a)).bind (env.fCA f)).bind fun s =>
      if dup.isAbsent then some (.c s) else (Val.num? (denote env dup .a)).bind (copies s)
    | .charsOfChars => if k ≠ .c ∨ q.isAbsent = false then none else
      ((Val.chars? (denote env p .c)).bind (env.fCC f)).bind fun s =>
      if dup.isAbsent then some (.c s) else (Val.num? (denote env dup .a)).bind (copies s)
  | .arith o l r, k => if k ≠ .a then none else
    (Val.num? (denote env l .a)).bind fun x => (Val.num? (denote env r .a)).bind fun y => arithVal o x.toInt y.toInt
  | .conc l r, k => if k ≠ .c then none else
    (Val.chars? (denote env l .c)).bind fun x => (Val.chars? (denote env r .c)).bind fun y =>
    if x.length + y.length > 4064 then none else some (.c (x ++ y))
  | .plus e, k => if k ≠ .a then none else denote env e .a
  | .minus e, k => if k ≠ .a then none else (Val.num? (denote env e .a)).bind fun x => exact (-x.toInt)
  | .opfn _ _, _ => none
  | .list es, k => denoteList env k (denotes env es)
/-- The elements of a list. -/
def denotes (env : Env) : List Src → List (Elem (Option Val))
  | [] => []
  | .sym s :: es => .sym s :: denotes env es
  | .opfn o a :: es => .opfn o false (denote env a) :: denotes env es
  | e :: es => .term (charSrc e) (denote env e) :: denotes env es
end

/-- What the code does not check. `ok env k t`: in the resolved expression, where one of kind `k` is expected,
 * a reference to a type or operation code attribute stands where characters are expected,
 * variable symbols with numbers other than 0 and 1 do not stand for logical values, and none with a number or logical value for characters,
 * the operands of logical operators are 0 or 1,
 * operators that take one operand do not stand between two. -/
def ok (env : Env) : Kind → Tree → Prop
  | _, .absent => True
  | _, .num _ => True
  | _, .sym _ => True
  | k, .var n _ => match env.var n with
    | some (.a v) => (k = .b → v = 0 ∨ v = 1) ∧ k ≠ .c
    | some (.b _) => k ≠ .c
    | _ => True
  | k, .attr c _ => c = true → k = .c
  | _, .str _ d s c => ok env .a d ∧ ok env .a s ∧ ok env .a c
  | _, .fn f p q d => ok env (fnParams f).2 p ∧ ok env (fnParams f).2 q ∧ ok env .a d
  | _, .arith _ l r => ok env .a l ∧ ok env .a r
  | _, .conc l r => ok env .c l ∧ ok env .c r
  | _, .plus e => ok env .a e
  | _, .minus e => ok env .a e
  | _, .un o k e => ok env (operandsType o k) e ∧ (k = .b → logical env e)
  | _, .bin o k ko l r =>
    (∃ o', o = .base o' ∧ o' ≠ .NOT) ∧ ok env ko l ∧ ok env ko r ∧
    (k = .b → relational o = none → logical env l ∧ logical env r)
  | k, .par e => ok env k e
  | k, .list _ e => ok env k e
where
  logical (env : Env) (t : Tree) : Prop := ∀ v d, eval env t = .ret v d → v.a = 0 ∨ v.a = 1

end Verif.CaEval
