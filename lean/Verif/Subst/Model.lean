import Verif.Basic
import Verif.Lexing.Lexer
import Verif.MacroDef.Concat
/-!
Texts with variable symbols: labels, operation codes and operands of model statements, and operands of macros.

Modelled: `/repo/parser_library/src/parsing/grammar/label_field_rules.g4`, `model_operand_rules.g4`, `macro_operand_rules.g4`,
`string` and its parts in `machine_expr_rules.g4`, and `concatenation.cpp`/`concatenation_term.cpp`. As in `Gram.Model` a parse tree is a
value of the type of its rule; `yield` is its text and `chain` what the actions build. Lists built by left-recursive rules are lists.
Variable symbols with their subscripts and created names, and literals, are leaves. Ranges and highlighting are left out.
-/
namespace Verif.Subst

open Lexing (Ty)
open MacroDef (Var)

/-- A text of one character. -/
def c1 (c : Char) : Bytes := [UInt8.ofNat c.toNat]

/-- `concatenation_point` (`semantics/concatenation.h`); the symbol of a variable symbol may be missing (a null pointer). -/
inductive Pt where
  | str (t : Bytes)
  | var (v : Option Var)
  | dot
  | equ
  | sub (l : List (List Pt))

mutual
/-- `concatenation_point::evaluate` (`concatenation.cpp` 50-82) with the `evaluate` of the points (`concatenation_term.cpp` 27-85).
`none`: a null pointer is dereferenced (`var_sym_conc::evaluate`). `env`: the text of the value of a variable symbol. -/
def eval (env : Var → Bytes) (wasVar : Bool) : List Pt → Option Bytes
  | [] => some []
  | .dot :: r => do
    let t ← eval env false r
    return (if wasVar then [] else c1 '.') ++ t
  | .var none :: _ => none
  | .var (some v) :: r => do
    let t ← eval env true r
    return env v ++ t
  | .str s :: r => do
    let t ← eval env false r
    return s ++ t
  | .equ :: r => do
    let t ← eval env false r
    return c1 '=' ++ t
  | .sub l :: r => do
    let s ← evalList env l
    let t ← eval env false r
    return c1 '(' ++ s ++ c1 ')' ++ t
/-- The loop of `sublist_conc::evaluate` (`concatenation_term.cpp` 77-82). -/
def evalList (env : Var → Bytes) : List (List Pt) → Option Bytes
  | [] => some []
  | [c] => eval env false c
  | c :: d :: l => do
    let s ← eval env false c
    let t ← evalList env (d :: l)
    return s ++ c1 ',' ++ t
end

/-- The points `clear_concat_chain` keeps (`concatenation.cpp` 84-97). -/
def kept : Pt → Bool
  | .str t => !t.isEmpty
  | .var v => v.isSome
  | _ => true

/-- `clear_concat_chain` (`concatenation.cpp` 84-97). -/
def clear (c : List Pt) : List Pt := c.filter kept

/-! ### leaves -/

/-- What is written: tokens, variable symbols, and `&()` with its subscript. -/
inductive W where
  | tok (ty : Ty) (text : Bytes)
  | var (v : Var)
  | empty (text : Bytes)
deriving DecidableEq, Repr

/-- The characters of the tokens of one character (`lexer.cpp` 480-640). -/
def glyph : Ty → Option Char
  | .asterisk => some '*'
  | .minus => some '-'
  | .plus => some '+'
  | .lt => some '<'
  | .gt => some '>'
  | .slash => some '/'
  | .equals => some '='
  | .vertical => some '|'
  | .dot => some '.'
  | .comma => some ','
  | .lpar => some '('
  | .rpar => some ')'
  | .attr => some '\''
  | .apostrophe => some '\''
  | .ampersand => some '&'
  | _ => none

/-- A token; the text counts for the types that have no character of their own. -/
def token (ty : Ty) (text : Bytes) : W := .tok ty (match glyph ty with | some c => c1 c | none => text)

/-- `var_symbol` (`ca_expr_rules.g4` 218-226) and `created_set_symbol` (210-216): `empty` is the alternative without an action. -/
inductive VarSym where
  | named (v : Var)
  | empty (text : Bytes)

/-- Its text. -/
def VarSym.yield : VarSym → W
  | .named v => .var v
  | .empty t => .empty t

/-- The point made of it: `var_sym_conc(std::move($var_symbol.vs))`. -/
def VarSym.point : VarSym → Pt
  | .named v => .var (some v)
  | .empty _ => .var none

/-- Types of tokens of `common_ch` (`label_field_rules.g4` 124-137), without `&&`. -/
def isCommon : Ty → Bool
  | .asterisk | .minus | .plus | .lt | .gt | .slash | .equals | .vertical | .identifier | .num | .ordsymbol | .dot => true
  | _ => false

/-- Those of `l_ch` (139-144). -/
def isL (t : Ty) : Bool := isCommon t || t = .comma || t = .lpar || t = .rpar

/-- Those of `l_sp_ch` (254-256). -/
def isLSp (t : Ty) : Bool := isL t || t = .space

/-- Those of `op_ch` (`model_operand_rules.g4` 18-23). -/
def isOp (t : Ty) : Bool := isL t || t = .attr

/-- The value of a character (`common_ch`, `l_ch`, `l_sp_ch`: `label_field_rules.g4` 124-144, 254-256; `op_ch`: `model_operand_rules.g4`
18-23). -/
def chText (ty : Ty) (text : Bytes) : Bytes :=
  match ty with
  | .asterisk => c1 '*'
  | .minus => c1 '-'
  | .plus => c1 '+'
  | .lt => c1 '<'
  | .gt => c1 '>'
  | .slash => c1 '/'
  | .equals => c1 '='
  | .vertical => c1 '|'
  | .dot => c1 '.'
  | .comma => c1 ','
  | .lpar => c1 '('
  | .rpar => c1 ')'
  | .attr => c1 '\''
  | _ => text

/-- `common_ch`, `l_ch`, `l_sp_ch`, `op_ch`, depending on the types allowed. -/
inductive Ch (p : Ty → Bool) where
  | one (ty : Ty) (h : p ty = true) (text : Bytes) (ne : text ≠ [])
  | amp

/-- Its text. -/
def Ch.yield {p : Ty → Bool} : Ch p → List W
  | .one ty _ t _ => [token ty t]
  | .amp => [token .ampersand [], token .ampersand []]

/-- Its value (`label_field_rules.g4` 124-144, 254-256; `model_operand_rules.g4` 18-23). -/
def Ch.value {p : Ty → Bool} : Ch p → Bytes
  | .one ty _ t _ => chText ty t
  | .amp => c1 '&' ++ c1 '&'

/-- `common_ch_v`, `l_ch_v`, `l_sp_ch_v`, `op_ch_v` (`label_field_rules.g4` 146-167, 257-259; `model_operand_rules.g4` 29-34). `equals`
is the second alternative for an equals sign (163). -/
inductive ChV (p : Ty → Bool) where
  | one (ty : Ty) (h : p ty = true) (text : Bytes) (ne : text ≠ [])
  | amp
  | equals
  | var (s : VarSym)

/-- Its text. -/
def ChV.yield {p : Ty → Bool} : ChV p → List W
  | .one ty _ t _ => [token ty t]
  | .amp => [token .ampersand [], token .ampersand []]
  | .equals => [token .equals []]
  | .var s => [s.yield]

/-- The point (same lines). -/
def ChV.point {p : Ty → Bool} : ChV p → Pt
  | .one ty _ t _ => if ty = .equals then .equ else if ty = .dot then .dot else .str (chText ty t)
  | .amp => .str (c1 '&' ++ c1 '&')
  | .equals => .str (c1 '=')
  | .var s => s.point

/-- Texts of lists. -/
def yields {α : Type} (f : α → List W) (l : List α) : List W := l.flatMap f

/-- `(APOSTROPHE|ATTR)`, `l_apo`. -/
structure Quote where
  attr : Bool

/-- Its text. -/
def Quote.yield (q : Quote) : W := token (if q.attr then .attr else .apostrophe) []

/-- The text of the characters. -/
def values {p : Ty → Bool} (l : List (Ch p)) : Bytes := l.flatMap (·.value)

/-- The points of the characters. -/
def points {p : Ty → Bool} (l : List (ChV p)) : List Pt := l.map (·.point)

/-! ### labels and operation codes -/

/-- `l_string_v` (`label_field_rules.g4` 177-185), `l_sp_string_v` (269-275). -/
structure StrV (p : Ty → Bool) where
  pre : List (Ch p)
  sym : VarSym
  post : List (ChV p)

/-- Its text. -/
def StrV.yield {p : Ty → Bool} (s : StrV p) : List W := yields Ch.yield s.pre ++ s.sym.yield :: yields ChV.yield s.post

/-- What the actions build (177-183, 269-275). -/
def StrV.raw {p : Ty → Bool} (s : StrV p) : List Pt := .str (values s.pre) :: s.sym.point :: points s.post

/-- `l_string_v` with its `finally` (177-185). -/
def StrV.chain (s : StrV isL) : List Pt := clear s.raw

/-- `l_apo l_string_o l_apo l_string_o` (191-199, 225-229). -/
structure Quoted where
  q1 : Quote
  inside : List (Ch isL)
  q2 : Quote
  behind : List (Ch isL)

/-- Its text. -/
def Quoted.yield (q : Quoted) : List W := q.q1.yield :: (yields Ch.yield q.inside ++ q.q2.yield :: yields Ch.yield q.behind)

/-- Its value (191-199). -/
def Quoted.value (q : Quoted) : Bytes := c1 '\'' ++ values q.inside ++ c1 '\'' ++ values q.behind

/-- `l_string_no_space_v` (201-221). -/
inductive NoSpaceV where
  | behind (q1 : Quote) (inside : List (Ch isL)) (q2 : Quote) (s : StrV isL)
  | inside (q1 : Quote) (s : StrV isL) (q2 : Quote) (behind : List (Ch isL))
  | both (q1 : Quote) (s : StrV isL) (q2 : Quote) (t : StrV isL)

/-- Its text. -/
def NoSpaceV.yield : NoSpaceV → List W
  | .behind q1 i q2 s => q1.yield :: (yields Ch.yield i ++ q2.yield :: s.yield)
  | .inside q1 s q2 b => q1.yield :: (s.yield ++ q2.yield :: yields Ch.yield b)
  | .both q1 s q2 t => q1.yield :: (s.yield ++ q2.yield :: t.yield)

/-- Its points (201-221). -/
def NoSpaceV.chain : NoSpaceV → List Pt
  | .behind _ i _ s => .str (c1 '\'' ++ values i ++ c1 '\'') :: s.chain
  | .inside _ s _ b => .str (c1 '\'') :: (s.chain ++ [.str (c1 '\''), .str (values b)])
  | .both _ s _ t => .str (c1 '\'') :: (s.chain ++ .str (c1 '\'') :: t.chain)

/-- `l_string_no_space_u` (223-229). -/
inductive NoSpaceU where
  | v (n : NoSpaceV)
  | plain (q : Quoted)

/-- Its text. -/
def NoSpaceU.yield : NoSpaceU → List W
  | .v n => n.yield
  | .plain q => q.yield

/-- Its points (223-229). -/
def NoSpaceU.chain : NoSpaceU → List Pt
  | .v n => n.chain
  | .plain q => [.str q.value]

/-- `l_string_v_apo` (243-249). -/
structure VApo where
  pre : List Quoted
  v : NoSpaceV
  post : List NoSpaceU

/-- Its text. -/
def VApo.yield (a : VApo) : List W := yields Quoted.yield a.pre ++ (a.v.yield ++ yields NoSpaceU.yield a.post)

/-- Its points (243-249). -/
def VApo.chain (a : VApo) : List Pt := .str (a.pre.flatMap Quoted.value) :: (a.v.chain ++ a.post.flatMap NoSpaceU.chain)

/-- `l_apo l_sp_string l_apo` (278-280, 287-291). -/
structure Spaced where
  q1 : Quote
  inside : List (Ch isLSp)
  q2 : Quote

/-- Its text. -/
def Spaced.yield (s : Spaced) : List W := s.q1.yield :: (yields Ch.yield s.inside ++ [s.q2.yield])

/-- Its value (278-280). -/
def Spaced.value (s : Spaced) : Bytes := c1 '\'' ++ values s.inside ++ c1 '\''

/-- `l_string_poss_space_u` (286-297). -/
inductive SpacedU where
  | plain (s : Spaced)
  | v (q1 : Quote) (s : StrV isLSp) (q2 : Quote)

/-- Its text. -/
def SpacedU.yield : SpacedU → List W
  | .plain s => s.yield
  | .v q1 s q2 => q1.yield :: (s.yield ++ [q2.yield])

/-- Its points (286-297). -/
def SpacedU.chain : SpacedU → List Pt
  | .plain s => [.str s.value]
  | .v _ s _ => .str (c1 '\'') :: (s.raw ++ [.str (c1 '\'')])

/-- `l_string_v_apo_sp` (307-315). -/
structure VApoSp where
  pre : List Spaced
  q1 : Quote
  s : StrV isLSp
  q2 : Quote
  post : List SpacedU

/-- Its text. -/
def VApoSp.yield (a : VApoSp) : List W :=
  yields Spaced.yield a.pre ++ a.q1.yield :: (a.s.yield ++ a.q2.yield :: yields SpacedU.yield a.post)

/-- Its points (307-315). -/
def VApoSp.chain (a : VApoSp) : List Pt :=
  .str (a.pre.flatMap Spaced.value ++ c1 '\'') :: ((a.s.raw ++ [.str (c1 '\'')]) ++ a.post.flatMap SpacedU.chain)

/-- `l_string_poss_space_c` (278-280). -/
structure SpacedC where
  first : Spaced
  rest : List Spaced

/-- Its text. -/
def SpacedC.yield (s : SpacedC) : List W := s.first.yield ++ yields Spaced.yield s.rest

/-- Its value (278-280). -/
def SpacedC.value (s : SpacedC) : Bytes := s.first.value ++ s.rest.flatMap Spaced.value

/-- `l_string` (173-175). -/
structure LString where
  first : Ch isL
  rest : List (Ch isL)

/-- Its text. -/
def LString.yield (s : LString) : List W := s.first.yield ++ yields Ch.yield s.rest

/-- Its value (173-175). -/
def LString.value (s : LString) : Bytes := s.first.value ++ values s.rest

/-- `l_string_no_space_c` (191-199). -/
structure QuotedC where
  first : Quoted
  rest : List Quoted

/-- Its text. -/
def QuotedC.yield (s : QuotedC) : List W := s.first.yield ++ yields Quoted.yield s.rest

/-- Its value (191-199). -/
def QuotedC.value (s : QuotedC) : Bytes := s.first.value ++ s.rest.flatMap Quoted.value

/-- `l_common_rules` (60-75). -/
inductive Common where
  | apoV (a : VApoSp) (s : StrV isL)
  | spacedV (c : SpacedC) (s : StrV isL)
  | apoString (a : VApoSp) (s : LString)

/-- Its text. -/
def Common.yield : Common → List W
  | .apoV a s => a.yield ++ s.yield
  | .spacedV c s => c.yield ++ s.yield
  | .apoString a s => a.yield ++ s.yield

/-- Its points (60-75). -/
def Common.chain : Common → List Pt
  | .apoV a s => a.chain ++ s.chain
  | .spacedV c s => .str c.value :: s.chain
  | .apoString a s => a.chain ++ [.str s.value]

/-- The labels that are concatenations: `l_model_sp` (77-97) and `l_model` (99-119). -/
inductive Label where
  | apo (a : VApoSp)
  | common (c : Common)
  | commonApo (c : Common) (a : VApo)
  | commonQuoted (c : Common) (q : QuotedC)
  | spacedApo (c : SpacedC) (s : LString) (a : VApo)
  | v (s : StrV isL)
  | stringApo (s : LString) (a : VApo)
  | vApo (s : StrV isL) (a : VApo)
  | vQuoted (s : StrV isL) (q : QuotedC)

/-- Its text. -/
def Label.yield : Label → List W
  | .apo a => a.yield
  | .common c => c.yield
  | .commonApo c a => c.yield ++ a.yield
  | .commonQuoted c q => c.yield ++ q.yield
  | .spacedApo c s a => c.yield ++ (s.yield ++ a.yield)
  | .v s => s.yield
  | .stringApo s a => s.yield ++ a.yield
  | .vApo s a => s.yield ++ a.yield
  | .vQuoted s q => s.yield ++ q.yield

/-- What the actions build (77-119). -/
def Label.raw : Label → List Pt
  | .apo a => a.chain
  | .common c => c.chain
  | .commonApo c a => c.chain ++ a.chain
  | .commonQuoted c q => c.chain ++ [.str q.value]
  | .spacedApo c s a => .str c.value :: .str s.value :: a.chain
  | .v s => s.chain
  | .stringApo s a => .str s.value :: a.chain
  | .vApo s a => s.chain ++ a.chain
  | .vQuoted s q => s.chain ++ [.str q.value]

/-- `l_model_sp`, `l_model` with their `finally` (77-121). -/
def Label.chain (l : Label) : List Pt := clear l.raw

/-! ### operands of model statements -/

/-- `string_ch` (`machine_expr_rules.g4` 121-130), `model_string_ch` (`model_operand_rules.g4` 95-97). -/
inductive StrCh where
  | ch (c : Ch isLSp)
  | quotes (q1 q2 : Quote)

/-- Its text. -/
def StrCh.yield : StrCh → List W
  | .ch c => c.yield
  | .quotes q1 q2 => [q1.yield, q2.yield]

/-- The value of `string_ch` (`machine_expr_rules.g4` 121-130). -/
def StrCh.value : StrCh → Bytes
  | .ch c => if c.value = c1 '&' ++ c1 '&' then c1 '&' else c.value
  | .quotes _ _ => c1 '\''

/-- The value of `model_string_ch` (`model_operand_rules.g4` 95-97). -/
def StrCh.model : StrCh → Bytes
  | .ch c => c.value
  | .quotes _ _ => c1 '\'' ++ c1 '\''

/-- `string_ch_v` (`ca_expr_rules.g4` 334-336), `model_string_ch_v` (`model_operand_rules.g4` 99-101). -/
inductive StrChV where
  | ch (c : ChV isLSp)
  | quotes (q1 q2 : Quote)

/-- Its text. -/
def StrChV.yield : StrChV → List W
  | .ch c => c.yield
  | .quotes q1 q2 => [q1.yield, q2.yield]

/-- The point of `string_ch_v` (`ca_expr_rules.g4` 334-336). -/
def StrChV.point : StrChV → Pt
  | .ch c => c.point
  | .quotes _ _ => .str (c1 '\'')

/-- The point of `model_string_ch_v` (`model_operand_rules.g4` 99-101). -/
def StrChV.model : StrChV → Pt
  | .ch c => c.point
  | .quotes _ _ => .str (c1 '\'' ++ c1 '\'')

/-- `before_var_sym_model_b` (`model_operand_rules.g4` 41-49) with `string` (`machine_expr_rules.g4` 136-141). -/
inductive Before where
  | ch (c : Ch isOp)
  | string (chs : List StrCh) (close : Quote)

/-- Its text. -/
def Before.yield : Before → List W
  | .ch c => c.yield
  | .string chs q => token .apostrophe [] :: (yields StrCh.yield chs ++ [q.yield])

/-- Its value (41-49). -/
def Before.value : Before → Bytes
  | .ch c => c.value
  | .string chs _ => c1 '\'' ++ chs.flatMap StrCh.value ++ c1 '\''

/-- `var_sym_model` (55-57) with `string_v_actual` (112-125). -/
inductive First where
  | sym (s : VarSym)
  | string (q1 : Quote) (pre : List StrCh) (s : VarSym) (post : List StrChV) (q2 : Quote)

/-- Its text. -/
def First.yield : First → List W
  | .sym s => [s.yield]
  | .string q1 pre s post q2 => q1.yield :: (yields StrCh.yield pre ++ s.yield :: (yields StrChV.yield post ++ [q2.yield]))

/-- Its points (55-57, 112-125). -/
def First.chain : First → List Pt
  | .sym s => [s.point]
  | .string _ pre s post _ => .str (c1 '\'') :: .str (pre.flatMap StrCh.model) :: s.point :: (post.map StrChV.model ++ [.str (c1 '\'')])

/-- `after_var_sym_model_b` (59-61) with `model_string_v` (127-137). -/
inductive After where
  | ch (c : ChV isOp)
  | string (q1 : Quote) (chs : List StrChV) (q2 : Quote)

/-- Its text. -/
def After.yield : After → List W
  | .ch c => c.yield
  | .string q1 chs q2 => q1.yield :: (yields StrChV.yield chs ++ [q2.yield])

/-- Its points (59-61, 127-137); `string_ch_v_c` is `finally` cleared (`ca_expr_rules.g4` 338-342). -/
def After.chain : After → List Pt
  | .ch c => [c.point]
  | .string _ chs _ => .str (c1 '\'') :: (clear (chs.map StrChV.point) ++ [.str (c1 '\'')])

/-- `model_op` (72-93). -/
structure Operand where
  before : List Before
  first : First
  after : List After

/-- Its text. -/
def Operand.yield (o : Operand) : List W := yields Before.yield o.before ++ (o.first.yield ++ yields After.yield o.after)

/-- What the action and the `finally` build (72-93). -/
def Operand.chain (o : Operand) : List Pt :=
  clear (.str (o.before.flatMap Before.value) :: (o.first.chain ++ o.after.flatMap After.chain))

/-! ### operands of macros -/

/-- `mac_str_ch` (`macro_operand_rules.g4` 67-72). -/
def isMacStr (t : Ty) : Bool := isLSp t

/-- `literal`: its tokens. -/
structure Literal where
  tokens : List (Ty × Bytes)

/-- Its text. -/
def Literal.yield (l : Literal) : List W := l.tokens.map fun t => .tok t.1 t.2

/-- `$literal.ctx->getText()`. -/
def Literal.text (l : Literal) : Bytes := l.tokens.flatMap (·.2)

mutual
/-- `mac_ch` (`macro_operand_rules.g4` 87-96) with `mac_str` (78-85). -/
inductive MacCh where
  | ch (c : ChV isCommon)
  | attr
  | string (chs : List (ChV isMacStr)) (close : Quote)
  | sublist (first : SubElem) (rest : List SubElem)
/-- `mac_sublist_b_c` (124-126). -/
inductive SubElem where
  | chs (l : List MacCh)
  | literal (l : Literal)
end

mutual
/-- Text of `mac_ch`. -/
def MacCh.yield : MacCh → List W
  | .ch c => c.yield
  | .attr => [token .attr []]
  | .string chs q => token .apostrophe [] :: (yields ChV.yield chs ++ [q.yield])
  | .sublist f r => token .lpar [] :: (f.yield ++ (SubElem.yieldRest r ++ [token .rpar []]))
/-- Text of `mac_ch_c`. -/
def MacCh.yields : List MacCh → List W
  | [] => []
  | c :: cs => c.yield ++ MacCh.yields cs
/-- Text of `mac_sublist_b_c`. -/
def SubElem.yield : SubElem → List W
  | .chs l => MacCh.yields l
  | .literal l => l.yield
/-- Text of the rest of `mac_sublist_b`. -/
def SubElem.yieldRest : List SubElem → List W
  | [] => []
  | e :: es => token .comma [] :: (e.yield ++ SubElem.yieldRest es)
end

mutual
/-- Points of `mac_ch` (`macro_operand_rules.g4` 78-96, 136-137). -/
def MacCh.chain : MacCh → List Pt
  | .ch c => [c.point]
  | .attr => [.str (c1 '\'')]
  | .string chs _ => .str (c1 '\'') :: (points chs ++ [.str (c1 '\'')])
  | .sublist f r => [.sub (f.chain :: SubElem.chains r)]
/-- Points of `mac_ch_c` (98-104). -/
def MacCh.chains : List MacCh → List Pt
  | [] => []
  | c :: cs => c.chain ++ MacCh.chains cs
/-- Points of `mac_sublist_b_c` (124-126); nothing is cleared. -/
def SubElem.chain : SubElem → List Pt
  | .chs l => MacCh.chains l
  | .literal l => [.str l.text]
/-- `mac_sublist_b` (128-134). -/
def SubElem.chains : List SubElem → List (List Pt)
  | [] => []
  | e :: es => e.chain :: SubElem.chains es
end

/-- The first part of `mac_entry` (`macro_operand_rules.g4` 106-115). -/
inductive MacFirst where
  | ch (c : MacCh)
  | literal (l : Literal)
  | keyLiteral (name : Bytes) (l : Literal)

/-- `mac_entry` (106-122). -/
structure MacEntry where
  first : MacFirst
  rest : List MacCh

/-- Text of the first part. -/
def MacFirst.yield : MacFirst → List W
  | .ch c => c.yield
  | .literal l => l.yield
  | .keyLiteral n l => token .ordsymbol n :: token .equals [] :: l.yield

/-- Its text. -/
def MacEntry.yield (e : MacEntry) : List W := e.first.yield ++ MacCh.yields e.rest

/-- Points of the first part (106-115). -/
def MacFirst.chain : MacFirst → List Pt
  | .ch c => c.chain
  | .literal l => [.str l.text]
  | .keyLiteral n l => [.str n, .str (c1 '='), .str l.text]

/-- `mac_entry` with its `finally` (106-122). -/
def MacEntry.chain (e : MacEntry) : List Pt := clear (e.first.chain ++ MacCh.chains e.rest)

end Verif.Subst
