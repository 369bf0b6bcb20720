import Verif.AsmCheck.Model
import Verif.Ca.Ebcdic
import Mathlib.Data.List.Forall2

/-!
What the operands of assembler instructions have to be. The statements follow the texts of the messages (diagnostic.cpp 33-1180).
-/
namespace Verif.AsmCheck

/-- A text of digits only. -/
def Digits (t : String) : Prop := ∀ c ∈ t.toList, '0' ≤ c ∧ c ≤ '9'

/-- A decimal self-defining term with its value. -/
def Decimal (o : AOp) (v : Int) : Prop := ∃ t, Digits t ∧ o = .simple t (some v)

/-- An absolute expression with its value. -/
def Absolute (o : AOp) (v : Int) : Prop := ∃ t, o = .simple t (some v)

/-- One of the texts. -/
def OneOf (l : List String) (o : AOp) : Prop := ∃ t v, t ∈ l ∧ o = .simple t v

/-- A name, of which only is asked that there is one. -/
def Name (o : AOp) : Prop := ∃ t v, t ≠ "" ∧ o = .simple t v

/-- The inside of a character string of `n` characters: an apostrophe or an ampersand is written twice. -/
inductive Body : List Char → Nat → Prop
  | nil : Body [] 0
  | char (c : Char) {r : List Char} {n : Nat} : c ≠ '\'' → c ≠ '&' → Body r n → Body (c :: r) (n + 1)
  | apostrophe {r : List Char} {n : Nat} : Body r n → Body ('\'' :: '\'' :: r) (n + 1)
  | ampersand {r : List Char} {n : Nat} : Body r n → Body ('&' :: '&' :: r) (n + 1)

/-- The operand is a text enclosed in apostrophes. -/
def Enclosed (o : AOp) (body : List Char) : Prop := ∃ t v, t.toList = '\'' :: (body ++ ['\'']) ∧ o = .simple t v

/-- A letter of an ordinary symbol. -/
def SymLetter (c : Char) : Prop := c.isAlpha = true ∨ c ∈ ['$', '_', '#', '@']

/-- An ordinary symbol. -/
def OrdinarySymbol (l : List Char) : Prop :=
  ∃ c r, l = c :: r ∧ SymLetter c ∧ (∀ d ∈ r, SymLetter d ∨ d.isDigit = true) ∧ l.length ≤ 63

/-- A variable symbol. -/
def VariableSymbol (l : List Char) : Prop := ∃ r, l = '&' :: r ∧ OrdinarySymbol r

/-- Two hexadecimal digits of a byte from X'42' to X'FE'. -/
def HexByte (a b : Char) : Prop := ∃ x y, hexDigit a = some x ∧ hexDigit b = some y ∧ 0x42 ≤ 16 * x + y ∧ 16 * x + y ≤ 0xFE

inductive HexBytes : List Char → Prop
  | one (a b : Char) : HexByte a b → HexBytes [a, b]
  | more (a b : Char) (r : List Char) : HexByte a b → HexBytes r → HexBytes (a :: b :: r)

/-- A character with an EBCDIC code from X'42' to X'FE'. -/
def EbcdicInRange (c : Char) : Prop := c.toNat < 128 ∧ 0x42 ≤ (Ca.a2eTable.getD c.toNat 0).toNat ∧ (Ca.a2eTable.getD c.toNat 0).toNat ≤ 0xFE

/-- The parameters of REFERENCE: one of DIRECT and INDIRECT, one of CODE and DATA, or both in any order. -/
inductive References : List AOp → Prop
  | one (a : AOp) : OneOf ["DIRECT", "INDIRECT", "CODE", "DATA"] a → References [a]
  | dc (a b : AOp) : OneOf ["DIRECT", "INDIRECT"] a → OneOf ["CODE", "DATA"] b → References [a, b]
  | cd (a b : AOp) : OneOf ["CODE", "DATA"] a → OneOf ["DIRECT", "INDIRECT"] b → References [a, b]

/-- An option of XATTR (A100, A016, A200, A201, A202, A203, A238). -/
inductive XattrOption : AOp → Prop
  | any (id : String) (p : AOp) : id ∈ ["ATTRIBUTES", "ATTR", "PSECT"] → XattrOption (.complex id [p])
  | linkage (id : String) (p : AOp) : id ∈ ["LINKAGE", "LINK"] → OneOf ["OS", "XPLINK"] p → XattrOption (.complex id [p])
  | scope (p : AOp) : OneOf ["SECTION", "S", "MODULE", "M", "LIBRARY", "L", "IMPORT", "EXPORT", "X"] p →
      XattrOption (.complex "SCOPE" [p])
  | ref (id : String) (ps : List AOp) : id ∈ ["REFERENCE", "REF"] → References ps → XattrOption (.complex id ps)

/-- An attribute of CATTR (A149, A204 to A208). -/
inductive CattrOption : AOp → Prop
  | simple (o : AOp) : OneOf ["DEFLOAD", "EXECUTABLE", "NOTEXECUTABLE", "MOVABLE", "NOLOAD", "NOTREUS", "READONLY", "REFR",
      "REMOVABLE", "RENT", "REUS"] o → CattrOption o
  | rmode (p : AOp) : OneOf ["24", "31", "64", "ANY"] p → CattrOption (.complex "RMODE" [p])
  | align (p : AOp) : OneOf ["0", "1", "2", "3", "4", "12"] p → CattrOption (.complex "ALIGN" [p])
  | fill (p : AOp) (v : Int) : Decimal p v → 0 ≤ v → v ≤ 255 → CattrOption (.complex "FILL" [p])
  | part (t : String) (v : Option Int) : 1 ≤ t.length → t.length ≤ 63 → CattrOption (.complex "PART" [.simple t v])
  | priority (p : AOp) (v : Int) : Decimal p v → 0 ≤ v → CattrOption (.complex "PRIORITY" [p])

/-- A parameter of FLAG (A210, A211). -/
def FlagParam (p : AOp) : Prop :=
  OneOf ["ALIGN", "AL", "NOALIGN", "NOAL", "CONT", "NOCONT", "PAGE0", "NOPAGE0", "SUB", "NOSUB", "USING0", "US0", "NOUSING0", "NOUS0",
    "IMPLEN", "NOIMPLEN", "EXLITW", "NOEXLITW", "SUBSTR", "NOSUBSTR"] p ∨
  ∃ v, Decimal p v ∧ 0 ≤ v ∧ v ≤ 255

/-- An option of ACONTROL (A161, A015, A018, A209 to A214). -/
inductive AcontrolOption : AOp → Prop
  | simple (o : AOp) : OneOf ["AFPR", "NOAFPR", "RA2", "NORA2", "LIBMAC", "LMAC", "NOLIBMAC", "NOLMAC", "NOCOMPAT", "NOCPAT",
      "NOTYPECHECK", "NOTC"] o → AcontrolOption o
  | compat (id : String) (ps : List AOp) : id ∈ ["COMPAT", "CPAT"] → ps ≠ [] →
      (∀ p ∈ ps, OneOf ["CASE", "NOCASE", "LITTYPE", "LIT", "NOLITTYPE", "NOLIT", "MACROCASE", "MC", "NOMACROCASE", "NOMC", "SYSLIST",
        "SYSL", "NOSYSLIST", "NOSYSL", "TRANSDT", "TRS", "NOTRANSDT", "NOTRS"] p) → AcontrolOption (.complex id ps)
  | flag (ps : List AOp) : ps ≠ [] → (∀ p ∈ ps, FlagParam p) → AcontrolOption (.complex "FLAG" ps)
  | optable (a : AOp) (r : List AOp) : OneOf ["DOS", "ESA", "XA", "370", "YOP", "ZOP", "ZS3", "ZS4", "ZS5", "ZS6", "ZS7", "ZS8"] a →
      (r = [] ∨ ∃ b, OneOf ["LIST", "NOLIST"] b ∧ r = [b]) → AcontrolOption (.complex "OPTABLE" (a :: r))
  | typecheck (id : String) (ps : List AOp) : id ∈ ["TYPECHECK", "TC"] → ps ≠ [] →
      (∀ p ∈ ps, OneOf ["MAGNITUDE", "MAG", "REGISTER", "REG", "NOMAGNITUDE", "NOMAG", "NOREGISTER", "NOREG"] p) →
      AcontrolOption (.complex id ps)

/-- The columns of ICTL: the first operand, the second with 72 when it is omitted, the third when it is given (A122 to A127, A242). -/
inductive Columns : List AOp → Int → Int → Option Int → Prop
  | b (x : AOp) (b : Int) : Decimal x b → Columns [x] b 72 none
  | be (x y : AOp) (b e : Int) : Decimal x b → (Decimal y e ∨ (y = .empty ∧ e = 72)) → Columns [x, y] b e none
  | bec (x y z : AOp) (b e c : Int) : Decimal x b → (Decimal y e ∨ (y = .empty ∧ e = 72)) → Decimal z c →
      Columns [x, y, z] b e (some c)
  | be_ (x y : AOp) (b e : Int) : Decimal x b → (Decimal y e ∨ (y = .empty ∧ e = 72)) → Columns [x, y, .empty] b e none

/-- What the operands of an instruction have to be. -/
def Valid : Instr → List AOp → Prop
  | .noOperands, ops => ops = []
  -- A148
  | .expression, ops => ops = [] ∨ ops = [.empty, .empty] ∨ ∃ o v, ops = [o] ∧ Absolute o v ∧ 0 ≤ v
  -- A143, A144, A145, A146
  | .cnop, ops => ∃ a b x y, ops = [a, b] ∧ Absolute a x ∧ Absolute b y ∧ (∃ k : Nat, y = 2 ^ k) ∧ 2 ≤ y ∧ y ≤ 4096 ∧
      x % 2 = 0 ∧ 0 ≤ x ∧ x ≤ y - 2
  -- A123, A124, A125, A126, A127
  | .ictl, ops => ∃ b e c, Columns ops b e c ∧ 1 ≤ b ∧ b ≤ 40 ∧ 41 ≤ e ∧ e ≤ 80 ∧ b + 5 ≤ e ∧
      ∀ x, c = some x → 2 ≤ x ∧ x ≤ 40 ∧ b < x
  -- A120, A121 (equal columns are allowed, against the text of A121)
  | .iseq, ops => ops = [] ∨ ∃ a b l r, ops = [a, b] ∧ Decimal a l ∧ Decimal b r ∧ 1 ≤ l ∧ l ≤ r ∧ r ≤ 80
  -- A014, A136
  | .entry, ops => ops ≠ [] ∧ ops.length ≤ 65535 ∧ ∀ o ∈ ops, Name o
  -- A129
  | .external, ops => ops ≠ [] ∧ ∀ o ∈ ops, Name o ∨ ∃ ps, o = .complex "PART" ps ∧ ps ≠ [] ∧ ∀ p ∈ ps, Name p
  -- A243, A137, A138, A139, A140
  | .end_, ops => ops = [] ∨ ∃ o r, ops = o :: r ∧ (o = .empty ∨ ∃ t v, o = .simple t v) ∧
      (r = [] ∨ r = [.empty] ∨ ∃ a b c va vb vc, r = [.complex "" [.simple a va, .simple b vb, .simple c vc]] ∧
        1 ≤ a.length ∧ a.length ≤ 10 ∧ b.length = 4 ∧ c.length = 5 ∧ Digits c)
  -- A117, A118, A119
  | .mnote, ops => ∃ m body, Enclosed m body ∧ body.length ≤ 1020 ∧
      (ops = [m] ∨ ops = [.empty, m] ∨ ∃ s v, ops = [.simple s v, m] ∧ s.length + (body.length + 2) ≤ 1024 ∧
        (s = "*" ∨ (Digits s ∧ ∃ n, v = some n ∧ 0 ≤ n ∧ n ≤ 255)))
  -- A246
  | .opsyn, ops => ops = [] ∨ ops = [.empty] ∨ ∃ t v, ops = [.simple t v]
  -- A110, A111, A112, A113, A114
  | .stack, ops => ∃ names : List String, List.Forall₂ (fun o n => ∃ v, o = AOp.simple n v) ops names ∧ names.Nodup ∧
      ∃ first, first ≠ [] ∧ (∀ n ∈ first, n ∈ ["PRINT", "USING", "ACONTROL"]) ∧ (names = first ∨ names = first ++ ["NOPRINT"])
  -- A109
  | .print, ops => ops ≠ [] ∧ ∀ o ∈ ops, OneOf ["GEN", "NOGEN", "DATA", "NODATA", "MCALL", "NOMCALL", "MSOURCE", "NOMSOURCE", "UHEAD",
      "NOUHEAD", "ON", "OFF", "NOPRINT"] o
  -- A108, A244
  | .punch, ops => ∃ o body n, ops = [o] ∧ Enclosed o body ∧ Body body n ∧ n ≤ 80
  -- A107
  | .rmode, ops => ∃ o, ops = [o] ∧ OneOf ["24", "31", "64", "ANY"] o
  -- A150
  | .amode, ops => ∃ o, ops = [o] ∧ OneOf ["24", "31", "64", "ANY", "ANY31", "ANY64"] o
  -- A106
  | .title, ops => ∃ o body n, ops = [o] ∧ Enclosed o body ∧ Body body n ∧ 1 ≤ n ∧ n ≤ 100
  -- A141
  | .drop, ops => ops = [.empty, .empty] ∨ ∀ o ∈ ops, (∃ v, Absolute o v ∧ 0 ≤ v ∧ v ≤ 15) ∨
      ∃ t, o = .simple t none ∧ (OrdinarySymbol t.toList ∨ VariableSymbol t.toList)
  -- A147, A143, A247
  | .ccw, ops => ∃ a b c d x z w t v, ops = [a, b, c, d] ∧ Absolute a x ∧ b = .simple t v ∧ Absolute c z ∧ Absolute d w
  -- A151, A152, A153, A154, A155
  | .alias, ops => ∃ t v body, ops = [.simple t v] ∧ body ≠ [] ∧
      ((t.toList = 'C' :: '\'' :: (body ++ ['\'']) ∧ ∀ c ∈ body, EbcdicInRange c) ∨
        (t.toList = 'X' :: '\'' :: (body ++ ['\'']) ∧ HexBytes body))
  -- A157, A021, A156
  | .ainsert, ops => ∃ a b body n, ops = [a, b] ∧ Enclosed a body ∧ Body body n ∧ 1 ≤ n ∧ n ≤ 80 ∧ OneOf ["BACK", "FRONT"] b
  -- A158, A239, A160
  | .adata, ops => ∃ a b c d e, ops = [a, b, c, d, e] ∧ (∀ o ∈ [a, b, c, d], o = .empty ∨ ∃ v, Absolute o v) ∧
      (e = .empty ∨ ∃ body, Enclosed e body ∧ body.length + 2 ≤ 255)
  | .cattr, ops => ops ≠ [] ∧ ∀ o ∈ ops, CattrOption o
  -- A130, A020, A131
  | .exitctl, ops => ∃ o r, ops = o :: r ∧ 1 ≤ r.length ∧ r.length ≤ 4 ∧
      OneOf ["SOURCE", "LIBRARY", "LISTING", "PUNCH", "ADATA", "TERM", "OBJECT"] o ∧ ∀ p ∈ r, p = .empty ∨ ∃ v, Absolute p v
  | .xattr, ops => ops ≠ [] ∧ ∀ o ∈ ops, XattrOption o
  | .acontrol, ops => ops ≠ [] ∧ ∀ o ∈ ops, AcontrolOption o

/-- The operands for which the checks and the messages disagree; there is a witness for each. -/
def Quirk : Instr → List AOp → Prop
  -- the value 0
  | .expression, ops => ∃ t, ops = [.simple t (some 0)]
  -- a first column from 16 on without the others; an omitted operand before the last; a third operand with 80 for the second
  | .ictl, ops => (∃ t v, ops = [.simple t (some v)] ∧ 16 ≤ v) ∨ .empty ∈ ops.tail ∨ ∃ a t b, ops = [a, .simple t (some 80), b]
  -- an absolute expression that is no decimal term
  | .iseq, ops => ∃ t v, .simple t (some v) ∈ ops ∧ ¬ Digits t
  -- PART without parameters
  | .external, ops => .complex "PART" [] ∈ ops
  -- a message of 1019 or 1020 characters
  | .mnote, ops => ∃ m ∈ ops, ∃ body, Enclosed m body ∧ 1018 < body.length
  -- a string of 80 characters; apostrophes or ampersands that are not doubled, which the parser does not let through
  | .punch, ops => ∃ o body, ops = [o] ∧ Enclosed o body ∧ (Body body 80 ∨ ∀ n, ¬ Body body n)
  -- apostrophes or ampersands inside
  | .title, ops => ∃ o body, ops = [o] ∧ Enclosed o body ∧ ('\'' ∈ body ∨ '&' ∈ body)
  -- a register from 16 on; a label with one of the characters $, _, # and @
  | .drop, ops => ∃ o ∈ ops, (∃ v, Absolute o v ∧ 15 < v) ∨ ∃ t, o = .simple t none ∧ ∃ c ∈ t.toList, c ∈ ['$', '_', '#', '@']
  -- an operand without a value
  | .ccw, ops => ∃ t, .simple t none ∈ ops
  -- hexadecimal digits; nothing between the apostrophes; an apostrophe between them
  | .alias, ops => ∃ t v r, ops = [.simple t v] ∧ (t.toList = 'X' :: r ∨ t.toList = ['C', '\'', '\''] ∨ (t.toList = 'C' :: '\'' :: r ∧ '\'' ∈ r.dropLast))
  -- a record written with more than 78 characters; apostrophes or ampersands that are not doubled
  | .ainsert, ops => ∃ o r body, ops = o :: r ∧ Enclosed o body ∧ (78 < body.length ∨ ∀ n, ¬ Body body n)
  -- an empty text
  | .adata, ops => ∃ v, .simple "" v ∈ ops
  -- PRIORITY(0)
  | .cattr, ops => ∃ t, .complex "PRIORITY" [.simple t (some 0)] ∈ ops
  -- an empty name of the table
  | .acontrol, ops => ∃ v r, .complex "OPTABLE" (.simple "" v :: r) ∈ ops
  | _, _ => False

end Verif.AsmCheck
