import Verif.AsmCheck.Spec

/-!
# What the messages about operands of assembler instructions say

One constructor for each message (diagnostic.cpp 33-1155), with what its text says of the operands. Where a message is given although
its text is true, the constructor says what is the case, with a remark.
-/

namespace Verif.AsmCheck

/-- The operand or the parameter at a place. -/
inductive At (ops : List AOp) : Where → AOp → Prop
  | op {i : Nat} {o : AOp} : ops[i]? = some o → At ops (.op i) o
  | param {i j : Nat} {id : String} {ps : List AOp} {p : AOp} : ops[i]? = some (.complex id ps) → ps[j]? = some p → At ops (.param i j) p

/-- The number of operands of an instruction: the least and, if there is one, the greatest. -/
def operandCount : Instr → Nat × Option Nat
  | .noOperands => (0, some 0)
  | .expression | .opsyn => (0, some 1)
  | .end_ => (0, some 2)
  | .punch | .rmode | .amode | .title | .alias => (1, some 1)
  | .mnote => (1, some 2)
  | .ictl => (1, some 3)
  | .stack => (1, some 4)
  | .cnop | .ainsert => (2, some 2)
  | .exitctl => (2, some 5)
  | .ccw => (4, some 4)
  | .adata => (5, some 5)
  | .entry | .external | .print | .cattr | .xattr | .acontrol => (1, none)
  | .iseq | .drop => (0, none)

/-- The number of operands is not one of the instruction. -/
def WrongCount (i : Instr) (ops : List AOp) : Prop := ops.length < (operandCount i).1 ∨ ∃ n, (operandCount i).2 = some n ∧ n < ops.length

/-- An absolute value. -/
def HasValue (o : AOp) (P : Int → Prop) : Prop := ∃ v, Absolute o v ∧ P v

/-- Two characters that follow each other when a text is read by twos. -/
def PairAt (l : List Char) (a b : Char) : Prop := ∃ p r, l = p ++ a :: b :: r ∧ p.length % 2 = 0

/-- What a message says of the operands. -/
inductive Complaint (i : Instr) (ops : List AOp) : Nat → Where → Prop
  -- operand in a form identifier(parameters) expected
  | a001 {w o} : At ops w o → (∀ id ps, o ≠ .complex id ps) → Complaint i ops 1 w
  -- number of operands
  | a010 : (operandCount i).2 = none → WrongCount i ops → Complaint i ops 10 .stmt
  | a011 : (operandCount i).2 = some (operandCount i).1 → WrongCount i ops → Complaint i ops 11 .stmt
  | a012 {n} : (operandCount i).2 = some n → (operandCount i).1 + 1 < n → WrongCount i ops → Complaint i ops 12 .stmt
  | a013 : (operandCount i).2 = some ((operandCount i).1 + 1) → WrongCount i ops → Complaint i ops 13 .stmt
  | a013_iseq : i = .iseq → ops.length ≠ 0 → ops.length ≠ 2 → Complaint i ops 13 .stmt
  | a014 : i = .entry → 65535 < ops.length → Complaint i ops 14 .stmt
  -- number of parameters
  | a015 {id} : .complex id [] ∈ ops → Complaint i ops 15 .stmt
  | a016 {id ps} : .complex id ps ∈ ops → ps.length ≠ (if i = .end_ then 3 else 1) → Complaint i ops 16 .stmt
  | a018 {id ps} : .complex id ps ∈ ops → ps.length ≠ 1 → ps.length ≠ 2 → Complaint i ops 18 .stmt
  -- absolute value or omitted
  | a020 {w o} : At ops w o → o ≠ .empty → ¬ HasValue o (fun _ => True) → Complaint i ops 20 w
  -- cannot be empty; AINSERT says it of an empty record
  | a021 {w} : At ops w .empty → Complaint i ops 21 w
  | a021_record {w o} : At ops w o → Enclosed o [] → i = .ainsert → Complaint i ops 21 w
  | a100 {w id ps} : At ops w (.complex id ps) →
      id ∉ ["ATTRIBUTES", "ATTR", "LINKAGE", "LINK", "SCOPE", "PSECT", "REFERENCE", "REF"] → Complaint i ops 100 w
  -- a title string of 1 to 100 characters; characters are counted as written
  | a106 {w o} : At ops w o → (¬ ∃ body, Enclosed o body ∧ 1 ≤ body.length ∧ body.length ≤ 100) → Complaint i ops 106 w
  | a107 {w o} : At ops w o → ¬ OneOf ["24", "31", "64", "ANY"] o → Complaint i ops 107 w
  -- maximum 80 characters; one of the apostrophes is counted
  | a108 {w o} : At ops w o → (¬ ∃ body n, Enclosed o body ∧ Body body n ∧ n ≤ 79) → Complaint i ops 108 w
  | a109 {w o} : At ops w o → ¬ OneOf ["GEN", "NOGEN", "DATA", "NODATA", "MCALL", "NOMCALL", "MSOURCE", "NOMSOURCE", "UHEAD", "NOUHEAD",
      "ON", "OFF", "NOPRINT"] o → Complaint i ops 109 w
  | a110 {k o} : k + 1 = ops.length → At ops (.op k) o → ¬ OneOf ["PRINT", "USING", "ACONTROL", "NOPRINT"] o → Complaint i ops 110 (.op k)
  | a111 {k o} : k + 1 < ops.length → At ops (.op k) o → ¬ OneOf ["PRINT", "USING", "ACONTROL"] o → Complaint i ops 111 (.op k)
  -- can be specified only once
  | a112 {j k t v v'} : j < k → At ops (.op j) (.simple t v) → At ops (.op k) (.simple t v') → Complaint i ops 112 .stmt
  -- NOPRINT for the last operand only
  | a113 {k v} : k + 1 < ops.length → At ops (.op k) (.simple "NOPRINT" v) → Complaint i ops 113 (.op k)
  | a114 {v} : ops = [.simple "NOPRINT" v] → Complaint i ops 114 .stmt
  -- a message string of maximum 1020 characters; the apostrophes are counted
  | a117 {w o} : At ops w o → (¬ ∃ body, Enclosed o body ∧ body.length ≤ 1018) → Complaint i ops 117 w
  | a118 {s v t v'} : ops = [.simple s v, .simple t v'] → 1024 < s.length + t.length → Complaint i ops 118 .stmt
  -- a severity from 0 to 255, an asterisk or omitted
  | a119 {w o} : At ops w o → ¬ OneOf ["*"] o → (¬ ∃ v, Decimal o v ∧ 0 ≤ v ∧ v ≤ 255) → o ≠ .empty → Complaint i ops 119 w
  | a120 : ops ≠ [] → (¬ ∃ a b, ops = [a, b] ∧ HasValue a (fun v => 1 ≤ v ∧ v ≤ 80) ∧ HasValue b (fun v => 1 ≤ v ∧ v ≤ 80)) →
      Complaint i ops 120 .stmt
  | a121 {a b l r} : ops = [a, b] → Absolute a l → Absolute b r → r < l → Complaint i ops 121 .stmt
  | a122 {w o} : At ops w o → (¬ ∃ v, Decimal o v) → Complaint i ops 122 w
  | a123 {w o v} : At ops w o → Decimal o v → (v < 1 ∨ 40 < v) → Complaint i ops 123 w
  | a124 {w o v} : At ops w o → Decimal o v → (v < 41 ∨ 80 < v) → Complaint i ops 124 w
  | a125 {b e x y r} : ops = b :: e :: r → Decimal b x → Decimal e y → y < x + 5 → Complaint i ops 125 (.op 1)
  | a126 {w o v} : At ops w o → Decimal o v → (v < 2 ∨ 40 < v) → Complaint i ops 126 w
  -- greater than begin; an omitted continuation column counts as 16
  | a127 {b e c x z} : ops = [b, e, c] → Decimal b x → Decimal c z → z ≤ x → Complaint i ops 127 .stmt
  | a127_omitted {b x} : ops = [b] → Decimal b x → 16 ≤ x → Complaint i ops 127 .stmt
  | a129 {w o} : At ops w o → ¬ Name o → (¬ ∃ ps, o = .complex "PART" ps ∧ ∀ p ∈ ps, Name p) → Complaint i ops 129 w
  | a130 {w o} : At ops w o → ¬ OneOf ["SOURCE", "LIBRARY", "LISTING", "PUNCH", "ADATA", "TERM", "OBJECT"] o → Complaint i ops 130 w
  | a131 {w o} : At ops w o → o ≠ .empty → ¬ HasValue o (fun _ => True) → Complaint i ops 131 w
  | a136 {w o} : At ops w o → ¬ Name o → Complaint i ops 136 w
  | a137 {w id ps} : At ops w (.complex id ps) → id ≠ "" → Complaint i ops 137 w
  | a138 {t v} : At ops (.param 1 0) (.simple t v) → (t.length < 1 ∨ 10 < t.length) → Complaint i ops 138 (.param 1 0)
  | a139 {t v} : At ops (.param 1 1) (.simple t v) → t.length ≠ 4 → Complaint i ops 139 (.param 1 1)
  | a140 {t v} : At ops (.param 1 2) (.simple t v) → (t.length ≠ 5 ∨ ¬ Digits t) → Complaint i ops 140 (.param 1 2)
  -- a base register from 0 to 15 or a label; the letters $, _, # and @ are not known
  | a141 {w o} : At ops w o → ¬ HasValue o (fun v => 0 ≤ v ∧ v ≤ 15) →
      (∀ t, o = .simple t none → (OrdinarySymbol t.toList ∨ VariableSymbol t.toList) → ∃ c ∈ t.toList, c ∈ ['$', '_', '#', '@']) →
      Complaint i ops 141 w
  | a143 {w o} : At ops w o → ¬ HasValue o (fun _ => True) → Complaint i ops 143 w
  | a144 {w o} : At ops w o → HasValue o (fun v => v < 0 ∨ v % 2 = 1) → Complaint i ops 144 w
  | a145 {w o} : At ops w o → HasValue o (fun v => ¬ ((∃ k : Nat, v = 2 ^ k) ∧ 2 ≤ v ∧ v ≤ 4096)) → Complaint i ops 145 w
  | a146 {a b x y} : ops = [a, b] → Absolute a x → Absolute b y → y - 2 < x → Complaint i ops 146 (.op 0)
  | a147 {w} : At ops w .empty → Complaint i ops 147 w
  -- a non-negative value; 0 is not allowed
  | a148 {w o} : At ops w o → ¬ HasValue o (fun v => 0 < v) → Complaint i ops 148 w
  | a149 {w o} : At ops w o → ¬ OneOf ["DEFLOAD", "EXECUTABLE", "NOTEXECUTABLE", "MOVABLE", "NOLOAD", "NOTREUS", "READONLY", "REFR",
      "REMOVABLE", "RENT", "REUS"] o → (∀ id ps, o = .complex id ps → id ∉ ["RMODE", "ALIGN", "FILL", "PART", "PRIORITY"]) →
      Complaint i ops 149 w
  | a150 {w o} : At ops w o → ¬ OneOf ["24", "31", "64", "ANY", "ANY31", "ANY64"] o → Complaint i ops 150 w
  | a151 {w o} : At ops w o → (∀ t v p body, o = .simple t v → t.toList ≠ p :: '\'' :: (body ++ ['\''])) → Complaint i ops 151 w
  | a152 {w t v body c} : At ops w (.simple t v) → t.toList = 'C' :: '\'' :: (body ++ ['\'']) → c ∈ body → (¬ EbcdicInRange c ∨ c = '\'') →
      Complaint i ops 152 w
  -- only hexadecimal digits, in the range; the apostrophe at the end is read too
  | a153 {w t v body a b} : At ops w (.simple t v) → t.toList = 'X' :: '\'' :: (body ++ ['\'']) → PairAt (body ++ ['\'']) a b →
      (hexDigit a = none ∨ hexDigit b = none) → Complaint i ops 153 w
  | a155 {w t v body a b} : At ops w (.simple t v) → t.toList = 'X' :: '\'' :: (body ++ ['\'']) → PairAt (body ++ ['\'']) a b →
      ¬ HexByte a b → Complaint i ops 155 w
  -- even length: said of texts of even length
  | a154 {w t v body} : At ops w (.simple t v) → t.toList = 'X' :: '\'' :: (body ++ ['\'']) → body.length % 2 = 0 → Complaint i ops 154 w
  | a156 {w o} : At ops w o → ¬ OneOf ["BACK", "FRONT"] o → Complaint i ops 156 w
  -- at most 80 characters; the apostrophes are counted
  | a157 {w o} : At ops w o → (¬ ∃ body, Enclosed o body ∧ body.length ≤ 78) → Complaint i ops 157 w
  | a158 {w o} : At ops w o → o ≠ .empty → ¬ HasValue o (fun _ => True) → Complaint i ops 158 w
  | a160 {w t v} : At ops w (.simple t v) → (t.length = 1 ∨ 255 < t.length) → Complaint i ops 160 w
  | a161 {w o} : At ops w o → ¬ OneOf ["AFPR", "NOAFPR", "RA2", "NORA2", "LIBMAC", "LMAC", "NOLIBMAC", "NOLMAC", "NOCOMPAT", "NOCPAT",
      "NOTYPECHECK", "NOTC"] o → (∀ id ps, o = .complex id ps → id ∉ ["COMPAT", "CPAT", "FLAG", "OPTABLE", "TYPECHECK", "TC"]) →
      Complaint i ops 161 w
  | a200 {w o} : At ops w o → ¬ OneOf ["SECTION", "S", "MODULE", "M", "LIBRARY", "L", "IMPORT", "EXPORT", "X"] o → Complaint i ops 200 w
  | a201 {w o} : At ops w o → ¬ OneOf ["OS", "XPLINK"] o → Complaint i ops 201 w
  -- both DIRECT and INDIRECT, or one of them twice
  | a202 {k j j' o o'} : j' < j → At ops (.param k j') o' → At ops (.param k j) o → OneOf ["DIRECT", "INDIRECT"] o' →
      OneOf ["DIRECT", "INDIRECT"] o → Complaint i ops 202 (.param k j)
  | a203 {k j j' o o'} : j' < j → At ops (.param k j') o' → At ops (.param k j) o → OneOf ["DATA", "CODE"] o' →
      OneOf ["DATA", "CODE"] o → Complaint i ops 203 (.param k j)
  | a204 {w o} : At ops w o → ¬ OneOf ["24", "31", "64", "ANY"] o → Complaint i ops 204 w
  | a205 {w o} : At ops w o → ¬ OneOf ["0", "1", "2", "3", "4", "12"] o → Complaint i ops 205 w
  | a206 {w o} : At ops w o → (¬ ∃ v, Decimal o v ∧ 0 ≤ v ∧ v ≤ 255) → Complaint i ops 206 w
  | a207 {w o} : At ops w o → (¬ ∃ t v, o = .simple t v ∧ 1 ≤ t.length ∧ t.length ≤ 63) → Complaint i ops 207 w
  -- from 0 on; 0 is not allowed
  | a208 {w o} : At ops w o → (¬ ∃ v, Decimal o v ∧ 0 < v) → Complaint i ops 208 w
  | a209 {w o} : At ops w o → ¬ OneOf ["CASE", "NOCASE", "LITTYPE", "LIT", "NOLITTYPE", "NOLIT", "MACROCASE", "MC", "NOMACROCASE", "NOMC",
      "SYSLIST", "SYSL", "NOSYSLIST", "NOSYSL", "TRANSDT", "TRS", "NOTRANSDT", "NOTRS"] o → Complaint i ops 209 w
  | a210 {w o v} : At ops w o → Decimal o v → (v < 0 ∨ 255 < v) → Complaint i ops 210 w
  | a211 {w o} : At ops w o → ¬ OneOf ["ALIGN", "AL", "NOALIGN", "NOAL", "CONT", "NOCONT", "PAGE0", "NOPAGE0", "SUB", "NOSUB", "USING0",
      "US0", "NOUSING0", "NOUS0", "IMPLEN", "NOIMPLEN", "EXLITW", "NOEXLITW", "SUBSTR", "NOSUBSTR"] o → (¬ ∃ v, Decimal o v) →
      Complaint i ops 211 w
  | a212 {w o} : At ops w o → ¬ OneOf ["DOS", "ESA", "XA", "370", "YOP", "ZOP", "ZS3", "ZS4", "ZS5", "ZS6", "ZS7", "ZS8"] o →
      Complaint i ops 212 w
  | a213 {k o} : At ops (.param k 1) o → ¬ OneOf ["LIST", "NOLIST"] o → Complaint i ops 213 (.param k 1)
  | a214 {w o} : At ops w o → ¬ OneOf ["MAGNITUDE", "MAG", "REGISTER", "REG", "NOMAGNITUDE", "NOMAG", "NOREGISTER", "NOREG"] o →
      Complaint i ops 214 w
  | a238 {w o} : At ops w o → ¬ OneOf ["DIRECT", "INDIRECT", "CODE", "DATA"] o → Complaint i ops 238 w
  | a239 {w o} : At ops w o → o ≠ .empty → (¬ ∃ body, Enclosed o body) → Complaint i ops 239 w
  -- an absolute value or omitted; also said of an operand that is empty
  | a240 {w o} : At ops w o → ¬ HasValue o (fun _ => True) → Complaint i ops 240 w
  -- a decimal term or omitted; also said of an operand that is empty
  | a242 {k o} : 0 < k → At ops (.op k) o → (¬ ∃ v, Decimal o v) → Complaint i ops 242 (.op k)
  | a243 {w id ps} : At ops w (.complex id ps) → Complaint i ops 243 w
  | a244 {w o} : At ops w o → (¬ ∃ body, Enclosed o body) → Complaint i ops 244 w
  | a246 {w id ps} : At ops w (.complex id ps) → Complaint i ops 246 w
  | a247 {w id ps} : At ops w (.complex id ps) → Complaint i ops 247 w
  | a248 {w o} : At ops w o → (∀ t v, o ≠ .simple t v) → Complaint i ops 248 w
  | a300 {w o} : At ops w o → (¬ ∃ body, Enclosed o body) → Complaint i ops 300 w
  | a301 {w o} : At ops w o → (¬ ∃ body, Enclosed o body) → Complaint i ops 301 w

end Verif.AsmCheck
