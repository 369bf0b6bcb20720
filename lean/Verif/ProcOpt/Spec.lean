import Verif.ProcOpt.Model
import Verif.AsmCheck.Spec

/-!
What the options of `*PROCESS` are, by the texts of the messages A162, A015 to A018, A021 and A209 to A237 (diagnostic.cpp), what is taken
instead, and what a message may say.
-/
namespace Verif.ProcOpt

open AsmCheck (AOp Decimal OneOf Digits FlagParam hexDigit isSpaceChar)

/-- A number written with digits, most significant first. -/
inductive Numeral (base : Nat) : List Char → Nat → Prop
  | one (c : Char) (d : Nat) : hexDigit c = some d → d < base → Numeral base [c] d
  | more (l : List Char) (n : Nat) (c : Char) (d : Nat) : Numeral base l n → hexDigit c = some d → d < base →
      Numeral base (l ++ [c]) (base * n + d)

/-- `X'…'` -/
def HexForm (t : String) (digits : List Char) : Prop := t.toList = 'X' :: '\'' :: (digits ++ ['\''])

/-- The text begins with a number: blanks and a sign may be before it, anything behind it. -/
def Begins (l : List Char) (v : Int) : Prop :=
  ∃ blanks sign digits rest n, l = blanks ++ sign ++ digits ++ rest ∧ (∀ c ∈ blanks, isSpaceChar c = true) ∧ Numeral 10 digits n ∧
    (∀ c r, rest = c :: r → ¬ ('0' ≤ c ∧ c ≤ '9')) ∧
    ((sign = [] ∧ v = n) ∨ (sign = ['+'] ∧ v = n) ∨ (sign = ['-'] ∧ v = -n))

/-- It fits into an `int`. -/
def IntRange (v : Int) : Prop := -2147483648 ≤ v ∧ v ≤ 2147483647

/-- The days of a month. -/
def days (year month : Nat) : Nat :=
  if month ∈ [4, 6, 9, 11] then 30
  else if month = 2 then (if (year % 4 = 0 ∧ year % 100 ≠ 0) ∨ year % 400 = 0 then 29 else 28)
  else 31

/-- `yyyymmdd` -/
def Date (t : String) : Prop :=
  ∃ y m d year month day, t.toList = y ++ m ++ d ∧ y.length = 4 ∧ m.length = 2 ∧ d.length = 2 ∧
    Numeral 10 y year ∧ Numeral 10 m month ∧ Numeral 10 d day ∧ 1 ≤ month ∧ month ≤ 12 ∧ 1 ≤ day ∧ day ≤ days year month

/-- The points where the options as the messages describe them and those that are taken differ. -/
structure Rules where
  codepage : String → Prop
  warn : String → Prop
  limit : String → Prop
  fail : AOp → Prop
  optable : String → Prop
  flag : AOp → Prop

/-- The parameters of the options, with the points of difference given. -/
inductive Opt (r : Rules) : AOp → Prop
  | plain (o : AOp) : OneOf
      ["ALIGN", "NOALIGN", "BATCH", "NOBATCH", "DBCS", "NODBCS", "DXREF", "DX", "NODXREF", "NODX", "ERASE", "NOERASE", "ESD", "NOESD",
        "FOLD", "NOFOLD", "ILMA", "NOILMA", "PROFILE", "PROF", "NOPROFILE", "NOPROF", "INFO", "NOINFO", "LIBMAC", "LMAC", "NOLIBMAC",
        "NOLMAC", "PRINT", "PR", "NOPRINT", "NOPR", "RA2", "NORA2", "RENT", "NORENT", "RLD", "NORLD", "RXREF", "RX", "NORXREF", "NORX",
        "SEG", "NOSEG", "TEST", "NOTEST", "THREAD", "THR", "NOTHREAD", "NOTHR", "WORKFILE", "NOWORKFILE", "MXREF", "MX", "NOMXREF",
        "NOMX", "NOCOMPAT", "NOCPAT", "DISK", "DI", "NOFAIL", "NOPCONTROL", "NOPC", "NOTYPECHECK", "NOTC", "NOUSING", "NOUS", "NOXREF",
        "PESTOP=YES", "PESTOP=NO", "NOSUPRWARN", "NOSUP"] o → Opt r o
  | codepage (id t : String) (v : Option Int) : id ∈ ["CODEPAGE", "CP"] → r.codepage t → Opt r (.complex id [.simple t v])
  | info (t : String) (v : Int) : Date t → Opt r (.complex "INFO" [.simple t (some v)])
  | mxref (id : String) (a : AOp) : id ∈ ["MXREF", "MX"] → OneOf ["FULL", "SOURCE", "XREF"] a → Opt r (.complex id [a])
  | sectalgn (a : AOp) (v : Int) : Decimal a v → v ∈ [8, 16, 32, 64, 128, 256, 512, 1024, 2048, 4096] → Opt r (.complex "SECTALGN" [a])
  | profile (id : String) (a : AOp) : id ∈ ["PROFILE", "PROF"] → Opt r (.complex id [a])
  | machine (id : String) (a : AOp) (l : List AOp) : id ∈ ["MACHINE", "MAC"] →
      OneOf ["S370", "S370XA", "S370ESA", "S390", "S390E", "ZSERIES", "ZS", "ZSERIES-2", "ZSERIES-3", "ZSERIES-4", "ZSERIES-5",
        "ZSERIES-6", "ZSERIES-7", "ZSERIES-8", "ZS-2", "ZS-3", "ZS-4", "ZS-5", "ZS-6", "ZS-7", "ZS-8"] a →
      (l = [] ∨ ∃ b, OneOf ["LIST", "NOLIST"] b ∧ l = [b]) → Opt r (.complex id (a :: l))
  | optable (id t : String) (v : Option Int) (l : List AOp) : id ∈ ["OPTABLE", "OP"] → r.optable t →
      (l = [] ∨ ∃ b, OneOf ["LIST", "NOLIST"] b ∧ l = [b]) → Opt r (.complex id (.simple t v :: l))
  | compat (id : String) (ps : List AOp) : id ∈ ["COMPAT", "CPAT"] → ps ≠ [] →
      (∀ p ∈ ps, OneOf ["CASE", "NOCASE", "LITTYPE", "LIT", "NOLITTYPE", "NOLIT", "MACROCASE", "MC", "NOMACROCASE", "NOMC", "SYSLIST",
        "SYSL", "NOSYSLIST", "NOSYSL", "TRANSDT", "TRS", "NOTRANSDT", "NOTRS"] p) → Opt r (.complex id ps)
  | typecheck (id : String) (ps : List AOp) : id ∈ ["TYPECHECK", "TC"] → ps ≠ [] →
      (∀ p ∈ ps, OneOf ["MAGNITUDE", "MAG", "REGISTER", "REG", "NOMAGNITUDE", "NOMAG", "NOREGISTER", "NOREG"] p) →
      Opt r (.complex id ps)
  | pcontrol (id : String) (ps : List AOp) : id ∈ ["PCONTROL", "PC"] → ps ≠ [] →
      (∀ p ∈ ps, OneOf ["ON", "OFF", "MCALL", "MC", "NOMCALL", "NOMC", "MSOURCE", "MS", "NOMSOURCE", "NOMS", "UHEAD", "UHD", "NOUHEAD",
        "NOUHD", "GEN", "NOGEN", "DATA", "NODATA"] p) → Opt r (.complex id ps)
  | xrefFull (a : AOp) : OneOf ["FULL"] a → Opt r (.complex "XREF" [a])
  | xref (ps : List AOp) : ps ≠ [] → (∀ p ∈ ps, OneOf ["SHORT", "UNREFS"] p) → Opt r (.complex "XREF" ps)
  | suprwarn (id : String) (ps : List AOp) : id ∈ ["SUPRWARN", "SUP", "NOSUPRWARN", "NOSUP"] → ps ≠ [] →
      (∀ p ∈ ps, ∃ t v, Digits t ∧ 1 ≤ t.toList.length ∧ t.toList.length ≤ 4 ∧ p = .simple t v) → Opt r (.complex id ps)
  | flag (ps : List AOp) : ps ≠ [] → (∀ p ∈ ps, r.flag p) → Opt r (.complex "FLAG" ps)
  | fail (ps : List AOp) : (∀ p ∈ ps, r.fail p) → Opt r (.complex "FAIL" ps)
  | using_ (id : String) (ps : List AOp) : id ∈ ["USING", "US"] →
      (∀ p ∈ ps, OneOf ["MAP", "NOMAP", "NOWARN", "NOLIMIT"] p ∨ (∃ t v, p = .complex "WARN" [.simple t v] ∧ r.warn t) ∨
        (∃ t v, p = .complex "LIMIT" [.simple t v] ∧ r.limit t)) → Opt r (.complex id ps)

/-- The texts of PUSH and RECORD. -/
def FlagPair (p : AOp) : Prop := OneOf ["PUSH", "PU", "NOPUSH", "NOPU", "RECORD", "RC", "NORECORD", "NORC"] p

/-- As the messages describe them (A211, A212, A215, A216, A229 to A237). -/
def asDescribed : Rules where
  codepage t := (∃ n, Numeral 10 t.toList n ∧ 1140 ≤ n ∧ n ≤ 1148) ∨ (∃ d n, HexForm t d ∧ Numeral 16 d n ∧ 1140 ≤ n ∧ n ≤ 1148)
  warn t := ∃ n, Numeral 10 t.toList n ∧ n ≤ 15
  limit t := (∃ n, Numeral 10 t.toList n ∧ n ≤ 4095) ∨ (∃ d n, HexForm t d ∧ Numeral 16 d n ∧ n ≤ 0xFFF)
  fail p := OneOf ["NOMSG", "NOMNOTE"] p ∨
    (∃ id t v n, id ∈ ["MSG", "MNOTE"] ∧ p = .complex id [.simple t v] ∧ Numeral 10 t.toList n ∧ n ≤ 7) ∨
    (∃ id t v n, id ∈ ["MAXERRS", "NOMAXERRS"] ∧ p = .complex id [.simple t v] ∧ Numeral 10 t.toList n ∧ 32 ≤ n ∧ n ≤ 65535)
  optable t := t ∈ ["DOS", "ESA", "XA", "370", "YOP", "ZOP", "ZS3", "ZS4", "ZS5", "ZS6", "ZS7", "ZS8"]
  flag p := FlagParam p ∨ FlagPair p

/-- As they are taken. -/
def asTaken : Rules where
  codepage t := (∃ n, Numeral 10 t.toList n ∧ 1140 ≤ n ∧ n ≤ 1148) ∨ HexForm t [] ∨
    (∃ d n, HexForm t d ∧ Numeral 16 d n ∧ (2 ^ 64 ≤ n ∨ (1140 ≤ n % 2 ^ 32 ∧ n % 2 ^ 32 ≤ 1148)))
  warn t := ∃ v, Begins t.toList v ∧ 0 ≤ v ∧ v ≤ 255
  limit t := (∃ d n, HexForm t d ∧ Numeral 16 d n ∧ n ≤ 0xFFF) ∨ (∃ v, Begins t.toList v ∧ -2147483648 ≤ v ∧ v ≤ 4095)
  fail p := OneOf ["NOMSG", "NOMNOTE"] p
  optable t := t ∈ ["DOS", "ESA", "XA", "370", "YOP", "ZOP", "ZS3", "ZS4", "ZS5", "ZS6", "ZS7", "ZS8", ""]
  flag p := FlagParam p ∨ FlagPair p

/-- Options that end the program: CODEPAGE without a text, with too large a number; a limit with too large a number behind good parameters
of USING. -/
inductive Fatal : Bad → AOp → Prop
  | noText (id : String) (v : Option Int) : id ∈ ["CODEPAGE", "CP"] → Fatal .ub (.complex id [.simple "" v])
  | large (id t : String) (v : Option Int) (n : Nat) : id ∈ ["CODEPAGE", "CP"] → Numeral 10 t.toList n → 2147483647 < n →
      Fatal .throws (.complex id [.simple t v])
  | limit (id t : String) (v : Option Int) (pre post : List AOp) (d : List Char) (n : Nat) : id ∈ ["USING", "US"] →
      Opt asTaken (.complex id pre) → HexForm t d → Numeral 16 d n → 2 ^ 64 ≤ n →
      Fatal .throws (.complex id (pre ++ .complex "LIMIT" [.simple t v] :: post))

/-- The options of a statement: the operands, or what is in the parentheses of OVERRIDE, with the paths to them. -/
def options : List AOp → List (List Nat × AOp)
  | [.complex "OVERRIDE" ps] => ps.mapIdx (fun i o => ([0, i], o))
  | ops => ops.mapIdx (fun i o => ([i], o))

/-- The parameters of an option with parameters. -/
def params : AOp → List AOp
  | .complex _ ps => ps
  | _ => []

/-- The name of an option with parameters. -/
def Named (o : AOp) (l : List String) : Prop := ∃ id ps, id ∈ l ∧ o = .complex id ps

/-- What a message says about an option that is not taken: what is wrong, and the path from the option to it. -/
inductive Complaint (o : AOp) : Nat → Option (List Nat) → Prop
  | a162s (t : String) (v : Option Int) : o = .simple t v → Complaint o 162 (some [])
  | a162c (id : String) (ps : List AOp) : o = .complex id ps →
      id ∉ ["CODEPAGE", "CP", "INFO", "MXREF", "MX", "SECTALGN", "PROFILE", "PROF", "MACHINE", "MAC", "OPTABLE", "OP", "COMPAT", "CPAT",
        "FLAG", "PCONTROL", "PC", "XREF", "SUPRWARN", "SUP", "NOSUPRWARN", "NOSUP", "TYPECHECK", "TC", "US", "FAIL", "USING"] →
      Complaint o 162 (some [])
  | a021 : o = .empty → Complaint o 21 (some [])
  | a021p (j : Nat) : Named o ["FAIL", "USING", "US"] → (params o)[j]? = some .empty → Complaint o 21 (some [j])
  | a015 : Named o ["COMPAT", "CPAT", "FLAG", "PCONTROL", "PC", "XREF", "SUPRWARN", "SUP", "NOSUPRWARN", "NOSUP", "TYPECHECK", "TC"] →
      params o = [] → Complaint o 15 (some [])
  | a016 : Named o ["CODEPAGE", "CP", "MXREF", "MX", "SECTALGN", "PROFILE", "PROF"] → (params o).length ≠ 1 → Complaint o 16 (some [])
  | a018i : Named o ["INFO"] → (params o).length ≠ 1 → Complaint o 18 (some [])
  | a018 : Named o ["MACHINE", "MAC", "OPTABLE", "OP"] → (params o).length ≠ 1 → (params o).length ≠ 2 → Complaint o 18 (some [])
  | a209 (j : Nat) (p : AOp) : Named o ["COMPAT", "CPAT"] → (params o)[j]? = some p →
      ¬ OneOf ["CASE", "NOCASE", "LITTYPE", "LIT", "NOLITTYPE", "NOLIT", "MACROCASE", "MC", "NOMACROCASE", "NOMC", "SYSLIST",
        "SYSL", "NOSYSLIST", "NOSYSL", "TRANSDT", "TRS", "NOTRANSDT", "NOTRS"] p → Complaint o 209 (some [j])
  | a210 (j : Nat) (p : AOp) (v : Int) : Named o ["FLAG"] → (params o)[j]? = some p → Decimal p v → ¬ (0 ≤ v ∧ v ≤ 255) →
      Complaint o 210 (some [j])
  | a211 (j : Nat) (p : AOp) : Named o ["FLAG"] → (params o)[j]? = some p → ¬ FlagParam p → ¬ FlagPair p → (∀ v, ¬ Decimal p v) →
      Complaint o 211 (some [j])
  | a212 (p : AOp) : Named o ["OPTABLE", "OP"] → (params o)[0]? = some p →
      ¬ OneOf ["DOS", "ESA", "XA", "370", "YOP", "ZOP", "ZS3", "ZS4", "ZS5", "ZS6", "ZS7", "ZS8"] p → Complaint o 212 (some [0])
  | a213 (p : AOp) : Named o ["OPTABLE", "OP"] → (params o)[1]? = some p → ¬ OneOf ["LIST", "NOLIST"] p → Complaint o 213 (some [1])
  | a214 (j : Nat) (p : AOp) : Named o ["TYPECHECK", "TC"] → (params o)[j]? = some p →
      ¬ OneOf ["MAGNITUDE", "MAG", "REGISTER", "REG", "NOMAGNITUDE", "NOMAG", "NOREGISTER", "NOREG"] p → Complaint o 214 (some [j])
  | a215 (p : AOp) : Named o ["CODEPAGE", "CP"] → params o = [p] → (∀ t v, p ≠ .simple t v) → Complaint o 215 (some [0])
  | a215t (t : String) (v : Option Int) : Named o ["CODEPAGE", "CP"] → params o = [.simple t v] →
      (∀ n, ¬ Numeral 10 t.toList n) → (∀ d n, ¬ (HexForm t d ∧ Numeral 16 d n)) → Complaint o 215 none
  | a216 (t : String) (v : Option Int) (n : Nat) : Named o ["CODEPAGE", "CP"] → params o = [.simple t v] →
      (Numeral 10 t.toList n ∨ ∃ d, HexForm t d ∧ Numeral 16 d n) → ¬ (1140 ≤ n ∧ n ≤ 1148) → Complaint o 216 none
  | a217 (p : AOp) : Named o ["INFO"] → params o = [p] → ¬ (∃ t v, Date t ∧ p = .simple t (some v)) → Complaint o 217 (some [0])
  | a218 (p : AOp) : Named o ["MXREF", "MX"] → params o = [p] → ¬ OneOf ["FULL", "XREF", "SOURCE"] p → Complaint o 218 (some [0])
  | a219 (p : AOp) : Named o ["SECTALGN"] → params o = [p] → (∀ v, ¬ Decimal p v) → Complaint o 219 (some [0])
  | a220 (p : AOp) (v : Int) : Named o ["SECTALGN"] → params o = [p] → Decimal p v →
      v ∉ [8, 16, 32, 64, 128, 256, 512, 1024, 2048, 4096] → Complaint o 220 (some [0])
  | a221 (p : AOp) : Named o ["MACHINE", "MAC"] → (params o)[1]? = some p → ¬ OneOf ["LIST", "NOLIST"] p → Complaint o 221 (some [1])
  | a222 (p : AOp) : Named o ["MACHINE", "MAC"] → (params o)[0]? = some p →
      ¬ OneOf ["S370", "S370XA", "S370ESA", "S390", "S390E", "ZSERIES", "ZS", "ZSERIES-2", "ZSERIES-3", "ZSERIES-4", "ZSERIES-5",
        "ZSERIES-6", "ZSERIES-7", "ZSERIES-8", "ZS-2", "ZS-3", "ZS-4", "ZS-5", "ZS-6", "ZS-7", "ZS-8"] p → Complaint o 222 (some [0])
  | a223 (j : Nat) (p : AOp) : Named o ["PCONTROL", "PC"] → (params o)[j]? = some p →
      ¬ OneOf ["ON", "OFF", "MCALL", "MC", "NOMCALL", "NOMC", "MSOURCE", "MS", "NOMSOURCE", "NOMS", "UHEAD", "UHD", "NOUHEAD",
        "NOUHD", "GEN", "NOGEN", "DATA", "NODATA"] p → Complaint o 223 (some [j])
  | a224 (j : Nat) (p : AOp) : Named o ["XREF"] → (params o)[j]? = some p → ¬ OneOf ["SHORT", "UNREFS"] p →
      ¬ (OneOf ["FULL"] p ∧ (params o).length = 1) → Complaint o 224 (some [j])
  | a225 (j : Nat) (p : AOp) : Named o ["SUPRWARN", "SUP", "NOSUPRWARN", "NOSUP"] → (params o)[j]? = some p →
      ¬ (∃ t v, Digits t ∧ p = .simple t v) → Complaint o 225 (some [j])
  | a226 (j : Nat) (t : String) (v : Option Int) : Named o ["SUPRWARN", "SUP", "NOSUPRWARN", "NOSUP"] →
      (params o)[j]? = some (.simple t v) → ¬ (1 ≤ t.toList.length ∧ t.toList.length ≤ 4) → Complaint o 226 (some [j])
  | a227 (j : Nat) (p : AOp) : Named o ["USING", "US"] → (params o)[j]? = some p → p ≠ .empty →
      ¬ OneOf ["MAP", "NOMAP", "NOWARN", "NOLIMIT"] p → ¬ Named p ["WARN", "LIMIT"] → Complaint o 227 (some [j])
  | a228 (j : Nat) (p : AOp) : Named o ["USING", "US"] → (params o)[j]? = some p → Named p ["WARN", "LIMIT"] →
      ¬ (∃ t v, params p = [.simple t v]) → Complaint o 228 (some [j])
  | a228w (j : Nat) (t : String) (v : Option Int) : Named o ["USING", "US"] → (params o)[j]? = some (.complex "WARN" [.simple t v]) →
      (∀ n, Begins t.toList n → ¬ IntRange n) → Complaint o 228 (some [j, 0])
  | a229 (j : Nat) (t : String) (v : Option Int) (n : Int) : Named o ["USING", "US"] →
      (params o)[j]? = some (.complex "WARN" [.simple t v]) → Begins t.toList n → ¬ (0 ≤ n ∧ n ≤ 15) → Complaint o 229 (some [j, 0])
  | a230 (j : Nat) (t : String) (v : Option Int) : Named o ["USING", "US"] → (params o)[j]? = some (.complex "LIMIT" [.simple t v]) →
      (∀ d n, ¬ (HexForm t d ∧ Numeral 16 d n)) → (∀ n, Begins t.toList n → ¬ IntRange n) → Complaint o 230 (some [j])
  | a231 (j : Nat) (t : String) (v : Option Int) (n : Int) : Named o ["USING", "US"] →
      (params o)[j]? = some (.complex "LIMIT" [.simple t v]) → Begins t.toList n → 4095 < n → Complaint o 231 (some [j])
  | a232 (j : Nat) (t : String) (v : Option Int) (d : List Char) (n : Nat) : Named o ["USING", "US"] →
      (params o)[j]? = some (.complex "LIMIT" [.simple t v]) → HexForm t d → Numeral 16 d n → 0xFFF < n → Complaint o 232 (some [j])
  | a233 (j : Nat) (p : AOp) : Named o ["FAIL"] → (params o)[j]? = some p → p ≠ .empty → ¬ OneOf ["NOMSG", "NOMNOTE"] p →
      Complaint o 233 (some [j])

/-- The place a path from an option leads to. -/
def placeOf (p : List Nat) : Option (List Nat) → Place
  | none => .lost
  | some r => .at (p ++ r)

/-- The messages of an option that is taken: one for each of PUSH and RECORD in FLAG. -/
def noise (p : List Nat) : AOp → List Msg
  | .complex id ps =>
    if id = "FLAG" then
      (ps.mapIdx fun j a =>
        if a.among ["PUSH", "PU", "NOPUSH", "NOPU", "RECORD", "RC", "NORECORD", "NORC"] then [⟨211, .at (p ++ [j])⟩] else []).flatten
    else []
  | _ => []

end Verif.ProcOpt
