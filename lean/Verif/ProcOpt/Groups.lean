import Verif.ProcOpt.Lemmas

/-!
The options of `*PROCESS` by their names.
-/
namespace Verif.ProcOpt

open AsmCheck (AOp Decimal OneOf Digits FlagParam hexDigit isSpaceChar allDigits powerOfTwo)

/-- The options that differ in their parameters. -/
def group (id : String) : Nat :=
  if id ∈ ["CODEPAGE", "CP"] then 1
  else if id = "INFO" then 2
  else if id ∈ ["MXREF", "MX"] then 3
  else if id = "SECTALGN" then 4
  else if id ∈ ["PROFILE", "PROF"] then 5
  else if id ∈ ["MACHINE", "MAC"] then 6
  else if id ∈ ["OPTABLE", "OP"] then 7
  else if id ∈ ["COMPAT", "CPAT"] then 8
  else if id ∈ ["TYPECHECK", "TC"] then 9
  else if id ∈ ["PCONTROL", "PC"] then 10
  else if id = "XREF" then 11
  else if id ∈ ["SUPRWARN", "SUP", "NOSUPRWARN", "NOSUP"] then 12
  else if id = "FLAG" then 13
  else if id = "FAIL" then 14
  else if id ∈ ["USING", "US"] then 15
  else 0

/-- What the parameters have to be. -/
def Params (r : Rules) (id : String) (ps : List AOp) : Nat → Prop
  | 1 => ∃ t v, ps = [.simple t v] ∧ r.codepage t
  | 2 => ∃ t v, ps = [.simple t (some v)] ∧ Date t
  | 3 => ∃ a, ps = [a] ∧ OneOf ["FULL", "SOURCE", "XREF"] a
  | 4 => ∃ a v, ps = [a] ∧ Decimal a v ∧ v ∈ [8, 16, 32, 64, 128, 256, 512, 1024, 2048, 4096]
  | 5 => ∃ a, ps = [a]
  | 6 => ∃ a l, ps = a :: l ∧ OneOf ["S370", "S370XA", "S370ESA", "S390", "S390E", "ZSERIES", "ZS", "ZSERIES-2", "ZSERIES-3",
        "ZSERIES-4", "ZSERIES-5", "ZSERIES-6", "ZSERIES-7", "ZSERIES-8", "ZS-2", "ZS-3", "ZS-4", "ZS-5", "ZS-6", "ZS-7", "ZS-8"] a ∧
      (l = [] ∨ ∃ b, OneOf ["LIST", "NOLIST"] b ∧ l = [b])
  | 7 => ∃ t v l, ps = .simple t v :: l ∧ r.optable t ∧ (l = [] ∨ ∃ b, OneOf ["LIST", "NOLIST"] b ∧ l = [b])
  | 8 => ps ≠ [] ∧ ∀ p ∈ ps, OneOf ["CASE", "NOCASE", "LITTYPE", "LIT", "NOLITTYPE", "NOLIT", "MACROCASE", "MC", "NOMACROCASE",
      "NOMC", "SYSLIST", "SYSL", "NOSYSLIST", "NOSYSL", "TRANSDT", "TRS", "NOTRANSDT", "NOTRS"] p
  | 9 => ps ≠ [] ∧ ∀ p ∈ ps, OneOf ["MAGNITUDE", "MAG", "REGISTER", "REG", "NOMAGNITUDE", "NOMAG", "NOREGISTER", "NOREG"] p
  | 10 => ps ≠ [] ∧ ∀ p ∈ ps, OneOf ["ON", "OFF", "MCALL", "MC", "NOMCALL", "NOMC", "MSOURCE", "MS", "NOMSOURCE", "NOMS", "UHEAD",
      "UHD", "NOUHEAD", "NOUHD", "GEN", "NOGEN", "DATA", "NODATA"] p
  | 11 => (∃ a, ps = [a] ∧ OneOf ["FULL"] a) ∨ (ps ≠ [] ∧ ∀ p ∈ ps, OneOf ["SHORT", "UNREFS"] p)
  | 12 => ps ≠ [] ∧ ∀ p ∈ ps, ∃ t v, Digits t ∧ 1 ≤ t.toList.length ∧ t.toList.length ≤ 4 ∧ p = .simple t v
  | 13 => ps ≠ [] ∧ ∀ p ∈ ps, r.flag p
  | 14 => ∀ p ∈ ps, r.fail p
  | 15 => ∀ p ∈ ps, OneOf ["MAP", "NOMAP", "NOWARN", "NOLIMIT"] p ∨ (∃ t v, p = .complex "WARN" [.simple t v] ∧ r.warn t) ∨
        (∃ t v, p = .complex "LIMIT" [.simple t v] ∧ r.limit t)
  | _ => False

section
set_option linter.unusedSimpArgs false

theorem group_spec (id : String) :
    (group id = 1 ∧ (id = "CODEPAGE" ∨ id = "CP")) ∨ (group id = 2 ∧ id = "INFO") ∨ (group id = 3 ∧ (id = "MXREF" ∨ id = "MX")) ∨
    (group id = 4 ∧ id = "SECTALGN") ∨ (group id = 5 ∧ (id = "PROFILE" ∨ id = "PROF")) ∨
    (group id = 6 ∧ (id = "MACHINE" ∨ id = "MAC")) ∨ (group id = 7 ∧ (id = "OPTABLE" ∨ id = "OP")) ∨
    (group id = 8 ∧ (id = "COMPAT" ∨ id = "CPAT")) ∨ (group id = 9 ∧ (id = "TYPECHECK" ∨ id = "TC")) ∨
    (group id = 10 ∧ (id = "PCONTROL" ∨ id = "PC")) ∨ (group id = 11 ∧ id = "XREF") ∨
    (group id = 12 ∧ (id = "SUPRWARN" ∨ id = "SUP" ∨ id = "NOSUPRWARN" ∨ id = "NOSUP")) ∨ (group id = 13 ∧ id = "FLAG") ∨
    (group id = 14 ∧ id = "FAIL") ∨ (group id = 15 ∧ (id = "USING" ∨ id = "US")) ∨
    (group id = 0 ∧ id ∉ ["CODEPAGE", "CP", "INFO", "MXREF", "MX", "SECTALGN", "PROFILE", "PROF", "MACHINE", "MAC", "OPTABLE", "OP",
      "COMPAT", "CPAT", "FLAG", "PCONTROL", "PC", "XREF", "SUPRWARN", "SUP", "NOSUPRWARN", "NOSUP", "TYPECHECK", "TC", "US", "FAIL",
      "USING"]) := by
  unfold group
  by_cases h1 : id ∈ ["CODEPAGE", "CP"]
  · rw [if_pos h1]; exact Or.inl ⟨rfl, by simpa using h1⟩
  rw [if_neg h1]; refine Or.inr ?_
  by_cases h2 : id = "INFO"
  · rw [if_pos h2]; exact Or.inl ⟨rfl, h2⟩
  rw [if_neg h2]; refine Or.inr ?_
  by_cases h3 : id ∈ ["MXREF", "MX"]
  · rw [if_pos h3]; exact Or.inl ⟨rfl, by simpa using h3⟩
  rw [if_neg h3]; refine Or.inr ?_
  by_cases h4 : id = "SECTALGN"
  · rw [if_pos h4]; exact Or.inl ⟨rfl, h4⟩
  rw [if_neg h4]; refine Or.inr ?_
  by_cases h5 : id ∈ ["PROFILE", "PROF"]
  · rw [if_pos h5]; exact Or.inl ⟨rfl, by simpa using h5⟩
  rw [if_neg h5]; refine Or.inr ?_
  by_cases h6 : id ∈ ["MACHINE", "MAC"]
  · rw [if_pos h6]; exact Or.inl ⟨rfl, by simpa using h6⟩
  rw [if_neg h6]; refine Or.inr ?_
  by_cases h7 : id ∈ ["OPTABLE", "OP"]
  · rw [if_pos h7]; exact Or.inl ⟨rfl, by simpa using h7⟩
  rw [if_neg h7]; refine Or.inr ?_
  by_cases h8 : id ∈ ["COMPAT", "CPAT"]
  · rw [if_pos h8]; exact Or.inl ⟨rfl, by simpa using h8⟩
  rw [if_neg h8]; refine Or.inr ?_
  by_cases h9 : id ∈ ["TYPECHECK", "TC"]
  · rw [if_pos h9]; exact Or.inl ⟨rfl, by simpa using h9⟩
  rw [if_neg h9]; refine Or.inr ?_
  by_cases h10 : id ∈ ["PCONTROL", "PC"]
  · rw [if_pos h10]; exact Or.inl ⟨rfl, by simpa using h10⟩
  rw [if_neg h10]; refine Or.inr ?_
  by_cases h11 : id = "XREF"
  · rw [if_pos h11]; exact Or.inl ⟨rfl, h11⟩
  rw [if_neg h11]; refine Or.inr ?_
  by_cases h12 : id ∈ ["SUPRWARN", "SUP", "NOSUPRWARN", "NOSUP"]
  · rw [if_pos h12]; exact Or.inl ⟨rfl, by simpa using h12⟩
  rw [if_neg h12]; refine Or.inr ?_
  by_cases h13 : id = "FLAG"
  · rw [if_pos h13]; exact Or.inl ⟨rfl, h13⟩
  rw [if_neg h13]; refine Or.inr ?_
  by_cases h14 : id = "FAIL"
  · rw [if_pos h14]; exact Or.inl ⟨rfl, h14⟩
  rw [if_neg h14]; refine Or.inr ?_
  by_cases h15 : id ∈ ["USING", "US"]
  · rw [if_pos h15]; exact Or.inl ⟨rfl, by simpa using h15⟩
  rw [if_neg h15]; refine Or.inr ⟨rfl, ?_⟩
  simp only [List.mem_cons, List.not_mem_nil, or_false, not_or] at *
  exact ⟨h1.1, h1.2, h2, h3.1, h3.2, h4, h5.1, h5.2, h6.1, h6.2, h7.1, h7.2, h8.1, h8.2, h13, h10.1, h10.2, h11, h12.1, h12.2.1,
    h12.2.2.1, h12.2.2.2, h9.1, h9.2, h15.2, h14, h15.1⟩

theorem group_of {id : String} {l : List String} {n : Nat} (h : id ∈ l) (hl : l.all (fun x => group x == n) = true) : group id = n := by
  rw [List.all_eq_true] at hl
  simpa using hl id h

theorem opt_complex {r : Rules} {id : String} {ps : List AOp} : Opt r (.complex id ps) ↔ Params r id ps (group id) := by
  constructor
  · intro h
    cases h with
    | plain _ h => obtain ⟨t, v, -, h⟩ := h; cases h
    | codepage id t v h h1 => rw [group_of h (n := 1) (by decide +kernel)]; exact ⟨t, v, rfl, h1⟩
    | info t v h => rw [show group "INFO" = 2 by decide +kernel]; exact ⟨t, v, rfl, h⟩
    | mxref id a h h1 => rw [group_of h (n := 3) (by decide +kernel)]; exact ⟨a, rfl, h1⟩
    | sectalgn a v h h1 => rw [show group "SECTALGN" = 4 by decide +kernel]; exact ⟨a, v, rfl, h, h1⟩
    | profile id a h => rw [group_of h (n := 5) (by decide +kernel)]; exact ⟨a, rfl⟩
    | machine id a l h h1 h2 => rw [group_of h (n := 6) (by decide +kernel)]; exact ⟨a, l, rfl, h1, h2⟩
    | optable id t v l h h1 h2 => rw [group_of h (n := 7) (by decide +kernel)]; exact ⟨t, v, l, rfl, h1, h2⟩
    | compat id ps h h1 h2 => rw [group_of h (n := 8) (by decide +kernel)]; exact ⟨h1, h2⟩
    | typecheck id ps h h1 h2 => rw [group_of h (n := 9) (by decide +kernel)]; exact ⟨h1, h2⟩
    | pcontrol id ps h h1 h2 => rw [group_of h (n := 10) (by decide +kernel)]; exact ⟨h1, h2⟩
    | xrefFull a h => rw [show group "XREF" = 11 by decide +kernel]; exact Or.inl ⟨a, rfl, h⟩
    | xref ps h1 h2 => rw [show group "XREF" = 11 by decide +kernel]; exact Or.inr ⟨h1, h2⟩
    | suprwarn id ps h h1 h2 => rw [group_of h (n := 12) (by decide +kernel)]; exact ⟨h1, h2⟩
    | flag ps h1 h2 => rw [show group "FLAG" = 13 by decide +kernel]; exact ⟨h1, h2⟩
    | fail ps h => rw [show group "FAIL" = 14 by decide +kernel]; exact h
    | using_ id ps h h1 => rw [group_of h (n := 15) (by decide +kernel)]; exact h1
  · intro h
    rcases group_spec id with ⟨g, hi⟩ | ⟨g, hi⟩ | ⟨g, hi⟩ | ⟨g, hi⟩ | ⟨g, hi⟩ | ⟨g, hi⟩ | ⟨g, hi⟩ | ⟨g, hi⟩ | ⟨g, hi⟩ | ⟨g, hi⟩ |
      ⟨g, hi⟩ | ⟨g, hi⟩ | ⟨g, hi⟩ | ⟨g, hi⟩ | ⟨g, hi⟩ | ⟨g, hi⟩ <;> rw [g] at h
    · obtain ⟨t, v, rfl, h⟩ := h; exact .codepage id t v (by simpa using hi) h
    · obtain ⟨t, v, rfl, h⟩ := h; subst hi; exact .info t v h
    · obtain ⟨a, rfl, h⟩ := h; exact .mxref id a (by simpa using hi) h
    · obtain ⟨a, v, rfl, h, h1⟩ := h; subst hi; exact .sectalgn a v h h1
    · obtain ⟨a, rfl⟩ := h; exact .profile id a (by simpa using hi)
    · obtain ⟨a, l, rfl, h, h1⟩ := h; exact .machine id a l (by simpa using hi) h h1
    · obtain ⟨t, v, l, rfl, h, h1⟩ := h; exact .optable id t v l (by simpa using hi) h h1
    · exact .compat id ps (by simpa using hi) h.1 h.2
    · exact .typecheck id ps (by simpa using hi) h.1 h.2
    · exact .pcontrol id ps (by simpa using hi) h.1 h.2
    · subst hi
      rcases h with ⟨a, rfl, h⟩ | h
      · exact .xrefFull a h
      · exact .xref ps h.1 h.2
    · exact .suprwarn id ps (by simpa using hi) h.1 h.2
    · subst hi; exact .flag ps h.1 h.2
    · subst hi; exact .fail ps h
    · exact .using_ id ps (by simpa using hi) h
    · exact h.elim

/-- The check by groups. -/
def byGroup (p : List Nat) (id : String) (ps : List AOp) : Nat → R
  | 1 => match ps with
    | [.simple t _] => codepage t
    | [_] => stop 215 (.at (p ++ [0]))
    | _ => stop 16 (.at p)
  | 2 => match ps with
    | [.simple t (some _)] => if isDate t then fine else stop 217 (.at (p ++ [0]))
    | [_] => stop 217 (.at (p ++ [0]))
    | _ => stop 18 (.at p)
  | 3 => match ps with
    | [a] => if a.among ["FULL", "SOURCE", "XREF"] then fine else stop 218 (.at (p ++ [0]))
    | _ => stop 16 (.at p)
  | 4 => match ps with
    | [.simple t (some v)] =>
      if allDigits t = false then stop 219 (.at (p ++ [0]))
      else if powerOfTwo v = false ∨ v < 8 ∨ v > 4096 then stop 220 (.at (p ++ [0]))
      else fine
    | [_] => stop 219 (.at (p ++ [0]))
    | _ => stop 16 (.at p)
  | 5 => match ps with
    | [_] => fine
    | _ => stop 16 (.at p)
  | 6 => match ps with
    | [a] => machineParams p a none
    | [a, b] => machineParams p a (some b)
    | _ => stop 18 (.at p)
  | 7 => match ps with
    | [a] => optableParams p a none
    | [a, b] => optableParams p a (some b)
    | _ => stop 18 (.at p)
  | 8 => if ps.isEmpty then stop 15 (.at p) else keywords 209 AsmCheck.compatKeywords p ps
  | 9 => if ps.isEmpty then stop 15 (.at p) else keywords 214 AsmCheck.typecheckKeywords p ps
  | 10 => if ps.isEmpty then stop 15 (.at p) else keywords 223 pcontrolTexts p ps
  | 11 => if ps.isEmpty then stop 15 (.at p) else xrefParams p ps
  | 12 => if ps.isEmpty then stop 15 (.at p) else suprwarnParams p ps
  | 13 => if ps.isEmpty then stop 15 (.at p) else flagParams p ps
  | 14 => failParams p ps
  | 15 => usingParams p ps
  | _ => stop 162 (.at p)

theorem complexOption_eq (p : List Nat) (id : String) (ps : List AOp) : complexOption p id ps = byGroup p id ps (group id) := by
  rcases group_spec id with ⟨g, hi⟩ | ⟨g, hi⟩ | ⟨g, hi⟩ | ⟨g, hi⟩ | ⟨g, hi⟩ | ⟨g, hi⟩ | ⟨g, hi⟩ | ⟨g, hi⟩ | ⟨g, hi⟩ | ⟨g, hi⟩ |
      ⟨g, hi⟩ | ⟨g, hi⟩ | ⟨g, hi⟩ | ⟨g, hi⟩ | ⟨g, hi⟩ | ⟨g, hi⟩ <;> rw [g]
  · rcases hi with rfl | rfl <;> rcases ps with _ | ⟨(⟨t, v⟩ | _ | _), _ | ⟨b, r⟩⟩ <;>
      simp [complexOption, oneNames, manyNames, twoNames, complexNames, byGroup, oneParam]
  · subst hi
    rcases ps with _ | ⟨(⟨t, _ | v⟩ | _ | _), _ | ⟨b, r⟩⟩ <;>
      simp [complexOption, oneNames, manyNames, twoNames, complexNames, byGroup, oneParam]
  · rcases hi with rfl | rfl <;> rcases ps with _ | ⟨a, _ | ⟨b, r⟩⟩ <;>
      simp [complexOption, oneNames, manyNames, twoNames, complexNames, byGroup, oneParam]
  · subst hi
    rcases ps with _ | ⟨(⟨t, _ | v⟩ | _ | _), _ | ⟨b, r⟩⟩ <;>
      simp [complexOption, oneNames, manyNames, twoNames, complexNames, byGroup, oneParam]
  · rcases hi with rfl | rfl <;> rcases ps with _ | ⟨a, _ | ⟨b, r⟩⟩ <;>
      simp [complexOption, oneNames, manyNames, twoNames, complexNames, byGroup, oneParam]
  · rcases hi with rfl | rfl <;> rcases ps with _ | ⟨a, _ | ⟨b, _ | ⟨c, r⟩⟩⟩ <;>
      simp [complexOption, oneNames, manyNames, twoNames, complexNames, byGroup, twoParams]
  · rcases hi with rfl | rfl <;> rcases ps with _ | ⟨a, _ | ⟨b, _ | ⟨c, r⟩⟩⟩ <;>
      simp [complexOption, oneNames, manyNames, twoNames, complexNames, byGroup, twoParams]
  · rcases hi with rfl | rfl <;> simp [complexOption, oneNames, manyNames, twoNames, complexNames, byGroup, manyParams]
  · rcases hi with rfl | rfl <;> simp [complexOption, oneNames, manyNames, twoNames, complexNames, byGroup, manyParams]
  · rcases hi with rfl | rfl <;> simp [complexOption, oneNames, manyNames, twoNames, complexNames, byGroup, manyParams]
  · subst hi; simp [complexOption, oneNames, manyNames, twoNames, complexNames, byGroup, manyParams]
  · rcases hi with rfl | rfl | rfl | rfl <;>
      simp [complexOption, oneNames, manyNames, twoNames, complexNames, byGroup, manyParams]
  · subst hi; simp [complexOption, oneNames, manyNames, twoNames, complexNames, byGroup, manyParams]
  · subst hi; simp [complexOption, oneNames, manyNames, twoNames, complexNames, byGroup, manyParams]
  · rcases hi with rfl | rfl <;> simp [complexOption, oneNames, manyNames, twoNames, complexNames, byGroup, manyParams]
  · simp only [List.mem_cons, List.not_mem_nil, or_false, not_or] at hi
    simp [complexOption, oneNames, manyNames, twoNames, complexNames, byGroup, hi]
end

end Verif.ProcOpt
