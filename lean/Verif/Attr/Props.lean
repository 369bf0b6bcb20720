import Verif.Attr.Extract
import Verif.Ca.FuncProps
/-! C107: attribute references in conditional assembly. -/
namespace Verif.Attr

open Spec
open Context (SetSym Val Data)
open Context.Mac (Inst)
open Ord (Sym)

theorem symbolName_eq (s : Bytes) : symbolName s = some (upper s) ∧ IsSymbol s ∧ s.length ≤ 63 ∨
    symbolName s = none ∧ ¬ (IsSymbol s ∧ s.length ≤ 63) := by
  cases s with
  | nil => exact Or.inr ⟨rfl, fun ⟨⟨c, t, h, _⟩, _⟩ => by cases h⟩
  | cons c t =>
    simp only [symbolName]
    by_cases hl : (c :: t).length > 63
    · right; rw [if_pos (by simp only [decide_eq_true hl]; rfl)]
      exact ⟨rfl, fun h => absurd h.2 (by omega)⟩
    · by_cases hd : isDigit c = true
      · right; rw [if_pos (by simp [hd])]
        refine ⟨rfl, ?_⟩
        rintro ⟨⟨c', t', h, hn, -⟩, -⟩
        injection h with h1 h2
        exact hn (h1 ▸ (isDigit_iff c).mp hd)
      · rw [if_neg (by simp [hd]; simpa using hl)]
        by_cases ha : (c :: t).all ordChar = true
        · left; rw [if_pos ha]
          refine ⟨rfl, ⟨c, t, rfl, fun h => hd ((isDigit_iff c).mpr h), fun x hx => (ordChar_iff x).mp ?_⟩, by omega⟩
          exact List.all_eq_true.mp ha x hx
        · right; rw [if_neg ha]
          refine ⟨rfl, ?_⟩
          rintro ⟨⟨c', t', -, -, hx⟩, -⟩
          exact ha (List.all_eq_true.mpr fun x h => (ordChar_iff x).mpr (hx x h))

theorem testRead_sys (d : Data) (i : Int) (r : List Int) (hi : i ≠ 0) :
    testRead (.param (.sys d)) (i :: r) = if (i :: r).any (· < 1) then some Diag.E012 else none := by
  simp only [testRead]
  split
  · rename_i h2; simp only [List.cons.injEq] at h2; exact absurd h2.1 hi
  · rfl

theorem testRead_none (v : Var) (sub : List Int) : testRead v sub = none ↔ Readable v sub := by
  cases v with
  | set s =>
    unfold testRead Readable
    cases hs : s.scalar <;> rcases sub with _ | ⟨i, _ | ⟨j, r⟩⟩ <;> simp [hs]
  | param p =>
    cases p with
    | param d => unfold testRead Readable; cases sub <;> simp
    | sys d =>
      cases sub with
      | nil => unfold testRead Readable; simp
      | cons i r =>
        by_cases hi : i = 0
        · subst hi; unfold testRead Readable; simp
        · rw [testRead_sys d i r hi]
          unfold Readable
          simp
          omega

theorem testRead_some (v : Var) (sub : List Int) (h : ¬ Readable v sub) : ∃ d, testRead v sub = some d ∧ d ∈ [Diag.E020, .E013, .E012] := by
  cases ht : testRead v sub with
  | none => exact absurd ((testRead_none v sub).mp ht) h
  | some d =>
    refine ⟨d, rfl, ?_⟩
    unfold testRead at ht
    cases v with
    | set s =>
      simp only at ht
      repeat' split at ht
      all_goals first | cases ht | skip
      all_goals simp
    | param p =>
      simp only at ht
      repeat' split at ht
      all_goals first | cases ht | skip
      all_goals simp

/-! References to ordinary symbols. -/

/-- C107: the attributes of a symbol that is defined, or found by looking ahead: the length, scale and integer attribute are the
recorded ones; without a record the reference is reported and has the default value, and so is a scale or integer attribute of a
symbol whose type does not have one. -/
theorem C107_known (E : Env) (n : Bytes) (s : Sym) (h : E.symbols n = some s ∨ (E.symbols n = none ∧ E.refs n = some s)) :
    evalOrd E .L n = (match s.len with
      | some l => .val (.a l) []
      | none => .val (.a 1) [.W013]) ∧
    evalOrd E .T n = .val (.c [Ca.e2a (UInt8.ofNat s.type.toNat)]) [] ∧
    evalOrd E .S n = (if s.si then match s.scale with
      | some l => .val (.a l) []
      | none => .val (.a 0) [.W013]
      else .val (.a 0) [.E066]) ∧
    evalOrd E .I n = (if s.si then if s.scale.isSome ∧ s.len.isSome then .val (.a s.integer) [] else .val (.a 0) [.W013]
      else .val (.a 0) [.E066]) := by
  have hs : (E.symbols n).or (E.refs n) = some s := by
    rcases h with h | ⟨h, h2⟩
    · simp [h]
    · simp [h, h2]
  refine ⟨?_, ?_, ?_, ?_⟩
  · unfold evalOrd ordAttr
    simp only [hs]
    cases hl : s.len <;> simp [Kind.isOrdinary, Kind.ord, Sym.hasAttr, Sym.attr, hl, Ord.AttrKind.dflt]
  · unfold evalOrd ordAttr
    simp only [hs]
    simp [Kind.isOrdinary, typeChar]
  · unfold evalOrd ordAttr
    simp only [hs]
    cases hi : s.si <;> cases hl : s.scale <;> simp [Kind.isOrdinary, Kind.ord, Sym.hasAttr, Sym.attr, hl, Ord.AttrKind.dflt]
  · unfold evalOrd ordAttr
    simp only [hs]
    cases hi : s.si <;> cases hl : s.scale <;> cases hm : s.len <;>
      simp [Kind.isOrdinary, Kind.ord, Sym.hasAttr, Sym.attr, hl, hm, Ord.AttrKind.dflt]

/-- C107: attributes of a symbol nothing is known of: the type is `U`, the other ones are reported and have their default values. -/
theorem C107_unknown (E : Env) (n : Bytes) (h1 : E.symbols n = none) (h2 : E.refs n = none) :
    evalOrd E .L n = .val (.a 1) [.W013] ∧ evalOrd E .T n = .val (.c (ch 'U')) [] ∧ evalOrd E .S n = .val (.a 0) [.W013] ∧
    evalOrd E .I n = .val (.a 0) [.W013] := by
  refine ⟨?_, ?_, ?_, ?_⟩ <;> (unfold evalOrd ordAttr; simp only [h1, h2]; rfl)

/-- C107: `D'` tells whether a symbol is defined at this point of the program (looking ahead does not count); `K'` and `N'` of an
ordinary symbol are reported. -/
theorem C107_defined (E : Env) (n : Bytes) :
    evalOrd E .D n = .val (.a (if E.symbols n = none then 0 else 1)) [] ∧ evalOrd E .K n = .val (.a 0) [.E066] ∧
    evalOrd E .N n = .val (.a 0) [.E066] := by
  refine ⟨?_, rfl, rfl⟩
  unfold evalOrd
  cases h : E.symbols n <;> simp [Kind.isOrdinary]

/-- C107 (partial: only for names that OPSYN has not changed, see `C107_witness_opsyn`): `O'` names the kind of operation the name stands
for, and `S` if it stands for none but a library has a member of this name. -/
theorem C107_opcode_partial (E : Env) (n : Bytes) (h : E.mnemo n = none) :
    evalOrd E .O n = .val (.c (if operation E n = none ∧ E.library n then ch 'S' else opLetter (operation E n))) [] := by
  unfold evalOrd opcodeAttr operation
  rw [h]
  simp only [Kind.isOrdinary]
  by_cases hm : E.macros n = true
  · simp [hm, opLetter]; rfl
  · simp only [Bool.not_eq_true] at hm
    simp only [hm]
    cases hi : E.instrs n with
    | none => cases hl : E.library n <;> simp [opLetter] <;> rfl
    | some k => cases k <;> simp [opLetter] <;> rfl

/-! References through variable symbols. -/

theorem evalSubst_text (E : Env) (k : Kind) (v : Var) (sub : List Int) (hr : Readable v sub) (text : Bytes)
    (ht : readVar v sub = .c text) :
    (∀ sym, Names text sym → sym.length ≤ 63 → evalSubst E k v sub = evalOrd E k (upper sym)) ∧
    (¬ Hollow text → (∀ sym, Names text sym → 63 < sym.length) →
      evalSubst E k v sub = .val k.default (if k = .O ∨ k = .T then [] else [.E065])) ∧
    (Hollow text → evalSubst E k v sub = .ub) := by
  have h0 := (testRead_none v sub).mpr hr
  refine ⟨fun sym hn hl => ?_, fun hh hn => ?_, fun hh => ?_⟩
  · unfold evalSubst
    simp only [h0, ht, extract_names text sym hn]
    rcases symbolName_eq sym with ⟨h1, -⟩ | ⟨-, h2⟩
    · simp only [h1]
    · exact absurd ⟨by obtain ⟨n, q, rest, h⟩ := hn; exact h.2.2.1, hl⟩ h2
  · unfold evalSubst
    simp only [h0, ht]
    cases he : extract text with
    | none => exact absurd ((extract_none text).mp he) hh
    | some s =>
      rcases symbolName_eq s with ⟨h1, hs, hl⟩ | ⟨h1, -⟩
      · exact absurd (hn s (names_of_extract text s he hs)) (by omega)
      · simp only [h1]
  · unfold evalSubst
    simp only [h0, ht, (extract_none text).mpr hh]

/-- C107: `L'&V`, `I'&V`, `S'&V`, `D'&V` and `O'&V` are the attributes of the symbol the value of `&V` names. -/
theorem C107_substituted (E : Env) (k : Kind) (hk : k ∈ [Kind.L, .I, .S, .D, .O]) (name : Bytes) (v : Var) (hv : E.vars name = some v)
    (sub : List Int) (hr : Readable v sub) (text sym : Bytes) (ht : readVar v sub = .c text) (hn : Names text sym)
    (hl : sym.length ≤ 63) : evalVar E k name sub = evalOrd E k (upper sym) := by
  unfold evalVar
  simp only [hv]
  rw [if_pos (by simp at hk; rcases hk with h | h | h | h | h <;> subst h <;> rfl)]
  exact (evalSubst_text E k v sub hr text ht).1 sym hn hl

/-- C107: the name of an ordinary symbol as it is written names that symbol; so does an expression that starts with it. -/
theorem C107_symbol (s rest : Bytes) (h : IsSymbol s) (hr : rest = [] ∨ ∃ d r, rest = d :: r ∧ d ∈ operators) : Names (s ++ rest) s :=
  ⟨0, [], rest, by simp, ⟨[], rfl, by simp⟩, h, hr⟩

/-- C107: at most one symbol is named by a text. -/
theorem C107_unique (text s t : Bytes) (h1 : Names text s) (h2 : Names text t) : s = t := names_unique h1 h2

theorem nothing_eq (k : Kind) : nothing k = k.default := by cases k <;> rfl

/-- C107: if the value of `&V` is text that names no symbol (of at most 63 characters), the reference is reported (`O'` is not) and
has the default value. The text must be something other than parentheses around nothing: see `C107_witness_hollow`. -/
theorem C107_no_symbol_partial (E : Env) (k : Kind) (hk : k ∈ [Kind.L, .I, .S, .D, .O]) (name : Bytes) (v : Var)
    (hv : E.vars name = some v) (sub : List Int) (hr : Readable v sub) (text : Bytes) (ht : readVar v sub = .c text)
    (hh : ¬ Hollow text) (hn : ∀ sym, Names text sym → 63 < sym.length) :
    evalVar E k name sub = .val (nothing k) (if k = .O then [] else [.E065]) := by
  rw [nothing_eq]
  unfold evalVar
  simp only [hv]
  rw [if_pos (by simp at hk; rcases hk with h | h | h | h | h <;> subst h <;> rfl), (evalSubst_text E k v sub hr text ht).2.1 hh hn]
  simp at hk; rcases hk with h | h | h | h | h <;> subst h <;> rfl

/-- C107: a number or truth value names no symbol: the reference is reported (`O'` is not) and has the default value. -/
theorem C107_not_text (E : Env) (k : Kind) (hk : k ∈ [Kind.L, .I, .S, .D, .O]) (name : Bytes) (v : Var) (hv : E.vars name = some v)
    (sub : List Int) (hr : Readable v sub) (ht : ∀ text, readVar v sub ≠ .c text) :
    evalVar E k name sub = .val (nothing k) (if k = .O then [] else [.E066]) := by
  rw [nothing_eq]
  unfold evalVar evalSubst
  simp only [hv, (testRead_none v sub).mpr hr]
  rw [if_pos (by simp at hk; rcases hk with h | h | h | h | h <;> subst h <;> rfl)]
  cases hx : readVar v sub with
  | c t => exact absurd hx (ht t)
  | a n => simp at hk; rcases hk with h | h | h | h | h <;> subst h <;> rfl
  | b n => simp at hk; rcases hk with h | h | h | h | h <;> subst h <;> rfl

/-- C107: a variable that does not exist, or is read with subscripts it does not have, is reported once as such, and the reference has
its default value. (`N'` does not look at the subscripts.) -/
theorem C107_unreadable (E : Env) (k : Kind) (name : Bytes) (sub : List Int) :
    (E.vars name = none → evalVar E k name sub = .val (nothing k) [.E010]) ∧
    (∀ v, E.vars name = some v → ¬ Readable v sub → k ≠ .N → ∃ d ∈ [Diag.E020, .E013, .E012],
      evalVar E k name sub = .val (nothing k) (d :: if k ∈ [Kind.L, .I, .S, .D] then [.E066] else [])) := by
  rw [nothing_eq]
  constructor
  · intro h; unfold evalVar; simp only [h]
  · intro v hv hr hk
    obtain ⟨d, hd, hm⟩ := testRead_some v sub hr
    refine ⟨d, hm, ?_⟩
    unfold evalVar evalSubst
    simp only [hv, hd]
    cases k <;> first | exact absurd rfl hk | rfl

/-- C107: the outcome is undefined only if the value of the variable (of its first component, for the type) is nothing but
parentheses around nothing. -/
theorem C107_ub_partial (E : Env) (k : Kind) (name : Bytes) (v : Var) (hv : E.vars name = some v) (sub : List Int)
    (h1 : ∀ text, readVar v sub = .c text → ¬ Hollow text) (h2 : ∀ text, typeText v sub = some text → ¬ Hollow text ∨ text = []) :
    evalVar E k name sub ≠ .ub := by
  have hord : ∀ n, evalOrd E k n ≠ .ub := by
    intro n h
    unfold evalOrd at h
    split at h
    · unfold ordAttr at h
      simp only at h
      repeat' split at h
      all_goals cases h
    · split at h <;> cases h
  have hsub : evalSubst E k v sub ≠ .ub := by
    unfold evalSubst
    cases hd : testRead v sub with
    | some d => simp
    | none =>
      simp only
      cases hx : readVar v sub with
      | a n => simp
      | b n => simp
      | c text =>
        simp only
        cases he : extract text with
        | none => exact absurd ((extract_none text).mp he) (h1 text hx)
        | some s =>
          simp only
          cases hs : symbolName s with
          | none => simp
          | some n => exact hord n
  unfold evalVar
  simp only [hv]
  by_cases hk : k.requiresOrdinary = true
  · rw [if_pos hk]; exact hsub
  · rw [if_neg hk]
    by_cases hT : k = .T
    · rw [if_pos hT]
      subst hT
      cases hd : testRead v sub with
      | some d => simp
      | none =>
        simp only
        have : typeAttr E v sub ≠ none := by
          unfold typeAttr
          cases hx : typeText v sub with
          | none => simp
          | some value =>
            cases value with
            | nil => simp
            | cons c t =>
              cases he : extract (c :: t) with
              | none =>
                rcases h2 _ hx with h | h
                · exact absurd ((extract_none _).mp he) h
                · cases h
              | some s => simp [he]
        cases hy : typeAttr E v sub with
        | none => exact absurd hy this
        | some t =>
          simp only
          split
          · simp
          · exact hsub
    · rw [if_neg hT]
      by_cases hK : k = .K
      · rw [if_pos hK]
        cases hd : testRead v sub <;> simp
      · rw [if_neg hK]; simp

/-! The count and number attributes. -/

/-- The values a SET symbol holds are of its type. -/
def Typed (s : SetSym) : Prop := ∀ p ∈ s.data, p.2.ty = s.ty

theorem dataFind_typed {s : SetSym} (h : Typed s) {i : Nat} {x : Val} (hx : Context.dataFind s.data i = some x) : x.ty = s.ty := by
  unfold Context.dataFind at hx
  cases hf : s.data.find? (·.1 = i) with
  | none => rw [hf] at hx; cases hx
  | some p =>
    rw [hf] at hx
    simp at hx
    subst hx
    exact h p (List.mem_of_find?_eq_some hf)

theorem toA_small (n : Nat) (h : n < 2147483648) : Context.toA n = n := by
  unfold Context.toA
  rw [BitVec.toInt_eq_toNat_cond]
  simp only [BitVec.toNat_ofNat]
  rw [Nat.mod_eq_of_lt (by omega)]
  rw [if_pos (by omega)]

theorem readVar_set (s : SetSym) (sub : List Int) (hr : Readable (.set s) sub) :
    readVar (.set s) sub = (setData s sub).getD s.ty.default := by
  unfold readVar setData
  rcases hr with ⟨hs, h⟩ | ⟨hs, i, h, hi⟩
  · subst h; simp [hs, SetSym.get]
  · subst h; simp [hs, SetSym.getAt]

/-- C107 (partial: not for a system variable without subscripts, see `C107_witness_syslist`): `K'&V` is the number of characters of the
value of `&V`. -/
theorem C107_count_partial (E : Env) (name : Bytes) (v : Var) (hv : E.vars name = some v) (sub : List Int) (hr : Readable v sub)
    (ht : ∀ s, v = .set s → Typed s) (hs : ∀ d, v = .param (.sys d) → sub ≠ [])
    (hl : (chars (readVar v sub)).length < 2147483648) :
    evalVar E .K name sub = .val (.a (chars (readVar v sub)).length) [] := by
  unfold evalVar
  simp only [hv, (testRead_none v sub).mpr hr, Kind.requiresOrdinary]
  suffices h : v.count sub = (chars (readVar v sub)).length by
    rw [h]; rfl
  cases v with
  | set s =>
    have h1 := readVar_set s sub hr
    have h3 : ∀ x, setData s sub = some x → x.ty = s.ty := by
      intro x hx
      unfold setData at hx
      split at hx
      · cases hx
      · exact dataFind_typed (ht s rfl) hx
    rw [h1] at hl ⊢
    simp only [Var.count]
    generalize setData s sub = D at *
    generalize s.ty = T at *
    cases D with
    | none => cases T <;> first | rfl | (simp [Context.Ty.default, chars, Ca.intToString, Ca.decDigits])
    | some x =>
      have hx := h3 x rfl
      subst hx
      cases x with
      | a n => rfl
      | b n => cases n <;> rfl
      | c t => exact toA_small _ hl
  | param p =>
    cases p with
    | param d => exact toA_small _ hl
    | sys d =>
      have := hs d rfl
      cases sub with
      | nil => exact absurd rfl this
      | cons i r => exact toA_small _ hl

/-- C107: `N'&V` of a SET symbol: 0 if it is no array or none of its elements has a value, otherwise the greatest subscript of an
element with a value. -/
theorem C107_number_set (E : Env) (name : Bytes) (s : SetSym) (hv : E.vars name = some (.set s)) (sub : List Int)
    (hb : ∀ p ∈ s.data, p.1 + 1 < 2147483648) :
    ∃ n : Nat, evalVar E .N name sub = .val (.a n) [] ∧
      (if s.scalar = true ∨ s.data = [] then n = 0
       else (∃ p ∈ s.data, p.1 + 1 = n) ∧ ∀ p ∈ s.data, p.1 + 1 ≤ n) := by
  have he : evalVar E .N name sub = .val (.a s.number) [] := by
    unfold evalVar; simp only [hv]; rfl
  rw [he]
  unfold SetSym.number
  by_cases hc : s.scalar = true ∨ s.data = []
  · refine ⟨0, ?_, ?_⟩
    · rw [if_pos (by simpa using hc)]; rfl
    · rw [if_pos hc]
  · rw [if_neg (by simpa using hc)]
    have hne : s.data ≠ [] := fun h => hc (Or.inr h)
    have hmax : ∀ (l : List Nat) (a : Nat), (l.foldl max a = a ∨ l.foldl max a ∈ l) ∧ a ≤ l.foldl max a ∧ ∀ x ∈ l, x ≤ l.foldl max a := by
      intro l
      induction l with
      | nil => intro a; simp
      | cons x l ih =>
        intro a
        obtain ⟨h1, h2, h3⟩ := ih (max a x)
        simp only [List.foldl_cons]
        refine ⟨?_, by omega, ?_⟩
        · rcases h1 with h | h
          · rcases Nat.le_total a x with hx | hx
            · right; rw [h, Nat.max_eq_right hx]; simp
            · left; rw [h, Nat.max_eq_left hx]
          · right; simp [h]
        · intro y hy
          rcases List.mem_cons.mp hy with h | h
          · subst h; omega
          · exact h3 y h
    obtain ⟨h1, -, h3⟩ := hmax (s.data.map (·.1)) 0
    generalize hM : (s.data.map (·.1)).foldl max 0 = M at *
    have hmem : ∃ p ∈ s.data, p.1 = M := by
      rcases h1 with h | h
      · cases hd : s.data with
        | nil => exact absurd hd hne
        | cons p l =>
          refine ⟨p, by simp, ?_⟩
          have := h3 p.1 (by simp [hd])
          omega
      · simpa using h
    obtain ⟨p, hp, hpM⟩ := hmem
    refine ⟨M + 1, ?_, ?_⟩
    · rw [toA_small _ (by have := hb p hp; omega)]
    · rw [if_neg hc]
      refine ⟨⟨p, hp, by omega⟩, fun q hq => ?_⟩
      have := h3 q.1 (by simp; exact ⟨_, hq⟩)
      omega

/-- C107: `N'&P` of a parameter, or of a component of it: the number of values of a list, 1 for a value and 0 for nothing;
`N'&SYSLIST` is the number of operands without the name field. -/
theorem C107_number_param (E : Env) (name : Bytes) (p : Inst) (hv : E.vars name = some (.param p)) (sub : List Int)
    (hs : ∀ i ∈ sub, 0 ≤ i ∧ i < 2147483648) (l : List Data) (hl : l.length + 1 < 2147483648) :
    (sub ≠ [] ∨ (∃ d, p = .param d) → p.data (sub.map Int.toNat) = .comp l → evalVar E .N name sub = .val (.a l.length) []) ∧
    (sub ≠ [] ∨ (∃ d, p = .param d) → ∀ t, p.data (sub.map Int.toNat) = .single t →
      evalVar E .N name sub = .val (.a (if t = [] then 0 else 1)) []) ∧
    (sub ≠ [] ∨ (∃ d, p = .param d) → p.data (sub.map Int.toNat) = .dummy → evalVar E .N name sub = .val (.a 0) []) ∧
    (∀ x, p = .sys (.comp (x :: l)) → sub = [] → evalVar E .N name sub = .val (.a l.length) []) := by
  have hsub : sub.map toSize = sub.map Int.toNat := by
    apply List.map_congr_left
    intro i hi
    unfold toSize
    rw [Int.emod_eq_of_lt (hs i hi).1 (by have := (hs i hi).2; omega)]
  have he : evalVar E .N name sub = .val (.a (Var.number (.param p) sub)) [] := by
    unfold evalVar; simp only [hv]; rfl
  have hnum : sub ≠ [] ∨ (∃ d, p = .param d) → Var.number (.param p) sub = Context.toA (p.data (sub.map Int.toNat)).number := by
    intro h
    rw [← hsub]
    cases p with
    | param d => rfl
    | sys d =>
      cases sub with
      | nil => simp at h
      | cons i r => rfl
  refine ⟨fun h hd => ?_, fun h t hd => ?_, fun h hd => ?_, fun x hp h => ?_⟩
  · rw [he, hnum h, hd]
    show Out.val (Val.a (Context.toA l.length)) [] = _
    rw [toA_small _ (by omega)]
  · rw [he, hnum h, hd]
    cases t <;> rfl
  · rw [he, hnum h, hd]; rfl
  · rw [he]; subst hp; subst h
    show Out.val (Val.a (Context.toA (x :: l).length - 1)) [] = _
    rw [toA_small _ (by simpa using hl)]
    simp

end Verif.Attr
