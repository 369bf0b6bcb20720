import Verif.Attr.Props
/-! C107: the type attribute, looking ahead, and where attribute references fail. -/
namespace Verif.Attr

open Spec
open Context (SetSym Val Data)
open Context.Mac (Inst)
open Ord (Sym)

theorem extract_body (n : Nat) (c : UInt8) (t : Bytes) (hc : c ≠ 40) (hp : prefixes n n (c :: t) = n) :
    extract (List.replicate n 40 ++ (c :: t) ++ List.replicate n 41) = some (if isDigit c then c :: t else cutSymbol (c :: t)) := by
  have hm := parens_wrap n (c :: t) (by simpa using hc)
  set text := List.replicate n (40 : UInt8) ++ (c :: t) ++ List.replicate n 41 with ht
  have hlen : text.length - n = n + (c :: t).length := by
    rw [ht]; simp only [List.length_append, List.length_replicate]; omega
  have htake : text.take (text.length - n) = List.replicate n 40 ++ (c :: t) := by
    rw [hlen, ht]
    rw [List.take_append_of_le_length (by simp)]
    rw [List.take_of_length_le (by simp)]
  have hdrop : (List.replicate n (40 : UInt8) ++ (c :: t)).drop n = c :: t := by
    rw [List.drop_append_of_le_length (by simp)]; simp
  unfold extract
  simp only [hm, htake, hdrop, hp]

theorem prefixes_digits (s i : Nat) (t : Bytes) (h : ∀ c ∈ t, ordChar c = true) : prefixes s i t = s := by
  have := prefixes_word s i t [] h
  rw [List.append_nil] at this
  rw [this]; rfl

theorem digit_ord (c : UInt8) : c ∈ digits → ordChar c = true ∧ c ≠ 40 ∧ isDigit c = true ∧ c ≠ 43 ∧ c ≠ 45 ∧ c ≠ 39 := by
  revert c; apply forall_u8; decide +kernel

theorem digitVal_ten (c : UInt8) : c ∈ digits → Ca.digitVal 10 c = some (c.toNat - 48) := by
  revert c; apply forall_u8; decide +kernel

theorem digitVal_two (c : UInt8) : c ∈ "01".toUTF8.toList → (Ca.digitVal 2 c).isSome = true := by
  revert c; apply forall_u8; decide +kernel

theorem digitVal_sixteen (c : UInt8) : c ∈ "0123456789ABCDEFabcdef".toUTF8.toList → (Ca.digitVal 16 c).isSome = true := by
  revert c; apply forall_u8; decide +kernel

theorem digitVal_none (c : UInt8) : c ∉ digits → Ca.digitVal 10 c = none := by
  revert c; apply forall_u8; decide +kernel

theorem span_ten (t : Bytes) (h : ∀ c ∈ t, c ∈ digits) : Ca.spanDigits 10 t = (t.map fun c => c.toNat - 48, []) := by
  induction t with
  | nil => rfl
  | cons c t ih =>
    rw [Ca.spanDigits, digitVal_ten c (h c (by simp)), ih (fun x hx => h x (by simp [hx]))]
    rfl

theorem decimal_eq (t : Bytes) : Ca.digitsVal 10 (t.map fun c => c.toNat - 48) = decimal t := by
  unfold Ca.digitsVal decimal
  rw [List.foldl_map]

theorem D2A_decimal (t : Bytes) (h0 : t ≠ []) (hd : ∀ c ∈ t, c ∈ digits) (hl : t.length ≤ 10) (hv : decimal t ≤ 2147483647) :
    (Ca.D2A t).isSome = true := by
  cases t with
  | nil => exact absurd rfl h0
  | cons c t =>
    have hc := digit_ord c (hd c (by simp))
    unfold Ca.D2A
    rw [if_neg h0, if_neg (by omega), if_neg (by simp [hc.2.2.2]), if_neg (by simpa using hc.2.2.2.1)]
    have hI : Ca.fromCharsI 10 (c :: t) = (Ca.fromCharsU 10 2147483647 (c :: t)).map fun n => (n : Int) := by
      unfold Ca.fromCharsI
      split
      · rename_i t' he
        simp only [List.cons.injEq] at he
        exact absurd he.1 hc.2.2.2.2.1
      · rfl
    rw [hI, Option.isSome_map, Option.isSome_map]
    unfold Ca.fromCharsU
    rw [span_ten _ hd]
    simp only
    rw [if_neg (by rw [decimal_eq]; simp only [List.map_cons, reduceCtorEq, false_or]; omega)]
    rfl

theorem selfDefining_quoted (c : UInt8) (t : Bytes) : selfDefining (c :: 39 :: (t ++ [39])) = typedTerm c t := by
  unfold selfDefining
  rw [if_pos ⟨by simp, rfl, by
    rw [← List.cons_append, ← List.cons_append, List.getLast?_append]; rfl⟩]
  simp

theorem typedTerm_term (t : Bytes) (h : Term t) : (selfDefining t).isSome = true := by
  cases h with
  | dec _ h0 hd hl hv =>
    unfold selfDefining
    rw [if_neg]
    · unfold typedTerm
      rw [if_neg h0, if_neg (by decide), if_neg (by decide), if_pos (by decide)]
      exact D2A_decimal t h0 hd hl hv
    · rintro ⟨-, h1, -⟩
      have := hd 39 (List.mem_of_getElem? h1)
      exact absurd this (by decide +kernel)
  | hex c t hc h0 hd hl =>
    rw [selfDefining_quoted]
    unfold typedTerm
    rw [if_neg h0, if_neg (by rcases hc with h | h <;> subst h <;> decide), if_neg (by rcases hc with h | h <;> subst h <;> decide),
      if_neg (by rcases hc with h | h <;> subst h <;> decide), if_pos hc]
    unfold Ca.X2A
    rw [if_neg h0, if_neg (by omega), Option.isSome_map]
    exact (Ca.fromCharsU_isSome (base := 16) (max := 4294967295) t (by decide) h0
      (by calc 16 ^ t.length ≤ 16 ^ 8 := Nat.pow_le_pow_right (by decide) (by omega)
               _ ≤ _ := by decide)).mpr fun x hx => digitVal_sixteen x (hd x hx)
  | bin c t hc h0 hd hl =>
    rw [selfDefining_quoted]
    unfold typedTerm
    rw [if_neg h0, if_pos hc]
    unfold Ca.B2A
    rw [if_neg h0, if_neg (by omega), Option.isSome_map]
    exact (Ca.fromCharsU_isSome (base := 2) (max := 4294967295) t (by decide) h0
      (by calc 2 ^ t.length ≤ 2 ^ 32 := Nat.pow_le_pow_right (by decide) (by omega)
               _ ≤ _ := by decide)).mpr fun x hx => digitVal_two x (hd x hx)
  | chr c t hc h0 hl =>
    rw [selfDefining_quoted]
    unfold typedTerm
    rw [if_neg h0, if_neg (by rcases hc with h | h <;> subst h <;> decide), if_pos hc]
    unfold Ca.C2A
    rw [if_neg h0, if_neg (by omega)]
    rfl

theorem quoted_letter (c : UInt8) (hc : c = 88 ∨ c = 120 ∨ c = 66 ∨ c = 98 ∨ c = 67 ∨ c = 99) (n : Nat) (t : Bytes) :
    extract (List.replicate n 40 ++ (c :: 39 :: t) ++ List.replicate n 41) = some (c :: 39 :: t) := by
  have h1 : ordChar c = true ∧ c ≠ 40 ∧ c ≠ 46 ∧ isDigit c = false ∧ delims.contains c = false := by
    rcases hc with h | h | h | h | h | h <;> subst h <;> decide
  rw [extract_body n c _ h1.2.1]
  · rw [if_neg (by rw [h1.2.2.2.1]; simp), cutSymbol, if_neg (by rw [h1.2.2.2.2]; simp), if_pos h1.1, cutSymbol,
      if_neg (by decide), if_neg (by decide)]
  · rw [prefixes, if_neg (by simp [h1.2.2.1]), if_pos h1.1, prefixes, if_neg (by simp), if_neg (by decide)]

theorem extract_term (text : Bytes) (h : IsTerm text) : ∃ t, extract text = some t ∧ (selfDefining t).isSome = true := by
  obtain ⟨n, t, ht, hterm⟩ := h
  refine ⟨t, ?_, typedTerm_term t hterm⟩
  rw [ht]
  cases hterm with
  | dec _ h0 hd hl hv =>
    cases t with
    | nil => exact absurd rfl h0
    | cons c t =>
      have hc := digit_ord c (hd c (by simp))
      rw [extract_body n c t hc.2.1 (prefixes_digits _ _ _ fun x hx => (digit_ord x (hd x hx)).1), if_pos hc.2.2.1]
  | hex c t hc h0 hd hl => exact quoted_letter c (by rcases hc with h | h <;> simp [h]) n _
  | bin c t hc h0 hd hl => exact quoted_letter c (by rcases hc with h | h <;> simp [h]) n _
  | chr c t hc h0 hl => exact quoted_letter c (by rcases hc with h | h <;> simp [h]) n _

theorem selfDefining_none (s : Bytes) (hq : ∀ c ∈ s, c ≠ 39) (h : ∀ c t, s = c :: t → c ∉ digits ∧ delims.contains c = false) :
    selfDefining s = none := by
  unfold selfDefining
  rw [if_neg (by rintro ⟨-, h1, -⟩; exact hq 39 (List.mem_of_getElem? h1) rfl)]
  unfold typedTerm
  cases s with
  | nil => rfl
  | cons c t =>
    obtain ⟨hd, hc⟩ := h c t rfl
    have h43 : c ≠ 43 := by rintro rfl; exact absurd hc (by decide)
    have h45 : c ≠ 45 := by rintro rfl; exact absurd hc (by decide)
    rw [if_neg (by simp), if_neg (by decide), if_neg (by decide), if_pos (by decide)]
    unfold Ca.D2A
    rw [if_neg (by simp)]
    split
    · rfl
    · split
      · rfl
      · rw [if_neg (by simpa using h43)]
        have hI : Ca.fromCharsI 10 (c :: t) = (Ca.fromCharsU 10 2147483647 (c :: t)).map fun n => (n : Int) := by
          unfold Ca.fromCharsI
          split
          · rename_i t' he
            simp only [List.cons.injEq] at he
            exact absurd he.1 h45
          · rfl
        rw [hI]
        unfold Ca.fromCharsU
        rw [Ca.spanDigits, digitVal_none c hd]
        rfl

theorem cutSymbol_mem (r : Bytes) : ∀ x ∈ cutSymbol r, x ∈ r := by
  induction r with
  | nil => simp [cutSymbol]
  | cons c t ih =>
    intro x hx
    rw [cutSymbol] at hx
    split at hx
    · simp at hx
    · split at hx
      · rcases List.mem_cons.mp hx with h | h
        · simp [h]
        · simp [ih x h]
      · exact hx

theorem extract_mem (text s : Bytes) (h : extract text = some s) : ∀ x ∈ s, x ∈ text := by
  obtain ⟨p, r, ht, -, -, he⟩ := extract_eq text
  rw [h] at he
  intro x hx
  have : x ∈ r := by
    cases r with
    | nil => simp at he
    | cons c rest =>
      simp only [Option.some.injEq] at he
      split at he
      · exact he ▸ hx
      · exact cutSymbol_mem _ x (he ▸ hx)
  rw [ht]; simp [this]

theorem extract_head (text s : Bytes) (h : extract text = some s) (c : UInt8) (t : Bytes) (hs : s = c :: t) :
    delims.contains c = false := by
  obtain ⟨p, r, ht, -, -, he⟩ := extract_eq text
  rw [h] at he
  cases r with
  | nil => simp at he
  | cons c' rest =>
    simp only [Option.some.injEq] at he
    split at he
    · rename_i hd
      rw [hs] at he
      injection he with h1 h2
      subst h1
      exact (ord_facts c (digit_ord c ((isDigit_iff c).mp hd)).1).1
    · rw [cutSymbol] at he
      split at he
      · rw [hs] at he; cases he
      · rename_i hd
        rw [hs] at he
        split at he <;> (injection he with h1 h2; subst h1; simpa using hd)

theorem upper_class (c : UInt8) :
    (((if 97 ≤ c && c ≤ 122 then c - 32 else c) ∈ symChars) → c ∈ symChars) ∧
    (((if 97 ≤ c && c ≤ 122 then c - 32 else c) ∉ digits) → c ∉ digits) := by
  revert c; apply forall_u8; decide +kernel

theorem isSymbol_upper (s : Bytes) (h : IsSymbol (upper s)) : IsSymbol s := by
  obtain ⟨c, t, hc, hd, hx⟩ := h
  cases s with
  | nil => cases hc
  | cons c' t' =>
    injection hc with h1 h2
    refine ⟨c', t', rfl, (upper_class c').2 (by simp only at h1; rw [h1]; exact hd), fun x hm => (upper_class x).1 (hx _ ?_)⟩
    exact List.mem_map_of_mem hm

theorem typeText_plain (v : Var) (sub : List Int) (hr : Readable v sub) (ht : ∀ s, v = .set s → Typed s) (ha : ¬ IsArray v)
    (hl : ¬ IsList v sub) (text : Bytes) (hx : readVar v sub = .c text) : typeText v sub = some text := by
  cases v with
  | set s =>
    rcases hr with ⟨hs, h⟩ | ⟨hs, -⟩
    · subst h
      have hg : s.get = .c text := hx
      have hty : s.ty = .C := by
        unfold SetSym.get at hg
        rw [if_pos hs] at hg
        cases hf : Context.dataFind s.data 0 with
        | none =>
          rw [hf] at hg
          cases hty : s.ty <;> rw [hty] at hg <;> first | rfl | cases hg
        | some x =>
          rw [hf] at hg
          have := dataFind_typed (ht s rfl) hf
          simp at hg
          rw [← this, hg]; rfl
      unfold typeText
      simp only
      rw [if_neg (by simp [hty]), hg]
      rfl
    · exact absurd hs ha
  | param p =>
    unfold typeText
    simp only
    have hv : (p.data (sub.map toSize)).value = text := by
      unfold readVar at hx; injection hx
    cases hd : p.data (sub.map toSize) with
    | dummy => rw [hd] at hv; rw [← hv]; rfl
    | single w => rw [hd] at hv; rw [← hv]; rfl
    | comp l => exact absurd ⟨l, hd⟩ hl

theorem evalVar_T (E : Env) (name : Bytes) (v : Var) (hv : E.vars name = some v) (sub : List Int) (hr : Readable v sub) (t : Bytes)
    (ht : typeAttr E v sub = some t) :
    evalVar E .T name sub = if t ≠ [85] then .val (.c t) [] else evalSubst E .T v sub := by
  unfold evalVar
  simp only [hv, (testRead_none v sub).mpr hr, ht, Kind.requiresOrdinary]
  rfl

/-- C107: the type of a SETA or SETB symbol is `N`. -/
theorem C107_type_number (E : Env) (name : Bytes) (s : SetSym) (hv : E.vars name = some (.set s)) (hs : s.ty = .A ∨ s.ty = .B)
    (sub : List Int) (hr : Readable (.set s) sub) : evalVar E .T name sub = .val (.c (ch 'N')) [] := by
  rw [evalVar_T E name _ hv sub hr [78] (by
    unfold typeAttr typeText
    simp only
    rw [if_pos (by rcases hs with h | h <;> simp [h])])]
  rfl

/-- C107 (partial: neither for elements of arrays, see `C107_witness_array`, nor for lists, see `C107_type_list`): `T'&V` is `O` if the
value of `&V` is empty, `N` if it is a self-defining term, the type of the symbol it names, and `U` if it is no such thing (stated
here for texts without digits and apostrophes). -/
theorem C107_type_partial (E : Env) (hE : ∀ n, (E.symbols n).isSome = true → IsSymbol n ∧ n.length ≤ 63) (name : Bytes) (v : Var)
    (hv : E.vars name = some v) (sub : List Int) (hr : Readable v sub) (ht : ∀ s, v = .set s → Typed s) (ha : ¬ IsArray v)
    (hl : ¬ IsList v sub) (text : Bytes) (hx : readVar v sub = .c text) :
    (text = [] → evalVar E .T name sub = .val (.c (ch 'O')) []) ∧
    (IsTerm text → evalVar E .T name sub = .val (.c (ch 'N')) []) ∧
    (∀ sym, Names text sym → sym.length ≤ 63 → evalVar E .T name sub = evalOrd E .T (upper sym)) ∧
    (text ≠ [] → ¬ Hollow text → (∀ sym, Names text sym → 63 < sym.length) → (∀ c ∈ text, c ∉ digits ∧ c ≠ 39) →
      evalVar E .T name sub = .val (.c (ch 'U')) []) := by
  have htt := typeText_plain v sub hr ht ha hl text hx
  have hext : ∀ s, text ≠ [] → extract text = some s → typeAttr E v sub = some (if (selfDefining s).isSome then [78]
      else match E.symbols (upper s) with
        | some y => typeChar y
        | none => [85]) := by
    intro s hne he
    unfold typeAttr
    rw [htt]
    cases text with
    | nil => exact absurd rfl hne
    | cons c t =>
      simp only [he]
      rfl
  refine ⟨fun h => ?_, fun h => ?_, fun sym hn hlen => ?_, fun hne hh hn hd => ?_⟩
  · rw [evalVar_T E name v hv sub hr [79] (by unfold typeAttr; rw [htt, h])]
    rfl
  · obtain ⟨s, he, hs⟩ := extract_term text h
    have hne : text ≠ [] := by
      rintro rfl
      have := (extract_none []).mpr ⟨0, rfl⟩
      rw [this] at he; cases he
    rw [evalVar_T E name v hv sub hr [78] (by rw [hext s hne he, if_pos hs])]
    rfl
  · have he := extract_names text sym hn
    have hsym : IsSymbol sym := by obtain ⟨n, q, rest, h⟩ := hn; exact h.2.2.1
    have hne : text ≠ [] := by
      rintro rfl
      have := (extract_none []).mpr ⟨0, rfl⟩
      rw [this] at he; cases he
    have hsd : selfDefining sym = none := by
      obtain ⟨c, t, hc, hdig, hall⟩ := hsym
      apply selfDefining_none
      · intro x hx h39
        subst h39
        exact absurd (hall 39 hx) (by decide +kernel)
      · intro c' t' hc'
        rw [hc] at hc'
        injection hc' with h1 h2
        subst h1
        exact ⟨hdig, (ord_facts c ((ordChar_iff c).mpr (hall c (by simp [hc])))).1⟩
    have h1 := hext sym hne he
    rw [if_neg (by simp [hsd])] at h1
    rw [evalVar_T E name v hv sub hr _ h1]
    have hsub := (evalSubst_text E .T v sub hr text hx).1 sym hn hlen
    rw [hsub]
    cases hy : E.symbols (upper sym) with
    | none => rfl
    | some y =>
      simp only
      split
      · rw [(C107_known E (upper sym) y (Or.inl hy)).2.1]; rfl
      · rfl
  · cases he : extract text with
    | none => exact absurd ((extract_none text).mp he) hh
    | some s =>
      have hsd : selfDefining s = none := by
        apply selfDefining_none
        · intro c hc; exact (hd c (extract_mem text s he c hc)).2
        · intro c t hs
          exact ⟨(hd c (extract_mem text s he c (by simp [hs]))).1, extract_head text s he c t hs⟩
      have hy : E.symbols (upper s) = none := by
        cases hy : E.symbols (upper s) with
        | none => rfl
        | some y =>
          obtain ⟨h1, h2⟩ := hE (upper s) (by simp [hy])
          have := hn s (names_of_extract text s he (isSymbol_upper s h1))
          unfold upper at h2
          rw [List.length_map] at h2
          omega
      rw [evalVar_T E name v hv sub hr [85] (by rw [hext s hne he, if_neg (by simp [hsd]), hy])]
      rw [if_neg (by simp)]
      exact (evalSubst_text E .T v sub hr text hx).2.1 hh hn

theorem firstOf_first {d x : Data} (h : First d x) : firstOf d = x := by
  induction h with
  | here d h => cases d with
    | comp l => exact absurd rfl (h l)
    | _ => rfl
  | inside d x rest h ih => rw [firstOf, ih]

/-- C107: `T'&P` of a list of values is the type of a symbol defined so far that its first value names (the first value of that, if
it is a list in turn). -/
theorem C107_type_list (E : Env) (name : Bytes) (p : Inst) (hv : E.vars name = some (.param p)) (sub : List Int)
    (hr : Readable (.param p) sub) (x : Data) (hf : First (p.data (sub.map toSize)) x) (sym : Bytes) (y : Sym) (hn : Names x.value sym)
    (hy : E.symbols (upper sym) = some y) (hu : Ca.e2a (UInt8.ofNat y.type.toNat) ≠ 85) :
    evalVar E .T name sub = .val (.c [Ca.e2a (UInt8.ofNat y.type.toNat)]) [] := by
  have hn : Names (firstOf (p.data (sub.map toSize))).value sym := by rw [firstOf_first hf]; exact hn
  have he := extract_names _ sym hn
  have hsym : IsSymbol sym := by obtain ⟨n, q, rest, h⟩ := hn; exact h.2.2.1
  have hsd : selfDefining sym = none := by
    obtain ⟨c, t, hc, hdig, hall⟩ := hsym
    apply selfDefining_none
    · intro x hx h39
      subst h39
      exact absurd (hall 39 hx) (by decide +kernel)
    · intro c' t' hc'
      rw [hc] at hc'
      injection hc' with h1 h2
      subst h1
      exact ⟨hdig, (ord_facts c ((ordChar_iff c).mpr (hall c (by simp [hc])))).1⟩
  rw [evalVar_T E name _ hv sub hr (typeChar y) (by
    unfold typeAttr typeText
    simp only
    cases hx : (firstOf (p.data (sub.map toSize))).value with
    | nil =>
      rw [hx, (extract_none []).mpr ⟨0, rfl⟩] at he
      cases he
    | cons c t =>
      rw [hx] at he
      simp only [he, Option.map_some, hsd, hy]
      rfl)]
  rw [if_pos (by simpa [typeChar] using hu)]
  rfl

/-- C107: looking ahead is asked for exactly the symbols nothing is known of, and only for the attributes L, I, S and T; without it such
a reference does not meet an unknown symbol. -/
theorem C107_lookahead (E : Env) (k : Kind) (n : Bytes) :
    (lookOrd E k n = [n] ↔ k ∈ [Kind.L, .I, .S, .T] ∧ E.symbols n = none ∧ E.refs n = none) ∧
    (lookOrd E k n = [] ↔ ¬ (k ∈ [Kind.L, .I, .S, .T] ∧ E.symbols n = none ∧ E.refs n = none)) := by
  unfold lookOrd
  have hk : k.isOrdinary = true ↔ k ∈ [Kind.L, .I, .S, .T] := by cases k <;> decide
  simp only [Option.isNone_iff_eq_none, hk]
  constructor <;> split <;> simp_all

/-- C107 (partial: only for values that are the name of a symbol and nothing else, see `C107_witness_lookahead`): a reference through a
variable asks for looking ahead if and only if the reference to the symbol it names does. -/
theorem C107_lookahead_variable_partial (E : Env) (k : Kind) (name : Bytes) (v : Var) (hv : E.vars name = some v) (sub : List Int)
    (hr : Readable v sub) (text : Bytes) (ht : readVar v sub = .c text) (hs : IsSymbol text) (hl : text.length ≤ 63) :
    lookVar E k name sub = lookOrd E k (upper text) := by
  unfold lookVar
  by_cases hk : k.isOrdinary = false
  · rw [if_pos hk]
    unfold lookOrd
    rw [if_neg (by simp [hk])]
  · rw [if_neg hk]
    simp only [hv, (testRead_none v sub).mpr hr, ht]
    rcases symbolName_eq text with ⟨h1, -⟩ | ⟨-, h2⟩
    · simp [h1]
    · exact absurd ⟨hs, hl⟩ h2

/-- C107: no symbol is looked ahead for because of a variable that does not exist, cannot be read with these subscripts, or is no text. -/
theorem C107_lookahead_unreadable (E : Env) (k : Kind) (name : Bytes) (sub : List Int)
    (h : ∀ v, E.vars name = some v → Readable v sub → ∀ text, readVar v sub ≠ .c text) : lookVar E k name sub = [] := by
  unfold lookVar
  split
  · rfl
  · split
    · rfl
    · rename_i v hv
      split
      · rfl
      · rename_i hr
        have hr : Readable v sub := (testRead_none v sub).mp (by simpa using hr)
        cases hx : readVar v sub with
        | c t => exact absurd hx (h v hv hr t)
        | a n => rfl
        | b n => rfl

/-! ### Cases and failures -/

/-- A word of four bytes, type F. -/
def symF : Sym := { val := .abs 0, type := 0xC6, len := some 4, scale := some 0, integer := 31, si := true }
/-- A field of eight characters, type C. -/
def symC : Sym := { val := .abs 0, type := 0xC3, len := some 8, scale := none, integer := 0, si := false }

/-- `A` and `B` are defined, `LATER` has been found by looking ahead, `LR` is a machine instruction, `MAC` a macro; `&S` is `(Q.A+1)`, `&E`
is empty, `&C` an array with the elements `A` and `B`, `&N` is -25, `&P` is the parameter `(LATER,B)`. -/
def env : Env where
  symbols n := if n = [65] then some symF else if n = [66] then some symC else none
  refs n := if n = "LATER".toUTF8.toList then some symF else none
  macros n := n = "MAC".toUTF8.toList
  instrs n := if n = "LR".toUTF8.toList then some .machine else none
  library n := n = "MEMBER".toUTF8.toList
  vars n :=
    if n = [83] then some (.set { ty := .C, scalar := true, owner := none, data := [(0, .c "(Q.A+1)".toUTF8.toList)] })
    else if n = [69] then some (.set { ty := .C, scalar := true, owner := none, data := [(0, .c [])] })
    else if n = [67] then some (.set { ty := .C, scalar := false, owner := none, data := [(0, .c [65]), (1, .c [66])] })
    else if n = [78] then some (.set { ty := .A, scalar := true, owner := none, data := [(0, .a (-25))] })
    else if n = [80] then some (.param (.param (.comp [.single "LATER".toUTF8.toList, .single [66]])))
    else if n = [76] then some (.param (.sys (.comp [.single [65], .single "X".toUTF8.toList, .single "YZ".toUTF8.toList])))
    else none
  mnemo n := if n = "LR".toUTF8.toList then some (some .macro) else none

example : Names "(Q.A+1)".toUTF8.toList [65] :=
  ⟨1, "Q.".toUTF8.toList, "+1".toUTF8.toList, by decide +kernel, ⟨[[81]], by decide +kernel, by decide +kernel⟩,
    ⟨65, [], rfl, by decide +kernel, by decide +kernel⟩, Or.inr ⟨43, [49], by decide +kernel, by decide +kernel⟩⟩
example : evalVar env .L [83] [] = .val (.a 4) [] := by decide +kernel
example : evalVar env .T [83] [] = .val (.c [70]) [] := by decide +kernel
example : evalVar env .K [78] [] = .val (.a 3) [] := by decide +kernel
example : evalVar env .N [67] [] = .val (.a 2) [] := by decide +kernel
example : evalVar env .N [76] [] = .val (.a 2) [] := by decide +kernel
example : evalVar env .T [69] [] = .val (.c [79]) [] := by decide +kernel
example : evalVar env .S [67] [2] = .val (.a 0) [.E066] := by decide +kernel
example : First (.comp [.comp [.single [65], .single [66]], .single [67]]) (.single [65]) := .inside _ _ _ (.inside _ _ _ (.here _ (by simp)))
example : IsTerm "(X'1F')".toUTF8.toList :=
  ⟨1, "X'1F'".toUTF8.toList, by decide +kernel, by
    have := Term.hex 88 [49, 70] (Or.inl rfl) (by simp) (by decide +kernel) (by simp)
    have h : "X'1F'".toUTF8.toList = 88 :: 39 :: ([49, 70] ++ [39]) := by decide +kernel
    rw [h]; exact this⟩
example : IsTerm "15".toUTF8.toList :=
  ⟨0, "15".toUTF8.toList, by decide +kernel, Term.dec _ (by decide +kernel) (by decide +kernel) (by decide +kernel) (by decide +kernel)⟩

/-- The full claim for `T'` of elements of arrays is false: the type of `&C(1)`, which is `A`, is F, but `T'&C(1)` is the type of the
value of `&C(2)`. -/
theorem C107_witness_array :
    (∃ v, env.vars [67] = some v ∧ Readable v [1] ∧ readVar v [1] = .c [65]) ∧ evalOrd env .T [65] = .val (.c (ch 'F')) [] ∧
    evalVar env .T [67] [1] = .val (.c (ch 'C')) [] ∧ evalVar env .T [67] [1] = evalOrd env .T [66] := by
  refine ⟨⟨_, rfl, Or.inr ⟨rfl, 1, rfl, by omega⟩, ?_⟩, ?_, ?_, ?_⟩ <;> decide +kernel

/-- The full claim for values that name no symbol is false: the length attribute of an empty SETC symbol reads the first character of
an empty string. -/
theorem C107_witness_hollow : Hollow [] ∧ evalVar env .L [69] [] = .ub := ⟨⟨0, rfl⟩, by decide +kernel⟩

/-- The full claim for `T'` of lists is false: the first value of `&P` is a symbol that has been found by looking ahead, `T'&P(1)` is
its type, and `T'&P` is `U`. -/
theorem C107_witness_list :
    evalVar env .T [80] [1] = .val (.c (ch 'F')) [] ∧ evalVar env .T [80] [] = .val (.c (ch 'U')) [] ∧
    evalVar env .T [80] [2] = .val (.c (ch 'C')) [] := by decide +kernel

/-- The full claim for `O'` is false: OPSYN has made `LR` a macro, but `O'LR` still names the machine instruction. -/
theorem C107_witness_opsyn : operation env "LR".toUTF8.toList = some .macro ∧
    evalOrd env .O "LR".toUTF8.toList = .val (.c (ch 'O')) [] := by decide +kernel

/-- The full claim for `K'` is false: the value of `&SYSLIST` is `(A,X,YZ)`, `K'&SYSLIST` counts the characters of its first operand. -/
theorem C107_witness_syslist :
    (∃ v, env.vars [76] = some v ∧ chars (readVar v []) = "(A,X,YZ)".toUTF8.toList) ∧ evalVar env .K [76] [] = .val (.a 1) [] := by
  refine ⟨⟨_, rfl, ?_⟩, ?_⟩ <;> decide +kernel

/-- `A` is not known yet. -/
def envBefore : Env := { env with symbols := fun _ => none, refs := fun _ => none }

/-- The full claim for looking ahead is false: `&S` names `A`, of which nothing is known, so `L'A` looks ahead. `L'&S` does not and is
reported, although its value is the length of `A` once that is known. -/
theorem C107_witness_lookahead :
    Names "(Q.A+1)".toUTF8.toList [65] ∧ lookOrd envBefore .L [65] = [[65]] ∧ lookVar envBefore .L [83] [] = [] ∧
    evalVar envBefore .L [83] [] = .val (.a 1) [.W013] ∧ evalVar env .L [83] [] = .val (.a 4) [] := by
  refine ⟨⟨1, "Q.".toUTF8.toList, "+1".toUTF8.toList, by decide +kernel, ⟨[[81]], by decide +kernel, by decide +kernel⟩,
    ⟨65, [], rfl, by decide +kernel, by decide +kernel⟩, Or.inr ⟨43, [49], by decide +kernel, by decide +kernel⟩⟩, ?_, ?_, ?_, ?_⟩ <;>
    decide +kernel

end Verif.Attr
