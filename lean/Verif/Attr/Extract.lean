import Verif.Attr.Spec
import Mathlib.Tactic.Set
import Mathlib.Tactic.Conv
import Mathlib.Tactic.ByContra
/-! The symbol that `try_extract_leading_symbol` finds. -/
namespace Verif.Attr

open Spec

theorem forall_u8 {p : UInt8 → Prop} [DecidablePred p] (h : ∀ n : Fin 256, p (UInt8.ofNat n.1)) (c : UInt8) : p c := by
  have := h ⟨c.toNat, c.toNat_lt⟩
  simpa using this

theorem ordChar_iff (c : UInt8) : ordChar c = true ↔ c ∈ symChars := by
  revert c; apply forall_u8; decide +kernel

theorem isDigit_iff (c : UInt8) : isDigit c = true ↔ c ∈ digits := by
  revert c; apply forall_u8; decide +kernel

theorem operator_iff (c : UInt8) : delims.contains c = true ↔ c ∈ operators := by
  revert c; apply forall_u8; decide +kernel

theorem operator_facts (c : UInt8) : c ∈ operators → ordChar c = false ∧ c ≠ 46 := by
  revert c; apply forall_u8; decide +kernel

theorem ord_facts (c : UInt8) : ordChar c = true → delims.contains c = false ∧ c ≠ 46 ∧ c ≠ 40 ∧ c ≠ 41 := by
  revert c; apply forall_u8; decide +kernel

/-- The `j`-th characters from both ends are a pair of parentheses. -/
def Good (e : Bytes) (j : Nat) : Prop := e[j]? = some 40 ∧ e[e.length - 1 - j]? = some 41

theorem parens_spec (e : Bytes) (fuel start : Nat) (h : ∀ j < start, Good e j) :
    (∀ j < parens e start fuel, Good e j) ∧ (¬ Good e (parens e start fuel) ∨ parens e start fuel = start + fuel) := by
  induction fuel generalizing start with
  | zero => exact ⟨h, Or.inr rfl⟩
  | succ f ih =>
    unfold parens
    by_cases hg : e[start]? = some 40 ∧ e[e.length - 1 - start]? = some 41
    · rw [if_pos hg]
      have := ih (start + 1) (fun j hj => by
        rcases Nat.lt_succ_iff_lt_or_eq.mp hj with h1 | h1
        · exact h j h1
        · exact h1 ▸ hg)
      refine ⟨this.1, this.2.imp id fun h => by omega⟩
    · rw [if_neg hg]
      exact ⟨h, Or.inl hg⟩

theorem good_wrap (n : Nat) (b : Bytes) (j : Nat) (hj : j < n) : Good (List.replicate n 40 ++ b ++ List.replicate n 41) j := by
  unfold Good
  simp only [List.length_append, List.length_replicate]
  constructor
  · rw [List.append_assoc, List.getElem?_append_left (by simpa using hj)]
    simp [hj]
  · rw [List.getElem?_append_right (by simp; omega)]
    simp only [List.length_append, List.length_replicate, List.getElem?_replicate]
    rw [if_pos (by omega)]

theorem parens_wrap (n : Nat) (b : Bytes) (h : b.head? ≠ some 40) :
    parens (List.replicate n 40 ++ b ++ List.replicate n 41) 0 (List.replicate n 40 ++ b ++ List.replicate n 41).length = n := by
  set e := List.replicate n (40 : UInt8) ++ b ++ List.replicate n 41 with he
  have hs := parens_spec e e.length 0 (by intro j hj; omega)
  have hlen : e.length = 2 * n + b.length := by simp [he]; omega
  have hn : ¬ Good e n := by
    rintro ⟨h1, -⟩
    rw [he, List.append_assoc, List.getElem?_append_right (by simp)] at h1
    simp only [List.length_replicate, Nat.sub_self] at h1
    cases b with
    | nil =>
      simp only [List.nil_append, List.getElem?_replicate] at h1
      split at h1 <;> simp at h1
    | cons c t => simp at h1; simp [h1] at h
  rcases Nat.lt_trichotomy (parens e 0 e.length) n with h1 | h1 | h1
  · rcases hs.2 with h2 | h2
    · exact absurd (good_wrap n b _ h1) h2
    · omega
  · exact h1
  · exact absurd (hs.1 n h1) hn

/-- The text is what is left in the middle, in parentheses. -/
theorem parens_split (e : Bytes) :
    ∃ b, e = List.replicate (parens e 0 e.length) 40 ++ b ++ List.replicate (parens e 0 e.length) 41 := by
  have hs := (parens_spec e e.length 0 (by intro j hj; omega)).1
  set m := parens e 0 e.length
  have h2 : 2 * m ≤ e.length := by
    by_contra hc
    have hm : 0 < m := by omega
    have hle : m ≤ e.length := by
      by_contra hc2
      have h1 := (hs e.length (by omega)).1
      simp at h1
    have h1 := (hs (m - 1) (by omega)).1
    have h3 := (hs (e.length - m) (by omega)).2
    rw [show e.length - 1 - (e.length - m) = m - 1 by omega] at h3
    rw [h1] at h3
    simp at h3
  refine ⟨(e.drop m).take (e.length - 2 * m), ?_⟩
  apply List.ext_getElem?
  intro i
  rcases Nat.lt_or_ge i m with hi | hi
  · rw [List.append_assoc, List.getElem?_append_left (by simpa using hi)]
    rw [(hs i hi).1]; simp [hi]
  · rcases Nat.lt_or_ge i (e.length - m) with hj | hj
    · rw [List.getElem?_append_left (by simp; omega), List.getElem?_append_right (by simp; omega)]
      simp only [List.length_replicate, List.getElem?_take, List.getElem?_drop]
      rw [if_pos (by omega)]
      congr 1; omega
    · rw [List.getElem?_append_right (by simp; omega)]
      simp only [List.length_append, List.length_replicate, List.length_take, List.length_drop, List.getElem?_replicate]
      rcases Nat.lt_or_ge i e.length with hk | hk
      · rw [if_pos (by omega)]
        have := (hs (e.length - 1 - i) (by omega)).2
        rwa [show e.length - 1 - (e.length - 1 - i) = i by omega] at this
      · rw [if_neg (by omega)]
        simp [hk]

theorem prefixes_word (s i : Nat) (w r : Bytes) (hw : ∀ x ∈ w, ordChar x = true) : prefixes s i (w ++ r) = prefixes s (i + w.length) r := by
  induction w generalizing i with
  | nil => rfl
  | cons c w ih =>
    rw [List.cons_append, prefixes]
    have hc := hw c (by simp)
    rw [if_neg (by rintro ⟨h, -⟩; exact (ord_facts c hc).2.1 h), if_pos hc, ih _ (fun x hx => hw x (by simp [hx]))]
    congr 1; simp; omega

theorem prefixes_quals (qs : List Bytes) (hq : ∀ q ∈ qs, ∀ x ∈ q, ordChar x = true) (r : Bytes) (hr : r ≠ []) (i : Nat) :
    prefixes i i (qs.flatMap (· ++ [46]) ++ r)
      = prefixes (i + (qs.flatMap (· ++ [46])).length) (i + (qs.flatMap (· ++ [46])).length) r := by
  induction qs generalizing i with
  | nil => simp
  | cons q qs ih =>
    rw [List.flatMap_cons, List.append_assoc, List.append_assoc, prefixes_word _ _ _ _ (hq q (by simp)), List.cons_append,
      List.nil_append, prefixes, if_pos ⟨rfl, by simp [hr]⟩, ih (fun q' h' => hq q' (by simp [h']))]
    simp only [List.length_append, List.length_cons, List.length_nil]
    congr 1 <;> omega

theorem prefixes_split (l : Bytes) (s i : Nat) :
    ∃ p r, l = p ++ r ∧ IsQualifiers p ∧ prefixes s i l = (if p = [] then s else i + p.length) ∧ (p ≠ [] → r ≠ []) := by
  induction l generalizing s i with
  | nil => exact ⟨[], [], rfl, ⟨[], rfl, by simp⟩, by simp [prefixes], by simp⟩
  | cons c rest ih =>
    rw [prefixes]
    by_cases h1 : c = 46 ∧ rest ≠ []
    · rw [if_pos h1]
      obtain ⟨p, r, hl, ⟨qs, hp, hq⟩, he, hr⟩ := ih (i + 1) (i + 1)
      refine ⟨c :: p, r, by rw [hl]; rfl, ⟨[] :: qs, by simp [hp, h1.1], by simpa using hq⟩, ?_, fun _ => ?_⟩
      · rw [he]; simp only [reduceCtorEq, if_false, List.length_cons]
        split
        · rename_i h; simp [h]
        · omega
      · by_cases hp0 : p = []
        · rw [hp0] at hl; simp at hl; rw [← hl]; exact h1.2
        · exact hr hp0
    · rw [if_neg h1]
      by_cases h2 : ordChar c = true
      · rw [if_pos h2]
        obtain ⟨p, r, hl, ⟨qs, hp, hq⟩, he, hr⟩ := ih s (i + 1)
        by_cases hp0 : p = []
        · refine ⟨[], c :: rest, rfl, ⟨[], rfl, by simp⟩, ?_, by simp⟩
          rw [he]; simp [hp0]
        · refine ⟨c :: p, r, by rw [hl]; rfl, ?_, ?_, fun _ => hr hp0⟩
          · cases qs with
            | nil => simp at hp; exact absurd hp hp0
            | cons q qs =>
              refine ⟨(c :: q) :: qs, by simp [hp], ?_⟩
              intro q' hq' x hx
              rcases List.mem_cons.mp hq' with h | h
              · subst h
                rcases List.mem_cons.mp hx with h | h
                · exact h ▸ (ordChar_iff c).mp h2
                · exact hq q (by simp) x h
              · exact hq q' (by simp [h]) x hx
          · rw [he]; simp [hp0]; omega
      · rw [if_neg h2]
        exact ⟨[], c :: rest, rfl, ⟨[], rfl, by simp⟩, by simp, by simp⟩

theorem cutSymbol_word (w rest : Bytes) (hw : ∀ x ∈ w, ordChar x = true) (hr : rest = [] ∨ ∃ d r, rest = d :: r ∧ d ∈ operators) :
    cutSymbol (w ++ rest) = w := by
  induction w with
  | nil =>
    rcases hr with h | ⟨d, r, h, hd⟩
    · subst h; rfl
    · subst h
      rw [List.nil_append, cutSymbol, if_pos ((operator_iff d).mpr hd)]
  | cons c w ih =>
    have hc := hw c (by simp)
    rw [List.cons_append, cutSymbol, if_neg (by rw [(ord_facts c hc).1]; simp), if_pos hc, ih (fun x hx => hw x (by simp [hx]))]

theorem cutSymbol_ord (r s : Bytes) (h : cutSymbol r = s) (hs : ∀ x ∈ s, ordChar x = true) :
    ∃ rest, r = s ++ rest ∧ (rest = [] ∨ ∃ d r, rest = d :: r ∧ d ∈ operators) := by
  induction r generalizing s with
  | nil => subst h; exact ⟨[], rfl, Or.inl rfl⟩
  | cons c t ih =>
    rw [cutSymbol] at h
    split at h
    · rename_i hd
      subst h
      exact ⟨c :: t, rfl, Or.inr ⟨c, t, rfl, (operator_iff c).mp hd⟩⟩
    · split at h
      · subst h
        obtain ⟨rest, h1, h2⟩ := ih (cutSymbol t) rfl (fun x hx => hs x (by simp [hx]))
        exact ⟨rest, by rw [List.cons_append, ← h1], h2⟩
      · rename_i hc
        subst h
        exact absurd (hs c (by simp)) hc

/-- `extract` on a text in parentheses whose prefix has been found. -/
theorem extract_eq (e : Bytes) : ∃ p r, e = List.replicate (parens e 0 e.length) 40 ++ (p ++ r) ++ List.replicate (parens e 0 e.length) 41 ∧
    IsQualifiers p ∧ (p ≠ [] → r ≠ []) ∧
    extract e = match r with
      | [] => none
      | c :: rest => some (if isDigit c then c :: rest else cutSymbol (c :: rest)) := by
  obtain ⟨b, hb⟩ := parens_split e
  set m := parens e 0 e.length with hm
  obtain ⟨p, r, hpr, hq, hpre, hne⟩ := prefixes_split b m m
  refine ⟨p, r, by rw [← hpr]; exact hb, hq, hne, ?_⟩
  have hlen : e.length - m = m + b.length := by
    have := congrArg List.length hb
    simp at this; omega
  have htake : e.take (e.length - m) = List.replicate m 40 ++ b := by
    rw [hlen]; conv_lhs => rw [hb]
    rw [List.take_append_of_le_length (by simp)]
    rw [List.take_of_length_le (by simp)]
  have hdrop : (List.replicate m (40 : UInt8) ++ b).drop m = b := by
    rw [List.drop_append_of_le_length (by simp)]; simp
  unfold extract
  simp only [← hm, htake, hdrop, hpre]
  have : (List.replicate m (40 : UInt8) ++ b).drop (if p = [] then m else m + p.length) = r := by
    split
    · rename_i h; rw [hdrop, hpr, h]; rfl
    · rw [← List.drop_drop, hdrop, hpr]; simp
  rw [this]
  cases r <;> rfl

theorem extract_names (text sym : Bytes) (h : Names text sym) : extract text = some sym := by
  obtain ⟨n, q, rest, ht, ⟨qs, hq, hqs⟩, ⟨c, t, hc, hd, hs⟩, hr⟩ := h
  have hs' : ∀ x ∈ sym, ordChar x = true := fun x hx => (ordChar_iff x).mpr (hs x hx)
  have hqs' : ∀ q ∈ qs, ∀ x ∈ q, ordChar x = true := fun q hq x hx => (ordChar_iff x).mpr (hqs q hq x hx)
  have hhead : (q ++ sym ++ rest).head? ≠ some 40 := by
    cases qs with
    | nil =>
      simp at hq; subst hq; subst hc
      simpa using (ord_facts c (hs' c (by simp))).2.2.1
    | cons w qs =>
      subst hq
      cases w with
      | nil => simp
      | cons x w => simpa using (ord_facts x (hqs' (x :: w) (by simp) x (by simp))).2.2.1
  have hm := parens_wrap n (q ++ sym ++ rest) hhead
  rw [← ht] at hm
  have hlen : text.length - n = n + (q ++ sym ++ rest).length := by
    rw [ht]; simp; omega
  have htake : text.take (text.length - n) = List.replicate n 40 ++ (q ++ sym ++ rest) := by
    rw [hlen]; conv_lhs => rw [ht]
    rw [List.take_append_of_le_length (by simp)]
    rw [List.take_of_length_le (by simp)]
  have hdrop : (List.replicate n (40 : UInt8) ++ (q ++ sym ++ rest)).drop n = q ++ sym ++ rest := by
    rw [List.drop_append_of_le_length (by simp)]; simp
  have hpre : prefixes n n (q ++ sym ++ rest) = n + q.length := by
    rw [List.append_assoc, hq, prefixes_quals qs hqs' _ (by simp [hc]), prefixes_word _ _ _ _ hs']
    rcases hr with h | ⟨d, r, h, hd⟩
    · subst h; rfl
    · subst h
      have := operator_facts d hd
      rw [prefixes, if_neg (by simp [this.2]), if_neg (by simp [this.1])]
  unfold extract
  simp only [hm, htake, hdrop, hpre]
  rw [← List.drop_drop, hdrop, List.append_assoc, List.drop_left]
  have hcut := cutSymbol_word sym rest hs' hr
  subst hc
  have hdig : isDigit c = false := by
    cases hx : isDigit c
    · rfl
    · exact absurd ((isDigit_iff c).mp hx) hd
  simp only [List.cons_append, hdig] at hcut ⊢
  simpa using hcut

theorem names_of_extract (text sym : Bytes) (h : extract text = some sym) (hs : IsSymbol sym) : Names text sym := by
  obtain ⟨p, r, ht, hq, -, he⟩ := extract_eq text
  rw [h] at he
  cases r with
  | nil => simp at he
  | cons c rest =>
    have hs' := hs
    obtain ⟨c', t, hc, hd, ha⟩ := hs'
    simp only [Option.some.injEq] at he
    split at he
    · rename_i hdig
      rw [hc] at he
      injection he with h1 h2
      exact absurd ((isDigit_iff c).mp hdig) (h1 ▸ hd)
    · obtain ⟨rest', h1, h2⟩ := cutSymbol_ord _ _ he.symm (fun x hx => (ordChar_iff x).mpr (ha x hx))
      refine ⟨parens text 0 text.length, p, rest', ?_, hq, hs, h2⟩
      rw [h1, ← List.append_assoc p] at ht
      exact ht

theorem extract_none (text : Bytes) : extract text = none ↔ Hollow text := by
  constructor
  · intro h
    obtain ⟨p, r, ht, hq, hne, he⟩ := extract_eq text
    rw [h] at he
    cases r with
    | nil =>
      have hp : p = [] := by
        by_contra hp; exact hne hp rfl
      refine ⟨parens text 0 text.length, ?_⟩
      conv_lhs => rw [ht, hp]
      simp
    | cons c rest => simp at he
  · rintro ⟨n, hn⟩
    have hm := parens_wrap n [] (by simp)
    rw [List.append_nil, ← hn] at hm
    have htake : text.take (text.length - n) = List.replicate n 40 := by
      rw [hn]; simp
    unfold extract
    simp only [hm, htake]
    simp [prefixes]

/-- The symbol a text names is unique. -/
theorem names_unique {text s t : Bytes} (h1 : Names text s) (h2 : Names text t) : s = t := by
  have := (extract_names _ _ h1).symm.trans (extract_names _ _ h2)
  simpa using this

end Verif.Attr
