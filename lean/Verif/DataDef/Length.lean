import Verif.DataDef.Spec
import Verif.DataDef.NominalProps

/-
  The loops that measure nominal values compute sums over the values; the length of an accepted operand is the one
  its values need.
-/

namespace Verif.DataDef

open Spec (values)

/-! ### sums over values -/

/-- A measure of a text that adds up over its values. -/
theorem sum_values {f : Text → Nat} {m : Text → Nat} (h1 : ∀ v, ',' ∉ v → f v = m v)
    (h2 : ∀ v t, ',' ∉ v → f (v ++ ',' :: t) = m v + f t) (s : Text) : f s = ((values s).map m).sum := by
  generalize hn : s.length = n
  induction n using Nat.strongRecOn generalizing s with
  | _ n ih =>
    obtain ⟨v, w, e, hv, hw⟩ := comma_split s
    subst e
    rcases hw with rfl | ⟨t, rfl⟩
    · rw [List.append_nil, values_noComma _ hv, h1 v hv]
      simp
    · rw [values_append _ _ hv, h2 v t hv, ih t.length (by simp at hn; omega) t rfl]
      simp

theorem xbLoop_value (frac : Nat) : ∀ (v : Text) (len one : Nat), ',' ∉ v →
    xbLoop frac v len one = len + (one + Spec.nonBlanks v + frac - 1) / frac
    ∧ ∀ t, xbLoop frac (v ++ ',' :: t) len one = xbLoop frac t (len + (one + Spec.nonBlanks v + frac - 1) / frac) 0
  | [], len, one, _ => by simp [xbLoop, Spec.nonBlanks]
  | c :: v, len, one, h => by
    have hc : c ≠ ',' := fun e => h (by simp [e])
    have hr : ',' ∉ v := fun e => h (by simp [e])
    by_cases hb : c = ' '
    · subst hb
      obtain ⟨i1, i2⟩ := xbLoop_value frac v len one hr
      have hn : Spec.nonBlanks (' ' :: v) = Spec.nonBlanks v := by simp [Spec.nonBlanks]
      rw [hn]
      constructor
      · rw [xbLoop, if_neg (by decide), if_neg (by decide), i1]
      · intro t
        rw [List.cons_append, xbLoop, if_neg (by decide), if_neg (by decide), i2]
    · obtain ⟨i1, i2⟩ := xbLoop_value frac v len (one + 1) hr
      have hn : Spec.nonBlanks (c :: v) = Spec.nonBlanks v + 1 := by simp [Spec.nonBlanks, hb]
      have he : one + (Spec.nonBlanks v + 1) = one + 1 + Spec.nonBlanks v := by omega
      rw [hn, he]
      constructor
      · rw [xbLoop, if_neg (by simpa using hc), if_pos (by simpa using hb), i1]
      · intro t
        rw [List.cons_append, xbLoop, if_neg (by simpa using hc), if_pos (by simpa using hb), i2]

theorem xbLoop_add (frac : Nat) : ∀ (s : Text) (len one k : Nat),
    xbLoop frac s (len + k) one = xbLoop frac s len one + k
  | [], len, one, k => by simp [xbLoop]; omega
  | c :: s, len, one, k => by
    rw [xbLoop, xbLoop]
    split
    · rw [show len + k + (one + frac - 1) / frac = len + (one + frac - 1) / frac + k by omega]
      exact xbLoop_add frac s _ _ k
    · split
      · exact xbLoop_add frac s _ _ k
      · exact xbLoop_add frac s _ _ k

theorem xbLength_eq (s : Text) (frac : Nat) :
    xbLength s frac = ((values s).map fun v => (Spec.nonBlanks v + frac - 1) / frac).sum := by
  refine sum_values (f := fun s => xbLength s frac) ?_ ?_ s
  · intro v hv
    have := (xbLoop_value frac v 0 0 hv).1
    simpa [xbLength] using this
  · intro v t hv
    have := (xbLoop_value frac v 0 0 hv).2 t
    dsimp only [xbLength]
    rw [this, xbLoop_add, Nat.zero_add, Nat.add_comm]

theorem digits_cons (c : Char) (v : Text) :
    Spec.digits (c :: v) = Spec.digits v + if isDigit c then 1 else 0 := by
  by_cases h : isDigit c = true
  · rw [if_pos h, Spec.digits, List.filter_cons_of_pos (by simpa [isDigit] using h)]; rfl
  · rw [if_neg h, Spec.digits, List.filter_cons_of_neg (by simpa [isDigit] using h)]; rfl

theorem pLoop_value : ∀ (v : Text) (bytes half : Nat), ',' ∉ v →
    pLoop v bytes half = bytes + (half + Spec.digits v + 1) / 2
    ∧ ∀ t, pLoop (v ++ ',' :: t) bytes half = pLoop t (bytes + (half + Spec.digits v + 1) / 2) 1
  | [], bytes, half, _ => by simp [pLoop, Spec.digits]
  | c :: v, bytes, half, h => by
    have hc : c ≠ ',' := fun e => h (by simp [e])
    have hr : ',' ∉ v := fun e => h (by simp [e])
    rw [digits_cons]
    by_cases hb : isDigit c = true
    · obtain ⟨i1, i2⟩ := pLoop_value v bytes (half + 1) hr
      have he : half + (Spec.digits v + if isDigit c = true then 1 else 0) = half + 1 + Spec.digits v := by
        rw [if_pos hb]; omega
      rw [he]
      constructor
      · rw [pLoop, if_neg (by simpa using hc), if_pos hb, i1]
      · intro t
        rw [List.cons_append, pLoop, if_neg (by simpa using hc), if_pos hb, i2]
    · obtain ⟨i1, i2⟩ := pLoop_value v bytes half hr
      rw [if_neg hb]
      constructor
      · rw [pLoop, if_neg (by simpa using hc), if_neg hb, i1]; rfl
      · intro t
        rw [List.cons_append, pLoop, if_neg (by simpa using hc), if_neg hb, i2]; rfl

theorem pLoop_add : ∀ (s : Text) (bytes half k : Nat), pLoop s (bytes + k) half = pLoop s bytes half + k
  | [], bytes, half, k => by simp [pLoop]; omega
  | c :: s, bytes, half, k => by
    rw [pLoop, pLoop]
    split
    · rw [show bytes + k + (half + 1) / 2 = bytes + (half + 1) / 2 + k by omega]
      exact pLoop_add s _ _ k
    · split
      · exact pLoop_add s _ _ k
      · exact pLoop_add s _ _ k

theorem pLength_eq (s : Text) : pLength s = ((values s).map fun v => Spec.digits v / 2 + 1).sum := by
  refine sum_values (f := pLength) ?_ ?_ s
  · intro v hv
    have := (pLoop_value v 0 1 hv).1
    rw [pLength, this]
    omega
  · intro v t hv
    have := (pLoop_value v 0 1 hv).2 t
    rw [pLength, pLength, this, pLoop_add]
    omega

theorem zLength_eq (s : Text) : zLength s = ((values s).map Spec.digits).sum := by
  have hcount : ∀ v : Text, zLength v = Spec.digits v := by
    intro v
    rw [zLength, Spec.digits, List.countP_eq_length_filter]
    rfl
  refine sum_values (f := zLength) (fun v _ => hcount v) ?_ s
  intro v t _
  rw [zLength, List.countP_append, List.countP_cons, if_neg (by decide)]
  rw [← hcount, zLength, zLength]
  rfl

theorem values_length (s : Text) : s.count ',' + 1 = (values s).length := by
  have : s.count ',' + 1 = ((values s).map fun _ => 1).sum := by
    refine sum_values (f := fun s => s.count ',' + 1) ?_ ?_ s
    · intro v hv
      rw [List.count_eq_zero_of_not_mem hv]
    · intro v t hv
      rw [List.count_append, List.count_eq_zero_of_not_mem hv, List.count_cons_self]
      omega
  rw [this]
  generalize values s = l
  induction l with
  | nil => rfl
  | cons v l ih => rw [List.map_cons, List.sum_cons, ih, List.length_cons]; omega

/-! ### the table -/

theorem accessType_mem {type ext : Char} {td : TypeDef} (h : accessType type ext = some td) :
    td ∈ types ∧ td.type = type ∧ td.ext = ext := by
  unfold accessType at h
  have h1 := List.mem_of_find?_eq_some h
  have h2 := List.find?_some h
  simp only [Bool.and_eq_true, beq_iff_eq] at h2
  exact ⟨h1, h2.1, h2.2⟩

theorem types_implied : ∀ td ∈ types, td.implicit = Spec.implied td.type td.ext := by decide
theorem types_boundary : ∀ td ∈ types, td.align = Spec.boundary td.type td.ext := by decide

/-- The nominal value has the shape its type expects, or is not there. -/
def Shaped (td : TypeDef) (op : Operand) : Prop :=
  op.nominal.present = true →
    ((td.nominal = .string ∧ ∃ s, op.nominal.value = .str s)
      ∨ (td.nominal ≠ .string ∧ ∃ l, op.nominal.value = .exprs l))

/-- An operand without a nominal value has the empty text in its place (`data_def_fields.h:32-36`). -/
def NominalDefault (op : Operand) : Prop := op.nominal.present = false → op.nominal.value = .str []

theorem types_cases {td : TypeDef} (h : td ∈ types) :
    (td.implicit ≠ none ∧ td.type ≠ 'C' ∧ td.type ≠ 'G') ∨
      (td.implicit = none ∧ td.nominal = .string ∧
        ((td.type = 'B' ∧ td.ext = '\x00') ∨ (td.type = 'X' ∧ td.ext = '\x00') ∨ (td.type = 'P' ∧ td.ext = '\x00')
          ∨ (td.type = 'Z' ∧ td.ext = '\x00') ∨ (td.type = 'G' ∧ td.ext = '\x00') ∨ (td.type = 'C' ∧ td.ext = 'U')
          ∨ (td.type = 'C' ∧ (td.ext = '\x00' ∨ td.ext = 'A' ∨ td.ext = 'E')))) := by
  revert td
  decide

/-- The number of values the code counts. -/
theorem numberOfValues_eq {td : TypeDef} {op : Operand} (hm : td ∈ types) (ht : td.type = op.type)
    (hs : Shaped td op) (hd : NominalDefault op) :
    numberOfValues td op.nominal = (Spec.impliedBytes op).length := by
  unfold numberOfValues Spec.impliedBytes Spec.textValues
  simp only [ht, Bool.or_eq_true, beq_iff_eq]
  by_cases hp : op.nominal.present = true
  · rw [if_pos hp]
    cases hv : op.nominal.value with
    | str s =>
      dsimp only
      split
      · simp
      · rw [values_length]; simp
    | exprs l =>
      have hne : ¬ (op.type = 'C' ∨ op.type = 'G') := by
        rcases hs hp with ⟨_, s, h⟩ | ⟨h, _⟩
        · rw [hv] at h; cases h
        · rcases types_cases hm with h' | h'
          · rw [← ht]; exact fun e => e.elim h'.2.1 h'.2.2
          · exact absurd h'.2.1 h
      dsimp only
      rw [if_neg hne]
      simp
  · rw [if_neg hp, hd (by simpa using hp)]
    dsimp only
    split <;> simp

theorem guard_g (s : Text) : gLength s = (s.filter fun c => c ≠ '<' ∧ c ≠ '>').length := by
  rw [gLength, List.countP_eq_length_filter]
  congr 1
  apply List.filter_congr
  intro c _
  simp only [bne, ne_eq, Bool.decide_and, decide_not]
  rfl

/-- The length of the nominal value of a type whose implied length depends on the value. -/
theorem nominalLength_eq {td : TypeDef} {op : Operand} (hm : td ∈ types) (ht : td.type = op.type)
    (he : td.ext = op.ext) (hs : Shaped td op) (hi : td.implicit = none) :
    nominalLength td op.nominal = .ok (Spec.impliedBytes op).sum := by
  have himp : Spec.implied op.type op.ext = none := by rw [← ht, ← he, ← types_implied td hm, hi]
  rcases types_cases hm with h | ⟨_, hstr, hcases⟩
  · exact absurd hi h.1
  · by_cases hp : op.nominal.present = true
    · obtain ⟨s, hv⟩ : ∃ s, op.nominal.value = .str s := by
        rcases hs hp with ⟨_, h⟩ | ⟨h, _⟩
        · exact h
        · exact absurd hstr h
      have hb : Spec.impliedBytes op
          = (Spec.textValues op.type s).map (Spec.valueBytes op.type op.ext) := by
        unfold Spec.impliedBytes
        rw [if_pos hp, hv]
      rw [hb]
      have hvb : ∀ v, Spec.valueBytes op.type op.ext v =
          match op.type with
          | 'B' => (Spec.nonBlanks v + 7) / 8
          | 'X' => (Spec.nonBlanks v + 1) / 2
          | 'P' => Spec.digits v / 2 + 1
          | 'Z' => Spec.digits v
          | 'C' => if op.ext = 'U' then 2 * v.length else v.length
          | 'G' => (v.filter fun c => c ≠ '<' ∧ c ≠ '>').length
          | _ => 0 := by
        intro v
        unfold Spec.valueBytes
        rw [himp]
        rfl
      simp only [List.map_congr_left fun v _ => hvb v]
      unfold nominalLength Spec.textValues
      rw [hv, hp]
      rcases hcases with ⟨h1, h2⟩ | ⟨h1, h2⟩ | ⟨h1, h2⟩ | ⟨h1, h2⟩ | ⟨h1, h2⟩ | ⟨h1, h2⟩ | ⟨h1, h2 | h2 | h2⟩ <;>
        rw [ht] at h1 <;> rw [he] at h2 <;> rw [ht, he, h1, h2]
      · show Except.ok (xbLength s 8) = _
        rw [xbLength_eq]; rfl
      · show Except.ok (xbLength s 2) = _
        rw [xbLength_eq]; rfl
      · show Except.ok (pLength s) = _
        rw [pLength_eq]; rfl
      · show Except.ok (zLength s) = _
        rw [zLength_eq]; rfl
      · show Except.ok (gLength s) = _
        rw [guard_g]; simp
      · show Except.ok (2 * s.length) = _
        simp
      · show Except.ok s.length = _
        simp
      · show Except.ok s.length = _
        simp
      · show Except.ok s.length = _
        simp
    · have hpf : op.nominal.present = false := by simpa using hp
      have hb : Spec.impliedBytes op = [Spec.absentBytes op.type op.ext] := by
        unfold Spec.impliedBytes
        rw [if_neg hp]
      rw [hb]
      unfold nominalLength Spec.absentBytes
      rw [himp, hpf]
      rcases hcases with ⟨h1, h2⟩ | ⟨h1, h2⟩ | ⟨h1, h2⟩ | ⟨h1, h2⟩ | ⟨h1, h2⟩ | ⟨h1, h2⟩ | ⟨h1, h2 | h2 | h2⟩ <;>
        rw [ht] at h1 <;> rw [he] at h2 <;> rw [ht, he, h1, h2] <;> rfl

/-- Length modifier and duplication factor are not negative, and 64 bits suffice. -/
structure Small (op : Operand) : Prop where
  length : op.length.present = true → 0 ≤ op.length.value
  dupl : op.dupl.present = true → 0 ≤ op.dupl.value ∧ op.dupl.value < 2147483648
  sum : (Spec.valueBits op).sum < 2 ^ 64
  bits : Spec.bits op < 2 ^ 64

theorem toU64_eq {v : Int} (h0 : 0 ≤ v) (h1 : v < 18446744073709551616) : toU64 v = v.toNat := by
  unfold toU64 two64
  rw [Int.emod_eq_of_lt h0 (by simpa using h1)]

theorem sum_map_const (l : List Nat) (k : Nat) : (l.map fun _ => k).sum = l.length * k := by
  induction l with
  | nil => simp
  | cons x l ih => simp only [List.map_cons, List.sum_cons, List.length_cons, Nat.succ_mul, ih]; omega

theorem sum_map_mul (l : List Nat) (k : Nat) : (l.map fun n => k * n).sum = k * l.sum := by
  induction l with
  | nil => simp
  | cons x l ih => simp only [List.map_cons, List.sum_cons, ih, Nat.mul_add]

/-- The bits all values together occupy. -/
theorem valueBits_sum (op : Operand) : (Spec.valueBits op).sum =
    if op.length.present then
      (Spec.impliedBytes op).length * (if op.length.bit then op.length.value.toNat else 8 * op.length.value.toNat)
    else 8 * (Spec.impliedBytes op).sum := by
  unfold Spec.valueBits
  by_cases h : op.length.present = true
  · simp only [h, if_true]
    rw [sum_map_const]
  · simp only [h]
    rw [← sum_map_mul]
    rfl

theorem toU64_mod (v : Int) (h : 0 ≤ v) (n : Nat) : n * toU64 v % two64 = n * v.toNat % two64 := by
  have : toU64 v = v.toNat % two64 := by
    unfold toU64 two64
    omega
  rw [this, Nat.mul_mod_mod]

/-- The length the code computes is the number of bits the operand occupies. -/
theorem getLength_eq {td : TypeDef} {op : Operand} (hm : td ∈ types) (ht : td.type = op.type)
    (he : td.ext = op.ext) (hs : Shaped td op) (hd : NominalDefault op) (h : Small op) :
    getLength td op = .ok (Spec.bits op) := by
  have hsum := h.sum
  have hbits : ∀ {b}, b = (Spec.valueBits op).sum →
      (Except.ok (if op.dupl.present then b * toU64 op.dupl.value % two64 else b) : Except Crash Nat)
        = .ok (Spec.bits op) := by
    rintro b rfl
    have hb := h.bits
    unfold Spec.bits Spec.times at hb ⊢
    split
    · rename_i hp
      rw [if_pos hp] at hb
      obtain ⟨h0, h1⟩ := h.dupl hp
      rw [toU64_eq h0 (by omega), Nat.mul_comm, Nat.mod_eq_of_lt (b := two64) hb]
    · rw [Nat.one_mul]
  have hv := valueBits_sum op
  unfold getLength
  by_cases hp : op.length.present = true
  · rw [if_pos hp] at hv
    simp only [hp, if_true, bind, Except.bind]
    apply hbits
    rw [toU64_mod _ (h.length hp), numberOfValues_eq hm ht hs hd]
    generalize (Spec.impliedBytes op).length = n at hv ⊢
    generalize op.length.value.toNat = l at hv ⊢
    rw [hv] at hsum ⊢
    cases hb : op.length.bit with
    | true =>
      simp only [hb, if_true] at hsum ⊢
      rw [Nat.mod_eq_of_lt (b := two64) hsum]
    | false =>
      simp only [hb, Bool.false_eq_true, if_false] at hsum ⊢
      have e : n * (8 * l) = n * l * 8 := by rw [Nat.mul_assoc, Nat.mul_comm l 8]
      rw [e] at hsum ⊢
      rw [Nat.mod_eq_of_lt (a := n * l) (by unfold two64; omega), Nat.mod_eq_of_lt (b := two64) hsum]
  · rw [if_neg hp] at hv
    simp only [hp, bind, Except.bind]
    rw [hv] at hsum
    cases hi : td.implicit with
    | none =>
      simp only [nominalLength_eq hm ht he hs hi]
      apply hbits
      rw [hv, Nat.mod_eq_of_lt (by unfold two64; omega), Nat.mul_comm]
    | some l =>
      have himp : Spec.implied op.type op.ext = some l := by rw [← ht, ← he, ← types_implied td hm, hi]
      have hall : (Spec.impliedBytes op).sum = (Spec.impliedBytes op).length * l := by
        rw [← sum_map_const]
        congr 1
        rw [List.map_const', List.eq_replicate_iff]
        refine ⟨rfl, ?_⟩
        intro n hn
        unfold Spec.impliedBytes at hn
        split at hn
        · cases hnv : op.nominal.value with
          | str s =>
            rw [hnv] at hn
            obtain ⟨v, _, rfl⟩ := List.mem_map.mp hn
            simp [Spec.valueBytes, himp]
          | exprs e =>
            rw [hnv] at hn
            obtain ⟨v, _, rfl⟩ := List.mem_map.mp hn
            simp [Spec.valueBytes, himp]
        · rw [List.mem_singleton] at hn
          rw [hn]
          simp [Spec.absentBytes, himp]
      by_cases hpn : op.nominal.present = true
      · simp only [hpn, Bool.not_true, Bool.false_eq_true, if_false]
        apply hbits
        rw [hv, numberOfValues_eq hm ht hs hd, ← hall, Nat.mod_eq_of_lt (by unfold two64; omega), Nat.mul_comm]
      · have hlen : (Spec.impliedBytes op).length = 1 := by
          unfold Spec.impliedBytes
          rw [if_neg hpn]
          rfl
        simp only [hpn, Bool.not_false, if_true]
        apply hbits
        rw [hv, hall, hlen]
        omega

end Verif.DataDef
