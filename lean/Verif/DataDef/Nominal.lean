/-
  The scanners that decide whether the text of a nominal value is well formed, and the functions that measure it:
  `checking/checker_helper.h` and the `data_def_types_*.cpp` files of `checking/data_definition`.

  A text is a list of characters, one `Char` standing for one byte of the `std::string`.  A position `i` in the text
  is represented by the rest of the text from `i` on.  Reading `nominal[nominal.size()]`, which gives `'\0'` in C++,
  is represented by `at0`.
-/

namespace Verif.DataDef

abbrev Text := List Char

/-- `nominal[i]`: the character at the position, `'\0'` at the end of the text (`std::string::operator[]`). -/
def at0 (s : Text) : Char := s.headD '\x00'

/-- `parser_library/src/checking/checker_helper.h:140` `is_digit`. -/
def isDigit (c : Char) : Bool := decide ('0' ≤ c) && decide (c ≤ '9')

/-- `checker_helper.h:138` `is_sign`. -/
def isSign (c : Char) : Bool := c == '-' || c == '+'

/-- `checker_helper.h:142-145` `is_hexadecimal_digit`. -/
def isHex (c : Char) : Bool :=
  (decide ('0' ≤ c) && decide (c ≤ '9')) || (decide ('a' ≤ c) && decide (c ≤ 'f'))
    || (decide ('A' ≤ c) && decide (c ≤ 'F'))

/-- The template parameter `number_spec` of `check_number` (`checker_helper.h:149-152`). -/
structure NumberSpec where
  isEnd : Char → Bool
  isSignCh : Char → Bool

/-- `data_def_types_fixed_point.cpp:39-45` `H_F_FD_number_spec`. -/
def hfSpec : NumberSpec where
  isEnd c := c == ',' || c == 'E'
  isSignCh c := c == 'U' || c == '+' || c == '-'

/-- `data_def_types_fixed_point.cpp:117-123` `P_Z_number_spec`. -/
def pzSpec : NumberSpec where
  isEnd c := c == ','
  isSignCh c := c == '+' || c == '-'

/-- `data_def_types_floating_point.cpp:49-55` `E_D_L_number_spec`. -/
def edlSpec : NumberSpec where
  isEnd c := c == ',' || c == 'E' || c == 'R'
  isSignCh c := c == '+' || c == '-'

/-- The test after the loop of `check_number`, `checker_helper.h:189-195`. -/
def numberEnd (foundDigit prevDigit prevDot : Bool) (rest : Text) : Option Text :=
  if !foundDigit then none
  else if !prevDigit && !prevDot then none
  else some rest

/-- The loop of `check_number`, `checker_helper.h:161-187`. -/
def numberLoop (sp : NumberSpec) : Text → (foundDigit prevDigit foundDot prevDot : Bool) → Option Text
  | [], fd, pd, _, pt => numberEnd fd pd pt []
  | c :: r, fd, pd, ft, pt =>
    if sp.isEnd c then numberEnd fd pd pt (c :: r)
    else if c == '.' then
      if ft then none else numberLoop sp r fd false true true
    else if isDigit c then numberLoop sp r true true ft false
    else if c != ' ' then none
    else numberLoop sp r fd pd ft pt

/-- `checker_helper.h:153-196` `check_number`: `none` is `false`, `some rest` is `true` with `i` left at `rest`. -/
def checkNumber (sp : NumberSpec) (s : Text) : Option Text :=
  if at0 s == ',' then none
  else numberLoop sp (if sp.isSignCh (at0 s) then s.tail else s) false false false false

/-- The loop of `check_exponent`, `checker_helper.h:205-210`. -/
def digitsLoop : Text → Bool → Bool × Text
  | [], found => (found, [])
  | c :: r, found => if isDigit c then digitsLoop r true else (found, c :: r)

/-- `checker_helper.h:197-212` `check_exponent`; called on a text that begins with `E`. -/
def checkExponent (s : Text) : Option Text :=
  let s := s.tail
  let s := if isSign (at0 s) then s.tail else s
  match digitsLoop s false with
  | (true, r) => some r
  | (false, _) => none

/-! ### the scanners make progress -/

theorem numberEnd_eq {fd pd pt : Bool} {s r : Text} (h : numberEnd fd pd pt s = some r) : r = s := by
  unfold numberEnd at h
  split at h
  · cases h
  · split at h
    · cases h
    · injection h with h; exact h.symm

theorem numberLoop_le (sp : NumberSpec) : ∀ (s : Text) (fd pd ft pt : Bool) (r : Text),
    numberLoop sp s fd pd ft pt = some r → r.length ≤ s.length
  | [], fd, pd, ft, pt, r, h => by rw [numberLoop] at h; rw [numberEnd_eq h]; exact Nat.le_refl _
  | c :: s, fd, pd, ft, pt, r, h => by
    rw [numberLoop] at h
    split at h
    · rw [numberEnd_eq h]; exact Nat.le_refl _
    · split at h
      · split at h
        · cases h
        · exact Nat.le_succ_of_le (numberLoop_le sp s _ _ _ _ r h)
      · split at h
        · exact Nat.le_succ_of_le (numberLoop_le sp s _ _ _ _ r h)
        · split at h
          · cases h
          · exact Nat.le_succ_of_le (numberLoop_le sp s _ _ _ _ r h)

theorem checkNumber_le {sp : NumberSpec} {s r : Text} (h : checkNumber sp s = some r) : r.length ≤ s.length := by
  unfold checkNumber at h
  split at h
  · cases h
  · refine Nat.le_trans (numberLoop_le sp _ _ _ _ _ r h) ?_
    split <;> simp

theorem digitsLoop_le : ∀ (s : Text) (b : Bool), (digitsLoop s b).2.length ≤ s.length
  | [], _ => Nat.le_refl _
  | c :: s, b => by
    rw [digitsLoop]
    split
    · exact Nat.le_succ_of_le (digitsLoop_le s true)
    · exact Nat.le_refl _

theorem checkExponent_le {s r : Text} (h : checkExponent s = some r) : r.length ≤ s.length := by
  unfold checkExponent at h
  dsimp only at h
  split at h
  · rename_i r' heq
    injection h with h
    subst h
    have := digitsLoop_le (if isSign (at0 s.tail) then s.tail.tail else s.tail) false
    rw [heq] at this
    refine Nat.le_trans this ?_
    split <;> simp <;> omega
  · cases h

/-! ### the types -/

/-- The last character of the text, `nom.back()`; only called on a text that is not empty. -/
def back0 (s : Text) : Char := s.getLastD '\x00'

/-- The loop of `data_def_type_H_F_FD::check`, `data_def_types_fixed_point.cpp:60-94`, from the position `s` on.
`none`: the loop was left at the end of the text without a `return`. -/
def hfLoop (s : Text) : Option Bool :=
  if s.isEmpty then none
  else
    match h : checkNumber hfSpec s with
    | none => some false
    | some r =>
      if r.isEmpty then some true
      else if at0 r == 'E' then
        match h' : checkExponent r with
        | none => some false
        | some q =>
          if q.isEmpty then some true
          else if at0 q != ',' then some false
          else hfLoop q.tail
      else if at0 r != ',' then some false
      else hfLoop r.tail
termination_by s.length
decreasing_by
  · have h1 := checkNumber_le h
    have h2 := checkExponent_le h'
    have : q.length ≠ 0 := by intro h0; simp_all
    simp only [List.length_tail]
    omega
  · have h1 := checkNumber_le h
    have : r.length ≠ 0 := by intro h0; simp_all
    simp only [List.length_tail]
    omega

/-- `data_def_types_fixed_point.cpp:47-96` `data_def_type_H_F_FD::check` on the text of the nominal value. -/
def checkHF (nom : Text) : Bool :=
  if nom.isEmpty then false
  else
    match hfLoop nom with
    | some b => b
    | none => if back0 nom == ',' then false else true

/-- The loop of `data_def_type_P_Z::check`, `data_def_types_fixed_point.cpp:151-159`; `false` is `return false`. -/
def pzLoop (s : Text) : Bool :=
  if s.isEmpty then true
  else
    match h : checkNumber pzSpec s with
    | none => false
    | some r => pzLoop r.tail
termination_by s.length
decreasing_by
  have h1 := checkNumber_le h
  have : s.length ≠ 0 := by intro h0; simp_all
  simp only [List.length_tail]
  omega

/-- `data_def_types_fixed_point.cpp:137-167` `data_def_type_P_Z::check` on the text of the nominal value. -/
def checkPZ (nom : Text) : Bool :=
  if nom.isEmpty then false
  else if !pzLoop nom then false
  else if back0 nom == ',' then false
  else true

/-- `data_def_types_floating_point.cpp:43-47` `allowed_round_modes[extension]`; `operator[]` makes an empty set for
an extension that is not in the map. -/
def roundModes (ext : Char) : List Text :=
  if ext == 'B' || ext == 'H' then [['1'], ['4'], ['5'], ['6'], ['7']]
  else if ext == 'D' then
    [['8'], ['9'], ['1', '0'], ['1', '1'], ['1', '2'], ['1', '3'], ['1', '4'], ['1', '5']]
  else []

/-- The part of the loop of `data_def_type_E_D_L::check` that reads the rounding mode,
`data_def_types_floating_point.cpp:96-112`.  `none`: the mode is not allowed. -/
def roundMode (ext : Char) (s : Text) : Option Text :=
  if at0 s == 'R' then
    let mode := s.tail.takeWhile isDigit
    if (roundModes ext).contains mode then some (s.tail.dropWhile isDigit) else none
  else some s

theorem roundMode_le {ext : Char} {s r : Text} (h : roundMode ext s = some r) : r.length ≤ s.length := by
  unfold roundMode at h
  split at h
  · dsimp only at h
    split at h
    · injection h with h
      subst h
      have := (List.dropWhile_suffix (l := s.tail) isDigit).length_le
      simp only [List.length_tail] at this
      omega
    · cases h
  · injection h with h
    subst h
    exact Nat.le_refl _

/-- The end of one turn of the loop of `data_def_type_E_D_L::check`, `data_def_types_floating_point.cpp:96-119`, and
the test whether there is another one.  `inr` is the position of the next turn, `inl` the result. -/
def edlNext (ext : Char) (s : Text) : Bool ⊕ Text :=
  match roundMode ext s with
  | none => .inl false
  | some q =>
    if !q.isEmpty && at0 q != ',' then .inl false
    else .inr q.tail

theorem edlNext_le {ext : Char} {s r : Text} (h : edlNext ext s = .inr r) : r.length ≤ s.length - 1 := by
  unfold edlNext at h
  split at h
  · cases h
  · rename_i q hq
    split at h
    · cases h
    · injection h with h
      subst h
      have := roundMode_le hq
      simp only [List.length_tail]
      omega

/-- The loop of `data_def_type_E_D_L::check`, `data_def_types_floating_point.cpp:75-121`, from the position `s` on. -/
def edlLoop (ext : Char) (s : Text) : Bool :=
  if s.isEmpty then true
  else
    match h : checkNumber edlSpec s with
    | none => false
    | some r =>
      if at0 r == 'E' then
        match h' : checkExponent r with
        | none => false
        | some q =>
          if q.isEmpty then true
          else
            match h'' : edlNext ext q with
            | .inl b => b
            | .inr t => edlLoop ext t
      else
        match h'' : edlNext ext r with
        | .inl b => b
        | .inr t => edlLoop ext t
termination_by s.length
decreasing_by
  · have h1 := checkNumber_le h
    have h2 := checkExponent_le h'
    have h3 := edlNext_le h''
    have : s.length ≠ 0 := by intro h0; simp_all
    omega
  · have h1 := checkNumber_le h
    have h3 := edlNext_le h''
    have : s.length ≠ 0 := by intro h0; simp_all
    omega

/-- `data_def_types_floating_point.cpp:57-122` `data_def_type_E_D_L::check` on the text of the nominal value. -/
def checkEDL (ext : Char) (nom : Text) : Bool :=
  if nom.isEmpty then false
  else if back0 nom == ',' then false
  else edlLoop ext nom

/-- The loop of `check_comma_separated`, `data_def_types_string.cpp:57-74`. -/
def commaLoop (valid : Char → Bool) : Text → Bool → Bool
  | [], lastValid => lastValid
  | c :: r, lastValid =>
    if c == ' ' then commaLoop valid r lastValid
    else if c == ',' then
      if !lastValid then false else commaLoop valid r false
    else if valid c then commaLoop valid r true
    else false

/-- `data_def_types_string.cpp:54-75` `check_comma_separated`. -/
def checkCommaSeparated (valid : Char → Bool) (nom : Text) : Bool := commaLoop valid nom false

/-- `data_def_types_string.cpp:97`, the digits of type B. -/
def isBinary (c : Char) : Bool := c == '0' || c == '1'

/-! ### measuring -/

/-- The loop of `get_X_B_length`, `data_def_types_string.cpp:27-41`. -/
def xbLoop (frac : Nat) : Text → (length one : Nat) → Nat
  | [], length, one => length + (one + frac - 1) / frac
  | c :: r, length, one =>
    if c == ',' then xbLoop frac r (length + (one + frac - 1) / frac) 0
    else if c != ' ' then xbLoop frac r length (one + 1)
    else xbLoop frac r length one

/-- `data_def_types_string.cpp:25-42` `get_X_B_length`. -/
def xbLength (s : Text) (frac : Nat) : Nat := xbLoop frac s 0 0

/-- `data_def_types_string.cpp:44-51` `get_X_B_length_attr`; `s.find(',')` or `s.size()` is the number of characters
before the first comma.  The cast to 32 bits is left out: the text would have to be longer than 4 GB. -/
def xbLengthAttr (s : Text) (frac : Nat) : Nat :=
  ((s.takeWhile (· != ',')).length + frac - 1) / frac

/-- The loop of `data_def_type_P::get_nominal_length`, `data_def_types_fixed_point.cpp:204-214`. -/
def pLoop : Text → (bytes half : Nat) → Nat
  | [], bytes, half => bytes + (half + 1) / 2
  | c :: r, bytes, half =>
    if c == ',' then pLoop r (bytes + (half + 1) / 2) 1
    else if isDigit c then pLoop r bytes (half + 1)
    else pLoop r bytes half

/-- `data_def_types_fixed_point.cpp:194-218`, on a present text. -/
def pLength (s : Text) : Nat := pLoop s 0 1

/-- The loop of `data_def_type_P::get_nominal_length_attribute`, `data_def_types_fixed_point.cpp:230-236`. -/
def pAttrLoop : Text → Nat → Nat
  | [], half => half
  | c :: r, half => if c == ',' then half else if isDigit c then pAttrLoop r (half + 1) else pAttrLoop r half

/-- `data_def_types_fixed_point.cpp:220-240`, on a present text. -/
def pLengthAttr (s : Text) : Nat := (pAttrLoop s 1 + 1) / 2

/-- `data_def_types_fixed_point.cpp:251-261`, on a present text. -/
def zLength (s : Text) : Nat := s.countP isDigit

/-- The loop of `data_def_type_Z::get_nominal_length_attribute`, `data_def_types_fixed_point.cpp:268-275`. -/
def zAttrLoop : Text → Nat → Nat
  | [], n => n
  | c :: r, n => if c == ',' then n else if isDigit c then zAttrLoop r (n + 1) else zAttrLoop r n

/-- `data_def_types_fixed_point.cpp:263-280`, on a present text. -/
def zLengthAttr (s : Text) : Nat := zAttrLoop s 0

/-- The loop of `data_def_type_P_Z::get_implicit_scale`, `data_def_types_fixed_point.cpp:175-187`; the count is a
`uint16_t`, returned as an `int16_t`. -/
def pzScaleLoop : Text → (count : Nat) → (doCount : Bool) → Nat
  | [], count, _ => count
  | c :: r, count, doCount =>
    if c == ',' then count
    else if c == '.' then pzScaleLoop r count true
    else if doCount then pzScaleLoop r ((count + 1) % 65536) doCount
    else pzScaleLoop r count doCount

/-- `data_def_types_string.cpp:236-245` `data_def_type_G::get_nominal_length` on a present text. -/
def gLength (s : Text) : Nat := s.countP fun c => c != '<' && c != '>'

end Verif.DataDef
