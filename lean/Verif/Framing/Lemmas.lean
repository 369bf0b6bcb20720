import Verif.Framing.Model
namespace Verif.Framing

theorem skipNl_nl (nls l : Bytes) (h : ∀ c ∈ nls, c = LF) : skipNl (nls ++ l) = skipNl l := by
  induction nls with
  | nil => rfl
  | cons c t ih =>
    have := h c (by simp)
    subst this
    simp only [List.cons_append, skipNl, if_true]
    exact ih (fun c hc => h c (by simp [hc]))

theorem takeWhile_line (h t : Bytes) (hh : ∀ c ∈ h, c ≠ LF) : (h ++ LF :: t).takeWhile (· != LF) = h := by
  induction h with
  | nil => simp [List.takeWhile]
  | cons c h ih =>
    have hc : (c != LF) = true := by simpa using hh c (by simp)
    simp only [List.cons_append, List.takeWhile, hc]
    rw [ih (fun c hc => hh c (by simp [hc]))]

theorem dropWhile_line (h t : Bytes) (hh : ∀ c ∈ h, c ≠ LF) : (h ++ LF :: t).dropWhile (· != LF) = LF :: t := by
  induction h with
  | nil => simp [List.dropWhile]
  | cons c h ih =>
    have hc : (c != LF) = true := by simpa using hh c (by simp)
    simp only [List.cons_append, List.dropWhile, hc]
    rw [ih (fun c hc => hh c (by simp [hc]))]

theorem token_line (nls h t : Bytes) (hn : ∀ c ∈ nls, c = LF) (h0 : h ≠ []) (hh : ∀ c ∈ h, c ≠ LF) :
    Stream.token { rest := nls ++ h ++ LF :: t } = (some h, { rest := LF :: t }) := by
  unfold Stream.token
  simp only [Bool.or_self, Bool.false_eq_true, if_false]
  rw [List.append_assoc, skipNl_nl _ _ hn]
  obtain ⟨c, h', rfl⟩ := List.exists_cons_of_ne_nil h0
  have hc : c ≠ LF := hh c (by simp)
  have e1 : skipNl (c :: h' ++ LF :: t) = c :: (h' ++ LF :: t) := by simp [skipNl, hc]
  rw [e1]
  simp only
  have e2 := takeWhile_line (c :: h') t hh
  have e3 := dropWhile_line (c :: h') t hh
  rw [List.cons_append] at e2 e3
  rw [e2, e3]
  simp

theorem headerLoop_line (nls h t : Bytes) (cl : Nat) (hn : ∀ c ∈ nls, c = LF) (h0 : h ≠ []) (hh : ∀ c ∈ h, c ≠ LF) :
    headerLoop { rest := nls ++ h ++ LF :: t } cl =
      if contentLength.isPrefixOf h then headerLoop { rest := LF :: t } ((fromChars (h.drop contentLength.length)).getD cl)
      else if h = [CR] then (some cl, { rest := t })
      else headerLoop { rest := LF :: t } cl := by
  conv => lhs; rw [headerLoop.eq_def]
  simp only [Bool.or_self, Bool.false_eq_true, if_false]
  split
  · next h1 => rw [token_line nls h t hn h0 hh] at h1; simp at h1
  · next line s' h1 =>
    rw [token_line nls h t hn h0 hh] at h1
    simp only [Prod.mk.injEq, Option.some.injEq] at h1
    obtain ⟨rfl, rfl⟩ := h1
    simp [Stream.ignore]

/-- A header line (without its CR LF) that the reader must skip: not empty, no LF inside, and either not a Content-Length
header or one without a number. -/
def Ignorable (h : Bytes) : Prop :=
  h ≠ [] ∧ LF ∉ h ∧ (contentLength.isPrefixOf (h ++ [CR]) = true → fromChars ((h ++ [CR]).drop contentLength.length) = none)

instance (h : Bytes) : Decidable (Ignorable h) := by unfold Ignorable; infer_instance

/-- Bytes of a list of header lines. -/
def headerBytes (hs : List Bytes) : Bytes := hs.flatMap (· ++ [CR, LF])

theorem crlf_split (a t : Bytes) : a ++ [CR, LF] ++ t = (a ++ [CR]) ++ LF :: t := by simp

theorem headerLoop_ignorable (hs : List Bytes) (hi : ∀ h ∈ hs, Ignorable h) : ∀ (nls t : Bytes) (cl : Nat),
    (∀ c ∈ nls, c = LF) → ∃ nls' : Bytes, (∀ c ∈ nls', c = LF) ∧
      headerLoop { rest := nls ++ headerBytes hs ++ t } cl = headerLoop { rest := nls' ++ t } cl := by
  induction hs with
  | nil => intro nls t cl hn; exact ⟨nls, hn, by simp [headerBytes]⟩
  | cons h hs ih =>
    intro nls t cl hn
    obtain ⟨h0, h1, h2⟩ := hi h (by simp)
    obtain ⟨nls', hn', he⟩ := ih (fun x hx => hi x (by simp [hx])) [LF] t cl (by simp)
    refine ⟨nls', hn', ?_⟩
    rw [← he]
    have e : nls ++ headerBytes (h :: hs) ++ t = nls ++ (h ++ [CR]) ++ LF :: (headerBytes hs ++ t) := by
      simp [headerBytes]
    rw [e, headerLoop_line _ _ _ _ hn (by simp) (by
      intro c hc
      rcases List.mem_append.mp hc with hc | hc
      · rintro rfl; exact h1 hc
      · simp at hc; subst hc; decide)]
    split
    · next hp => rw [h2 hp]; simp
    · rw [if_neg]
      · simp
      · intro hcr
        have := congrArg List.length hcr
        simp at this
        exact h0 this

theorem contentLength_no_lf : LF ∉ contentLength := by decide

theorem decimal_ne (n : Nat) : decimal n ≠ [] := by
  rw [decimal]; split <;> simp

theorem decimal_digits (n : Nat) : ∀ c ∈ decimal n, isDigit c = true := by
  fun_induction decimal n with
  | case1 n h =>
    intro c hc
    simp at hc; subst hc
    simp [isDigit, UInt8.toNat_ofNat']; omega
  | case2 n h ih =>
    intro c hc
    rcases List.mem_append.mp hc with hc | hc
    · exact ih c hc
    · simp at hc; subst hc
      simp [isDigit, UInt8.toNat_ofNat']; omega

theorem decimal_value (n : Nat) : (decimal n).foldl (fun a d => a * 10 + (d.toNat - 48)) 0 = n := by
  fun_induction decimal n with
  | case1 n h => simp; omega
  | case2 n h ih => rw [List.foldl_append, ih]; simp; omega

theorem takeWhile_all_append {α} (p : α → Bool) (a b : List α) (c : α) (ha : ∀ x ∈ a, p x = true) (hc : p c = false) :
    (a ++ c :: b).takeWhile p = a := by
  induction a with
  | nil => simp [List.takeWhile, hc]
  | cons x a ih =>
    simp only [List.cons_append, List.takeWhile, ha x (by simp)]
    rw [ih (fun y hy => ha y (by simp [hy]))]

theorem fromChars_decimal (n : Nat) (h : n < 2 ^ 64) : fromChars (decimal n ++ [CR]) = some n := by
  unfold fromChars
  rw [takeWhile_all_append isDigit (decimal n) [] CR (decimal_digits n) (by decide)]
  simp only [decimal_ne, if_false, decimal_value, h, if_true]

/-- A framed message: extra header lines around the Content-Length header, and the body. -/
structure Frame where
  pre : List Bytes := []
  post : List Bytes := []
  body : Bytes

def Frame.Ok (f : Frame) : Prop := (∀ h ∈ f.pre, Ignorable h) ∧ (∀ h ∈ f.post, Ignorable h) ∧ f.body.length < 2 ^ 64

def Frame.bytes (f : Frame) : Bytes :=
  headerBytes f.pre ++ (contentLength ++ decimal f.body.length ++ [CR, LF]) ++ headerBytes f.post ++ [CR, LF] ++ f.body

theorem headerLoop_frame (f : Frame) (hf : f.Ok) (tail : Bytes) :
    headerLoop { rest := f.bytes ++ tail } 0 = (some f.body.length, { rest := f.body ++ tail }) := by
  obtain ⟨hpre, hpost, hlen⟩ := hf
  obtain ⟨n1, hn1, e1⟩ := headerLoop_ignorable f.pre hpre []
    ((contentLength ++ decimal f.body.length ++ [CR, LF]) ++ headerBytes f.post ++ [CR, LF] ++ f.body ++ tail) 0 (by simp)
  have eb : f.bytes ++ tail = [] ++ headerBytes f.pre ++
      ((contentLength ++ decimal f.body.length ++ [CR, LF]) ++ headerBytes f.post ++ [CR, LF] ++ f.body ++ tail) := by
    simp [Frame.bytes]
  rw [eb, e1]
  have e2 : n1 ++ ((contentLength ++ decimal f.body.length ++ [CR, LF]) ++ headerBytes f.post ++ [CR, LF] ++ f.body ++ tail)
      = n1 ++ (contentLength ++ (decimal f.body.length ++ [CR])) ++ LF :: (headerBytes f.post ++ [CR, LF] ++ f.body ++ tail) := by
    simp
  rw [e2, headerLoop_line _ _ _ _ hn1 (by simp) (by
    intro c hc
    rcases List.mem_append.mp hc with hc | hc
    · rintro rfl; exact contentLength_no_lf hc
    · rcases List.mem_append.mp hc with hc | hc
      · rintro rfl; have := decimal_digits _ _ hc; revert this; decide
      · simp at hc; subst hc; decide)]
  rw [if_pos (by rw [List.isPrefixOf_iff_prefix]; exact List.prefix_append _ _), List.drop_left, fromChars_decimal _ hlen]
  simp only [Option.getD_some]
  obtain ⟨n2, hn2, e3⟩ := headerLoop_ignorable f.post hpost [LF] ([CR, LF] ++ f.body ++ tail) f.body.length (by simp)
  have e4 : LF :: (headerBytes f.post ++ [CR, LF] ++ f.body ++ tail) =
      [LF] ++ headerBytes f.post ++ ([CR, LF] ++ f.body ++ tail) := by simp
  rw [e4, e3]
  have e5 : n2 ++ ([CR, LF] ++ f.body ++ tail) = n2 ++ [CR] ++ LF :: (f.body ++ tail) := by simp
  rw [e5, headerLoop_line _ _ _ _ hn2 (by simp) (by intro c hc; simp at hc; subst hc; decide)]
  simp [contentLength]

theorem readMessage_frame (f : Frame) (hf : f.Ok) (hlim : f.body.length ≤ sizeLimit) (tail : Bytes) :
    readMessage { rest := f.bytes ++ tail } = (if f.body = [] then none else some f.body, { rest := tail }) := by
  unfold readMessage
  rw [headerLoop_frame f hf]
  simp only
  rw [if_neg (by omega)]
  by_cases h0 : f.body = []
  · simp [h0]
  · have : f.body.length ≠ 0 := by simpa using h0
    simp [h0, Stream.readN]

theorem readMessage_oversize (f : Frame) (hf : f.Ok) (hlim : sizeLimit < f.body.length) (tail : Bytes) :
    readMessage { rest := f.bytes ++ tail } = (none, { rest := f.body ++ tail }) := by
  unfold readMessage
  rw [headerLoop_frame f hf]
  simp [hlim]

/-! ### Fuel -/

theorem token_none_flag {s s' : Stream} (h : s.token = (none, s')) : s'.fail = true := by
  unfold Stream.token at h
  split at h
  · simp at h; rw [← h]
  · split at h
    · simp at h; rw [← h]
    · simp at h

theorem ignore_length (s : Stream) : s.ignore.rest.length ≤ s.rest.length := by
  unfold Stream.ignore
  split
  · simp
  · split <;> simp_all

theorem headerLoop_progress (s : Stream) (cl : Nat) (hg : s.eof = false ∧ s.fail = false) :
    (headerLoop s cl).2.rest.length < s.rest.length ∨ (headerLoop s cl).2.fail = true := by
  fun_induction headerLoop s cl with
  | case1 s cl h => simp [hg] at h
  | case2 s cl h s' heq => right; exact token_none_flag heq
  | case3 s cl h line s' heq hp ih =>
    have hlt := token_some_lt heq
    by_cases hg' : s'.eof = false ∧ s'.fail = false
    · rcases ih hg' with h1 | h1
      · left; omega
      · right; exact h1
    · left
      rw [headerLoop]
      have : (s'.eof || s'.fail) = true := by
        cases he : s'.eof <;> cases hf : s'.fail <;> simp_all
      simp [this, hlt]
  | case4 s cl h s' heq hp =>
    have hlt := token_some_lt heq
    left
    have := ignore_length s'
    simp only; omega
  | case5 s cl h line s' heq hp hn ih =>
    have hlt := token_some_lt heq
    by_cases hg' : s'.eof = false ∧ s'.fail = false
    · rcases ih hg' with h1 | h1
      · left; omega
      · right; exact h1
    · left
      rw [headerLoop]
      have : (s'.eof || s'.fail) = true := by
        cases he : s'.eof <;> cases hf : s'.fail <;> simp_all
      simp [this, hlt]

theorem readMessage_progress (s : Stream) (hg : s.eof = false ∧ s.fail = false) :
    (readMessage s).2.rest.length < s.rest.length ∨ (readMessage s).2.fail = true := by
  have h := headerLoop_progress s 0 hg
  unfold readMessage
  split
  · next s' heq => rw [heq] at h; exact h
  · next cl s' heq =>
    rw [heq] at h
    simp only at h
    split
    · exact h
    · split
      · exact h
      · unfold Stream.readN
        split
        · right; rfl
        · split
          · rcases h with h | h
            · left; simp; omega
            · right; exact h
          · right; rfl

theorem readFuel_flag {J} (parse : Bytes → Option J) (fuel : Nat) (s : Stream) (h : s.fail = true) :
    readFuel parse fuel s = (none, s) := by
  cases fuel with
  | zero => rfl
  | succ n => simp [readFuel, h]

/-- More fuel than `rest.length + 2` changes nothing: `read` models the unbounded loop. -/
theorem readFuel_enough {J} (parse : Bytes → Option J) : ∀ (fuel fuel' : Nat) (s : Stream),
    s.rest.length + 2 ≤ fuel → s.rest.length + 2 ≤ fuel' → readFuel parse fuel s = readFuel parse fuel' s := by
  intro fuel
  induction fuel with
  | zero => intro fuel' s h; omega
  | succ n ih =>
    intro fuel' s h h'
    obtain ⟨m, rfl⟩ : ∃ m, fuel' = m + 1 := ⟨fuel' - 1, by omega⟩
    simp only [readFuel]
    split
    · rfl
    · next hf =>
      split
      · rfl
      · next he =>
        have hp := readMessage_progress s ⟨by simpa using he, by simpa using hf⟩
        split
        · next body s' heq =>
          rw [heq] at hp
          split
          · rfl
          · rcases hp with hp | hp
            · exact ih m s' (by simp only at hp; omega) (by simp only at hp; omega)
            · rw [readFuel_flag _ _ _ hp, readFuel_flag _ _ _ hp]
        · next s' heq =>
          rw [heq] at hp
          rcases hp with hp | hp
          · exact ih m s' (by simp only at hp; omega) (by simp only at hp; omega)
          · rw [readFuel_flag _ _ _ hp, readFuel_flag _ _ _ hp]

theorem read_eq {J} (parse : Bytes → Option J) (s : Stream) (hg : s.eof = false ∧ s.fail = false) :
    read parse s = match readMessage s with
      | (some body, s') => (match parse body with | some j => (some j, s') | none => read parse s')
      | (none, s') => read parse s' := by
  unfold read
  conv => lhs; rw [show s.rest.length + 2 = (s.rest.length + 1) + 1 by omega, readFuel]
  simp only [hg.1, hg.2, Bool.false_eq_true, if_false]
  have hp := readMessage_progress s hg
  have key : ∀ s' : Stream, (s'.rest.length < s.rest.length ∨ s'.fail = true) →
      readFuel parse (s.rest.length + 1) s' = readFuel parse (s'.rest.length + 2) s' := by
    intro s' h
    rcases h with h | h
    · exact readFuel_enough parse _ _ _ (by omega) (by omega)
    · rw [readFuel_flag _ _ _ h, readFuel_flag _ _ _ h]
  rcases hrm : readMessage s with ⟨o, s'⟩
  rw [hrm] at hp
  cases o with
  | none => exact key s' hp
  | some body =>
    simp only
    cases parse body with
    | some j => rfl
    | none => exact key s' hp

theorem read_empty {J} (parse : Bytes → Option J) : (read parse { rest := [] }).1 = none := by
  have : readMessage { rest := [] } = (none, { rest := [], eof := true, fail := true }) := by decide +kernel
  rw [read_eq parse _ ⟨rfl, rfl⟩, this]
  simp [read, readFuel]

theorem read_frame {J} (parse : Bytes → Option J) (f : Frame) (hf : f.Ok) (hlim : f.body.length ≤ sizeLimit) (tail : Bytes) :
    read parse { rest := f.bytes ++ tail } =
      if f.body = [] then read parse { rest := tail }
      else match parse f.body with
        | some j => (some j, { rest := tail })
        | none => read parse { rest := tail } := by
  rw [read_eq parse _ ⟨rfl, rfl⟩, readMessage_frame f hf hlim]
  by_cases h0 : f.body = [] <;> simp [h0]

end Verif.Framing
