import Verif.Pieces.Lemmas
/-!
What one turn, the loop and the events do with a part of a stream of messages.
-/
namespace Verif.Pieces
open Verif
open Verif.Framing (CR LF decimal)
open Spec

theorem offset_int (n k : Nat) : offset n (.int k) = min k n := by
  simp only [offset]
  rw [if_neg (by omega)]
  simp

/-- The length of the header, without the empty line. -/
def headLength (m : Msg) : Nat := label.length + (decimal m.body.length).length + (m.more.map line).flatten.length

theorem sent_length (m : Msg) : m.sent.length = headLength m + 4 + m.body.length := by
  simp only [Msg.sent, name_eq, number_eq, line, headLength, List.length_append, List.nil_append, List.length_cons,
    List.length_nil]
  omega

theorem label_no_cr : CR ∉ label := by decide

theorem first_no_cr (n : Nat) : CR ∉ label ++ decimal n := by
  intro h
  rcases List.mem_append.mp h with h | h
  · exact label_no_cr h
  · exact decimal_no_cr n h

/-- What a turn does with a buffer that is a part of a message and what follows it. -/
theorem turn_part (m : Msg) (hm : m.Proper) (b z w : Bytes) (h : b ++ z = m.sent ++ w) :
    turn b = if m.sent.length ≤ b.length then .found m.body (b.drop m.sent.length) else .leave := by
  have hs := sent_length m
  have e1 : m.sent ++ w = label ++ (decimal m.body.length ++ ([CR, LF] ++ (m.more.map line).flatten ++ line [] ++ m.body ++ w)) := by
    simp [Msg.sent, name_eq, number_eq, line]
  have e2 : m.sent ++ w = (label ++ decimal m.body.length) ++ CR :: LF :: ((m.more.map line).flatten ++ line [] ++ m.body ++ w) := by
    simp [Msg.sent, name_eq, number_eq, line]
  have e3 : m.sent ++ w = line (label ++ decimal m.body.length) ++ (m.more.map line).flatten ++ line [] ++ (m.body ++ w) := by
    simp [Msg.sent, name_eq, number_eq, line]
  have i1 : indexOf label (b ++ z) = some 0 := by
    rw [h, e1]; exact indexOf_prefix_self _ _ (List.prefix_append _ _)
  have i2 : indexOf [CR, LF] (b ++ z) = some (label ++ decimal m.body.length).length := by
    rw [h, e2]; exact indexOf_crlf _ _ (first_no_cr _)
  have i3 : indexOf [CR, LF, CR, LF] (b ++ z) = some (headLength m) := by
    rw [h, e3, indexOf_end _ _ _ (first_no_cr _) hm]
    simp [headLength]
  have j1 := indexOf_part _ _ _ _ i1
  have j2 := indexOf_part _ _ _ _ i2
  have j3 := indexOf_part _ _ _ _ i3
  simp only [List.length_append, List.length_cons, List.length_nil, Nat.zero_add] at j1 j2 j3
  have hl : label.length = 16 := by decide
  have hh : headLength m ≥ 16 + (decimal m.body.length).length := by simp only [headLength, hl]; omega
  have hbz : ∀ k, k ≤ b.length → b.take k = (m.sent ++ w).take k := by
    intro k hk
    rw [← h, List.take_append_of_le_length hk]
  unfold turn
  by_cases c1 : label.length ≤ b.length
  · rw [if_pos c1] at j1
    rw [if_neg (by rw [j1]; simp)]
    by_cases c2 : label.length + (decimal m.body.length).length + (1 + 1) ≤ b.length
    · rw [if_pos c2] at j2
      rw [j2]
      by_cases c3 : headLength m + (1 + 1 + 1 + 1) ≤ b.length
      · rw [if_pos c3] at j3
        rw [j3]
        have hsl : slice b (.int label.length) (.int ↑(label.length + (decimal m.body.length).length)) = decimal m.body.length := by
          rw [slice, offset_int, offset_int, Nat.min_eq_left c1, Nat.min_eq_left (by omega)]
          have et : ((label ++ decimal m.body.length) ++ CR :: LF :: ((m.more.map line).flatten ++ line [] ++ m.body ++ w)).take
              (label.length + (decimal m.body.length).length) = label ++ decimal m.body.length :=
            List.take_left' (by rw [List.length_append])
          rw [← List.drop_take, hbz _ (by omega), e2, et, List.drop_left]
        simp only
        rw [hsl, toNumber_decimal]
        have hst : (Num.int (m.body.length : Int)).plus (headLength m + 4) = .int ((m.sent.length : Nat) : Int) := by
          rw [hs]; simp [Num.plus]
        rw [hst]
        by_cases c4 : m.sent.length ≤ b.length
        · rw [if_pos c4]
          have : (Num.int ((m.sent.length : Nat) : Int)).exceeds b.length = false := by simp [Num.exceeds]; omega
          rw [this]
          simp only [Bool.false_eq_true, if_false]
          rw [slice, offset_int, offset_int, Nat.min_eq_left (show headLength m + 4 ≤ b.length by omega), sliceFrom, offset_int,
            Nat.min_eq_left c4]
          have : (b.drop (headLength m + 4)).take (m.sent.length - (headLength m + 4)) = m.body := by
            rw [← List.drop_take, hbz _ c4, List.take_append_of_le_length (Nat.le_refl _), List.take_length]
            have e : m.sent = (line (name ++ number m.body.length) ++ (m.more.map line).flatten ++ line []) ++ m.body := rfl
            have el : (line (name ++ number m.body.length) ++ (m.more.map line).flatten ++ line []).length = headLength m + 4 := by
              have := congrArg List.length e
              rw [List.length_append, hs] at this
              omega
            rw [e, List.drop_left' el]
          rw [this]
        · rw [if_neg c4]
          have : (Num.int ((m.sent.length : Nat) : Int)).exceeds b.length = true := by simp [Num.exceeds]; omega
          rw [this]
          simp
      · rw [if_neg c3] at j3
        rw [j3]
        rw [if_neg (by omega)]
    · rw [if_neg c2] at j2
      rw [j2, if_neg (by omega)]
  · rw [if_neg c1] at j1
    rw [if_pos (by rw [j1]; simp), if_neg (by omega)]

theorem turn_nil : turn [] = .leave := by decide

/-- Those messages of which `n` bytes are not the end. -/
def pending : List Msg → Nat → List Msg
  | [], _ => []
  | m :: ms, n => if m.sent.length ≤ n then pending ms (n - m.sent.length) else m :: ms

/-- How many bytes of `n` belong to an incomplete message. -/
def left : List Msg → Nat → Nat
  | [], n => n
  | m :: ms, n => if m.sent.length ≤ n then left ms (n - m.sent.length) else n

theorem left_le : ∀ ms n, left ms n ≤ n := by
  intro ms
  induction ms with
  | nil => intro n; simp [left]
  | cons m ms ih =>
    intro n; simp only [left]; split
    · have := ih (n - m.sent.length); omega
    · omega

theorem stream_cons (m : Msg) (ms : List Msg) : stream (m :: ms) = m.sent ++ stream ms := by simp [stream]

theorem loop_part {J : Type} (take : Bytes → Option J) : ∀ (ms : List Msg) (b z : Bytes) (fuel : Nat),
    (∀ m ∈ ms, m.Proper) → (∀ m ∈ ms, (take m.body).isSome) → b ++ z = stream ms → ms.length < fuel →
    loop take fuel b = some ((arrived ms b.length).filterMap take, b.drop (b.length - left ms b.length)) := by
  intro ms
  induction ms with
  | nil =>
    intro b z fuel _ _ h hf
    simp [stream] at h
    obtain ⟨rfl, rfl⟩ := h
    cases fuel with
    | zero => simp at hf
    | succ fuel => simp [loop, turn_nil, arrived]
  | cons m ms ih =>
    intro b z fuel hp ht h hf
    rw [stream_cons] at h
    cases fuel with
    | zero => simp at hf
    | succ fuel =>
      simp only [loop, turn_part m (hp m (by simp)) b z _ h, arrived, left]
      by_cases c : m.sent.length ≤ b.length
      · rw [if_pos c, if_pos c, if_pos c]
        simp only
        obtain ⟨j, hj⟩ := Option.isSome_iff_exists.mp (ht m (by simp))
        rw [hj]
        simp only
        have hz : b.drop m.sent.length ++ z = stream ms := by
          have := congrArg (List.drop m.sent.length) h
          rw [List.drop_append_of_le_length c, List.drop_left'] at this
          · exact this
          · rfl
        rw [ih _ z fuel (fun m' hm' => hp m' (by simp [hm'])) (fun m' hm' => ht m' (by simp [hm'])) hz (by simp at hf; omega)]
        have := left_le ms (b.length - m.sent.length)
        simp [hj]
        congr 1
        omega
      · rw [if_neg c, if_neg c, if_neg c]
        simp

theorem pending_sub : ∀ ms n, ∀ m ∈ pending ms n, m ∈ ms := by
  intro ms
  induction ms with
  | nil => intro n m h; exact h
  | cons a ms ih =>
    intro n m h
    simp only [pending] at h
    split at h
    · exact List.mem_cons_of_mem _ (ih _ _ h)
    · exact h

theorem pending_length : ∀ ms n, (pending ms n).length ≤ ms.length := by
  intro ms
  induction ms with
  | nil => intro n; simp [pending]
  | cons a ms ih =>
    intro n
    simp only [pending]
    split
    · have := ih (n - a.sent.length); simp; omega
    · simp

theorem stream_pending : ∀ (ms : List Msg) (n : Nat), n ≤ (stream ms).length →
    stream (pending ms n) = (stream ms).drop (n - left ms n) := by
  intro ms
  induction ms with
  | nil => intro n h; simp [stream] at h; simp [pending, left, stream]
  | cons a ms ih =>
    intro n h
    simp only [pending, left]
    rw [stream_cons] at h ⊢
    rw [List.length_append] at h
    split
    · rw [ih _ (by omega), List.drop_append]
      have := left_le ms (n - a.sent.length)
      have e : a.sent.drop (n - left ms (n - a.sent.length)) = [] := List.drop_eq_nil_of_le (by omega)
      rw [e, List.nil_append]
      congr 1
      omega
    · simp [stream_cons]

theorem arrived_step : ∀ (ms : List Msg) (n k : Nat),
    arrived ms (n + k) = arrived ms n ++ arrived (pending ms n) (left ms n + k) := by
  intro ms
  induction ms with
  | nil => intro n k; simp [arrived, pending]
  | cons a ms ih =>
    intro n k
    by_cases c : a.sent.length ≤ n
    · have e : n + k - a.sent.length = (n - a.sent.length) + k := by omega
      simp only [arrived, pending, left, if_pos c, if_pos (show a.sent.length ≤ n + k by omega), e, ih, List.cons_append]
    · simp only [pending, left, if_neg c]
      conv => rhs; rw [arrived, if_neg c, List.nil_append]

theorem left_step : ∀ (ms : List Msg) (n k : Nat), left ms (n + k) = left (pending ms n) (left ms n + k) := by
  intro ms
  induction ms with
  | nil => intro n k; simp [pending, left]
  | cons a ms ih =>
    intro n k
    by_cases c : a.sent.length ≤ n
    · have e : n + k - a.sent.length = (n - a.sent.length) + k := by omega
      simp only [pending, left, if_pos c, if_pos (show a.sent.length ≤ n + k by omega), e, ih]
    · simp only [pending, left, if_neg c]

theorem feed_part {J : Type} (take : Bytes → Option J) (fuel : Nat) : ∀ (ps : List Bytes) (ms : List Msg) (b z : Bytes),
    (∀ m ∈ ms, m.Proper) → (∀ m ∈ ms, (take m.body).isSome) → b ++ ps.flatten ++ z = stream ms → ms.length < fuel →
    arrived ms b.length = [] → left ms b.length = b.length →
    feed take fuel b ps = some ((arrived ms (b.length + ps.flatten.length)).filterMap take,
      (b ++ ps.flatten).drop (b.length + ps.flatten.length - left ms (b.length + ps.flatten.length))) := by
  intro ps
  induction ps with
  | nil =>
    intro ms b z _ _ _ _ ha hl
    simp [feed, ha, hl]
  | cons p ps ih =>
    intro ms b z hp ht h hf ha hl
    simp only [feed]
    have e : b.length + (p :: ps).flatten.length = (b ++ p).length + ps.flatten.length := by
      simp; omega
    have e' : b ++ (p :: ps).flatten = (b ++ p) ++ ps.flatten := by simp
    rw [e, e']
    rw [e'] at h
    generalize b ++ p = q at h ⊢
    have h1 : q ++ (ps.flatten ++ z) = stream ms := by rw [← h]; simp
    rw [loop_part take ms q _ fuel hp ht h1 hf]
    simp only
    have hle := left_le ms q.length
    have hn : q.length ≤ (stream ms).length := by rw [← h1]; simp
    have hlen : (q.drop (q.length - left ms q.length)).length = left ms q.length := by
      rw [List.length_drop]; omega
    have hst : q.drop (q.length - left ms q.length) ++ ps.flatten ++ z = stream (pending ms q.length) := by
      rw [stream_pending _ _ hn, ← h1, List.drop_append_of_le_length (by omega), List.append_assoc]
    have ha' : arrived (pending ms q.length) (left ms q.length) = [] := by
      have := arrived_step ms q.length 0
      simpa using this
    have hl' : left (pending ms q.length) (left ms q.length) = left ms q.length := by
      have := left_step ms q.length 0
      simpa using this.symm
    rw [ih (pending ms q.length) _ z (fun m hm => hp m (pending_sub _ _ m hm))
      (fun m hm => ht m (pending_sub _ _ m hm)) hst (by have := pending_length ms q.length; omega)
      (by rw [hlen]; exact ha') (by rw [hlen]; exact hl')]
    rw [hlen, ← left_step, Option.map_some, arrived_step ms q.length ps.flatten.length, List.filterMap_append]
    congr 2
    have h2 : left ms (q.length + ps.flatten.length) ≤ left ms q.length + ps.flatten.length := by
      rw [left_step]; exact left_le _ _
    rw [← List.drop_append_of_le_length (by omega), List.drop_drop]
    simp only
    congr 1
    omega

theorem arrived_all : ∀ ms : List Msg, arrived ms (stream ms).length = ms.map (·.body) := by
  intro ms
  induction ms with
  | nil => rfl
  | cons a ms ih =>
    rw [stream_cons, List.length_append, arrived, if_pos (by omega), Nat.add_sub_cancel_left, ih]
    rfl

end Verif.Pieces
