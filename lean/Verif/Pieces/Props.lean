import Verif.Pieces.Turns
/-!
C130: messages that arrive in pieces are passed on whole, each once and in order, however the pieces are cut; and what
stops the readers.
-/
namespace Verif.Pieces
open Verif
open Verif.Framing (CR LF decimal)
open Spec

theorem filterMap_some' (l : List Bytes) : l.filterMap (some : Bytes → Option Bytes) = l := by
  induction l with
  | nil => rfl
  | cons a l ih => rw [List.filterMap_cons]; simp only; rw [ih]

/-- C130: the server built for WebAssembly puts into its queue exactly the texts of the messages that have come completely,
in order, whatever the texts are, however the data is cut into pieces and wherever it stops; every event ends. -/
theorem C130_server (ms : List Msg) (hp : ∀ m ∈ ms, m.Proper) (pieces : List Bytes) (z : Bytes)
    (h : pieces.flatten ++ z = stream ms) (fuel : Nat) (hf : ms.length < fuel) :
    ∃ b, inputQueue fuel pieces = some (arrived ms pieces.flatten.length, b) := by
  have ha : arrived ms ([] : Bytes).length = [] := by
    cases ms with
    | nil => rfl
    | cons m ms => have := sent_length m; simp only [arrived, List.length_nil]; rw [if_neg (by omega)]
  have hl : left ms ([] : Bytes).length = ([] : Bytes).length := by
    have := left_le ms 0; simp only [List.length_nil]; omega
  have := feed_part (some : Bytes → Option Bytes) fuel pieces ms [] z hp (by simp) (by simpa using h) hf ha hl
  rw [filterMap_some'] at this
  simp only [List.length_nil, Nat.zero_add] at this
  exact ⟨_, this⟩

theorem readAll_eq {J : Type} (parse : Bytes → Option J) : ∀ (q : List Bytes) (n : Nat), q.length < n →
    readAll parse n q = q.filterMap parse := by
  have hr : ∀ q : List Bytes, (∃ j q', read parse q = (some j, q') ∧ q'.length < q.length
      ∧ q.filterMap parse = j :: q'.filterMap parse) ∨ (read parse q = (none, []) ∧ q.filterMap parse = []) := by
    intro q
    induction q with
    | nil => exact Or.inr ⟨rfl, rfl⟩
    | cons m q ih =>
      simp only [read, List.filterMap_cons]
      cases parse m with
      | some j => exact Or.inl ⟨j, q, rfl, by simp, rfl⟩
      | none =>
        rcases ih with ⟨j, q', h1, h2, h3⟩ | h
        · exact Or.inl ⟨j, q', h1, by simp; omega, h3⟩
        · exact Or.inr h
  intro q n
  induction n generalizing q with
  | zero => intro h; omega
  | succ n ih =>
    intro h
    rcases hr q with ⟨j, q', h1, h2, h3⟩ | ⟨h1, h2⟩
    · simp only [readAll, h1]; rw [ih q' (by omega), h3]
    · simp only [readAll, h1, h2]

/-- C130: what the server reads from the queue until it ends are the messages that are JSON, all of them and in order; what
is not JSON costs no other message. -/
theorem C130_server_reads {J : Type} (parse : Bytes → Option J) (ms : List Msg) (hp : ∀ m ∈ ms, m.Proper)
    (pieces : List Bytes) (h : pieces.flatten = stream ms) (fuel : Nat) (hf : ms.length < fuel) :
    ∃ q b, inputQueue fuel pieces = some (q, b) ∧ ∀ n, q.length < n →
      readAll parse n q = ms.filterMap (fun m => parse m.body) := by
  obtain ⟨b, hb⟩ := C130_server ms hp pieces [] (by simpa using h) fuel hf
  refine ⟨_, b, hb, ?_⟩
  intro n hn
  rw [readAll_eq parse _ n hn, h, arrived_all, List.filterMap_map]
  rfl

/-- C130: the proxy hands on exactly the messages that have come completely, in order, however they are cut into pieces, as
long as all of them are JSON. Missing: what comes after one that is not (see `C130_thrown`). -/
theorem C130_proxy_partial {J : Type} (parse : Bytes → Option J) (ms : List Msg) (hp : ∀ m ∈ ms, m.Proper)
    (hj : ∀ m ∈ ms, (parse m.body).isSome) (pieces : List Bytes) (z : Bytes)
    (h : pieces.flatten ++ z = stream ms) (fuel : Nat) (hf : ms.length < fuel) :
    ∃ b, proxy parse fuel pieces = some ((arrived ms pieces.flatten.length).filterMap parse, b) := by
  have ha : arrived ms ([] : Bytes).length = [] := by
    cases ms with
    | nil => rfl
    | cons m ms => have := sent_length m; simp only [arrived, List.length_nil]; rw [if_neg (by omega)]
  have hl : left ms ([] : Bytes).length = ([] : Bytes).length := by
    have := left_le ms 0; simp only [List.length_nil]; omega
  have := feed_part parse fuel pieces ms [] z hp hj (by simpa using h) hf ha hl
  simp only [List.length_nil, Nat.zero_add] at this
  exact ⟨_, this⟩

/-- C130: what the server and the proxy write is read back whole by either of them, however it is cut into pieces. -/
theorem C130_written (bodies pieces : List Bytes) (h : pieces.flatten = (bodies.map write).flatten) (fuel : Nat)
    (hf : bodies.length < fuel) : ∃ b, inputQueue fuel pieces = some (bodies, b) := by
  have hs : (bodies.map write).flatten = stream (bodies.map fun b => { body := b }) := by
    simp only [stream, List.map_map]
    congr 1
    apply List.map_congr_left
    intro b _
    simp [Function.comp, Msg.sent, name_eq, number_eq, line, write]
  obtain ⟨b, hb⟩ := C130_server (bodies.map fun b => { body := b }) (by
      intro m hm
      obtain ⟨b, _, rfl⟩ := List.mem_map.mp hm
      intro l hl
      simp at hl) pieces [] (by rw [List.append_nil, h, hs]) fuel (by simpa using hf)
  refine ⟨b, ?_⟩
  have : ((fun m : Msg => m.body) ∘ fun b => { body := b }) = id := rfl
  rw [hb, h, hs, arrived_all, List.map_map, this, List.map_id]

/-- Nothing is taken as long as the turn leaves or the exception comes. -/
theorem feed_stuck {J : Type} (take : Bytes → Option J) (fuel : Nat) : ∀ (ps : List Bytes) (b : Bytes),
    (∀ c, c <+: b ++ ps.flatten → turn c = .leave ∨ ∃ body rest, turn c = .found body rest ∧ take body = none) →
    feed take (fuel + 1) b ps = some ([], b ++ ps.flatten) := by
  intro ps
  induction ps with
  | nil => intro b _; simp [feed]
  | cons p ps ih =>
    intro b h
    have hl : loop take (fuel + 1) (b ++ p) = some ([], b ++ p) := by
      rcases h (b ++ p) ⟨ps.flatten, by simp⟩ with e | ⟨body, rest, e, e2⟩
      · simp only [loop, e]
      · simp only [loop, e, e2]
    simp only [feed, hl]
    rw [ih (b ++ p) (by simpa using h)]
    simp

/-- C130, negation: data that does not begin with the length, for example because another header line comes first, is never
taken, and neither is anything that follows it. -/
theorem C130_blocked_negation {J : Type} (take : Bytes → Option J) (pieces : List Bytes) (fuel : Nat)
    (h : ¬ name <+: pieces.flatten) :
    feed take (fuel + 1) [] pieces = some ([], pieces.flatten) := by
  have := feed_stuck take fuel pieces [] (by
    intro c hc
    left
    rw [List.nil_append] at hc
    unfold turn
    rw [if_pos]
    intro e
    rw [indexOf_zero, ← name_eq] at e
    exact h (e.trans hc))
  simpa using this

/-- C130, negation: after a message that is not JSON the proxy takes nothing any more. -/
theorem C130_thrown_negation {J : Type} (parse : Bytes → Option J) (m : Msg) (hm : m.Proper) (hj : parse m.body = none)
    (pieces : List Bytes) (z w : Bytes) (h : pieces.flatten ++ z = m.sent ++ w) (fuel : Nat) :
    proxy parse (fuel + 1) pieces = some ([], pieces.flatten) := by
  have := feed_stuck parse fuel pieces [] (by
    intro c hc
    rw [List.nil_append] at hc
    obtain ⟨y, hy⟩ := hc
    rw [turn_part m hm c (y ++ z) w (by rw [← List.append_assoc, hy, h])]
    split
    · exact Or.inr ⟨_, _, rfl, hj⟩
    · exact Or.inl rfl)
  simpa [proxy] using this

/-- `Content-Length: x`, and an empty line. -/
def badLength : Bytes := label ++ [120, CR, LF, CR, LF]

/-- C130, witness: a length that is not a number keeps the server's event from ever ending. -/
theorem C130_witness_forever (fuel : Nat) : inputQueue fuel [badLength] = none := by
  have ht : turn badLength = .found [] badLength := by decide
  have hl : ∀ fuel, loop (some : Bytes → Option Bytes) fuel badLength = none := by
    intro fuel
    induction fuel with
    | zero => rfl
    | succ fuel ih => simp only [loop, ht, ih, Option.map_none]
  simp only [inputQueue, feed, List.nil_append, hl]

/-! ### Instances -/

/-- Two messages, the first one with another line in its header and with something like a header in its text. -/
def two : List Msg :=
  [{ more := [[88, 58, 49]], body := [123, CR, LF, CR, LF, 125] }, { body := [91, 93] }]

theorem two_proper : ∀ m ∈ two, m.Proper := by
  intro m hm
  simp only [two, List.mem_cons, List.not_mem_nil, or_false] at hm
  rcases hm with rfl | rfl
  · intro l hl
    simp at hl
    subst hl
    decide
  · intro l hl; simp at hl

/-- Cut in the middle of the label, of the length, of the line end and of the text. -/
def cuts : List Bytes :=
  let s := stream two
  [s.take 5, (s.drop 5).take 12, (s.drop 17).take 1, [], (s.drop 18).take 8, (s.drop 26).take 7, (s.drop 33).take 12]

example : inputQueue 3 cuts = some ([[123, CR, LF, CR, LF, 125]], (stream two).drop 32 |>.take 13) := by decide +kernel
example : cuts.flatten ++ (stream two).drop 45 = stream two := by decide +kernel
example : ∃ b, inputQueue 3 cuts = some (arrived two cuts.flatten.length, b) :=
  C130_server two two_proper cuts ((stream two).drop 45) (by decide +kernel) 3 (by decide)
example : arrived two cuts.flatten.length = [[123, CR, LF, CR, LF, 125]] := by decide +kernel
example : inputQueue 3 [stream two] = some ([[123, CR, LF, CR, LF, 125], [91, 93]], []) := by decide +kernel
/-- Only what starts with `[` is JSON. -/
def lists (b : Bytes) : Option Bytes := if b.head? = some 91 then some b else none
example : readAll lists 3 [[123, 125], [91, 93]] = [[91, 93]] := by decide +kernel
example : proxy lists 9 [stream two, stream two] = some ([], stream two ++ stream two) := by decide +kernel
example : ∃ b, proxy (some : Bytes → Option Bytes) 3 cuts = some ((arrived two cuts.flatten.length).filterMap some, b) :=
  C130_proxy_partial some two two_proper (by simp) cuts ((stream two).drop 45) (by decide +kernel) 3 (by decide)
example : ¬ name <+: [88, 58, 49, CR, LF] ++ stream two := by decide +kernel
example : inputQueue 9 [[88, 58, 49, CR, LF], stream two] = some ([], [88, 58, 49, CR, LF] ++ stream two) := by
  decide +kernel
example : inputQueue 3 [write [91], write [93]] = some ([[91], [93]], []) := by decide +kernel

end Verif.Pieces
