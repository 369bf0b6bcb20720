import Verif.Basic
/-!
Model of the base protocol reader and writer, `/repo/language_server/src/base_protocol_channel.cpp`, on top of a model of
the three `std::istream` operations it uses. The stream is imbued with a locale in which only LF is white space
(`stream_helper.h:26-39`, `native_server_streams.cpp:47,72`).

Simplifications: logging is dropped; `badbit` (a failing device) is not modelled; reads block until data or end of
stream, so the stream is its complete future content.
-/
namespace Verif.Framing

def LF : UInt8 := 10
def CR : UInt8 := 13

/-- Bytes still to be read, and the stream state bits. -/
structure Stream where
  rest : Bytes
  eof : Bool := false
  fail : Bool := false
deriving DecidableEq, Repr

/-- Skipping of leading white space by the sentry of `operator>>`. -/
def skipNl : Bytes → Bytes
  | [] => []
  | c :: t => if c = LF then skipNl t else c :: t

/-- `input >> line` (`operator>>(istream&, string&)`): skip LFs, then read up to the next LF, which stays in the stream.
`none` when nothing could be extracted (`failbit` is set and `line` keeps its value). -/
def Stream.token (s : Stream) : Option Bytes × Stream :=
  if s.eof || s.fail then (none, { s with fail := true })
  else
    match skipNl s.rest with
    | [] => (none, { rest := [], eof := true, fail := true })
    | c :: t =>
      let l := c :: t
      let tok := l.takeWhile (· != LF)
      let rest := l.dropWhile (· != LF)
      (some tok, { rest := rest, eof := rest.isEmpty, fail := false })

/-- `input.ignore()`: drop one character. -/
def Stream.ignore (s : Stream) : Stream :=
  if s.eof || s.fail then { s with fail := true }
  else
    match s.rest with
    | [] => { s with eof := true }
    | _ :: t => { s with rest := t }

/-- The loop of `input.read` calls (base_protocol_channel.cpp:123-137): all `n` bytes, or `none` when the stream ends
before. -/
def Stream.readN (s : Stream) (n : Nat) : Option Bytes × Stream :=
  if s.eof || s.fail then (none, { s with fail := true })
  else if n ≤ s.rest.length then (some (s.rest.take n), { s with rest := s.rest.drop n })
  else (none, { rest := [], eof := true, fail := true })

/-- `"Content-Length: "` (base_protocol_channel.cpp:32). -/
def contentLength : Bytes := [67, 111, 110, 116, 101, 110, 116, 45, 76, 101, 110, 103, 116, 104, 58, 32]

/-- `message_size_limit` (base_protocol_channel.cpp:33). -/
def sizeLimit : Nat := 2 ^ 30

def isDigit (c : UInt8) : Bool := 48 ≤ c.toNat && c.toNat ≤ 57

/-- `std::from_chars` for `size_t`: the longest run of digits; `none` (value unchanged) when it is empty or too large. -/
def fromChars (l : Bytes) : Option Nat :=
  let ds := l.takeWhile isDigit
  if ds = [] then none
  else
    let v := ds.foldl (fun a d => a * 10 + (d.toNat - 48)) 0
    if v < 2 ^ 64 then some v else none

theorem skipNl_length (l : Bytes) : (skipNl l).length ≤ l.length := by
  induction l with
  | nil => simp [skipNl]
  | cons c t ih => simp only [skipNl]; split <;> simp <;> omega

theorem length_dropWhile_le {α} (p : α → Bool) (l : List α) : (l.dropWhile p).length ≤ l.length := by
  induction l with
  | nil => simp
  | cons c t ih => simp only [List.dropWhile]; split <;> simp <;> omega

theorem token_some_lt {s s' : Stream} {tok : Bytes} (h : s.token = (some tok, s')) : s'.rest.length < s.rest.length := by
  unfold Stream.token at h
  split at h
  · simp at h
  · split at h
    · simp at h
    · next c t hs =>
      simp only [Prod.mk.injEq, Option.some.injEq] at h
      obtain ⟨_, rfl⟩ := h
      have h1 := skipNl_length s.rest
      rw [hs] at h1
      simp only
      have hc : c ≠ LF := by
        intro hc
        have : ∀ l : Bytes, ∀ c t, skipNl l = c :: t → c ≠ LF := by
          intro l
          induction l with
          | nil => intro c t h; simp [skipNl] at h
          | cons a l ih =>
            intro c t h
            simp only [skipNl] at h
            split at h
            · exact ih c t h
            · next hne => simp at h; rw [← h.1]; exact hne
        exact this _ _ _ hs hc
      have h2 := length_dropWhile_le (fun c : UInt8 => c != LF) t
      simp only [List.dropWhile, bne_iff_ne, ne_eq, hc, not_false_eq_true, decide_true]
      simp at h1 ⊢
      have : (c != LF) = true := by simpa using hc
      simp only [this]
      omega

/-- The header loop of `read_message` (base_protocol_channel.cpp:61-108) with `content_length = cl`; `none` is
`return false`, `some n` leaves the loop with `content_length = n`. When the extraction fails, `line` keeps its previous
value, which is not `"\r"` (that would have left the loop); the next iteration returns `false`. -/
def headerLoop (s : Stream) (cl : Nat) : Option Nat × Stream :=
  if s.eof || s.fail then (none, s)
  else
    match _h : s.token with
    | (none, s') => (none, s')
    | (some line, s') =>
      if contentLength.isPrefixOf line then
        headerLoop s' ((fromChars (line.drop contentLength.length)).getD cl)
      else if line = [CR] then (some cl, s'.ignore)
      else headerLoop s' cl
termination_by s.rest.length
decreasing_by
  all_goals exact token_some_lt _h

/-- `read_message` (base_protocol_channel.cpp:57-140). -/
def readMessage (s : Stream) : Option Bytes × Stream :=
  match headerLoop s 0 with
  | (none, s') => (none, s')
  | (some cl, s') =>
    if cl > sizeLimit then (none, s')
    else if cl = 0 then (none, s')
    else s'.readN cl

/-- `read` (base_protocol_channel.cpp:142-173): `parse` is `nlohmann::json::parse` (`none` = exception). The number of
iterations is bounded by `fuel`; `read` below gives enough (see `readFuel_enough`). -/
def readFuel {J : Type} (parse : Bytes → Option J) : Nat → Stream → Option J × Stream
  | 0, s => (none, s)
  | fuel + 1, s =>
    if s.fail then (none, s)
    else if s.eof then (none, s)
    else
      match readMessage s with
      | (some body, s') =>
        match parse body with
        | some j => (some j, s')
        | none => readFuel parse fuel s'
      | (none, s') => readFuel parse fuel s'

/-- `read` (base_protocol_channel.cpp:142-173). -/
def read {J : Type} (parse : Bytes → Option J) (s : Stream) : Option J × Stream :=
  readFuel parse (s.rest.length + 2) s

/-- Decimal digits of a number, least significant last (`std::to_string`). -/
def decimal (n : Nat) : Bytes :=
  if n < 10 then [UInt8.ofNat (48 + n)]
  else decimal (n / 10) ++ [UInt8.ofNat (48 + n % 10)]
termination_by n
decreasing_by omega

/-- `write_message` (base_protocol_channel.cpp:36-51): the bytes appended to the output. The write mutex makes it atomic. -/
def writeMessage (body : Bytes) : Bytes :=
  contentLength ++ decimal body.length ++ [CR, LF, CR, LF] ++ body

/-- All messages a client of the channel obtains by calling `read` until it reports the end (at most `fuel` messages). -/
def readAll {J : Type} (parse : Bytes → Option J) : Nat → Stream → List J
  | 0, _ => []
  | fuel + 1, s =>
    match read parse s with
    | (none, _) => []
    | (some j, s') => j :: readAll parse fuel s'

end Verif.Framing
