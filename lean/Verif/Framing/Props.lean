import Verif.Framing.Lemmas
/-!
C06, C07: the base protocol channel. `parse`/`dump` stand for the JSON library; the only assumption made on them is stated
in each theorem. `Frame` (Lemmas.lean) is a framed message with arbitrary extra header lines; `Frame.bytes` is its text on
the wire.
-/
namespace Verif.Framing

/-- What a reader must deliver for a sequence of frames: the parsed bodies, skipping empty bodies and bodies that are not
JSON. -/
def delivered {J : Type} (parse : Bytes → Option J) (fs : List Frame) : List J :=
  fs.filterMap (fun f => if f.body = [] then none else parse f.body)

/-- C07: for any sequence of frames (with any additional headers, including Content-Length headers without a number), empty
and unparsable bodies are skipped and every other message is delivered, in order, followed by the end of the stream. -/
theorem C07_bad_messages_skipped {J : Type} (parse : Bytes → Option J) (fs : List Frame)
    (hok : ∀ f ∈ fs, f.Ok) (hlim : ∀ f ∈ fs, f.body.length ≤ 2 ^ 30) (n : Nat) (hn : fs.length < n) :
    readAll parse n { rest := fs.flatMap Frame.bytes } = delivered parse fs := by
  induction fs generalizing n with
  | nil =>
    obtain ⟨m, rfl⟩ : ∃ m, n = m + 1 := ⟨n - 1, by omega⟩
    have h := read_empty parse
    simp only [List.flatMap_nil, readAll, delivered, List.filterMap_nil]
    rcases hr : read parse { rest := [] } with ⟨o, s⟩
    rw [hr] at h; simp only at h; subst h; rfl
  | cons f fs ih =>
    have hf := hok f (by simp)
    have hl := hlim f (by simp)
    have ih' := fun n hn => ih (fun g hg => hok g (by simp [hg])) (fun g hg => hlim g (by simp [hg])) n hn
    simp only [List.length_cons] at hn
    obtain ⟨m, rfl⟩ : ∃ m, n = m + 1 := ⟨n - 1, by omega⟩
    have step : ∀ x, read parse { rest := f.bytes ++ x } = _ := fun x => read_frame parse f hf hl x
    have skip : (read parse { rest := f.bytes ++ fs.flatMap Frame.bytes } = read parse { rest := fs.flatMap Frame.bytes }) →
        readAll parse (m + 1) { rest := f.bytes ++ fs.flatMap Frame.bytes } = delivered parse fs := by
      intro h
      have := ih' (m + 1) (by omega)
      simp only [readAll] at this ⊢
      rw [h]; exact this
    rw [List.flatMap_cons]
    by_cases h0 : f.body = []
    · have : delivered parse (f :: fs) = delivered parse fs := by simp [delivered, h0]
      rw [this]
      exact skip (by rw [step, if_pos h0])
    · cases hp : parse f.body with
      | none =>
        have : delivered parse (f :: fs) = delivered parse fs := by simp [delivered, h0, hp]
        rw [this]
        exact skip (by rw [step, if_neg h0, hp])
      | some j =>
        have : delivered parse (f :: fs) = j :: delivered parse fs := by simp [delivered, h0, hp]
        rw [this]
        simp only [readAll, step, if_neg h0, hp]
        rw [ih' m (by omega)]

/-- C06: whatever is written is read back: the messages of any sequence, in order, then the end of the stream. The JSON
library is assumed to parse what it dumps, never to dump an empty text, and messages are at most 1 GiB (the reader's
limit). -/
theorem C06_roundtrip {J : Type} (parse : Bytes → Option J) (dump : J → Bytes) (msgs : List J)
    (hparse : ∀ j ∈ msgs, parse (dump j) = some j) (hne : ∀ j ∈ msgs, dump j ≠ [])
    (hlim : ∀ j ∈ msgs, (dump j).length ≤ 2 ^ 30) (n : Nat) (hn : msgs.length < n) :
    readAll parse n { rest := msgs.flatMap (fun j => writeMessage (dump j)) } = msgs := by
  have h := C07_bad_messages_skipped parse (msgs.map (fun j => ({ body := dump j } : Frame)))
    (by
      intro f hf
      obtain ⟨j, hj, rfl⟩ := List.mem_map.mp hf
      refine ⟨by simp, by simp, ?_⟩
      have := hlim j hj
      exact Nat.lt_of_le_of_lt this (by decide))
    (by
      intro f hf
      obtain ⟨j, hj, rfl⟩ := List.mem_map.mp hf
      exact hlim j hj) n (by simpa using hn)
  have e1 : (msgs.map (fun j => ({ body := dump j } : Frame))).flatMap Frame.bytes =
      msgs.flatMap (fun j => writeMessage (dump j)) := by
    rw [List.flatMap_map]
    congr 1
    funext j
    simp [Frame.bytes, writeMessage, headerBytes]
  have e2 : delivered parse (msgs.map (fun j => ({ body := dump j } : Frame))) = msgs := by
    unfold delivered
    rw [List.filterMap_map]
    clear h e1 hn n hlim
    induction msgs with
    | nil => rfl
    | cons j ms ih =>
      rw [List.filterMap_cons]
      simp only [Function.comp, if_neg (hne j (by simp)), hparse j (by simp)]
      rw [← ih (fun x hx => hparse x (by simp [hx])) (fun x hx => hne x (by simp [hx]))]
      simp [ih (fun x hx => hparse x (by simp [hx])) (fun x hx => hne x (by simp [hx]))]
  rw [e1, e2] at h
  exact h

/-- The bound matters: a message over the limit is refused but its body is left in the stream, where it is read as headers
of the next message. Any message embedded at the start of an oversized body is therefore delivered as if the client had sent
it. -/
theorem C07_oversize_injection {J : Type} (parse : Bytes → Option J) (inner pad : Bytes) (j : J)
    (hin : inner ≠ []) (hj : parse inner = some j) (hinl : inner.length ≤ 2 ^ 30)
    (hbig : 2 ^ 30 < (writeMessage inner ++ pad).length) (hmax : (writeMessage inner ++ pad).length < 2 ^ 64) :
    (read parse { rest := writeMessage (writeMessage inner ++ pad) }).1 = some j := by
  have e0 : writeMessage (writeMessage inner ++ pad) = ({ body := writeMessage inner ++ pad } : Frame).bytes ++ [] := by
    simp [Frame.bytes, writeMessage, headerBytes]
  have e1 : writeMessage inner = ({ body := inner } : Frame).bytes := by simp [Frame.bytes, writeMessage, headerBytes]
  rw [e0, read_eq parse _ ⟨rfl, rfl⟩, readMessage_oversize { body := writeMessage inner ++ pad } ⟨by simp, by simp, hmax⟩ hbig]
  simp only [List.append_nil]
  rw [e1, read_frame parse { body := inner } ⟨by simp, by simp, Nat.lt_of_le_of_lt hinl (by decide)⟩ hinl]
  simp [hin, hj]

/-- Non-vacuity of `C07_bad_messages_skipped`: a frame with other headers and an unparsable Content-Length, a broken body and
a good one. "JSON" is here any text starting with `{`. -/
example : (∀ f ∈ [({ pre := [contentLength ++ [120], [65, 58, 49]], post := [[66]], body := [123, 13, 10, 125] } : Frame),
      { body := [120] }, { body := [] }, { body := [123, 10] }], f.Ok) ∧
    delivered (fun b => if b.head? = some 123 then some b else none)
      [({ pre := [contentLength ++ [120], [65, 58, 49]], post := [[66]], body := [123, 13, 10, 125] } : Frame),
      { body := [120] }, { body := [] }, { body := [123, 10] }] = [[123, 13, 10, 125], [123, 10]] := by
  refine ⟨?_, by decide⟩
  intro f hf
  simp only [List.mem_cons, List.not_mem_nil, or_false] at hf
  rcases hf with rfl | rfl | rfl | rfl <;> (refine ⟨by decide, by decide, by decide⟩)

/-- The wire format on a literal: `Content-Length: 12 CR LF CR LF` followed by the body. -/
example : writeMessage (List.replicate 12 97) = contentLength ++ [49, 50, 13, 10, 13, 10] ++ List.replicate 12 97 := by
  decide +kernel

end Verif.Framing
