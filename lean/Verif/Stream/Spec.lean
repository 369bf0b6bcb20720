import Verif.Stream.Model
/-!
What the stream is for: the parser has all tokens of the text before it and a place among them. It sees those that pass the filter as it is
switched at the moment.
-/
namespace Verif.Stream

/-- The text and the place in it. -/
structure Reader where
  all : List Tok
  pos : Nat
  cont : Bool
  hid : Bool

/-- The tokens from the place on that pass the filter, with their numbers. -/
def Reader.ahead (r : Reader) : List (Tok × Nat) := (r.all.zipIdx.drop r.pos).filter fun x => onChannel r.cont r.hid x.1

/-- The tokens before the place that pass the filter. -/
def Reader.behind (r : Reader) : List Tok := (r.all.take r.pos).filter (onChannel r.cont r.hid)

/-- What the reader does: looking shows the first token ahead, reading goes to the second, looking back shows the last but `k - 1` of those
behind. It is not asked to read the end of the text. -/
def Reader.step (r : Reader) : Op → Option (Reader × Ans)
  | .filter c h => some ({ r with cont := c, hid := h }, .nothing)
  | .look => r.ahead.head?.map fun x => (r, .tok x.1)
  | .read => (r.ahead[1]?).map fun x => ({ r with pos := x.2 }, .nothing)
  | .before 0 => some (r, .no)
  | .before (k + 1) => some (r, match r.behind.reverse[k]? with
    | none => .no
    | some t => .tok t)
  | .place => some (r, .at r.pos)
  | .goto i => some ({ r with pos := i }, .nothing)

def Reader.run (r : Reader) : List Op → Option (Reader × List Ans)
  | [] => some (r, [])
  | o :: os => match r.step o with
    | none => none
    | some (r, a) => (r.run os).map fun x => (x.1, a :: x.2)

/-- The places the parser may go to: those it has been at (`seen`), but not from a token that is filtered to the one behind it, and not to a
filtered token behind its place. -/
def Reader.Fair (r : Reader) (seen : Nat) : List Op → Prop
  | [] => True
  | o :: os =>
    (∀ i, o = .goto i → i ≤ seen ∧ (i = r.pos + 1 → ∀ t ∈ (r.all.drop r.pos).take 2, onChannel r.cont r.hid t = true)) ∧
    ∀ r' a, r.step o = some (r', a) → Reader.Fair r' (max seen r'.pos) os

/-- A text ends with the end of the text. -/
def Text (all : List Tok) : Prop := ∃ body e, all = body ++ [e] ∧ e.kind = .eof ∧ ∀ t ∈ body, t.kind ≠ .eof

/-- The reader at the beginning: at the first token that passes the filter. -/
def Reader.start (all : List Tok) (cont hid : Bool) : Reader :=
  ⟨all, ((Reader.mk all 0 cont hid).ahead.head?.map (·.2)).getD 0, cont, hid⟩

end Verif.Stream
