import Verif.Client.Editor

/-!
# What the editing commands should do

`off` is the column of the continuation, counted from 0.
-/

namespace Verif.Client

/-- The line has a continuation character. -/
def HasContinuation (l : Text) (off : Nat) : Prop := ∃ c, l[off]? = some c ∧ c ≠ ' '

/-- The line without the characters from `lo` to `hi`, with blanks before the continuation for them. -/
def deleted (l : Text) (lo hi off : Nat) : Text :=
  l.take lo ++ (l.drop hi).take (off - hi) ++ List.replicate (hi - lo) ' ' ++ l.drop off

/-- The line without the characters from `lo` to `hi`; what is behind moves. -/
def erased (l : Text) (lo hi : Nat) : Text := l.take lo ++ l.drop hi

/-- The line with a text at `c` instead of as many characters before the continuation. -/
def typed (l : Text) (c : Nat) (t : Text) (off : Nat) : Text :=
  l.take c ++ t ++ (l.drop c).take (off - t.length - c) ++ l.drop off

/-- The line with a text at `c`; what is behind moves. -/
def inserted (l : Text) (c : Nat) (t : Text) : Text := l.take c ++ t ++ l.drop c

/-- At least `k` blanks are directly before the continuation, all behind the cursor. -/
def Room (l : Text) (c k off : Nat) : Prop := c + k ≤ off ∧ ∀ i, off - k ≤ i → i < off → l[i]? = some ' '

/-- The line filled with blanks up to the column of the continuation. -/
def padded (l : Text) (off : Nat) : Text := l ++ List.replicate (off - l.length) ' '

end Verif.Client
