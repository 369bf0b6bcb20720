import Verif.Lexing.LexerSpec
/-!
Specification of the source of records: what AREAD and the following statements get to see after AINSERT.
-/
namespace Verif.Lexing.Spec

/-- Cut or padded with blanks to 80 columns. -/
def card (l : List Nat) : List Nat := l.take 80 ++ List.replicate (80 - l.length) 32

/-- What there is to read: the inserted record that is already partly read as a statement (if any), the inserted records that wait,
the remaining lines of the file. -/
structure Source where
  cur : List (List Nat)
  recs : List (List Nat)
  lines : List (List Nat)

/-- What a program does: insert a record at the front or at the back, read a record, or go on reading the text as statements. -/
inductive Op where
  | insert (r : List Nat) (front : Bool)
  | read
  | token

/-- What an operation does and answers. The answer to a read is the record, or `none` at the end. Reading text as statements takes
records, then lines, in order. -/
inductive Source.Step : Source → Op → Option (Option (List Nat)) → Source → Prop
  | front (c rs ls r) : Step ⟨c, rs, ls⟩ (.insert r true) none ⟨c, r :: rs, ls⟩
  | back (c rs ls r) : Step ⟨c, rs, ls⟩ (.insert r false) none ⟨c, rs ++ [r], ls⟩
  | record (c rs ls r rs') : c ++ rs = r :: rs' → Step ⟨c, rs, ls⟩ .read (some (some (card r))) ⟨[], rs', ls⟩
  | line (l ls) : Step ⟨[], [], l :: ls⟩ .read (some (some (card (strip l)))) ⟨[], [], ls⟩
  | eof : Step ⟨[], [], []⟩ .read (some none) ⟨[], [], []⟩
  | token (c rs ls c' rs' k) : c' ++ rs' = (c ++ rs).drop k → c'.length ≤ 1 → rs' <:+ rs →
      Step ⟨c, rs, ls⟩ .token none ⟨c', rs', ls.drop (k - (c ++ rs).length)⟩

/-- Several operations. -/
inductive Source.Steps : Source → List Op → List (Option (Option (List Nat))) → Source → Prop
  | nil (a) : Steps a [] [] a
  | cons (a b c o os w ws) : Step a o w b → Steps b os ws c → Steps a (o :: os) (w :: ws) c

/-- The answers to insertions and reads alone, as a function of the records and lines that wait. -/
def answers : List (List Nat) → List (List Nat) → List Op → List (Option (Option (List Nat)))
  | _, _, [] => []
  | rs, ls, .insert r front :: os => none :: answers (if front then r :: rs else rs ++ [r]) ls os
  | r :: rs, ls, .read :: os => some (some (card r)) :: answers rs ls os
  | [], l :: ls, .read :: os => some (some (card (strip l))) :: answers [] ls os
  | [], [], .read :: os => some none :: answers [] [] os
  | rs, ls, .token :: os => none :: answers rs ls os

end Verif.Lexing.Spec
