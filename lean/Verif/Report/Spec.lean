import Verif.Report.Model
/-!
C136: the mistakes in expressions, and what should be reported.
-/
namespace Verif.Report

/-- Expressions as they are written, without containers. -/
inductive Syn (V : Type) where
  | leaf (rng : Nat) (t : Term V)
  | bin (rng : Nat) (op : Op) (l r : Syn V)
  | un (rng : Nat) (s : Sign) (e : Syn V)

/-- As the parser builds it: nothing in the containers. -/
def Syn.fresh : Syn V → Expr V
  | .leaf r t => .leaf [] r t
  | .bin r op a b => .bin [] r op a.fresh b.fresh
  | .un r s a => .un [] r s a.fresh

/-- The value of an expression. -/
def Syn.value (w : World V) : Syn V → V
  | .leaf _ (.const v) => v
  | .leaf _ (.loctr v) => v
  | .leaf _ .none => w.undef
  | .leaf _ (.sym n) => w.sym n
  | .leaf _ (.attr k n) => (w.attr k n).1
  | .bin _ .add a b => w.add (a.value w) (b.value w)
  | .bin _ .sub a b => w.sub (a.value w) (b.value w)
  | .bin _ .mul a b => w.mul (a.value w) (b.value w)
  | .bin _ .div a b => w.div (a.value w) (b.value w)
  | .un _ .minus a => w.neg (a.value w)
  | .un _ _ a => a.value w

/-- One of two defined values is an address. -/
def Address (w : World V) (a b : V) : Prop := w.kind a ≠ .undef ∧ w.kind b ≠ .undef ∧ (w.kind a = .reloc ∨ w.kind b = .reloc)

instance (w : World V) (a b : V) : Decidable (Address w a b) := by unfold Address; infer_instance

/-- The mistakes: multiplications and divisions with addresses, and scale and integer attributes of symbols that have none. -/
def Syn.mistakes (w : World V) : Syn V → List Msg
  | .leaf r (.attr k n) => if (w.attr k n).2 then [⟨.W011, r⟩] else []
  | .leaf _ _ => []
  | .bin r op a b => (if (op = .mul ∨ op = .div) ∧ Address w (a.value w) (b.value w) then [⟨.ME002, r⟩] else []) ++ a.mistakes w ++ b.mistakes w
  | .un _ _ a => a.mistakes w

/-- An unknown symbol in the expression. -/
def Syn.waits (w : World V) : Syn V → Bool
  | .leaf _ t => w.unknown t
  | .bin _ _ a b => a.waits w || b.waits w
  | .un _ _ a => a.waits w

/-- Operands as they are written: one expression, an address of up to three, nothing, a pair of USING, a text, a data definition with the
expressions of its modifiers and values. -/
inductive Written (V : Type) where
  | empty
  | mach (e : Syn V)
  | addr (d : Syn V) (x b : Option (Syn V))
  | asm (e : Syn V)
  | base (a b : Syn V)
  | data (mods : List (Syn V)) (vals : List (Syn V ⊕ Syn V × Syn V))
  | other

def nominal : Syn V ⊕ Syn V × Syn V → Nominal V
  | .inl e => .expr e.fresh
  | .inr (d, b) => .addr d.fresh b.fresh

def parts : Syn V ⊕ Syn V × Syn V → List (Syn V)
  | .inl e => [e]
  | .inr (d, b) => [d, b]

def Written.operand : Written V → Operand V
  | .empty => .empty
  | .mach e => .mach [] e.fresh
  | .addr d x b => .addr [] d.fresh (x.map Syn.fresh) (b.map Syn.fresh)
  | .asm e => .asm [] e.fresh
  | .base a b => .base [] a.fresh b.fresh
  | .data ms vs => .data [] (ms.map Syn.fresh) (vs.map nominal)
  | .other => .other []

/-- The expressions of an operand. -/
def Written.exprs : Written V → List (Syn V)
  | .empty => []
  | .mach e => [e]
  | .addr d x b => d :: (x.toList ++ b.toList)
  | .asm e => [e]
  | .base a b => [a, b]
  | .data ms vs => ms ++ vs.flatMap parts
  | .other => []

/-- Neither a pair of USING nor a data definition. -/
def Written.Plain : Written V → Prop
  | .base _ _ => False
  | .data _ _ => False
  | _ => True

/-- A data definition. -/
def Written.Data : Written V → Prop
  | .data _ _ => True
  | _ => False

/-- All mistakes in the operands. -/
def mistakes (w : World V) (ops : List (Nat × Written V)) : List Msg := ops.flatMap fun o => o.2.exprs.flatMap (Syn.mistakes w)

/-- No symbol in the operands is unknown. -/
def Known (w : World V) (ops : List (Nat × Written V)) : Prop := ∀ o ∈ ops, ∀ e ∈ o.2.exprs, e.waits w = false

/-- The operands as the parser builds them. -/
def built (ops : List (Nat × Written V)) : List (Nat × Operand V) := ops.map fun o => (o.1, o.2.operand)

/-- The length or type of EQU as it is written: nothing, or an expression. -/
def second : Option (Syn V) → Operand V
  | none => .empty
  | some e => .asm [] e.fresh

/-- What should be said about it: that it must be known here and in range. -/
def complaint (w : World V) (code : Code) (ok : V → Bool) (r : Nat) : Option (Syn V) → List Msg
  | none => []
  | some e => if e.waits w = false ∧ ok (e.value w) = true then [] else [⟨code, r⟩]

/-- The times at which it is computed: here, if it is known here, and at the end. -/
def times (now later : World V) (e : Syn V) : List (World V) := if e.waits now then [later] else [now, later]

/-! ### Publishing -/

mutual
/-- All messages that an object and those below it have. -/
def Tree.all : Tree → List Msg
  | .node _ own kids every => own ++ Tree.alls kids ++ every
def Tree.alls : List Tree → List Msg
  | [] => []
  | t :: ts => t.all ++ Tree.alls ts
end

/-- What the user should see: the messages of all analysed files, of all libraries, and about all configurations. -/
def Server.messages (s : Server) : List Msg := s.files.flatten ++ s.spaces.flatMap fun p => (p.1.map List.flatten).flatten ++ p.2

end Verif.Report
