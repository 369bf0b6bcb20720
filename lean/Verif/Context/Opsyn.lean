import Verif.Basic
/-!
Operation codes and OPSYN (context/hlasm_context.cpp 489-535, 647-701; processing/instruction_sets/asm_processor.cpp 453-494).
-/
namespace Verif.Context.Opsyn

/-- Names are identifiers of the storage; equality is that of C30. -/
abbrev Name := Nat

/-- What an operation name stands for: a macro definition, or an instruction of the built-in table
(`opcode_t`, context/operation_code.h; the variant over instruction kinds is one constructor). -/
inductive Meaning where
  | macro (definition : Nat)
  | instr (opcode : Name)
  deriving DecidableEq, Repr

/-- `opcode_mnemo_`, `macros_`, `instruction_map_` of `hlasm_context`. `some none` in `mnemo` is the empty `opcode_t` of a
removed mnemonic. -/
structure St where
  mnemo : Name → Option (Option Meaning) := fun _ => none
  macros : Name → Option Nat := fun _ => none
  instrs : Name → Bool := fun _ => false

def upd {α} (f : Name → α) (n : Name) (v : α) : Name → α := fun m => if m = n then v else f m

/-- The meaning from `macros_` and `instruction_map_` (hlasm_context.cpp 500-508, 527-532). -/
def St.builtin (s : St) (n : Name) : Option Meaning :=
  match s.macros n with
  | some d => some (.macro d)
  | none => if s.instrs n then some (.instr n) else none

/-- `get_operation_code` (hlasm_context.cpp 522-535). The canonical opcode of a macro is the written name and is not used for
calls (ordinary_processor.cpp 178-182), so the model keeps the definition only. -/
def St.code (s : St) (n : Name) : Option Meaning :=
  match s.mnemo n with
  | some m => m
  | none => s.builtin n

/-- `add_mnemonic` (hlasm_context.cpp 489-512); `none` is the exception. -/
def St.addMnemonic (s : St) (mnemo op : Name) : Option St :=
  match s.mnemo op with
  | some none => none
  | some (some m) => some { s with mnemo := upd s.mnemo mnemo (some (some m)) }
  | none =>
    match s.builtin op with
    | some m => some { s with mnemo := upd s.mnemo mnemo (some (some m)) }
    | none => none

/-- `is_opcode` (hlasm_context.cpp): a macro or an instruction has the name. -/
def St.isOpcode (s : St) (n : Name) : Bool := (s.builtin n).isSome

/-- `remove_mnemonic` (hlasm_context.cpp 514-520); `none` is the exception. -/
def St.removeMnemonic (s : St) (n : Name) : Option St :=
  if (s.mnemo n).isSome ∨ s.isOpcode n then some { s with mnemo := upd s.mnemo n (some none) } else none

inductive Op where
  /-- `label OPSYN operand`. -/
  | opsyn (label operand : Name)
  /-- `label OPSYN` without operand. -/
  | delete (label : Name)
  /-- the end of a macro definition -/
  | define (name : Name) (definition : Nat)
  deriving DecidableEq, Repr

/-- `process_OPSYN` (asm_processor.cpp 480-493) and `add_macro` (hlasm_context.cpp 667-685). `none` is an uncaught
exception. Diagnosed statements change nothing. -/
def St.step (s : St) : Op → Option St
  | .opsyn l o => if (s.code o).isSome then s.addMnemonic l o else some s
  | .delete l => if (s.code l).isSome then s.removeMnemonic l else some s
  | .define n d => some { s with macros := upd s.macros n (some d) }

def St.run (s : St) : List Op → Option St
  | [] => some s
  | op :: ops => (s.step op).bind fun s => s.run ops

/-- `get_macro_definition` (hlasm_context.cpp 689-704) as used by `enter_macro`. -/
def St.macroOf (s : St) (n : Name) : Option Nat :=
  match s.mnemo n with
  | some (some (.macro d)) => some d
  | _ => s.macros n

end Verif.Context.Opsyn
