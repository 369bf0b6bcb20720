import Verif.Basic
/-!
The cache of parsed statements of macros and COPY members (processing/statement_providers/members_statement_provider.cpp 83-123,
context/statement_cache.cpp).
-/
namespace Verif.Processing.Cache

/-- `processing_form` (processing/processing_format.h). -/
inductive Form where
  | unknown | ignored | ca | mac | asm | mach | dat | deferred
  deriving DecidableEq, Repr

/-- `processing_status`: format and operation code; `absent` is `operand_occurence::ABSENT`. -/
structure Status where
  form : Form
  absent : Bool
  opcode : Nat
  deriving DecidableEq, Repr

/-- Parsed operand fields are kept abstract: the result of `parse_operand_field` for the text of the statement is a function of the
status. `none` is the empty operand list of lines 92-95. -/
abbrev Parse := Status → Nat

abbrev Ops := Option Nat

/-- The operands computed by `fill_cache` (members_statement_provider.cpp 83-107). -/
def parseFor (parse : Parse) (st : Status) : Ops :=
  if st.absent || st.form = .unknown || st.form = .ignored then none else some (parse st)

/-- `statement_cache::get` and `contains` (statement_cache.cpp 25-44). -/
def lookup (cache : List (Form × Ops)) (f : Form) : Option Ops := (cache.find? (·.1 = f)).map (·.2)

/-- `preprocess_deferred` (members_statement_provider.cpp 109-123): the new cache and the operands the processor gets; `none` when the
statement stays deferred. -/
def preprocess (parse : Parse) (cache : List (Form × Ops)) (st : Status) : List (Form × Ops) × Option Ops :=
  if st.form = .deferred then (cache, none)
  else
    match lookup cache st.form with
    | some ops => (cache, some ops)
    | none => (cache ++ [(st.form, parseFor parse st)], some (parseFor parse st))

/-- The cache after processing the statement with the given statuses, for instance in the iterations of a loop or in several calls of
the macro. -/
def after (parse : Parse) (cache : List (Form × Ops)) : List Status → List (Form × Ops)
  | [] => cache
  | st :: sts => after parse (preprocess parse cache st).1 sts

end Verif.Processing.Cache
