/-!
Model of the variable references the debugger hands to its client
(`/repo/parser_library/src/debugging/debugger.cpp:112-122, 188-191, 258-371`).

The requests are serialised by `variable_mtx_`, so a session is a sequence of requests and stops. What a variable is, whether
it is scalar and what its members are (macro_param_variable.cpp, set_symbol_variable.cpp, ordinary_symbol_variable.cpp,
attribute_variable.cpp) are parameters: they do not change while the program is stopped.
-/
namespace Verif.Debugger.Vars

/-- The interface `variable` (parser_library/src/debugging/variable.h:31-54), as far as references are concerned. -/
class Variable (V : Type) where
  /-- `is_scalar` -/
  scalar : V → Bool
  /-- `values` -/
  values : V → List V

open Variable

/-- What the scopes of one stack frame contain (debugger.cpp:306-340). -/
structure Frame (V : Type) where
  globals : List V
  locals : List V
  ordinary : List V

inductive Op (V : Type)
  /-- the program stops; the processing stack is copied (debugger.cpp:188-191) -/
  | stop (frames : List (Frame V))
  /-- `scopes` (debugger.cpp:295-350) -/
  | scopes (frame : Nat)
  /-- `variables` (debugger.cpp:352-371) -/
  | variables (ref : Nat)
  /-- the program ends (debugger.cpp:154) -/
  | ended

/-- The answer to a request. -/
inductive Reply (V : Type)
  | none
  | scopes (l : List (String × Nat))
  /-- the variables and their references, 0 for "no members" -/
  | vars (l : List (V × Nat))

/-- `size_t` has 64 bits. -/
def refMax : Nat := 2 ^ 64

structure St (V : Type) where
  frames : List (Frame V) := []
  /-- `variables_`, newest first -/
  store : List (Nat × List V) := []
  /-- `next_var_ref_` -/
  next : Nat := 1
  /-- `debug_ended_` -/
  over : Bool := false

variable {V : Type} [Variable V]

/-- `add_variable` (debugger.cpp:118-122). An entry of the same number is overwritten. -/
def St.add (st : St V) (vars : List V) : Nat × St V :=
  (st.next, { st with store := (st.next, vars) :: st.store.filter (fun p => p.1 != st.next), next := (st.next + 1) % refMax })

/-- `variables_.find` -/
def St.find (st : St V) (ref : Nat) : Option (List V) := (st.store.find? fun p => p.1 == ref).map (·.2)

/-- The loop of `variables` (debugger.cpp:362-368). -/
def St.members (st : St V) : List V → List (V × Nat) × St V
  | [] => ([], st)
  | v :: vs =>
    if scalar v then
      let p := st.members vs
      ((v, 0) :: p.1, p.2)
    else
      let q := st.add (values v)
      let p := q.2.members vs
      ((v, q.1) :: p.1, p.2)

/-- Inserting into the hash map makes it rehash at one of the sizes passed while the store grows from `n` by `k` entries. -/
def rehashed (rehash : Nat → Bool) (n k : Nat) : Bool := (List.range k).any fun i => rehash (n + i)

/-- One operation. `none` is undefined behaviour: `variables` uses its iterator after insertions (debugger.cpp:367, 370), and
a rehash invalidates iterators. Which insertions rehash is up to the library, `rehash n` says whether one into a map of `n`
entries does. -/
def St.step (rehash : Nat → Bool) (st : St V) : Op V → Option (Reply V × St V)
  | .stop frames => some (.none, { st with frames, store := [] })
  | .ended => some (.none, { st with over := true })
  | .scopes f =>
    if st.over then some (.scopes [], st)
    else match st.frames[f]? with
      | none => some (.scopes [], st)
      | some fr =>
        let a := st.add fr.globals
        let b := a.2.add fr.locals
        let c := b.2.add fr.ordinary
        some (.scopes [("Globals", a.1), ("Locals", b.1), ("Ordinary symbols", c.1)], c.2)
  | .variables ref =>
    if st.over then some (.vars [], st)
    else match st.find ref with
      | none => some (.vars [], st)
      | some vs =>
        if rehashed rehash st.store.length (vs.countP fun v => !scalar v) then none
        else let p := st.members vs; some (.vars p.1, p.2)

/-- A session: the operations with their answers, newest first, and the final state. -/
def run (rehash : Nat → Bool) : List (Op V) → Option (List (Op V × Reply V) × St V)
  | [] => some ([], {})
  | op :: earlier => (run rehash earlier).bind fun p => (p.2.step rehash op).map fun q => ((op, q.1) :: p.1, q.2)

/-! ### Specification -/

/-- The frames of the last stop. -/
def framesOf : List (Op V × Reply V) → List (Frame V)
  | [] => []
  | (.stop fs, _) :: _ => fs
  | _ :: r => framesOf r

/-- The references an answer hands out, each with what it stands for: a scope stands for the variables of its kind in the
frame asked for, a variable's reference for the members of the variable. -/
def handed (before : List (Op V × Reply V)) : Op V × Reply V → List (Nat × List V)
  | (.scopes f, .scopes l) =>
    match (framesOf before)[f]? with
    | none => l.map fun p => (p.2, [])
    | some fr => l.map fun p => (p.2,
        if p.1 = "Globals" then fr.globals else if p.1 = "Locals" then fr.locals
        else if p.1 = "Ordinary symbols" then fr.ordinary else [])
  | (_, .vars l) => (l.filter fun p => !scalar p.1).map fun p => (p.2, values p.1)
  | _ => []

/-- All references handed out in a session. -/
def handedAll : List (Op V × Reply V) → List (Nat × List V)
  | [] => []
  | e :: r => handed r e ++ handedAll r

/-- Those handed out since the last stop. -/
def handedNow : List (Op V × Reply V) → List (Nat × List V)
  | [] => []
  | (.stop _, _) :: _ => []
  | e :: r => handed r e ++ handedNow r

end Verif.Debugger.Vars
