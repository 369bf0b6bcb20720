import Verif.Ord.LocCtr
import Verif.Ord.Deps
import Verif.Circle.Spec
/-!
Assembling a program of one section from the first statement to the end: data with lengths, labels and `EQU` together
(processing/instruction_sets/asm_processor.cpp, context/ordinary_assembly/*, processing/statement_processors/ordinary_processor.cpp). The
location counter is that of `Verif.Ord.LocCtr`, expressions and what they depend on are those of `Verif.Ord.Symbol` and
`Verif.Ord.Deps`.

Left out: other sections and location counters, `ORG`, attributes (expressions have none, the attributes of symbols are fixed), the
postponed checks of statements, offsets beyond `int`.
-/
namespace Verif.Whole
open Verif.Ord

/-- Statements. -/
inductive Stmt where
  /-- `n EQU e` -/
  | equ (n : SymId) (e : MExpr)
  /-- `l DS (e)t` where `t` is a type of `u` bytes that is aligned to `al`; a machine instruction is such a statement too, with a constant. -/
  | data (l : Option SymId) (al : Al) (u : Nat) (e : MExpr)
  deriving DecidableEq, Repr

/-- `fill_location_counter` (mach_expr_term.cpp 50, 86, 104, 130, mach_operator.h 47-51, 88): `*` gets the address. -/
def fill (a : Addr) : MExpr → MExpr
  | .loc _ => .loc (some a)
  | .par e => .par (fill a e)
  | .neg e => .neg (fill a e)
  | .add l r => .add (fill a l) (fill a r)
  | .sub l r => .sub (fill a l) (fill a r)
  | .mul l r => .mul (fill a l) (fill a r)
  | .div l r => .div (fill a l) (fill a r)
  | e => e

/-- The context: location counter, symbols, and `symbol_dependency_tables::dependencies_` for symbols (`deps`) and for data of unknown
length (`gaps`: the space, the size of one item and the expression). The entries of alignments are the addresses kept in their spaces. -/
structure St where
  lc : LC
  tab : Table
  deps : List (SymId × MExpr)
  gaps : List (SpId × Nat × MExpr)

/-- A program begins (ordinary_assembly_context.cpp 33-37, location_counter.cpp 29-42). -/
def St.init : St := ⟨LC.init, fun _ => none, [], []⟩

/-- Whether a space is an alignment. -/
def isAlign (c : LC) (i : SpId) : Bool := match c.spaces[i]? with
  | some ⟨_, .alignment _, _⟩ => true
  | _ => false

def St.env (st : St) : Env := ⟨st.lc.heap, fun _ => false, isAlign st.lc⟩

/-- The unresolved alignments with the addresses they depend on (ordinary_assembly_context.cpp 254-261). -/
def aligns (c : LC) : List (SpId × SpSrc) := (List.range c.spaces.length).filterMap fun i =>
  match (c.spaces[i]? : Option Sp) with
  | some ⟨_, .alignment d, none⟩ => some (i, SpSrc.addr d)
  | _ => none

/-- The same state as the model of the tables sees it. -/
def St.sym (st : St) : SymSt :=
  ⟨st.env, st.tab, st.deps.map fun x => (.sym x.1, x.2), (st.gaps.map fun x => (x.1, .data [x.2.2])) ++ aligns st.lc⟩

/-- A symbol (symbol.h 64-84), with fixed attributes. -/
def mkSym (v : SVal) : Sym := ⟨v, 228, some 1, none, 0, false⟩

/-- The length of the data in bytes, `get_operands_length` (data_def_postponed_statement.h 46-64, data_definition_operand.h 61-89,
data_def_type_base.cpp 353-376): an operand with a negative factor does not pass its check and has no length, and neither has one that is too
long; `set_data_def_field` (data_definition.cpp 258-274) takes 0 for a factor that is not absolute. Bits, modifiers and several operands are
left out. -/
def byteLen (u : Nat) : SVal → Nat
  | .abs k => if 0 ≤ k ∧ u * k ≤ 2147483647 then u * k.toNat else 0
  | _ => 0

/-- How a step may end: with a state, with a message to the user (E031, E033), or in undefined behaviour. -/
inductive Out where
  | ok (st : St)
  | reported
  | crash

/-- `resolve(nullptr)` (symbol_dependency_tables.cpp 140-174): definitions that depend on nothing any more, in any order. -/
inductive Resolves : St → Out → Prop
  | stop {st} : (∀ n e, (n, e) ∈ st.deps → (e.collect st.env st.tab).extract st.env ≠ []) → Resolves st (.ok st)
  | step {st n e o} : (n, e) ∈ st.deps → (e.collect st.env st.tab).extract st.env = [] → e.resolve st.env.heap st.tab ≠ .ub →
      Resolves { st with tab := st.tab.set n (mkSym (e.resolve st.env.heap st.tab)), deps := st.deps.filter (·.1 ≠ n) } o → Resolves st o
  | crash {st n e} : (n, e) ∈ st.deps → (e.collect st.env st.tab).extract st.env = [] → e.resolve st.env.heap st.tab = .ub → Resolves st .crash

/-- `create_symbol` with a value (ordinary_assembly_context.cpp 39-56, low_language_processor.cpp 54-65): for a relocatable symbol the
lengths are searched for circles, which are reported (C128). -/
inductive Create (st : St) (n : SymId) (v : SVal) : Out → Prop
  | circle {a s} : v = .reloc a → Circle.Circular { st with tab := st.tab.set n (mkSym v) }.sym s → Create st n v .reported
  | fine {o} : (∀ a, v = .reloc a → ∀ s, ¬ Circle.Circular { st with tab := st.tab.set n (mkSym v) }.sym s) →
      Resolves { st with tab := st.tab.set n (mkSym v) } o → Create st n v o

/-- `process_EQU` (asm_processor.cpp 64-173); the address of `*` was filled in before (low_language_processor.cpp 112-128). -/
inductive Equ (st : St) (n : SymId) (e : MExpr) : Out → Prop
  | dup : st.tab n ≠ none → Equ st n e .reported
  | now {o} : st.tab n = none → (e.collect st.env st.tab).contains st.env = false → e.resolve st.env.heap st.tab ≠ .ub →
      Create st n (e.resolve st.env.heap st.tab) o → Equ st n e o
  | ub : st.tab n = none → (e.collect st.env st.tab).contains st.env = false → e.resolve st.env.heap st.tab = .ub → Equ st n e .crash
  | address {a o} : st.tab n = none → (e.collect st.env st.tab).contains st.env = true → (e.collect st.env st.tab).isAddress = true →
      (e.collect st.env st.tab).addr = some a → Create st n (.reloc a) o → Equ st n e o
  | later {fuel} : st.tab n = none → (e.collect st.env st.tab).contains st.env = true → (e.collect st.env st.tab).isAddress = false →
      { st with tab := st.tab.set n (mkSym .undef) }.sym.checkCycle (.sym n) fuel
        ((e.collect st.env (st.tab.set n (mkSym .undef))).extract st.env) = some true →
      Equ st n e (.ok { st with tab := st.tab.set n (mkSym .undef), deps := st.deps ++ [(n, e)] })
  | cyclic {fuel} : st.tab n = none → (e.collect st.env st.tab).contains st.env = true → (e.collect st.env st.tab).isAddress = false →
      { st with tab := st.tab.set n (mkSym .undef) }.sym.checkCycle (.sym n) fuel
        ((e.collect st.env (st.tab.set n (mkSym .undef))).extract st.env) = some false →
      Equ st n e .reported

/-- The address returned by the last reservation. -/
def lastAddr (c : LC) : Addr := (c.log.getLast?).getD ⟨[], 0, []⟩

/-- The label of a data statement (asm_processor.cpp 207-246), `a` being the address of the data. -/
inductive Label (st : St) (a : Addr) : Option SymId → Out → Prop
  | none : Label st a none (.ok st)
  | dup {n} : st.tab n ≠ Option.none → Label st a (some n) .reported
  | new {n o} : st.tab n = Option.none → Create st n (.reloc a) o → Label st a (some n) o

/-- The end of `process_data_instruction` (asm_processor.cpp 253-300): the storage is reserved, or a space registered that waits for the
length. `late` was found out before the label was defined. -/
def St.reserve (st : St) (late : Bool) (al : Al) (u : Nat) (e : MExpr) : St :=
  if late then { st with lc := st.lc.gap st.lc.spaces.length al, gaps := st.gaps ++ [(st.lc.spaces.length, u, e)] }
  else { st with lc := st.lc.reserve (byteLen u (e.eval st.env.heap st.tab)) ⟨0, 1⟩ }

/-- Whether the length of data has to wait (asm_processor.cpp 196-202, data_definition.cpp 60-66). -/
def St.late (st : St) (e : MExpr) : Bool := ((SpSrc.data [e]).collect st.env st.tab).contains st.env

/-- The counter is aligned; the address is returned to the statement (ordinary_assembly_context.cpp 212-217, 249-264). -/
def St.align (st : St) (al : Al) : St := { st with lc := st.lc.reserve 0 al }

/-- One statement. The address of `*` in `EQU` is that of a reservation of nothing (low_language_processor.cpp 119), in data that of the
aligned data (asm_processor.cpp 176-205). -/
inductive Exec (st : St) : Stmt → Out → Prop
  | equ {n e o} : Equ (st.align ⟨0, 1⟩) n (fill (lastAddr (st.align ⟨0, 1⟩).lc) e) o → Exec st (.equ n e) o
  | data {l al u e x st'} : x = fill (lastAddr (st.align al).lc) e → Label (st.align al) (lastAddr (st.align al).lc) l (.ok st') →
      ((st.align al).late x = true ∨ x.eval st'.env.heap st'.tab ≠ .ub) →
      Exec st (.data l al u e) (.ok (st'.reserve ((st.align al).late x) al u x))
  | dataUb {l al u e x st'} : x = fill (lastAddr (st.align al).lc) e → Label (st.align al) (lastAddr (st.align al).lc) l (.ok st') →
      (st.align al).late x = false → x.eval st'.env.heap st'.tab = .ub → Exec st (.data l al u e) .crash
  | dataReported {l al u e} : Label (st.align al) (lastAddr (st.align al).lc) l .reported → Exec st (.data l al u e) .reported
  | dataCrash {l al u e} : Label (st.align al) (lastAddr (st.align al).lc) l .crash → Exec st (.data l al u e) .crash

/-- The statements one after the other. -/
inductive Runs : St → List Stmt → Out → Prop
  | nil {st} : Runs st [] (.ok st)
  | cons {st s rest st' o} : Exec st s (.ok st') → Runs st' rest o → Runs st (s :: rest) o
  | reported {st s rest} : Exec st s .reported → Runs st (s :: rest) .reported
  | crash {st s rest} : Exec st s .crash → Runs st (s :: rest) .crash

/-- One round of `resolve` with a resolver (symbol_dependency_tables.cpp 64-111, 140-174): a definition, the length of data or an alignment
that depends on nothing any more. -/
inductive Round (st : St) : Out → Prop
  | sym {n e} : (n, e) ∈ st.deps → (e.collect st.env st.tab).extract st.env = [] → e.resolve st.env.heap st.tab ≠ .ub →
      Round st (.ok { st with tab := st.tab.set n (mkSym (e.resolve st.env.heap st.tab)), deps := st.deps.filter (·.1 ≠ n) })
  | symUb {n e} : (n, e) ∈ st.deps → (e.collect st.env st.tab).extract st.env = [] → e.resolve st.env.heap st.tab = .ub → Round st .crash
  | gap {i u e} : (i, u, e) ∈ st.gaps → ((SpSrc.data [e]).collect st.env st.tab).extract st.env = [] → e.eval st.env.heap st.tab ≠ .ub →
      Round st (.ok { st with lc := st.lc.step (.define i (byteLen u (e.eval st.env.heap st.tab))), gaps := st.gaps.filter (·.1 ≠ i) })
  | gapUb {i u e} : (i, u, e) ∈ st.gaps → ((SpSrc.data [e]).collect st.env st.tab).extract st.env = [] → e.eval st.env.heap st.tab = .ub →
      Round st .crash
  | align {i d} : (i, SpSrc.addr d) ∈ aligns st.lc → ((SpSrc.addr d).collect st.env st.tab).extract st.env = [] →
      Round st (.ok { st with lc := st.lc.step (.settle i) })

/-- `add_defined` at the end of the program (ordinary_processor.cpp 106-108): rounds until nothing is ready. -/
inductive Settles : St → Out → Prop
  | stop {st} : (∀ o, ¬ Round st o) → Settles st (.ok st)
  | step {st st' o} : Round st (.ok st') → Settles st' o → Settles st o
  | crash {st} : Round st .crash → Settles st .crash

/-- The whole program. What is left in the tables afterwards gets default values (ordinary_processor.cpp 112, not modelled);
`finish_module_layout` (ordinary_processor.cpp 110) has nothing to do for a single location counter. -/
inductive Assembles (prog : List Stmt) : Out → Prop
  | done {st o} : Runs St.init prog (.ok st) → Settles st o → Assembles prog o
  | reported : Runs St.init prog .reported → Assembles prog .reported
  | crash : Runs St.init prog .crash → Assembles prog .crash

/-- Nothing is left over for the default values. -/
def St.Finished (st : St) : Prop := st.deps = [] ∧ st.gaps = [] ∧ ∀ s ∈ st.lc.spaces, s.len ≠ none

end Verif.Whole
