import Verif.Ord.Symbol
/-!
Symbol dependencies: what an expression still depends on, cycle detection, resolution, and the statements that define symbols
(context/ordinary_assembly/dependency_collector.cpp, symbol_dependency_tables.cpp, ordinary_assembly_context.cpp,
processing/instruction_sets/asm_processor.cpp).

Left out: source statements and their reference counts, diagnostics. The spaces of the location counters are part of the environment:
during `resolve(nullptr)` they do not change.
-/
namespace Verif.Ord

/-- `dependant` (dependant.h 35). -/
inductive Dep where
  | sym (n : SymId)
  | attr (k : AttrKind) (n : SymId)
  | space (s : SpId)
  deriving DecidableEq, Repr

/-- The spaces of all location counters at one moment: `unknown` are those of kind `LOCTR_UNKNOWN`, `stop` those of the kinds `ALIGNMENT`,
`LOCTR_SET` and `LOCTR_MAX`. -/
structure Env where
  heap : Heap
  unknown : SpId → Bool
  stop : SpId → Bool

/-- `dependency_collector` (dependency_collector.h 27-64); sets are lists without repetition, the order of the sets is not modelled. -/
structure Coll where
  err : Bool
  addr : Option Addr
  syms : List SymId
  attrs : List (AttrKind × SymId)
  spaces : List SpId
  deriving DecidableEq, Repr

/-- `set::insert` of a range. -/
def addAll {α : Type} [DecidableEq α] (l r : List α) : List α := r.foldl (fun acc x => if x ∈ acc then acc else acc ++ [x]) l

/-- The constructors (dependency_collector.cpp 21-23). -/
def Coll.none : Coll := ⟨false, .none, [], [], []⟩
/-- dependency_collector.cpp 21-23 with `true`. -/
def Coll.error : Coll := ⟨true, .none, [], [], []⟩
/-- dependency_collector.cpp 25-29. -/
def Coll.ofSym (n : SymId) : Coll := ⟨false, .none, [n], [], []⟩
/-- dependency_collector.cpp 38-42. -/
def Coll.ofAttr (k : AttrKind) (n : SymId) : Coll := ⟨false, .none, [], [(k, n)], []⟩
/-- dependency_collector.cpp 31-36 with `normalize` (address.cpp 356-368). -/
def Coll.ofAddr (E : Env) (a : Addr) : Coll := ⟨false, some ⟨a.bases, a.offset E.heap, a.norm E.heap⟩, [], [], []⟩

/-- `is_address` (dependency_collector.cpp 58-61). -/
def Coll.isAddress (c : Coll) : Bool := c.syms.isEmpty && (match c.addr with
  | .none => false
  | some a => !a.bases.isEmpty)

/-- `contains_dependencies` (dependency_collector.cpp 63-67). -/
def Coll.contains (E : Env) (c : Coll) : Bool := !c.syms.isEmpty || !c.attrs.isEmpty || !c.spaces.isEmpty || (match c.addr with
  | .none => false
  | some a => a.pending E.heap)

/-- `merge_undef` (dependency_collector.cpp 69-83): the collector afterwards; it returns `mergeDone`. -/
def Coll.mergeUndef (c h : Coll) : Coll :=
  if h.err then { c with err := true }
  else { c with err := false, syms := addAll c.syms h.syms, attrs := addAll c.attrs h.attrs, spaces := addAll c.spaces h.spaces }

/-- The result of `merge_undef` (dependency_collector.cpp 73-74, 82). -/
def Coll.mergeDone (c h : Coll) : Bool := h.err || !(addAll c.syms h.syms).isEmpty

/-- `adjust_address` (dependency_collector.cpp 133-141); the order left by `std::partition` is not modelled. -/
def adjust (E : Env) (a : Addr) : Addr := if a.spaces.any (fun e => E.unknown e.1) then { a with spaces := a.spaces.filter fun e => E.unknown e.1 } else a

/-- The address after adding or subtracting (dependency_collector.cpp 92-106). -/
def joinAddr (E : Env) (op : AOp) : Option Addr → Option Addr → Option Addr
  | some a, some b => some (adjust E (match op with
    | .add => a.add E.heap b
    | .sub => a.sub E.heap b))
  | .none, some b => some (match op with
    | .add => b
    | .sub => b.neg E.heap)
  | a, .none => a

/-- `add_sub` (dependency_collector.cpp 85-109). -/
def Coll.addSub (E : Env) (op : AOp) (c h : Coll) : Coll :=
  if c.mergeDone h then c.mergeUndef h else { c.mergeUndef h with addr := joinAddr E op c.addr h.addr }

/-- The spaces of an optional address. -/
def spacesOf : Option Addr → List SpId
  | .none => []
  | some a => a.spaces.map (·.1)

/-- `div_mul` (dependency_collector.cpp 111-131). -/
def Coll.divMul (c h : Coll) : Coll :=
  if c.mergeDone h then c.mergeUndef h
  else if (c.mergeUndef h).isAddress || h.isAddress then { c.mergeUndef h with err := true }
  else { c.mergeUndef h with spaces := addAll (addAll (c.mergeUndef h).spaces (spacesOf c.addr)) (spacesOf h.addr) }

/-- `get_dependencies` (mach_expr_term.cpp 43-46, 65-75, 97-100, 114-120, 140-143, 163-173, mach_operator.h 190-230). -/
def MExpr.collect (E : Env) (T : Table) : MExpr → Coll
  | .const _ => .none
  | .sym n => match T.value n with
    | .undef => .ofSym n
    | .reloc a => .ofAddr E a
    | _ => .none
  | .attr k n => match T n with
    | .none => .ofAttr k n
    | some s => if s.hasAttr k then .none else .ofAttr k n
  | .loc (some a) => .ofAddr E a
  | .loc .none => .error
  | .dflt => .none
  | .par e => e.collect E T
  | .neg e => Coll.none.addSub E .sub (e.collect E T)
  | .add l r => (l.collect E T).addSub E .add (r.collect E T)
  | .sub l r => (l.collect E T).addSub E .sub (r.collect E T)
  | .mul l r => (l.collect E T).divMul (r.collect E T)
  | .div l r => (l.collect E T).divMul (r.collect E T)

/-- `extract_dependencies` (symbol_dependency_tables.cpp 176-207). -/
def Coll.extract (E : Env) (c : Coll) : List Dep :=
  if c.syms ≠ [] then c.syms.map .sym
  else if c.spaces ≠ [] then c.spaces.map .space
  else c.attrs.map (fun x => .attr x.1 x.2) ++ (match c.addr with
    | .none => []
    | some a => (a.norm E.heap).map fun e => .space e.1)

/-- What the length of a space depends on: a data statement with the expressions of its lengths and duplication factors
(data_def_postponed_statement.h 34-44, data_definition.cpp 60-66), an address (`address_resolver`, address_resolver.cpp 28-53) or the
operand of `ORG` (`alignable_address_abs_part_resolver`, address_resolver.cpp 84-89). -/
inductive SpSrc where
  | data (es : List MExpr)
  | addr (a : Addr)
  | org (e : MExpr)
  deriving DecidableEq, Repr

/-- The spaces of `extract_dep_address` (address_resolver.cpp 41-53): from the last one to the first that stops the search. -/
def uptoStop (E : Env) : List (SpId × Int) → List (SpId × Int)
  | [] => []
  | e :: l => if E.stop e.1 then [e] else e :: uptoStop E l

/-- `get_dependencies` of these (see there). -/
def SpSrc.collect (E : Env) (T : Table) : SpSrc → Coll
  | .data es => es.foldl (fun c e => c.addSub E .add (e.collect E T)) .none
  | .addr a => ⟨false, some ⟨[(.none, 1)], 0, uptoStop E (a.norm E.heap).reverse⟩, [], [], []⟩
  | .org e => { e.collect E T with addr := .none }

/-- The symbols and `symbol_dependency_tables` (symbol_dependency_tables.h 46-58). The entries for symbols and attributes are kept apart from
those for spaces. -/
structure SymSt where
  env : Env
  tab : Table
  deps : List (Dep × MExpr)
  sps : List (SpId × SpSrc)

/-- `extract_dependencies(dependencies_.find(d))` (symbol_dependency_tables.cpp 45-50); `none` when there is no entry. -/
def SymSt.out (st : SymSt) : Dep → Option (List Dep)
  | .space s => (st.sps.find? (·.1 = s)).map fun x => (x.2.collect st.env st.tab).extract st.env
  | d => (st.deps.find? (·.1 = d)).map fun x => (x.2.collect st.env st.tab).extract st.env

/-- The loop of `check_cycle` (symbol_dependency_tables.cpp 38-61); the head of the list is the back of the vector. `none`: more than
`fuel` rounds. -/
def SymSt.checkLoop (st : SymSt) (target : Dep) : Nat → List Dep → Option Bool
  | _, [] => some true
  | 0, _ :: _ => none
  | fuel + 1, d :: ds => match st.out d with
    | none => st.checkLoop target fuel ds
    | some xs => if target ∈ xs then some false else st.checkLoop target fuel (xs.reverse ++ ds)

/-- `check_cycle` (symbol_dependency_tables.cpp 29-62) without giving the target its default value. -/
def SymSt.checkCycle (st : SymSt) (target : Dep) (fuel : Nat) (deps : List Dep) : Option Bool :=
  if target ∈ deps then some false else st.checkLoop target fuel deps.reverse

/-- Changes one symbol. -/
def Table.set (T : Table) (n : SymId) (s : Sym) : Table := fun m => if m = n then some s else T m

/-- `set_length` and `set_scale` (symbol.cpp 168-170, symbol_attributes.cpp 134-142), `set_value` (symbol.cpp 157-166); `none`: an exception
or a null pointer. Other attributes are never targets. -/
def Table.assign (T : Table) (d : Dep) (v : SVal) (av : Int) : Option Table := match d with
  | .sym n => match T n with
    | none => none
    | some s => if v = .undef ∨ s.val ≠ .undef then none else some (T.set n { s with val := v })
  | .attr .L n => match T n with
    | none => none
    | some s => if s.len.isSome then none else some (T.set n { s with len := toLen av })
  | .attr .S n => match T n with
    | none => none
    | some s => if s.scale.isSome then none else some (T.set n { s with scale := toScale av })
  | .attr _ n => (T n).map fun _ => T
  | .space _ => none

/-- The value an attribute gets (symbol_dependency_tables.cpp 78-80). -/
def Dep.attrVal (d : Dep) (v : SVal) : Int := match v, d with
  | .abs x, _ => x
  | _, .attr k _ => k.dflt
  | _, _ => 0

/-- `resolve_dependant` for symbols and attributes and the removal of the entry (symbol_dependency_tables.cpp 64-111, 156-170). `none`: an
exception, a null pointer or undefined behaviour of the evaluation. -/
def SymSt.fire (st : SymSt) (d : Dep) (e : MExpr) : Option SymSt :=
  if e.resolve st.env.heap st.tab = .ub then none
  else (st.tab.assign d (e.resolve st.env.heap st.tab) (d.attrVal (e.resolve st.env.heap st.tab))).map fun T =>
    { st with tab := T, deps := st.deps.filter (·.1 ≠ d) }

/-- `resolve_dependant_default` for symbols and attributes (symbol_dependency_tables.cpp 113-138). -/
def Table.assignDefault (T : Table) (d : Dep) : Option Table := match d with
  | .sym _ => T.assign d (.abs 0) 0
  | .attr .L _ => T.assign d .undef 1
  | _ => T.assign d .undef 0

/-- An entry `resolve` may pick (symbol_dependency_tables.cpp 148-154). -/
def SymSt.Ready (st : SymSt) (d : Dep) (e : MExpr) : Prop := (d, e) ∈ st.deps ∧ (e.collect st.env st.tab).extract st.env = []

/-- `crash`: an exception nothing catches, a null pointer or undefined behaviour; the analysis and the server end. -/
inductive Outcome (α : Type) where
  | ok (a : α)
  | crash

/-- `resolve(nullptr)` (symbol_dependency_tables.cpp 140-174): in each round any ready entry may come first, the order of an
`unordered_map` is unspecified. -/
inductive Resolves : SymSt → Outcome SymSt → Prop
  | stop {st} : (∀ d e, ¬ st.Ready d e) → Resolves st (.ok st)
  | step {st d e st' o} : st.Ready d e → st.fire d e = some st' → Resolves st' o → Resolves st o
  | crash {st d e} : st.Ready d e → st.fire d e = none → Resolves st .crash

/-- `add_dependency` with the check for cycles (symbol_dependency_tables.cpp 246-268). A check that does not end has no outcome. -/
inductive AddDep (st : SymSt) (t : Dep) (e : MExpr) : Outcome (Bool × SymSt) → Prop
  | present : t ∈ st.deps.map (·.1) → AddDep st t e .crash
  | added {fuel} : t ∉ st.deps.map (·.1) → st.checkCycle t fuel ((e.collect st.env st.tab).extract st.env) = some true →
      AddDep st t e (.ok (true, { st with deps := st.deps ++ [(t, e)] }))
  | cyclic {fuel T st'} : t ∉ st.deps.map (·.1) → st.checkCycle t fuel ((e.collect st.env st.tab).extract st.env) = some false →
      st.tab.assignDefault t = some T → Resolves { st with tab := T } (.ok st') → AddDep st t e (.ok (false, st'))
  | cyclicCrash {fuel T} : t ∉ st.deps.map (·.1) → st.checkCycle t fuel ((e.collect st.env st.tab).extract st.env) = some false →
      st.tab.assignDefault t = some T → Resolves { st with tab := T } .crash → AddDep st t e .crash
  | defined {fuel} : t ∉ st.deps.map (·.1) → st.checkCycle t fuel ((e.collect st.env st.tab).extract st.env) = some false →
      st.tab.assignDefault t = none → AddDep st t e .crash

/-- `create_symbol` (ordinary_assembly_context.cpp 39-56). The check of the location counters made for relocatable symbols may change
spaces only: any `env` and `sps`. -/
inductive Create (st : SymSt) (n : SymId) (s : Sym) : Outcome SymSt → Prop
  | inUse : st.tab n ≠ none → Create st n s .crash
  | pending : st.tab n = none → s.val = .undef → Create st n s (.ok { st with tab := st.tab.set n s })
  | defined {o env sps} : st.tab n = none → s.val ≠ .undef → ((∀ a, s.val ≠ .reloc a) → env = st.env ∧ sps = st.sps) →
      Resolves { st with tab := st.tab.set n s, env := env, sps := sps } o → Create st n s o

/-- Statements that touch symbols. -/
inductive SymStmt where
  /-- `EQU` with the attributes of the symbol already determined (asm_processor.cpp 64-173) -/
  | equ (n : SymId) (s : Sym) (e : MExpr)
  /-- a label of a machine instruction, section or `ORG` (asm_processor.cpp 356-371, mach_processor.cpp 46-62) -/
  | label (n : SymId) (s : Sym)
  /-- `EXTRN` (asm_processor.cpp 324-342), which does not look whether the symbol exists -/
  | extrn (n : SymId) (s : Sym)
  /-- labelled `DC`, `DS` with the expressions of the length and scale modifiers (asm_processor.cpp 176-298) -/
  | data (n : SymId) (s : Sym) (len scale : Option MExpr)
  /-- anything the location counters do: spaces are registered, resolved and removed -/
  | layout (env : Env) (sps : List (SpId × SpSrc))

/-- Whether a modifier still has dependencies (asm_processor.cpp 225-231, 274-279). -/
def pendingMod (st : SymSt) : Option MExpr → Bool
  | none => false
  | some e => (e.collect st.env st.tab).contains st.env

/-- Adding the dependency of an attribute when its modifier is pending (asm_processor.cpp 274-280). -/
inductive AddMod (st : SymSt) (t : Dep) (e : Option MExpr) : Outcome SymSt → Prop
  | skip : pendingMod st e = false → AddMod st t e (.ok st)
  | add {x b st'} : e = some x → pendingMod st e = true → AddDep st t x (.ok (b, st')) → AddMod st t e (.ok st')
  | crash {x} : e = some x → pendingMod st e = true → AddDep st t x .crash → AddMod st t e .crash

/-- The symbol a data statement creates: the length and scale of pending modifiers are undefined (asm_processor.cpp 219-239). -/
def dataSym (st : SymSt) (s : Sym) (len scale : Option MExpr) : Sym :=
  { s with len := if pendingMod st len then none else s.len, scale := if pendingMod st scale then none else s.scale }

/-- One statement. In a data statement the space of its length is registered between the definition of the label and the dependencies of
its attributes (asm_processor.cpp 253-263): any `env` and `sps`. -/
inductive Exec : SymSt → SymStmt → Outcome SymSt → Prop
  | equDup {st n s e} : st.tab n ≠ none → Exec st (.equ n s e) (.ok st)
  | equNow {st n s e o} : st.tab n = none → (e.collect st.env st.tab).contains st.env = false →
      Create st n { s with val := e.resolve st.env.heap st.tab } o → Exec st (.equ n s e) o
  | equAddr {st n s e a o} : st.tab n = none → (e.collect st.env st.tab).contains st.env = true → (e.collect st.env st.tab).isAddress = true →
      (e.collect st.env st.tab).addr = some a → Create st n { s with val := .reloc a } o → Exec st (.equ n s e) o
  | equLater {st n s e st' b st''} : st.tab n = none → (e.collect st.env st.tab).contains st.env = true →
      (e.collect st.env st.tab).isAddress = false → Create st n { s with val := .undef } (.ok st') → AddDep st' (.sym n) e (.ok (b, st'')) →
      Exec st (.equ n s e) (.ok st'')
  | equLaterCrash {st n s e st'} : st.tab n = none → (e.collect st.env st.tab).contains st.env = true →
      (e.collect st.env st.tab).isAddress = false → Create st n { s with val := .undef } (.ok st') → AddDep st' (.sym n) e .crash →
      Exec st (.equ n s e) .crash
  | labelDup {st n s} : st.tab n ≠ none → Exec st (.label n s) (.ok st)
  | label {st n s o} : st.tab n = none → Create st n s o → Exec st (.label n s) o
  | extrn {st n s o} : Create st n s o → Exec st (.extrn n s) o
  | dataNew {st n s len scale st1 env sps st2 o} : st.tab n = none → Create st n (dataSym st s len scale) (.ok st1) →
      AddMod { st1 with env := env, sps := sps } (.attr .L n) len (.ok st2) →
      AddMod st2 (.attr .S n) scale o → Exec st (.data n s len scale) o
  | dataNewCrash1 {st n s len scale} : st.tab n = none → Create st n (dataSym st s len scale) .crash → Exec st (.data n s len scale) .crash
  | dataNewCrash2 {st n s len scale st1 env sps} : st.tab n = none → Create st n (dataSym st s len scale) (.ok st1) →
      AddMod { st1 with env := env, sps := sps } (.attr .L n) len .crash → Exec st (.data n s len scale) .crash
  | dataDup {st n s len scale env sps st2 o} : st.tab n ≠ none → AddMod { st with env := env, sps := sps } (.attr .L n) len (.ok st2) →
      AddMod st2 (.attr .S n) scale o → Exec st (.data n s len scale) o
  | dataDupCrash {st n s len scale env sps} : st.tab n ≠ none → AddMod { st with env := env, sps := sps } (.attr .L n) len .crash →
      Exec st (.data n s len scale) .crash
  | layout {st env sps} : Exec st (.layout env sps) (.ok { st with env := env, sps := sps })

/-- A program. -/
inductive ExecAll : SymSt → List SymStmt → Outcome SymSt → Prop
  | nil {st} : ExecAll st [] (.ok st)
  | cons {st x xs st' o} : Exec st x (.ok st') → ExecAll st' xs o → ExecAll st (x :: xs) o
  | crash {st x xs} : Exec st x .crash → ExecAll st (x :: xs) .crash

/-- Before the first statement. -/
def SymSt.init (env : Env) : SymSt := ⟨env, fun _ => none, [], []⟩

end Verif.Ord
