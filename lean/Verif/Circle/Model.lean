import Verif.Ord.Deps

/-!
Model of the search for lengths that depend on themselves (C128): `check_loctr_cycle`
(`/repo/parser_library/src/context/ordinary_assembly/symbol_dependency_tables.cpp` 344-441), called when a label gets a relocatable
value (`ordinary_assembly_context.cpp` 39-56). What the length of a gap in a location counter depends on is that of `Verif/Ord/Deps`.
-/
namespace Verif.Circle
open Ord (SymSt SpId Dep SpSrc)

/-- `dep_g`: from spaces to the spaces they depend on. The order of an `unordered_map` is unspecified. -/
abbrev Graph := List (SpId × List SpId)

/-- The space, if the dependency is one. -/
def spaceOf : Dep → Option SpId
  | .space s => some s
  | _ => none

/-- `std::holds_alternative<id_index>(new_deps.front())`. -/
def symbolFirst : List Dep → Bool
  | .sym _ :: _ => true
  | _ => false

/-- "create graph" (symbol_dependency_tables.cpp:355-373), one entry of `dependencies_`. -/
def vertex (st : SymSt) (x : SpId × SpSrc) : Option (SpId × List SpId) :=
  let deps := (x.2.collect st.env st.tab).extract st.env
  if symbolFirst deps then none
  else if (deps.filterMap spaceOf).isEmpty then none
  else some (x.1, deps.filterMap spaceOf)

/-- "create graph" (symbol_dependency_tables.cpp:355-373). -/
def graph (st : SymSt) : Graph := st.sps.filterMap (vertex st)

/-- `dep_g.find(target)`: what it depends on. -/
def Graph.adj (G : Graph) (v : SpId) : List SpId := ((G.find? (·.1 = v)).map (·.2)).getD []

/-- `path_stack`, `visited` and `cycled` (symbol_dependency_tables.cpp:350-352). The top of the stack is the first path, the back of a
path its head. -/
structure St where
  stack : List (List SpId) := []
  visited : SpId → Option (List SpId) := fun _ => none
  cycled : List SpId := []

/-- `visited[v]`: an empty set if there is none yet. -/
def St.touch (s : St) (v : SpId) : St :=
  { s with visited := fun x => if x = v then some ((s.visited v).getD []) else s.visited x }

/-- `visited[v].insert(w)`. -/
def St.mark (s : St) (v w : SpId) : St :=
  { s with visited := fun x => if x = v then some (w :: (s.visited v).getD []) else s.visited x }

/-- From the first occurrence of `t` in the path on (`cycle_start` to `path.end()`, symbol_dependency_tables.cpp:404, 410); the path
is kept from back to front. -/
def fromFirst (t : SpId) : List SpId → List SpId
  | [] => []
  | v :: rest => if t ∈ rest then v :: fromFirst t rest else if v = t then [v] else []

/-- The rest of a round when the edge has not been visited (symbol_dependency_tables.cpp:399-431). -/
def St.go (G : Graph) (s : St) (t : SpId) (rest : List SpId) : St :=
  let seen := (s.visited t).isSome
  let found := seen && !decide (t ∈ rest)
  let s1 := if seen && decide (t ∈ rest) then { s with cycled := s.cycled ++ fromFirst t (t :: rest) } else s
  let s2 := match rest with
    | u :: _ => s1.mark u t
    | [] => s1.touch t
  if found then s2 else { s2 with stack := ((G.adj t).map (· :: t :: rest)).reverse ++ s2.stack }

/-- One round of the inner loop (symbol_dependency_tables.cpp:384-431). -/
def St.round (G : Graph) (s : St) : List SpId → St
  | [] => s
  | [t] => s.go G t []
  | t :: u :: pre =>
    let s1 := s.touch u
    if t ∈ (s1.visited u).getD [] then s1 else s1.go G t (u :: pre)

/-- The inner loop (symbol_dependency_tables.cpp:384-432); `none` if it has not ended after so many rounds. -/
def inner (G : Graph) : Nat → St → Option St
  | fuel, s => match s.stack with
    | [] => some s
    | p :: ps => match fuel with
      | 0 => none
      | fuel + 1 => inner G fuel (({ s with stack := ps }).round G p)

/-- The outer loop (symbol_dependency_tables.cpp:376-433). -/
def outer (G : Graph) (fuel : Nat) : List SpId → St → Option St
  | [], s => some s
  | v :: vs, s =>
    if (s.visited v).isSome then outer G fuel vs s
    else match inner G fuel { s with stack := [v] :: s.stack } with
      | none => none
      | some s' => outer G fuel vs s'

/-- The spaces found (symbol_dependency_tables.cpp:344-433). -/
def search (G : Graph) (fuel : Nat) : Option (List SpId) := (outer G fuel (G.map (·.1)) {}).map (·.cycled)

/-- `check_loctr_cycle` (symbol_dependency_tables.cpp:344-441): whether all is well, and the entries that are left. `G` is the graph in
some order. The spaces found get the length 1. -/
def check (st : SymSt) (G : Graph) (fuel : Nat) : Option (Bool × List (SpId × SpSrc)) :=
  (search G fuel).map fun c => (c.isEmpty, st.sps.filter fun x => !decide (x.1 ∈ c))

/-- `create_symbol` (ordinary_assembly_context.cpp:39-56) up to `add_defined`: whether all is well (otherwise the caller reports E033),
and the entries that are left. `order` is the order in which the `unordered_map` is walked through. -/
def create (st : SymSt) (n : Ord.SymId) (s : Ord.Sym) (order : Graph → Graph) (fuel : Nat) : Option (Bool × List (SpId × SpSrc)) :=
  match s.val with
  | .reloc _ => check { st with tab := st.tab.set n s } (order (graph { st with tab := st.tab.set n s })) fuel
  | _ => some (true, st.sps)

end Verif.Circle
