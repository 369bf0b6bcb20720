import Verif.Context.MacroData
/-!
Binding of macro parameters (context/macro.cpp 32-155, context/variables/macro_param.cpp, context/variables/system_variable.cpp).
-/
namespace Verif.Context.Mac

/-- Names are identifiers of the storage (C30). -/
abbrev Name := Nat

/-- A parameter of the prototype (`macro_arg`, context/macro.h 29-42): positional, possibly unnamed, or keyword with default
value. A keyword parameter without name makes the constructor throw (macro.cpp 64-65); the type excludes it. -/
inductive Param where
  | pos (name : Option Name)
  | key (name : Name) (default : Data)

/-- An operand of the call (`macro_arg`): positional (`id` null) or keyword. -/
structure Arg where
  id : Option Name
  data : Data

/-- `std::unordered_map` as association list; `emplace` does not replace. -/
abbrev Map (α : Type) := List (Name × α)
def Map.get {α} (m : Map α) (n : Name) : Option α := (m.find? (·.1 = n)).map (·.2)
def Map.emplace {α} (m : Map α) (n : Name) (v : α) : Map α := if (Map.get m n).isSome then m else m ++ [(n, v)]

/-- What `named_params_` holds: the kind of the parameter and for keyword parameters the default. -/
inductive Kind where
  | pos
  | key (default : Data)

/-- `macro_definition` (macro.h 55-62): the members used by `call`; `positional[0]` is the name field parameter. -/
structure Def where
  positional : List (Option Name)
  keywords : List (Name × Data)
  named : Map Kind

/-- One iteration of the loop of the constructor (macro.cpp 60-85). -/
def Def.add (d : Def) : Param → Def
  | .key n dflt => { d with named := d.named.emplace n (.key dflt), keywords := d.keywords ++ [(n, dflt)] }
  | .pos (some n) => { d with named := d.named.emplace n .pos, positional := d.positional ++ [some n] }
  | .pos none => { d with positional := d.positional ++ [none] }

/-- The entry for the name field parameter (macro.cpp 48-53, 99-103). -/
def labelMap {α} (label : Option Name) (v : α) : Map α :=
  match label with
  | some n => Map.emplace [] n v
  | none => []

/-- The constructor of `macro_definition` (macro.cpp 32-86); the statements of the body are not modelled here. -/
def Def.build (label : Option Name) (params : List Param) : Def :=
  params.foldl Def.add { positional := [label], keywords := [], named := labelMap label .pos }

/-- A variable symbol created by `call`: a parameter with its data (assigned or default) or the system variable &SYSLIST. -/
inductive Inst where
  | param (d : Data)
  | sys (d : Data)

/-- The state of the loop over the operands: `syslist` and `named_cpy`. -/
structure CallSt where
  syslist : List Data
  named : Map Inst

/-- One operand (macro.cpp 105-129); `none` is the exception for an undefined keyword. -/
def Def.operand (d : Def) (st : CallSt) (a : Arg) : Option CallSt :=
  match a.id with
  | some n =>
    match d.named.get n with
    | some (.key _) => some { st with named := st.named.emplace n (.param a.data) }
    | _ => none
  | none =>
    let named := match d.positional[st.syslist.length]? with
      | some (some n) => st.named.emplace n (.param a.data)
      | _ => st.named
    some { syslist := st.syslist ++ [a.data], named := named }

def Def.operands (d : Def) (st : CallSt) : List Arg → Option CallSt
  | [] => some st
  | a :: as => (d.operand st a).bind fun st => d.operands st as

/-- Omitted positional parameters (macro.cpp 131-139). -/
def omitted (m : Map Inst) (l : List (Option Name)) : Map Inst :=
  l.foldl (fun m n => match n with | some n => m.emplace n (.param .dummy) | none => m) m

/-- Omitted keyword parameters (macro.cpp 140-147). -/
def defaults (m : Map Inst) (l : List (Name × Data)) : Map Inst :=
  l.foldl (fun m p => if (Map.get m p.1).isSome then m else m.emplace p.1 (.param p.2)) m

/-- `macro_definition::call` (macro.cpp 88-155): the variable symbols of the invocation. -/
def Def.call (d : Def) (label : Option Data) (args : List Arg) (syslistName : Name) : Option (Map Inst) :=
  let l := label.getD .dummy
  (d.operands { syslist := [l], named := labelMap (d.positional.head?.getD none) (.param l) } args).map fun st =>
    let m := omitted st.named (d.positional.drop st.syslist.length)
    let m := defaults m d.keywords
    m.emplace syslistName (.sys (.comp st.syslist))

/-- `get_ith(idx - 1)` with `size_t` arithmetic: index 0 wraps to the largest value, for which every component returns the
dummy. -/
def ithPred (d : Data) (i : Nat) : Data := if i = 0 then .dummy else d.ith (i - 1)

/-- `macro_param_base::get_data` (macro_param.cpp 56-64) and `system_variable::get_data` (system_variable.cpp 31-41). -/
def Inst.data : Inst → List Nat → Data
  | .param d, subs => subs.foldl ithPred d
  | .sys d, [] => d
  | .sys d, i :: subs => subs.foldl ithPred (d.ith i)

/-- `number` without subscripts (macro_param.cpp 66-75, system_variable.cpp 43-52): the attribute N'. -/
def Inst.number : Inst → Int
  | .param d => d.number
  | .sys d => (d.number : Int) - 1

end Verif.Context.Mac
