import Verif.Ord.Deps
import Verif.Ord.LocCtr
/-!
`ORG` (processing/instruction_sets/asm_processor.cpp, low_language_processor.cpp, context/ordinary_assembly/location_counter.cpp,
ordinary_assembly_context.cpp).

The counter has no unresolved spaces: the parts of its data are empty, `initial_storage` equals `storage`, and every address in it is its
offset. Where the code registers a space the model stops with the outcome `later`. `int` is modelled by the integers.
-/
namespace Verif.Ord

/-- `location_counter_data` without unknown parts (location_counter_data.h 82-95); `max` is the kind `POTENTIAL_MAX`. -/
structure OData where
  storage : Int
  safe : Int
  max : Bool
  deriving DecidableEq, Repr

/-- `append_storage` (location_counter_data.cpp 40-48). -/
def OData.append (d : OData) (st : Int) : OData := { d with storage := d.storage + st, safe := d.safe + st }

/-- `location_counter::org_data_`: the last element, `curr_data()`, and the others from the last to the first. -/
structure OCtr where
  cur : OData
  prev : List OData
  deriving DecidableEq, Repr

/-- A new counter (location_counter.cpp 38). -/
def OCtr.init : OCtr := ⟨⟨0, 0, true⟩, []⟩

/-- What becomes of the counter: `later` when a space is registered whose length is computed afterwards, `crash` when the code throws or an
assertion fails. -/
inductive Org where
  | ok (c : OCtr)
  | later
  | crash
  deriving DecidableEq, Repr

/-- Doing one thing after another. -/
def Org.bind : Org → (OCtr → Org) → Org
  | .ok c, f => f c
  | .later, _ => .later
  | .crash, _ => .crash

/-- `check_available_value` with `check_if_higher_value` (location_counter.cpp 168-185). -/
def OCtr.check (c : OCtr) : Org :=
  if c.cur.max then .ok c
  else match c.prev with
    | [] => .crash
    | p :: r => .ok (if p.storage ≤ c.cur.storage then ⟨{ c.cur with max := p.max }, r⟩ else c)

/-- The alignment at the beginning of `reserve_storage_area` (location_counter.cpp 51-58, location_counter_data.cpp 96-122); without parts
no space is needed. -/
def OData.alignTo (d : OData) (al : Al) : OData := if sz d.storage % al.boundary = al.byte then d else d.append (padData al d.storage)

/-- `reserve_storage_area` (location_counter.cpp 49-65); a negative length arrives as `size_t` and is converted back. -/
def OCtr.reserve (c : OCtr) (len : Int) (al : Al) : Org := OCtr.check { c with cur := (c.cur.alignTo al).append len }

/-- The data at the beginning of the last branch of `set_value` (location_counter.cpp 107-114). -/
def OCtr.split (c : OCtr) (a : Int) : OCtr :=
  if a - c.cur.storage < 0 ∧ c.cur.max then ⟨{ c.cur with max := false }, c.cur :: c.prev⟩ else c

/-- `set_value` (location_counter.cpp 81-119) without an undefined part; `a` is the offset of an address in this counter. -/
def OCtr.setValue (c : OCtr) (a : Int) (boundary : Nat) (offset : Int) : Org :=
  if a + padOrg boundary a + offset < 0 then .crash
  else if c.cur.storage - a > c.cur.safe ∨ (boundary ≠ 0 ∧ c.cur.storage - a > c.cur.safe + offset) then .later
  else OCtr.check { c.split a with cur := (c.split a).cur.append (a - c.cur.storage) }

/-- `set_location_counter_value_space` (ordinary_assembly_context.cpp 142-170) with a known address. -/
def OCtr.org (c : OCtr) (a : Int) (boundary : Nat) (offset : Int) : Org :=
  (c.setValue a boundary offset).bind fun c => c.reserve offset ⟨0, if boundary ≠ 0 then boundary else 1⟩

/-- The first step of `set_available_value` (location_counter.cpp 126-127). -/
def OCtr.dropLower (c : OCtr) : OCtr := match c.prev with
  | [] => c
  | p :: r => if c.cur.max = false ∧ c.cur.storage ≤ p.storage then ⟨p, r⟩ else c

/-- `set_available_location_counter_value` (ordinary_assembly_context.cpp 172-188) with `set_available_value` (location_counter.cpp
121-162): with several data left a space is registered. -/
def OCtr.orgHighest (c : OCtr) (boundary : Nat) (offset : Int) : Org := match c.dropLower.prev with
  | _ :: _ => .later
  | [] =>
    (if boundary ≠ 0 then c.dropLower.reserve 0 ⟨0, boundary⟩ else .ok c.dropLower).bind fun c => c.reserve offset ⟨0, 1⟩

/-- What a statement does to the counter. -/
inductive OOp where
  /-- data of known length -/
  | reserve (len : Nat) (al : Al)
  /-- `ORG` to an address -/
  | org (a : Int) (boundary : Nat) (offset : Int)
  /-- `ORG` without an address -/
  | highest (boundary : Nat) (offset : Int)
  deriving DecidableEq, Repr

/-- One of them. -/
def OCtr.step (c : OCtr) : OOp → Org
  | .reserve len al => c.reserve len al
  | .org a b o => c.org a b o
  | .highest b o => c.orgHighest b o

/-- All of them. -/
def OCtr.run (c : OCtr) : List OOp → Org
  | [] => .ok c
  | op :: ops => (c.step op).bind fun c => c.run ops

/-! ### The statement -/

/-- An operand of `ORG`: left out, an expression, or something else (a string, a list with a base in front). -/
inductive OOperand where
  | empty
  | expr (e : MExpr)
  | other
  deriving DecidableEq, Repr

/-- The diagnostics of `process_ORG`. -/
inductive ODiag where
  | A245 | A115 | A116 | E068
  deriving DecidableEq, Repr

/-- What `process_ORG` does to the location counter. `unknown`: the address is set but an expression in it has no value yet. -/
inductive OAct where
  | nothing
  | set (a : Addr) (boundary : Nat) (offset : Int)
  | unknown (a : Addr) (boundary : Nat) (offset : Int)
  | highest (boundary : Nat) (offset : Int)
  | crash
  deriving DecidableEq, Repr

/-- `try_get_abs_value` (asm_processor.cpp 344-354). An overflow while evaluating counts as no value. -/
def absOperand (E : Env) (T : Table) (e : MExpr) : Option Int :=
  if (e.collect E T).contains E then none
  else match e.eval E.heap T with
    | .abs v => some v
    | _ => none

/-- The test of the boundary (asm_processor.cpp 411). -/
def boundaryOk (v : Int) : Bool := 2 ≤ v && v ≤ 4096 && v.toNat &&& (v.toNat - 1) == 0

/-- `undefined_absolute_part` (asm_processor.cpp 398-399). -/
def Coll.undefPart (c : Coll) : Bool := !c.attrs.isEmpty || !c.syms.isEmpty || !c.spaces.isEmpty

/-- The variables of the loop (asm_processor.cpp 373-376). -/
structure OVars where
  reloc : Option MExpr
  boundary : Nat
  offset : Int
  deriving DecidableEq, Repr

/-- How one round of the loop ends. -/
inductive ORound where
  | next (v : OVars)
  /-- `break` -/
  | stop (d : ODiag)
  /-- `return` -/
  | fail (d : ODiag)
  deriving DecidableEq, Repr

/-- The first operand (asm_processor.cpp 395-406). -/
def firstRound (E : Env) (T : Table) (v : OVars) (e : MExpr) : ORound :=
  if (e.collect E T).addr.isNone then .fail .A245 else .next { v with reloc := some e }

/-- The second operand (asm_processor.cpp 408-417). -/
def secondRound (v : OVars) : Option Int → ORound
  | none => .fail .A116
  | some x => if boundaryOk x then .next { v with boundary := x.toNat } else .fail .A116

/-- The third operand (asm_processor.cpp 418-427). -/
def thirdRound (v : OVars) : Option Int → ORound
  | none => .fail .A115
  | some x => .next { v with offset := x }

/-- One round of the loop (asm_processor.cpp 380-427). -/
def orgRound (E : Env) (T : Table) (v : OVars) : Nat → OOperand → ORound
  | _, .empty => .next v
  | 0, .other => .stop .A245
  | _, .other => .stop .A115
  | 0, .expr e => firstRound E T v e
  | 1, .expr e => secondRound v (absOperand E T e)
  | 2, .expr e => thirdRound v (absOperand E T e)
  | _, .expr _ => .next v

/-- The loop (asm_processor.cpp 378-428): diagnostics, and the variables unless the function returned. -/
def orgLoop (E : Env) (T : Table) (v : OVars) (i : Nat) : List OOperand → List ODiag × Option OVars
  | [] => ([], some v)
  | o :: os => match orgRound E T v i o with
    | .next v' => orgLoop E T v' (i + 1) os
    | .stop d => ([d], some v)
    | .fail d => ([d], none)

/-- `in_same_loctr` (address.cpp 297-316) of addresses without spaces. -/
def sameLoctr (a b : Addr) : Bool := a.isSimple && b.isSimple && a.bases.map (·.1) == b.bases.map (·.1)

/-- `check_address_for_ORG` (low_language_processor.cpp 134-154); `cur` is the current address. Spaces that are not resolved are left out:
`in_same_loctr` and `has_dependant_space` are those of addresses without spaces. -/
def checkOrg (E : Env) (a cur : Addr) (boundary : Nat) (offset : Int) : Option ODiag :=
  if !sameLoctr cur a || a.offset E.heap + padOrg boundary (a.offset E.heap) + offset < 0 then some .E068
  else if !a.isSimple then some .A115
  else none

/-- The address `ORG` goes to (asm_processor.cpp 432-434): `get_reloc` throws if the value is not relocatable. -/
def orgTarget (E : Env) (T : Table) (e : MExpr) : Option Addr :=
  if (e.collect E T).undefPart then (e.collect E T).addr
  else match e.eval E.heap T with
    | .reloc a => some a
    | _ => none

/-- The end of `process_ORG` (asm_processor.cpp 430-450). -/
def orgEnd (E : Env) (T : Table) (cur : Addr) (v : OVars) : List ODiag × OAct := match v.reloc with
  | none => ([], .highest v.boundary v.offset)
  | some e => match orgTarget E T e with
    | none => ([], .crash)
    | some a => match checkOrg E a cur v.boundary v.offset with
      | some d => ([d], .nothing)
      | none => ([], if (e.collect E T).undefPart then .unknown a v.boundary v.offset else .set a v.boundary v.offset)

/-- `process_ORG` (asm_processor.cpp 356-451). The label is left out: it gets the address before the statement. -/
def processOrg (E : Env) (T : Table) (cur : Addr) (ops : List OOperand) : List ODiag × OAct :=
  match orgLoop E T ⟨none, 0, 0⟩ 0 ops with
  | (ds, none) => (ds, .nothing)
  | (ds, some v) => (ds ++ (orgEnd E T cur v).1, (orgEnd E T cur v).2)

end Verif.Ord
