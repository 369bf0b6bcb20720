import Verif.Ord.Address
/-!
The location counter of one section (context/ordinary_assembly/location_counter_data.cpp, location_counter.cpp, address_resolver.cpp,
ordinary_assembly_context.cpp): reserving storage, gaps whose length is not known yet, and filling them.

One `location_counter_data` is modelled; several of them exist only after `ORG`, which is left out, and then `check_available_value`
(location_counter.cpp 168-180) does nothing. `int` is modelled by the integers.
-/
namespace Verif.Ord

/-- `alignment` (alignment.h 25-31). -/
structure Al where
  byte : Nat
  boundary : Nat
  deriving DecidableEq, Repr

/-- Conversion of an `int` to `size_t`. -/
def sz (x : Int) : Nat := (x % 2 ^ 64).toNat

/-- The length given to an alignment space whose address is `length` (address.cpp 53-60). The cast to `int` is left out: the sum is below
2^31 for boundaries that occur (at most 4096). -/
def padSpace (al : Al) (length : Int) : Int :=
  if sz length % al.boundary ≠ al.byte then (((al.boundary - sz length % al.boundary) + al.byte) % al.boundary : Nat) else 0

/-- The padding computed by `location_counter_data::align` (location_counter_data.cpp 117). -/
def padData (al : Al) (last : Int) : Int := (((al.boundary - sz last % al.boundary) + al.byte) % al.boundary : Nat)

/-- The padding of `ORG` with a boundary operand (location_counter.cpp 83, address_resolver.cpp 67). -/
def padOrg (boundary : Nat) (offset : Int) : Int := if boundary ≠ 0 then ((boundary - sz offset % boundary) % boundary : Nat) else 0

/-- `alignable_address_resolver::resolve` (address_resolver.cpp 65-69) on the offset of the address. -/
def orgResolve (boundary : Nat) (offset addend : Int) : Int := offset + padOrg boundary offset + addend

/-- `location_counter_data` (location_counter_data.h 82-95) without `kind`. -/
structure LData where
  storage : Int
  parts : List (SpId × Int)
  initial : Int
  safe : Int
  deriving DecidableEq, Repr

/-- `location_counter_data::append_space` (location_counter_data.cpp 34-38). -/
def LData.appendSpace (d : LData) (s : SpId) : LData := { d with parts := d.parts ++ [(s, 0)], safe := 0 }

/-- `unknown_parts.back().storage_after += st`. -/
def addLast (st : Int) : List (SpId × Int) → List (SpId × Int)
  | [] => []
  | [e] => [(e.1, e.2 + st)]
  | e :: f :: l => e :: addLast st (f :: l)

/-- `location_counter_data::append_storage` (location_counter_data.cpp 40-48). -/
def LData.appendStorage (d : LData) (st : Int) : LData :=
  { d with
    storage := d.storage + st
    parts := addLast st d.parts
    initial := if d.parts.isEmpty then d.initial + st else d.initial
    safe := d.safe + st }

/-- The loop of `resolve_space`: the storage after the filled space goes to the one before (location_counter_data.cpp 65-83). -/
def fillPart (i : SpId) (len : Int) : Int → List (SpId × Int) → Int × List (SpId × Int)
  | ini, [] => (ini, [])
  | ini, e :: rest =>
    if e.1 = i then (ini + (e.2 + len), rest)
    else (ini, (e.1, (fillPart i len e.2 rest).1) :: (fillPart i len e.2 rest).2)

/-- `location_counter_data::resolve_space` (location_counter_data.cpp 63-84). -/
def LData.resolve (d : LData) (i : SpId) (len : Int) : LData :=
  { d with
    storage := if d.parts.any (·.1 = i) then d.storage + len else d.storage
    initial := (fillPart i len d.initial d.parts).1
    parts := (fillPart i len d.initial d.parts).2 }

inductive SpKind where
  | ordinary (name : Nat)
  /-- with the address its length depends on -/
  | alignment (dep : Addr)
  deriving DecidableEq, Repr

/-- `space` (address.h 104-150); `len` is the resolved length. `name` stands for the expression a gap waits for. -/
structure Sp where
  al : Al
  kind : SpKind
  len : Option Int
  deriving DecidableEq, Repr

/-- A location counter with its spaces; `log` keeps all addresses handed out. -/
structure LC where
  data : LData
  spaces : List Sp
  log : List Addr
  deriving Repr

/-- A counter of the first kind (location_counter.cpp 29-42, `loctr_kind::STARTING`). -/
def LC.init : LC := ⟨⟨0, [], 0, 0⟩, [], []⟩

def LC.al (c : LC) (i : SpId) : Al := match c.spaces[i]? with
  | some s => s.al
  | none => ⟨0, 1⟩

/-- The state of the spaces. -/
def LC.heap (c : LC) : Heap where
  info i := match c.spaces[i]? with
    | some s => s.len.map (⟨·, []⟩)
    | none => none
  rank _ := 0
  dec i s h p hp := by
    cases hs : c.spaces[i]? with
    | none => simp [hs] at h
    | some q =>
      simp [hs] at h
      obtain ⟨l, _, rfl⟩ := h
      simp at hp

/-- The section. -/
def owner : Base := some 0

/-- `location_counter::current_address` (location_counter.cpp 44-47). -/
def LC.current (c : LC) : Addr := Addr.make c.heap owner c.data.storage (c.data.parts.map (·.1))

/-- `location_counter_data::has_alignment` (location_counter_data.cpp 96-110). -/
def LC.hasAlignment (c : LC) (al : Al) : Bool := match c.data.parts.getLast? with
  | none => sz c.data.storage % al.boundary = al.byte
  | some (s, after) =>
    if al.boundary > (c.al s).boundary then false
    else sz ((c.al s).boundary + (c.al s).byte + after) % al.boundary = al.byte

/-- `location_counter_data::need_space_alignment` (location_counter_data.cpp 124-127). -/
def LC.needSpace (c : LC) (al : Al) : Bool := match c.data.parts.getLast? with
  | none => false
  | some (s, _) => (c.al s).boundary < al.boundary

/-- `location_counter_data::last_storage` (location_counter_data.cpp 129-135). -/
def LData.last (d : LData) : Int := match d.parts.getLast? with
  | none => d.initial
  | some (_, after) => after

/-- `location_counter::register_space` (location_counter.cpp 321-328). -/
def LC.register (c : LC) (al : Al) (kind : SpKind) : LC :=
  { c with data := c.data.appendSpace c.spaces.length, spaces := c.spaces ++ [⟨al, kind, none⟩] }

/-- The alignment done by `reserve_storage_area` (location_counter.cpp 51-58) and the dependency entered by
`ordinary_assembly_context::reserve_storage_area_space` (ordinary_assembly_context.cpp 254-261). -/
def LC.alignTo (c : LC) (al : Al) : LC :=
  if c.hasAlignment al then c
  else if c.needSpace al then c.register al (.alignment c.current)
  else { c with data := c.data.appendStorage (padData al c.data.last) }

/-- `reserve_storage_area` (location_counter.cpp 49-65); the returned address goes to the log. -/
def LC.reserve (c : LC) (len : Int) (al : Al) : LC :=
  let c1 := c.alignTo al
  let c2 := { c1 with data := c1.data.appendStorage len }
  { c2 with log := c2.log ++ [c2.current] }

/-- A data definition of unknown length (ordinary_assembly_context.cpp 219-225, location_counter.cpp 69-72); it comes after its alignment
(asm_processor.cpp 176-299). The address behind it goes to the log. -/
def LC.gap (c : LC) (name : Nat) (al : Al) : LC :=
  let c1 := c.register al (.ordinary name)
  { c1 with log := c1.log ++ [c1.current] }

/-- The end of `space::resolve` (address.cpp 62-66) with `location_counter::resolve_space` (location_counter.cpp 215-218). -/
def LC.setLen (c : LC) (i : SpId) (len : Int) : LC := match c.spaces[i]? with
  | none => c
  | some s => match s.len with
    | some _ => c
    | none => { c with data := c.data.resolve i len, spaces := c.spaces.set i { s with len := some len } }

/-- `extract_dep_address` (address_resolver.cpp 41-53): the last spaces up to the last alignment. -/
def depTail (c : LC) : List (SpId × Int) → List (SpId × Int)
  | [] => []
  | e :: l => e :: (match c.spaces[e.1]? with
    | some ⟨_, .alignment _, _⟩ => []
    | _ => depTail c l)

/-- An alignment space can be resolved when the spaces it was found to depend on are resolved. -/
def LC.ready (c : LC) (dep : Addr) : Bool := (depTail c dep.spaces.reverse).all fun e => (c.heap.info e.1).isSome

/-- What happens to a location counter: statements, in program order, interleaved in any way with the definition of the lengths of gaps
(`define`) and attempts to resolve an alignment space (`settle`). -/
inductive Ev where
  | reserve (len : Nat) (al : Al)
  | gap (name : Nat) (al : Al)
  | define (i : SpId) (len : Int)
  | settle (i : SpId)
  deriving DecidableEq, Repr

/-- One event. -/
def LC.step (c : LC) : Ev → LC
  | .reserve len al => c.reserve len al
  | .gap name al => c.gap name al
  | .define i len => match c.spaces[i]? with
    | some ⟨_, .ordinary _, _⟩ => c.setLen i len
    | _ => c
  | .settle i => match c.spaces[i]? with
    | some ⟨al, .alignment dep, _⟩ => if c.ready dep then c.setLen i (padSpace al (dep.offset c.heap)) else c
    | _ => c

def LC.run (c : LC) (evs : List Ev) : LC := evs.foldl LC.step c

/-- `location_counter_data::append_data` (location_counter_data.cpp 50-61), used when an unresolved `ORG` gets its value. `none`: the code
takes the front of an empty list. -/
def LData.appendData (d o : LData) : Option LData := match o.parts with
  | [] => none
  | (_, after) :: rest =>
    let d1 := d.appendStorage after
    some { d1 with parts := d1.parts ++ rest, safe := o.safe }

end Verif.Ord
