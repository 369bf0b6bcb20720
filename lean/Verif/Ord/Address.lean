import Verif.Basic
/-!
Relocatable addresses (context/ordinary_assembly/address.cpp).

`int` is modelled by the integers: overflow of offsets, undefined in C++, is left out.
-/
namespace Verif.Ord

/-- A `space_ptr`; equality is that of pointers. -/
abbrev SpId := Nat

/-- `address::base` (address.h 41-44): the section, `none` is the null pointer. Compared by `owner` (address.cpp 217-221). -/
abbrev Base := Option Nat

/-- The result of resolving a space (address.h 131-133): `resolved_length` and `resolved_ptrs`. -/
structure Filled where
  len : Int
  ptrs : List (SpId × Int)
  deriving DecidableEq, Repr

/-- All spaces at one moment; `none`: not resolved yet. `rank` witnesses that `resolved_ptrs` form no cycle; with a cycle the recursive
functions of address.cpp do not return. -/
structure Heap where
  info : SpId → Option Filled
  rank : SpId → Nat
  dec : ∀ i s, info i = some s → ∀ p ∈ s.ptrs, rank p.1 < rank i

/-- `get_space_offset` (address.cpp 124-134). -/
def Heap.offset (H : Heap) (i : SpId) : Int :=
  match h : H.info i with
  | none => 0
  | some s => s.len + (s.ptrs.attach.map fun p => H.offset p.1.1).sum
termination_by H.rank i
decreasing_by exact H.dec i s h p.1 p.2

/-- The calls of `insert` made by `get_unresolved_spaces` (address.cpp 159-176), in order. The offset it returns is that of
`get_space_offset`. -/
def Heap.flat (H : Heap) (e : SpId × Int) : List (SpId × Int) :=
  match h : H.info e.1 with
  | none => [e]
  | some s => s.ptrs.attach.flatMap fun p => H.flat p.1
termination_by H.rank e.1
decreasing_by exact H.dec e.1 s h p.1 p.2

/-- `insert` (address.cpp 146-157); the map from spaces to indices is the search for the entry. -/
def insertEntry : List (SpId × Int) → SpId × Int → List (SpId × Int)
  | [], e => [e]
  | x :: xs, e => if x.1 = e.1 then (x.1, x.2 + e.2) :: xs else x :: insertEntry xs e

/-- The common part of `normalized_spaces` and `normalize` (address.cpp 182-189, 358-365). -/
def Heap.norm (H : Heap) (l : List (SpId × Int)) : List (SpId × Int) := ((l.flatMap H.flat).foldl insertEntry []).filter (·.2 ≠ 0)

inductive AOp where
  | add | sub
  deriving DecidableEq, Repr

/-- The new count (address.cpp 240-244). -/
def AOp.count : AOp → Int → Int → Int
  | .add, l, r => r + l
  | .sub, l, r => r - l

/-- The entries of the right operand that are left (address.cpp 257-265). -/
def AOp.rest {κ : Type} : AOp → List (κ × Int) → List (κ × Int)
  | .add, r => r
  | .sub, r => r.map fun e => (e.1, e.2 * -1)

/-- `merge_entries` (address.cpp 223-268); an entry of the right operand that was used is removed, in the code its pointer is nulled. -/
def merge {κ : Type} [DecidableEq κ] (op : AOp) : List (κ × Int) → List (κ × Int) → List (κ × Int)
  | [], r => op.rest r
  | e :: l, r =>
    match r.find? (·.1 = e.1) with
    | some x => (if op.count e.2 x.2 ≠ 0 then [(e.1, op.count e.2 x.2)] else []) ++ merge op l (r.eraseP (·.1 = e.1))
    | none => e :: merge op l r

/-- `address` (address.h 39-89). -/
structure Addr where
  bases : List (Base × Int)
  off : Int
  spaces : List (SpId × Int)
  deriving DecidableEq, Repr

/-- `address::offset` (address.cpp 136-142). -/
def Addr.offset (H : Heap) (a : Addr) : Int := a.off + (a.spaces.map fun e => H.offset e.1).sum

/-- `address::normalized_spaces` (address.cpp 180-192). -/
def Addr.norm (H : Heap) (a : Addr) : List (SpId × Int) := H.norm a.spaces

/-- The public constructor (address.cpp 194-204) with `normalize` (356-368). -/
def Addr.make (H : Heap) (base : Base) (off : Int) (spaces : List SpId) : Addr :=
  ⟨[(base, 1)], off + (spaces.map H.offset).sum, H.norm (spaces.map fun s => (s, 1))⟩

/-- `operator+` (address.cpp 270-275). -/
def Addr.add (H : Heap) (a b : Addr) : Addr := ⟨merge .add a.bases b.bases, a.offset H + b.offset H, merge .add (a.norm H) (b.norm H)⟩
/-- `operator+(int)` (address.cpp 277). -/
def Addr.addInt (a : Addr) (n : Int) : Addr := ⟨a.bases, a.off + n, a.spaces⟩
/-- `operator-` (address.cpp 279-284). -/
def Addr.sub (H : Heap) (a b : Addr) : Addr := ⟨merge .sub a.bases b.bases, a.offset H - b.offset H, merge .sub (a.norm H) (b.norm H)⟩
/-- `operator-(int)` (address.cpp 286). -/
def Addr.subInt (H : Heap) (a : Addr) (n : Int) : Addr := ⟨a.bases, a.offset H - n, a.norm H⟩
/-- unary `operator-` (address.cpp 288-291). -/
def Addr.neg (H : Heap) (a : Addr) : Addr := ⟨merge .sub [] a.bases, -a.offset H, merge .sub [] (a.norm H)⟩

/-- `is_simple` (address.cpp 318). -/
def Addr.isSimple (a : Addr) : Bool := match a.bases with
  | [(_, 1)] => true
  | _ => false

end Verif.Ord
