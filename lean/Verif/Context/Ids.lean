import Verif.Basic
/-!
Identifier storage (context/id_storage.cpp): identifiers are represented by the address of an interned string.
-/
namespace Verif.Context

/-- `to_upper` (context/common_types.cpp 21-26): `std::toupper` of every byte, in the "C" locale. Passing a negative `char` to
`std::toupper` is undefined behaviour in C++; the model follows the usual implementation, which returns it unchanged. -/
def upByte (c : UInt8) : UInt8 := if 97 ≤ c ∧ c ≤ 122 then c - 32 else c
def up (s : Bytes) : Bytes := s.map upByte

/-- An `id_index` (id_storage.h 34, 70): the static empty string, or the address of a node of the set. Nodes of a
`std::unordered_set` never move; node `k` is the one created by the k-th insertion. -/
inductive Id where
  | empty
  | node (k : Nat)
  deriving DecidableEq, Repr

/-- `id_storage` (id_storage.h 26-68): the nodes in order of insertion. -/
structure IdStorage where
  nodes : List Bytes := []
  deriving Repr

/-- The string an identifier points to. -/
def IdStorage.deref (s : IdStorage) : Id → Option Bytes
  | .empty => some []
  | .node k => s.nodes[k]?

/-- `lit_.find` (id_storage.cpp 44). -/
def IdStorage.lookup (s : IdStorage) (v : Bytes) : Option Nat := s.nodes.idxOf? v

/-- `lit_.insert(v).first` (id_storage.cpp 55): the existing node or a new one. -/
def IdStorage.insert (s : IdStorage) (v : Bytes) : IdStorage × Id :=
  match s.lookup v with
  | some k => (s, .node k)
  | none => ({ nodes := s.nodes ++ [v] }, .node s.nodes.length)

/-- `id_storage::find` (id_storage.cpp 37-47); `none` is the null pointer. -/
def IdStorage.find (s : IdStorage) (v : Bytes) : Option Id :=
  if (up v).isEmpty then some .empty else (s.lookup (up v)).map .node

/-- `id_storage::add` (id_storage.cpp 49-56). -/
def IdStorage.add (s : IdStorage) (v : Bytes) (isUri : Bool) : IdStorage × Id :=
  if v.isEmpty then (s, .empty) else s.insert (if isUri then v else up v)

/-- The strings of `well_known_strings` (id_storage.cpp 58-74) in order of insertion. -/
def wellKnown : List Bytes :=
  ["COPY", "SETA", "SETB", "SETC", "GBLA", "GBLB", "GBLC", "LCLA", "LCLB", "LCLC", "MACRO", "MEND", "ASPACE", ""].map
    fun s => s.toUTF8.toList

/-- The constructor (id_storage.cpp 25-27, 58-74): `well_known.empty` is the node of the empty string. -/
def IdStorage.init : IdStorage := wellKnown.foldl (fun s v => (s.insert v).1) {}
def wellKnownEmpty : Id := .node 13

/-- A history of `add` calls. -/
def IdStorage.run (s : IdStorage) (ops : List (Bytes × Bool)) : IdStorage := ops.foldl (fun s op => (s.add op.1 op.2).1) s

end Verif.Context
