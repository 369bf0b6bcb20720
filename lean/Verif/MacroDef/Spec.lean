import Verif.MacroDef.Model

/-!
Specification for definitions of macros: which statements make up the body, where copied statements go and where each one comes from.
-/
namespace Verif.MacroDef

/-- The number of definitions that begin in the list. -/
def begins (ts : List Stmt) : Nat := ts.countP (·.op == .mbegin)

/-- The number of definitions that end in the list. -/
def ends (ts : List Stmt) : Nat := ts.countP (·.op == .mend)

/-- Every definition that ends in the list has begun in it, and every one that begins in it ends in it. -/
def Balanced (ts : List Stmt) : Prop := (∀ k, k ≤ ts.length → ends (ts.take k) ≤ begins (ts.take k)) ∧ begins ts = ends ts

instance (ts : List Stmt) : Decidable (Balanced ts) := inferInstanceAs (Decidable (_ ∧ _))

/-- The statements of a definition with its `MEND`, and the statements behind it; `none` if there is no `MEND` for it. `inner` is
the number of inner definitions that are open. -/
def split : Nat → List Stmt → List Stmt × Option (List Stmt)
  | _, [] => ([], none)
  | inner, t :: ts =>
    match t.op with
    | .mbegin => (t :: (split (inner + 1) ts).1, (split (inner + 1) ts).2)
    | .mend => if inner = 0 then ([t], some ts) else (t :: (split (inner - 1) ts).1, (split (inner - 1) ts).2)
    | _ => (t :: (split inner ts).1, (split inner ts).2)

/-- A statement of the body with the places it comes from, the outermost first: the statement itself is at the last one, the
others are the `COPY` statements that led to it. `report` is what is said about a `COPY` that has no effect. -/
structure Placed where
  stmt : Stmt
  path : List Loc
  report : Option Diag
deriving DecidableEq, Repr

/-- The statements with copied members in their place, to `depth` levels. A member whose definitions are not balanced counts as
empty; a member inside itself is not copied. -/
def expand (lib : Lib) : Nat → List Name → List Loc → File → List Stmt → List Placed
  | 0, _, _, _, _ => []
  | depth + 1, opened, path, file, ts => ts.flatMap fun t =>
    match t.op with
    | .copy none => [⟨t, path ++ [⟨file, t.line⟩], some (.E058 t.line)⟩]
    | .copy (some n) =>
      match lib.find n with
      | none => [⟨t, path ++ [⟨file, t.line⟩], some (.E058 t.line)⟩]
      | some m =>
        if n ∈ opened then [⟨t, path ++ [⟨file, t.line⟩], some (.E062 t.line)⟩]
        else ⟨t, path ++ [⟨file, t.line⟩], none⟩ ::
          expand lib depth (n :: opened) (path ++ [⟨file, t.line⟩]) m.file (if Balanced m.stmts then m.stmts else [])
    | _ => [⟨t, path ++ [⟨file, t.line⟩], none⟩]

/-- What is executed in the place of a statement: a `COPY` has done its work and does nothing. -/
def Stmt.executed (t : Stmt) : Stmt :=
  match t.op with
  | .copy _ => ⟨t.line, none, .anop⟩
  | _ => t

/-- The body of a macro: its own statements to its `MEND` with all members copied into them. No chain of members is longer than
the list of members. -/
def bodyOf (lib : Lib) (file : File) (above : List Name) (ts : List Stmt) : List Placed :=
  expand lib (lib.length + 1) above [] file (split 0 ts).1

/-- The number of definitions that are open in front of the `i`-th statement, the macro itself included. -/
def depthAt (ps : List Placed) (i : Nat) : Nat :=
  1 + begins ((ps.take i).map (·.stmt)) - ends ((ps.take i).map (·.stmt))

/-- The sequence symbol the `i`-th statement defines for the macro: the one in its name field, unless the statement belongs to an
inner definition. -/
def declares (ps : List Placed) (i : Nat) : Option Name :=
  if depthAt ps i = 1 then (ps[i]?).bind (·.stmt.label) else none

/-- The symbol of the `i`-th statement is already defined by a statement in front of it. -/
def repeats (ps : List Placed) (i : Nat) : Bool :=
  (declares ps i).isSome && (List.range i).any fun j => declares ps j == declares ps i

/-- What is said about the `i`-th statement. -/
def reportsAt (ps : List Placed) (i : Nat) : List Diag :=
  (if repeats ps i then (ps[i]?).toList.map (fun p => .E044 p.stmt.line) else []) ++ ((ps[i]?).bind (·.report)).toList

/-- What is said about the statements of the body, in their order. -/
def reports (ps : List Placed) : List Diag := (List.range ps.length).flatMap (reportsAt ps)

end Verif.MacroDef
