import Verif.Define.Model
import Verif.MacroDef.Spec

/-!
Specification for go to definition: which declaration of a symbol counts.
-/
namespace Verif.Define

open MacroDef (Name File Stmt Lib Loc Op Placed bodyOf depthAt declares)

/-- The variable symbols the `i`-th statement of a body declares for the macro: those of `SETx`, `LCLx` and `GBLx` with a plain name, unless the statement belongs
to an inner definition. -/
def declared (decls : Decls) (ps : List Placed) (i : Nat) : List Decl :=
  if depthAt ps i ≤ 1 then
    match (ps[i]?).map (fun p => p.stmt.op) with
    | some (Op.other k) => (decls k).filter (!·.created)
    | _ => []
  else []

/-- The declarations of a body in the order of the text, each with the number of its statement. -/
def declarations (decls : Decls) (ps : List Placed) : List (Nat × Decl) :=
  (List.range ps.length).flatMap fun i => (declared decls ps i).map (i, ·)

/-- The file a statement of a body is written in. -/
def fileAt (ps : List Placed) (i : Nat) : Option File := ((ps[i]?).bind (·.path.getLast?)).map (·.file)

/-- The declarations in open code, in the order of execution. -/
def openDeclarations (es : List Exec) : List (File × Decl) :=
  es.flatMap fun e => if e.inMacro then [] else (e.decls.filter (!·.created)).map (e.file, ·)

/-- The first owner of a file. -/
def firstOwner (fs : List (File × Owner)) (f : File) : Option Owner := (fs.find? (·.1 == f)).map (·.2)

end Verif.Define
