import Verif.Exec.Model

/-!
Specification: called macros and copied members take the place of the statement that calls or copies them, and every statement is shown with
the statements that led to it.
-/
namespace Verif.Exec

/-- A statement with the places it stands at, relative to what it belongs to: one place in open code and in a member; in a macro the place in the
macro and those of the members copied into the macro. -/
structure Item where
  stmt : Stmt
  frames : List Frame
deriving DecidableEq, Repr

/-- The statements of open code. -/
def opened (file : File) (ts : List Stmt) : List Item := ts.map fun t => ⟨t, [⟨.opencode, ⟨file, t.line⟩⟩]⟩

/-- The statements of a member. -/
def copied (m : Member) : List Item := m.stmts.map fun t => ⟨t, [⟨.copied, ⟨m.file, t.line⟩⟩]⟩

/-- The places of a statement of a macro: the first in the macro, the others in members. -/
def placesOf (nest : List Loc) : List Frame := (nest.take 1).map (⟨.macro, ·⟩) ++ (nest.drop 1).map (⟨.copied, ·⟩)

/-- The statements of a macro. -/
def called (body : List Placed) : List Item := body.map fun b => ⟨b.stmt, placesOf b.nest⟩

/-- What statements stand in: the stack of the statement that led here, the members that are being copied and the number of macros that are
being processed. -/
structure Ctx where
  path : List Frame
  names : List Name
  depth : Nat
deriving DecidableEq, Repr

/-- What is expected to be seen of a statement: its stack and what is said. -/
structure Seen where
  stmt : Stmt
  stack : List Frame
  code : Option Code
deriving DecidableEq, Repr

/-- What a statement does: it says something or nothing, a member or a macro takes its place, or the macro is left. -/
inductive Effect where
  | says (code : Option Code)
  | copies (n : Name) (m : Member)
  | calls (body : List Placed)
  | leaves

/-- What a statement does where it stands. -/
def effect (p : Prog) (c : Ctx) : Op → Effect
  | .other said => .says (said.map .own)
  | .call m =>
    match p.macro m with
    | none => .says (some .E049)
    | some b => .calls b
  | .copy none => .says (some .E058)
  | .copy (some n) =>
    match p.member n with
    | none => .says (some .E058)
    | some m => if n ∈ c.names then .says (some .E062) else .copies n m
  | .mexit => if c.depth = 0 then .says (some .E054) else .leaves
  | .mend => if c.depth = 0 then .says (some .E054) else .says none

/-- How the statements of a macro, a member or of open code end: with the last one, because the macro was left, or because too many macros
were nested and all of them are given up. -/
inductive Ends where
  | through | left | givenUp
deriving DecidableEq, Repr

theorem effect_copies {p : Prog} {c : Ctx} {op : Op} {n : Name} {m : Member} (h : effect p c op = .copies n m) :
    op = .copy (some n) ∧ p.member n = some m ∧ n ∉ c.names := by
  unfold effect at h
  split at h <;> try (simp at h; done)
  all_goals first
    | (split at h <;> simp at h; done)
    | (split at h
       · simp at h
       · rename_i m' hm
         split at h
         · simp at h
         · rename_i hn
           injection h with h1 h2
           subst h1 h2
           exact ⟨rfl, hm, hn⟩)

/-- The members that are not being copied. -/
def free (p : Prog) (names : List Name) : Nat := p.members.countP (fun e => decide (e.1 ∉ names))

theorem free_lt {p : Prog} {n : Name} {m : Member} {names : List Name} (h : p.member n = some m) (hn : n ∉ names) :
    free p (names ++ [n]) < free p names := by
  unfold Prog.member at h
  unfold free
  generalize p.members = l at h
  induction l with
  | nil => simp at h
  | cons e l ih =>
    simp only [List.find?_cons] at h
    have hle : List.countP (fun e : Name × Member => decide (e.1 ∉ names ++ [n])) l ≤ List.countP (fun e => decide (e.1 ∉ names)) l := by
      apply List.countP_mono_left
      intro x _ hx
      simp at hx ⊢
      exact hx.1
    by_cases he : e.1 = n
    · rw [List.countP_cons_of_neg (by simp [he]), List.countP_cons_of_pos (by simpa [he] using hn)]
      omega
    · rw [show (e.1 == n) = false by simpa using he] at h
      have := ih h
      rw [List.countP_cons, List.countP_cons]
      have : (if decide (e.1 ∉ names ++ [n]) = true then 1 else 0) ≤ if decide (e.1 ∉ names) = true then 1 else 0 := by
        by_cases h1 : e.1 ∈ names <;> simp [h1, he]
      omega

/-- What is seen of statements: each of them is shown with the stack of what led to it and its own places; what it lets in follows it at once. Where
`nestLimit` macros are nested, the next statement gives all of them up, and the statement behind the outermost call follows. -/
def seen (p : Prog) (c : Ctx) : List Item → List Seen × Ends
  | [] => ([], .through)
  | i :: is =>
    if h : c.depth < nestLimit then
      match he : effect p c i.stmt.op with
      | .says code => (⟨i.stmt, c.path ++ i.frames, code⟩ :: (seen p c is).1, (seen p c is).2)
      | .leaves => ([⟨i.stmt, c.path ++ i.frames, none⟩], .left)
      | .copies n m =>
        let inner := seen p ⟨c.path ++ i.frames, c.names ++ [n], c.depth⟩ (copied m)
        match inner.2 with
        | .through => (⟨i.stmt, c.path ++ i.frames, none⟩ :: inner.1 ++ (seen p c is).1, (seen p c is).2)
        | e => (⟨i.stmt, c.path ++ i.frames, none⟩ :: inner.1, e)
      | .calls b =>
        let inner := seen p ⟨c.path ++ i.frames, c.names, c.depth + 1⟩ (called b)
        if inner.2 = .givenUp ∧ c.depth ≠ 0 then (⟨i.stmt, c.path ++ i.frames, none⟩ :: inner.1, .givenUp)
        else (⟨i.stmt, c.path ++ i.frames, none⟩ :: inner.1 ++ (seen p c is).1, (seen p c is).2)
    else ([⟨i.stmt, c.path ++ i.frames, some .E055⟩], .givenUp)
termination_by is => (nestLimit - c.depth, free p c.names, is.length)
decreasing_by
  all_goals simp_wf
  all_goals first
    | exact Prod.Lex.right _ (Prod.Lex.right _ (by simp))
    | exact Prod.Lex.right _ (Prod.Lex.left _ _ (free_lt (effect_copies he).2.1 (effect_copies he).2.2))
    | exact Prod.Lex.left _ _ (by omega)

/-- Where a diagnostic belongs: at the statement, with the statements that led to it from the inside out. -/
def wanted (s : Seen) (code : Code) : Diag :=
  ⟨code, (s.stack.getLast?.map (·.loc.file)).getD 0, s.stmt.line, (s.stack.dropLast.reverse).map (·.loc)⟩

/-- No macro executes a `COPY` statement. This is so for macros as C98 builds them unless the operation code of a statement becomes `COPY` by
a variable symbol or by `OPSYN`. -/
def Prog.NoCopyInMacros (p : Prog) : Prop := ∀ e ∈ p.macros, ∀ b ∈ e.2, ∀ n, b.stmt.op ≠ .copy n

end Verif.Exec
