/-!
The language of C131: programs of conditional assembly, given to the model and to the specification alike.

A program is the open code and the macros it calls. What expressions, conditions and texts are and how they are evaluated is left open (C36,
C121, C34 and the claims on substitution treat them): the theorems hold for every way of evaluating them that depends on the values of the visible
variables, on &SYSNDX and on &SYSNEST only.

A definition of a macro is one statement of the text in which it stands, with its prototype and its body (C98, C99: how the statements from MACRO to MEND
are made one; what is looked for ahead is not looked for in them).

Not in the language: COPY (C40, C119), AREAD (C122), AINSERT, definitions with errors, attributes (C97), types and subscripts of variables (C31), several variables in one declaration or assignment (C122), operands with errors.
-/
namespace Verif.Gen

/-- Names of variables and macros (`context::id_index`, C30). -/
abbrev Name := String

/-- Names of sequence symbols. -/
abbrev Lab := String

/-- What an expression can see when it is evaluated: the values of the visible variables and parameters, &SYSNDX (only in macros) and &SYSNEST. -/
structure Env (V : Type) where
  var : Name → Option V
  ndx : Option Nat
  nest : Nat

/-- Expressions, conditions and texts together with their evaluation (`ca_expression::evaluate`, concatenation chains); `dflt` is the value of a
variable or parameter that was not given one. -/
structure Sem where
  Val : Type
  Exp : Type
  Cnd : Type
  Txt : Type
  Out : Type
  dflt : Val
  value : Exp → Env Val → Val
  number : Exp → Env Val → Int
  holds : Cnd → Env Val → Bool
  text : Txt → Env Val → Out

mutual

/-- The operation of a statement with its operands. `gen` stands for every machine or assembler instruction; `call` for every operation code that
is none of the others, `call m args` with `m` not a macro being an undefined operation. -/
inductive Op (S : Sem) where
  | set (x : Name) (e : S.Exp)
  | gbl (x : Name)
  | lcl (x : Name)
  | aif (bs : List (S.Cnd × Lab))
  | ago (l : Lab)
  | agoNth (e : S.Exp) (ls : List Lab)
  | actr (e : S.Exp)
  | anop
  | call (m : Name) (args : List S.Exp)
  | mexit
  | mend
  | gen (t : S.Txt)
  | define (m : Name) (params : List Name) (body : List (Stmt S))

/-- A statement: the sequence symbol in its name field, if any, and its operation. -/
structure Stmt (S : Sem) where
  lab : Option Lab
  op : Op S

end

/-- A macro: names of the parameters and the statements of the body. -/
structure Macro (S : Sem) where
  params : List Name
  body : List (Stmt S)

/-- A program: the macros in libraries by name and the statements of the open code. -/
structure Prog (S : Sem) where
  macros : Name → Option (Macro S)
  code : List (Stmt S)

/-- The diagnostics reported by the statements of the language. -/
inductive Code where
  /-- assignment to a parameter -/
  | E030
  /-- sequence symbol already defined -/
  | E045
  /-- sequence symbol not found -/
  | E047
  /-- operation not found -/
  | E049
  /-- variable already declared -/
  | E051
  /-- variable already a parameter -/
  | E052
  /-- MEXIT or MEND in open code -/
  | E054
  /-- too many nested macro calls -/
  | E055
  /-- too many branches -/
  | E056
  /-- too many ACTR -/
  | E063
  deriving DecidableEq

/-- What comes out of a program, in the order in which it comes: generated statements and diagnostics. -/
inductive Event (O : Type) where
  | out (o : O)
  | err (c : Code)
  deriving DecidableEq

end Verif.Gen
