import Verif.SysVar.Model
/-!
What system variables say (C141), from the point of view of the one who writes the program.
-/
namespace Verif.SysVar.Spec
open Verif.Context (Ty Val Name)
open Verif.SysVar (Ev Here Tm)

/-- A day and a time as a clock shows them; years of four digits. -/
def Valid (t : Tm) : Prop := 1000 ≤ t.year ∧ t.year < 10000 ∧ t.mon < 12 ∧ 1 ≤ t.mday ∧ t.mday ≤ 31 ∧ t.hour < 24 ∧ t.min < 60

/-- Decimal digit `k`, counted from the right. -/
def digit (n k : Nat) : UInt8 := UInt8.ofNat (48 + n / 10 ^ k % 10)

/-- YYYYMMDD -/
def datc (t : Tm) : Bytes :=
  [digit t.year 3, digit t.year 2, digit t.year 1, digit t.year 0, digit (t.mon + 1) 1, digit (t.mon + 1) 0, digit t.mday 1, digit t.mday 0]

/-- MM/DD/YY -/
def date (t : Tm) : Bytes :=
  [digit (t.mon + 1) 1, digit (t.mon + 1) 0, 47, digit t.mday 1, digit t.mday 0, 47, digit t.year 1, digit t.year 0]

/-- HH:MM -/
def time (t : Tm) : Bytes := [digit t.hour 1, digit t.hour 0, 58, digit t.min 1, digit t.min 0]

/-- A macro call that is not finished: the macro and the section that was current when it was called. -/
structure Call where
  mac : Bytes
  here : Here

/-- The calls that are not finished, the innermost first. -/
def calls : List Call → List Ev → List Call
  | cs, [] => cs
  | cs, .call mac _ here :: evs => calls (⟨mac, here⟩ :: cs) evs
  | cs, .ret :: evs => calls cs.tail evs
  | cs, _ :: evs => calls cs evs

/-- The name &SYSMAC(i) stands for: the macro `i` levels out from the one being processed, then open code, then nothing. -/
def level (cs : List Call) (i : Nat) : Bytes :=
  if i < cs.length then (cs[i]?.map (·.mac)).getD [] else if i = cs.length then "OPEN CODE".toUTF8.toList else []

/-- The system variables looked at here, and &SYSNDX. -/
def names : List Name :=
  ["SYSDATC", "SYSDATE", "SYSTIME", "SYSPARM", "SYSOPT_RENT", "SYSECT", "SYSSTYP", "SYSLOC", "SYSNEST", "SYSMAC", "SYSNDX"].map
    fun s => s.toUTF8.toList

/-- System variables are not assigned to, are not declared, and parameters are not named like them. -/
def Proper : Ev → Prop
  | .set _ n _ _ => n ∉ names
  | .lcl _ n _ => n ∉ names
  | .gbl _ n _ => n ∉ names
  | .call _ params _ => ∀ n ∈ names, params n = false
  | .ret => True

end Verif.SysVar.Spec
