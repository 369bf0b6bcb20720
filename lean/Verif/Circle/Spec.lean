import Verif.Circle.Model
import Mathlib.Logic.Relation

/-! Lengths that depend on themselves. -/
namespace Verif.Circle
open Ord (SymSt SpId Dep SpSrc)

/-- To know the length of `a` one has to know that of `b`: nothing else about `a` is missing that is a symbol. -/
def Needs (st : SymSt) (a b : SpId) : Prop :=
  ∃ x ∈ st.sps, x.1 = a ∧ (∀ n, Dep.sym n ∉ (x.2.collect st.env st.tab).extract st.env) ∧
    Dep.space b ∈ (x.2.collect st.env st.tab).extract st.env

/-- The length of `a` depends on itself. -/
def Circular (st : SymSt) (a : SpId) : Prop := Relation.TransGen (Needs st) a a

end Verif.Circle
