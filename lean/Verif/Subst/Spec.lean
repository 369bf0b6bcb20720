import Verif.Subst.Model
/-!
What a text with variable symbols stands for.
-/
namespace Verif.Subst

open Lexing (Ty)
open MacroDef (Var)

/-- The text with the variable symbols replaced by their values; a full stop directly behind a variable symbol is left out, everything
else stays. `behind`: a variable symbol comes directly before. -/
def replaced (env : Var → Bytes) (behind : Bool) : List W → Bytes
  | [] => []
  | .var v :: r => env v ++ replaced env true r
  | .tok ty t :: r => (if behind ∧ ty = .dot then [] else t) ++ replaced env false r
  | .empty t :: r => t ++ replaced env false r

/-- Every variable symbol has a name. -/
def Named (ws : List W) : Prop := ∀ t, W.empty t ∉ ws

/-- A doubled quote or ampersand. -/
def StrCh.Doubled : StrCh → Prop
  | .quotes _ _ => True
  | .ch .amp => True
  | .ch (.one _ _ t _) => t = c1 '&' ++ c1 '&'

/-- A doubled quote. -/
def StrChV.Doubled : StrChV → Prop
  | .quotes _ _ => True
  | _ => False

/-- A string in front of the first variable symbol with a doubled quote or ampersand. -/
def Before.Doubled : Before → Prop
  | .string chs _ => ∃ c ∈ chs, c.Doubled
  | _ => False

/-- A string behind the part with the first variable symbol with a doubled quote. -/
def After.Doubled : After → Prop
  | .string _ chs _ => ∃ c ∈ chs, c.Doubled
  | _ => False

end Verif.Subst
