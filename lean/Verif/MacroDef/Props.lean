import Verif.MacroDef.BodyProps
import Verif.MacroDef.Scopes
import Verif.MacroDef.LineProps
import Verif.MacroDef.Prototype
import Verif.MacroDef.Operands

/-!
Macro definitions and calls: C98 and C99 (`BodyProps`), C59 (`Scopes`), C53 (`LineProps`), C78 (`Prototype`), C79 (`Operands`).
-/
