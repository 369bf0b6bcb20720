import Verif.Mach.Statement
import Verif.Mach.Mnemonic
import Verif.Mach.Storage
import Verif.Mach.Fields
import Verif.Mach.Sizes

/-!
Machine instructions: C92 (`Operand`, `Statement`), C93 and C94 (`Mnemonic`, `Storage`), C95 (`Storage`, `Fields`, `Sizes`), C97 (`Fields`).
-/
