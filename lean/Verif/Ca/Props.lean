import Verif.Ca.ArithProps
import Verif.Ca.ExprListProps
import Verif.Ca.EbcdicProps
import Verif.Ca.FuncProps
import Verif.Ca.StrProps
/-! Conditional assembly expressions: C41-C49, C82, C83. -/
