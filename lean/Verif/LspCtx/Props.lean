import Verif.LspCtx.TextProps
import Verif.LspCtx.OccProps
import Verif.LspCtx.CompleteProps
