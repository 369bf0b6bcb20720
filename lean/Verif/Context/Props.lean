import Verif.Context.VarsProps
import Verif.Context.IdsProps
import Verif.Context.OpsynProps
import Verif.Context.MacroDataProps
import Verif.Context.MacroCallProps
import Verif.Context.CaFlowProps
