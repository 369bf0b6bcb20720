import Verif.Debugger.StopProps
import Verif.Debugger.VarProps
