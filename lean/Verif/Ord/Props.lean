import Verif.Ord.AddressProps
import Verif.Ord.AlignProps
import Verif.Ord.LocCtrProps
import Verif.Ord.SymbolProps
import Verif.Ord.DepsProps
import Verif.Ord.ResolveProps
import Verif.Ord.EquProps
import Verif.Ord.OrgStmt
import Verif.Ord.Loctr
