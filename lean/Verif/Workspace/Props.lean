import Verif.Workspace.DepsProps
import Verif.Workspace.LibraryProps
import Verif.Workspace.SelectProps
import Verif.Workspace.WildcardProps
