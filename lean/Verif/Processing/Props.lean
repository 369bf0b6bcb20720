import Verif.Processing.LookaheadProps
import Verif.Processing.SearchProps
import Verif.Processing.CacheProps
