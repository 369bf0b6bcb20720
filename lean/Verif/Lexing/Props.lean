import Verif.Lexing.UtfProps
import Verif.Lexing.RangeProps
import Verif.Lexing.LexerProps
import Verif.Lexing.RecordsProps
