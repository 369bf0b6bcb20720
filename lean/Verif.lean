import Verif.TextSync.Props
import Verif.FileManager.Props
import Verif.Framing.Props
import Verif.Queue.Props
import Verif.RequestManager.Props
import Verif.Lsp.Props
import Verif.Dap.Props
import Verif.Workspace.Props
import Verif.Context.Props
import Verif.Processing.Props
import Verif.Ca.Props
import Verif.Ord.Props
import Verif.Debugger.Props
import Verif.Lexing.Props
import Verif.LspCtx.Props
import Verif.DataDef.Props
import Verif.Mach.Props
import Verif.MacroDef.Props
import Verif.AsmCheck.All
import Verif.Client.All
import Verif.Attr.TypeProps
import Verif.Ahead.ScanProps
import Verif.Mention.Cases
import Verif.Gram.Props
import Verif.Syntax.Props
import Verif.Subst.Props
import Verif.Message.Props
import Verif.Config.Props
import Verif.DapMsg.Props
import Verif.ProcOpt.Props
import Verif.Help.Props
import Verif.Define.Hover
import Verif.Exec.Order
import Verif.Fresh.Answers
import Verif.CaEval.Final
import Verif.CaStmt.Final
import Verif.Sect.Final
import Verif.Detect.Claims
import Verif.Suppress.Props
import Verif.Colour.Props
import Verif.Asked.Props
import Verif.Circle.Props
import Verif.Seek.Props
import Verif.Pieces.Props
import Verif.Gen.Props
import Verif.Whole.Props
import Verif.Whole.Ends
import Verif.Stream.Props
import Verif.Path.Windows
import Verif.Report.Props
import Verif.Collect.Props
import Verif.Session.Props
import Verif.Broken.Many
import Verif.DataDef.ReportProps
import Verif.SysVar.Props
import Verif.Waiting.Props
