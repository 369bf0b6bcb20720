/-!
Requests about documents, and analyses that are broken off.

Modelled: `language_server/src/request_manager.cpp` 36-60 (`add_request`), 81-115 (`handle_request_`); `parser_library/src/workspace_manager_impl.h`
72-130, 134-205 and 238-252 (what a notification or a request does, and when it looks at the cancellation flag); `workspaces/workspace.cpp` 84-103
(`find_related_opencodes`), 154-222 (`parse_file`), 237-268 (closing, and the features), 467-513 (dependencies); `workspaces/processor_file_impl.cpp`
43-78 (`parse`, `parse_macro`), 97-107; `workspaces/file_manager_impl.cpp` 33-120 and 141-185; `processing/processing_manager.cpp` 98-125 (the loop with its
check of the flag); and from `lsp/lsp_context.cpp` 78-107, 189-240 what of an analysis the features need.

Texts are numbers: a text is the notification that brought it. What an analysis comes across is given for each analysis (`World.steps`), so
nothing is assumed about programs. Not modelled: text edits that throw (C05), debug sessions (C138), several workspaces, changes of watched files.
-/
namespace Verif.Broken

abbrev Uri := Nat

/-- What a running analysis comes across: a library member it needs, or the end of the innermost member; `ok` tells whether the
member defines what it was needed for. -/
inductive Step where
  | ask (m : Uri)
  | done (m : Uri) (ok : Bool)
deriving DecidableEq, Repr

/-- The outside: which documents are `proc_grps.json` and `pgm_conf.json`, whether the configuration can be loaded the n-th time, and what the
n-th analysis, of the given program, comes across. -/
structure World where
  conf : Uri → Bool
  loads : Nat → Bool
  steps : Nat → Uri → List Step

/-- Questions (workspace_manager_impl.h 134-205): definition, references and hover; completion, `sym` when the character before is `&` or `.`
(lsp_context.cpp 189-210); semantic tokens. -/
inductive Kind where
  | lookup
  | complete (sym : Bool)
  | tokens
deriving DecidableEq, Repr

/-- Messages of the client about a document. -/
inductive Req where
  | opened (d : Uri)
  | changed (d : Uri)
  | closed (d : Uri)
  | ask (k : Kind) (d : Uri)
deriving DecidableEq, Repr

/-- The document of a request (request_manager.cpp 147-167, `get_request_file_`; all methods begin with `textDocument`). -/
def Req.doc : Req → Uri
  | .opened d => d
  | .changed d => d
  | .closed d => d
  | .ask _ d => d

/-- `is_parsing_required` (request_manager.cpp 158-163). -/
def Req.parses : Req → Bool
  | .opened _ => true
  | .changed _ => true
  | _ => false

/-- What an analysis leaves for the features (`lsp_context`): the program, its text, the members that are known as files (`files_`), and whether
the analysis came to its end, which is when `opencode_` is set (lsp_context.cpp 97-107). -/
structure Ctx where
  owner : Uri
  text : Nat
  known : List Uri
  whole : Bool
deriving DecidableEq, Repr

/-- A file of the file manager: a plain one or a processor file (`proc`); whether it is open in the editor; its text; the analysis
(`analyzer_`, null for `none`; members refer to the analysis that needed them) and `dependencies_`. -/
structure File where
  proc : Bool := false
  editing : Bool := false
  text : Nat := 0
  ctx : Option Nat := none
  deps : List Uri := []
deriving DecidableEq, Repr

/-- How it ends otherwise. -/
inductive Bad where
  /-- the null pointer `analyzer_` is followed (processor_file_impl.cpp 99-107) -/
  | noAnalysis
  /-- the null pointer `opencode_` is followed (lsp_context.cpp 213, 228) -/
  | noOpencode
  /-- an analyzer that is at work is destroyed: its file is analysed again (processor_file_impl.cpp 69-78) -/
  | replaced
  /-- a dependant that is not among the files (workspace.cpp 250-252) -/
  | noFile
deriving DecidableEq, Repr

/-- What the worker thread is doing, between two points where it looks at the flag. -/
inductive Phase where
  /-- waiting for a request -/
  | idle
  /-- the request is taken from the queue -/
  | begun (r : Req)
  /-- the file manager has the new text (workspace_manager_impl.h 74, 91); `first` for didOpen -/
  | updated (d : Uri) (first : Bool)
  /-- in the loop of an analysis (processing_manager.cpp 98-125): of program `t`, analysis number `i`; `rest` are the programs still to analyse, `closing`
  the ones that are analysed with the files they no longer need; `left` is what it will come across, `busy` the members being analysed and
  `asked` the members it needed so far -/
  | parsing (d : Uri) (first : Bool) (t : Uri) (i : Nat) (left : List Step) (busy asked : List Uri) (rest : List Uri)
      (closing : List (Uri × List Uri))
  /-- the loop is left (processor_file_impl.cpp 49) -/
  | parsed (d : Uri) (first : Bool) (t : Uri) (asked : List Uri) (rest : List Uri) (closing : List (Uri × List Uri))
  /-- the workspace is done (workspace_manager_impl.h 80, 97) -/
  | reported (d : Uri) (first : Bool)
deriving DecidableEq, Repr

/-- An answer: nothing, or one from an analysis. -/
inductive Ans where
  | nothing
  | from (c : Ctx)
deriving DecidableEq, Repr

/-- A request that was carried out, its answer, and how many didOpen and didChange had arrived by then. -/
structure Entry where
  req : Req
  ans : Option Ans
  arrived : Nat
deriving DecidableEq, Repr

/-- The server. -/
structure St where
  /-- `file_manager_impl::files_` -/
  files : Uri → Option File := fun _ => none
  /-- `workspace::dependants_`, an ordered set -/
  dependants : List Uri := []
  /-- all analyses so far -/
  ctxs : List Ctx := []
  /-- `requests_`, with `valid` -/
  queue : List (Req × Bool) := []
  /-- `currently_running_file_` -/
  cur : Option Uri := none
  /-- `*cancel_` -/
  cancel : Bool := false
  phase : Phase := .idle
  /-- didOpen and didChange carried out so far -/
  clock : Nat := 0
  /-- didOpen and didChange arrived so far (of the observer) -/
  arrived : Nat := 0
  /-- what was carried out (of the observer) -/
  log : List Entry := []

/-- What happens: a message arrives at the main thread, or the worker goes on to its next look at the flag. -/
inductive Ev where
  | arrive (r : Req)
  | work
deriving DecidableEq, Repr

/-- `add_request` (request_manager.cpp 36-60). -/
def St.arrive (s : St) (r : Req) : St :=
  let n := s.arrived + (if r.parses then 1 else 0)
  if s.cur = some r.doc ∧ r.parses = true then
    { s with
      cancel := true, arrived := n
      queue := s.queue.map (fun q => if q.1.doc = r.doc then (q.1, false) else q) ++ [(r, true)] }
  else { s with queue := s.queue ++ [(r, true)], arrived := n }

/-- One file replaced. -/
def setFile (fs : Uri → Option File) (u : Uri) (o : Option File) : Uri → Option File := fun x => if x = u then o else fs x

/-- `change_into_processor_file_if_not_already_` for all the files that are looked up with `find_processor_file` (file_manager_impl.cpp 40-51,
107-115): the new object has no analysis. -/
def asProc (fs : Uri → Option File) (us : List Uri) : Uri → Option File :=
  fun x => if x ∈ us then (fs x).map (fun (o : File) => { o with proc := true }) else fs x

/-- Whether the file of `p` has `d` among its dependencies. -/
def needs (fs : Uri → Option File) (p d : Uri) : Bool :=
  match fs p with
  | some o => decide (d ∈ o.deps)
  | none => false

/-- The dependants that need a document (workspace.cpp 88-95, 180-193). -/
def dependantsOf (s : St) (d : Uri) : List Uri := s.dependants.filter (fun p => needs s.files p d)

/-- `find_related_opencodes`, the last of them (workspace.cpp 84-103). -/
def related (s : St) (d : Uri) : Option Uri :=
  match (dependantsOf s d).getLast? with
  | some p => some p
  | none => if (s.files d).isSome then some d else none

/-- The files that `find_related_opencodes` looks up. -/
def relatedFiles (s : St) (d : Uri) : Uri → Option File :=
  asProc s.files (if dependantsOf s d = [] then d :: s.dependants else s.dependants)

/-- An ordered set. -/
def insertSet (x : Uri) : List Uri → List Uri
  | [] => [x]
  | y :: l => if x < y then x :: y :: l else if x = y then y :: l else y :: insertSet x l

/-- `filter_and_close_dependencies_` (workspace.cpp 467-498): of the files `deps`, those go that are not open in the editor and that no other
dependant than `p` needs. -/
def closeDeps (s : St) (deps : List Uri) (p : Uri) : St :=
  let fs := asProc s.files (deps ++ s.dependants)
  let gone := deps.filter (fun x =>
    (match fs x with
      | some o => !o.editing
      | none => false) && !(s.dependants.any (fun q => decide (q ≠ p) && needs fs q x)))
  { s with files := fun x => if x ∈ gone then none else fs x }

/-- The analysis of `t` begins (`parse`, processor_file_impl.cpp 43-49): the old analysis is gone. -/
def St.analyse (w : World) (s : St) (d : Uri) (first : Bool) (t : Uri) (rest : List Uri) (closing : List (Uri × List Uri)) : St :=
  let i := s.ctxs.length
  match s.files t with
  | none => { s with phase := .reported d first }
  | some o =>
    { s with
      files := setFile s.files t (some { o with proc := true, ctx := some i })
      ctxs := s.ctxs ++ [{ owner := t, text := o.text, known := [], whole := false }]
      phase := .parsing d first t i (w.steps i t) [] [] rest closing }

/-- The programs to analyse when a document changes (workspace.cpp 154-200). -/
def targets (w : World) (s : St) (d : Uri) : List Uri :=
  if w.conf d then
    if w.loads s.ctxs.length then s.dependants.filter (fun p => (s.files p).isSome) else []
  else
    match dependantsOf s d with
    | [] => if (s.files d).isSome then [d] else []
    | ps => ps

/-- `parse_file` begins. -/
def St.startParse (w : World) (s : St) (d : Uri) (first : Bool) : St :=
  match targets w s d with
  | [] => { s with phase := .reported d first }
  | t :: rest =>
    St.analyse w { s with files := asProc s.files s.dependants } d first t rest []

/-- The loop of an analysis (processing_manager.cpp 100-123), with `parse_library` and `parse_macro` of members (workspace.cpp 515-528,
processor_file_impl.cpp 69-78), and the end of members and of the program (lsp_analyzer.cpp 84-119). -/
def St.loop (s : St) (d : Uri) (first : Bool) (t : Uri) (i : Nat) (left : List Step) (busy asked rest : List Uri)
    (closing : List (Uri × List Uri)) : Except Bad St :=
  if s.cancel then .ok { s with phase := .parsed d first t asked rest closing }
  else
    match left with
    | .ask m :: l =>
      if m = t ∨ m ∈ busy then .error .replaced
      else
        let o := (s.files m).getD {}
        .ok { s with
          files := setFile s.files m (some { o with proc := true, ctx := some i })
          phase := .parsing d first t i l (m :: busy) (m :: asked) rest closing }
    | .done m ok :: l =>
      .ok { s with
        ctxs := if ok then s.ctxs.modify i (fun c => { c with known := m :: c.known }) else s.ctxs
        phase := .parsing d first t i l (busy.erase m) asked rest closing }
    | [] =>
      .ok { s with
        ctxs := s.ctxs.modify i (fun c => { c with known := t :: c.known, whole := true })
        phase := .parsed d first t asked rest closing }

/-- After the loop (processor_file_impl.cpp 51-64, workspace.cpp 202-222): the dependencies are renewed unless the flag is set; then comes the
next program, or the files that are no longer needed go. -/
def St.afterLoop (w : World) (s : St) (d : Uri) (first : Bool) (t : Uri) (asked rest : List Uri) (closing : List (Uri × List Uri)) : St :=
  match s.files t with
  | none => { s with phase := .reported d first }
  | some o =>
    let deps := if s.cancel then o.deps else asked.filter (fun x => decide (x ≠ t))
    let close := o.deps.filter (fun x => decide (x ∉ deps))
    let s := { s with
      files := setFile s.files t (some { o with deps := deps })
      dependants := if deps = [] then s.dependants else insertSet t s.dependants }
    let closing := closing ++ [(t, close)]
    match rest with
    | t' :: rest => St.analyse w s d first t' rest closing
    | [] => { closing.foldl (fun s p => closeDeps s p.2 p.1) s with phase := .reported d first }

/-- An answer from the file object of `p` (`get_lsp_feature_provider`, processor_file_impl.cpp 103): `need` tells whether the feature follows
`opencode_` when the document is known. -/
def fromFile (s : St) (p d : Uri) (need : Bool) : Except Bad Ans :=
  match s.files p with
  | none => .ok .nothing
  | some o =>
    match o.ctx with
    | none => .error .noAnalysis
    | some i =>
      match s.ctxs[i]? with
      | none => .error .noAnalysis
      | some c => if need && !c.whole && decide (d ∈ c.known) then .error .noOpencode else .ok (.from c)

/-- The answer to a question when the flag is not set (workspace.cpp 270-313, workspace_manager_impl.h 192-205). -/
def answer (s : St) (k : Kind) (d : Uri) : Except Bad Ans :=
  match k with
  | .tokens =>
    match s.files d with
    | some o => if o.proc then fromFile s d d false else .ok .nothing
    | none => .ok .nothing
  | .lookup =>
    match related s d with
    | some p => fromFile s p d false
    | none => .ok .nothing
  | .complete sym =>
    match related s d with
    | some p => fromFile s p d sym
    | none => .ok .nothing

/-- The files after a question. -/
def filesAfter (s : St) (k : Kind) (d : Uri) : Uri → Option File :=
  match k with
  | .tokens => s.files
  | _ => relatedFiles s d

/-- `workspace::did_close_file` (workspace.cpp 237-260). -/
def St.close (s : St) (d : Uri) : Except Bad St :=
  let s := { s with files := asProc s.files s.dependants }
  if dependantsOf s d ≠ [] then
    .ok { s with files := setFile s.files d ((s.files d).map (fun (o : File) => { o with editing := false })) }
  else if d ∈ s.dependants then
    match s.files d with
    | none => .error .noFile
    | some o =>
      let s := closeDeps s o.deps d
      .ok { s with dependants := s.dependants.erase d, files := setFile s.files d none }
  else .ok { s with files := setFile s.files d none }

/-- Something is carried out. -/
def St.note (s : St) (r : Req) (a : Option Ans) : St := { s with log := s.log ++ [⟨r, a, s.arrived⟩] }

/-- A request is carried out, up to the first look at the flag (workspace_manager_impl.h 72-112, 134-205; file_manager_impl.cpp 141-172). -/
def St.carry (s : St) (r : Req) : Except Bad St :=
  match r with
  | .opened d =>
    let o := (s.files d).getD {}
    let s := { s with
      files := setFile s.files d (some { o with editing := true, text := s.clock + 1 })
      clock := s.clock + 1, phase := .updated d true }
    .ok (s.note r none)
  | .changed d =>
    let s := { s with
      files := setFile s.files d ((s.files d).map (fun (o : File) => { o with text := s.clock + 1 }))
      clock := s.clock + 1, phase := .updated d false }
    .ok (s.note r none)
  | .closed d =>
    match s.close d with
    | .ok s => .ok (St.note { s with phase := .idle } r none)
    | .error e => .error e
  | .ask k d =>
    if s.cancel then .ok (St.note { s with phase := .idle } r (some .nothing))
    else
      match answer s k d with
      | .ok a => .ok (St.note { s with files := filesAfter s k d, phase := .idle } r (some a))
      | .error e => .error e

/-- The end of a notification (workspace_manager_impl.h 80-86, 97-100, 238-252): after didOpen the metrics of the analysis are sent. -/
def St.finish (s : St) (d : Uri) (first : Bool) : Except Bad St :=
  if s.cancel || !first then .ok { s with phase := .idle }
  else
    match s.files d with
    | some o => if o.proc && o.ctx.isNone then .error .noAnalysis else .ok { s with phase := .idle }
    | none => .ok { s with phase := .idle }

/-- The worker goes on (request_manager.cpp 81-115 and everything it calls). -/
def St.work (w : World) (s : St) : Except Bad St :=
  match s.phase with
  | .idle =>
    match s.queue with
    | [] => .ok s
    | (r, v) :: q => .ok { s with queue := q, cur := some r.doc, cancel := !v, phase := .begun r }
  | .begun r => s.carry r
  | .updated d first => if s.cancel then .ok { s with phase := .idle } else .ok (St.startParse w s d first)
  | .parsing d first t i left busy asked rest closing => s.loop d first t i left busy asked rest closing
  | .parsed d first t asked rest closing => .ok (St.afterLoop w s d first t asked rest closing)
  | .reported d first => s.finish d first

/-- One event. -/
def St.step (w : World) (s : St) : Ev → Except Bad St
  | .arrive r => .ok (s.arrive r)
  | .work => s.work w

/-- A run. -/
def St.run (w : World) (s : St) : List Ev → Except Bad St
  | [] => .ok s
  | e :: es =>
    match s.step w e with
    | .ok s => St.run w s es
    | .error b => .error b

end Verif.Broken
