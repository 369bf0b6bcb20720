import Verif.DapMsg.Spec
import Mathlib.Data.List.Induction
import Verif.Config.Props
namespace Verif.DapMsg

open Message (Json text Has Lacks Is Proper WholeNumbers Within)
open Config (Flat flat_of found_iff lacks_iff lacks_of)

/-! ### running -/

@[simp] theorem run_pure {α : Type} (a : α) (s : St) : (pure a : D α).run s = (s, [], .ok a) := rfl
theorem run_bind {α β : Type} (m : D α) (f : α → D β) (s : St) : (m >>= f).run s = match m.run s with
  | (s', e, .ok a) => (((f a).run s').1, e ++ ((f a).run s').2.1, ((f a).run s').2.2)
  | (s', e, .error b) => (s', e, .error b) := rfl
@[simp] theorem run_emit (e : Ev) (s : St) : (emit e).run s = (s, [e], .ok ()) := rfl
@[simp] theorem run_modify (f : St → St) (s : St) : (modify f).run s = (f s, [], .ok ()) := rfl
@[simp] theorem run_get (s : St) : get.run s = (s, [], .ok s) := rfl
@[simp] theorem run_bad {α : Type} (b : Bad) (s : St) : (bad b : D α).run s = (s, [], .error b) := rfl

theorem run_bind_ok {α β : Type} {m : D α} {f : α → D β} {s s' : St} {e : List Ev} {a : α} (h : m.run s = (s', e, .ok a)) :
    (m >>= f).run s = (((f a).run s').1, e ++ ((f a).run s').2.1, ((f a).run s').2.2) := by rw [run_bind, h]
theorem run_bind_error {α β : Type} {m : D α} {f : α → D β} {s s' : St} {e : List Ev} {b : Bad} (h : m.run s = (s', e, .error b)) :
    (m >>= f).run s = (s', e, .error b) := by rw [run_bind, h]

theorem bind_pure' {α β : Type} (a : α) (f : α → D β) : (pure a >>= f) = f a := rfl

theorem idx_has {j : Json} {k : String} {v : Json} (h : Has j k v) : idx j k = pure v := by
  have hf := h.found
  cases h with
  | mk hn hm => simp only [idx, hf]

theorem str_str (s : Bytes) : str (.str s) = pure s := rfl
theorem bool_bool (b : Bool) : bool (.bool b) = pure b := rfl
theorem u64_nat {n : Nat} (h : n < 2 ^ 64) : u64 (.int n) = pure n := by
  have : ((n : Int) % 2 ^ 64).toNat = n := by omega
  simp only [u64, this]

theorem path_run {env : Env} {s : St} {p q : Bytes} (h : Converts env s p q) : (path env p).run s = (s, [], .ok q) := by
  unfold path
  rw [run_bind]
  cases h with
  | uri hu hq => simp only [run_get, hu, if_true, hq, run_pure, List.nil_append]
  | path hu => simp [hu]

/-- The answer made by `respond`. -/
def answer (n : Nat) (seq : Json) (cmd : String) (body : Json) : Json :=
  .obj [(text "seq", .int n), (text "type", .str (text "response")), (text "request_seq", seq), (text "success", .bool true),
    (text "command", .str (text cmd)), (text "body", body)]

/-- The event made by `notify`. -/
def event (n : Nat) (ev : String) (body : Json) : Json :=
  .obj [(text "seq", .int n), (text "type", .str (text "event")), (text "event", .str (text ev)), (text "body", body)]

/-- A member of a list that is written out. -/
macro "has" : tactic => `(tactic| exact .mk (by (try simp only [List.map_cons, List.map_nil]); decide +kernel) (by simp))

theorem answer_is (n : Nat) (seq : Json) (cmd : String) (body : Json) : IsResponse n seq (text cmd) body (answer n seq cmd body) := by
  unfold answer
  exact ⟨by has, by has, by has, by has, by has, by has⟩

theorem event_is (n : Nat) (ev : String) (body : Json) : IsEvent n ev body (event n ev body) := by
  unfold event
  exact ⟨by has, by has, by has, by has⟩

theorem run_respond (seq : Json) (cmd : String) (body : Json) (s : St) :
    (respond seq cmd body).run s = ({ s with seq := after s.seq }, [.reply (answer (after s.seq) seq cmd body)], .ok ()) := rfl

theorem run_notify (ev : String) (body : Json) (s : St) :
    (notify ev body).run s = ({ s with seq := after s.seq }, [.reply (event (after s.seq) ev body)], .ok ()) := rfl

theorem run_ifLive {s : St} (h : s.live = true) (d : D Unit) : (ifLive d).run s = d.run s := by
  unfold ifLive
  rw [run_bind]
  simp [h]

theorem run_ifLive_not {s : St} (h : s.live = false) (d : D Unit) : (ifLive d).run s = (s, [], .ok ()) := by
  unfold ifLive
  rw [run_bind]
  simp [h]

/-! ### the names of the methods -/

theorem received_request {env : Env} {s : St} {m : Json} {cmd : String} {q : Json} (h : Request m cmd q) : received env s m =
    match method env (text cmd) q ((m.find (text "arguments")).getD .null) with
    | some d => ((d.run s).1, (d.run s).2.1, fate (d.run s).2.2)
    | none => (s, [], .fine) := by
  simp only [received, h.type.found, h.command.found, h.seq.found, if_true]
  rfl

theorem received_some {env : Env} {s : St} {m a : Json} {cmd : String} {q : Json} {d : D Unit} (h : Request m cmd q)
    (ha : Has m "arguments" a) (hd : method env (text cmd) q a = some d) :
    received env s m = ((d.run s).1, (d.run s).2.1, fate (d.run s).2.2) := by
  rw [received_request h, ha.found, Option.getD_some, hd]

/-- Which of the methods. -/
macro "named" : tactic => `(tactic| (unfold method; repeat (first | rw [if_pos rfl] | rw [if_neg (by decide +kernel)])))

/-! ### requests do what they say -/

/-- C115: `initialize` is answered, the bases and the format of paths are those the client names, there is a new debugger, and the client is
told. -/
theorem C115_initialize {env : Env} {s : St} {m a q : Json} {l c : Bool} {f : Bytes} (h : Request m "initialize" q) (ha : Has m "arguments" a)
    (hl : Has a "linesStartAt1" (.bool l)) (hc : Has a "columnsStartAt1" (.bool c)) (hf : Has a "pathFormat" (.str f)) :
    ∃ r e b, received env s m = ((⟨true, if l then 1 else 0, if c then 1 else 0, decide (f ≠ text "path"), after (after s.seq), s.ended⟩ : St), [.reply r, .create, .reply e], .fine) ∧
      IsResponse (after s.seq) q (text "initialize") b r ∧ Has b "supportsConfigurationDoneRequest" (.bool true) ∧
      IsEvent (after (after s.seq)) "initialized" .null e := by
  refine ⟨_, _, _, ?_, answer_is _ _ _ (.obj [(text "supportsConfigurationDoneRequest", .bool true)]), by has, event_is _ _ _⟩
  rw [received_some h ha (d := onInitialize q a) (by named)]
  have hconf : ∀ t : St, (configure a).run t = ((⟨true, if l then 1 else 0, if c then 1 else 0, decide (f ≠ text "path"), after t.seq, t.ended⟩ : St),
      [.create, .reply (event (after t.seq) "initialized" .null)], .ok ()) := by
    intro t
    unfold configure
    simp only [idx_has hl, idx_has hc, idx_has hf, str_str, bool_bool, bind_pure']
    simp only [run_bind, run_modify, run_emit, run_notify, List.nil_append, List.cons_append]
    congr 2
    rw [Bool.eq_iff_iff]
    simp
  unfold onInitialize
  rw [run_bind, run_respond]
  simp only [hconf, List.cons_append, List.nil_append, fate]

/-- C115: `launch` starts the program with or without a stop at its beginning, and is answered. -/
theorem C115_launch {env : Env} {s : St} {m a q : Json} {p p' : Bytes} {b : Bool} (h : Request m "launch" q) (ha : Has m "arguments" a)
    (hp : Has a "program" (.str p)) (hb : Has a "stopOnEntry" (.bool b)) (hs : s.live = true) (hc : Converts env s p p') :
    ∃ r, received env s m = ({ s with seq := after s.seq }, [.launch p' b, .reply r], .fine) ∧
      IsResponse (after s.seq) q (text "launch") .null r := by
  refine ⟨_, ?_, answer_is _ _ _ _⟩
  rw [received_some h ha (d := ifLive (onLaunch env q a)) (by named), run_ifLive hs]
  unfold onLaunch
  simp only [idx_has hp, idx_has hb, str_str, bool_bool, bind_pure']
  rw [run_bind_ok (path_run hc)]
  simp only [run_bind, run_emit, run_respond, List.nil_append, List.cons_append, fate]

theorem fromClient_add {base n : Nat} (h : n + base < 2 ^ 64) : fromClient base (n + base) = n := by
  unfold fromClient; omega

theorem breakLines_run {base : Nat} {l : List Json} {ns : List Nat}
    (h : List.Forall₂ (fun j n => Has j "line" (.int (n + base : Nat)) ∧ n + base < 2 ^ 64) l ns) (s : St) :
    (breakLines base l).run s = (s, [], .ok ns) := by
  induction h with
  | nil => rfl
  | cons h _ ih =>
    unfold breakLines
    simp only [idx_has h.1, u64_nat h.2, bind_pure']
    rw [run_bind_ok ih]
    simp [fromClient_add h.2]

/-- C115: `setBreakpoints` sets exactly the lines asked for, counted from the base agreed on, in the file asked for, and every one of them
is confirmed. -/
theorem C115_breakpoints {env : Env} {s : St} {m a q x : Json} {p p' : Bytes} {ns : List Nat} (h : Request m "setBreakpoints" q)
    (ha : Has m "arguments" a) (hx : Has a "source" x) (hp : IsSource x p) (hb : Breakpoints s.lines a ns) (hs : s.live = true)
    (hc : Converts env s p p') :
    ∃ r b l, received env s m = ({ s with seq := after s.seq }, [.breakpoints p' ns, .reply r], .fine) ∧
      IsResponse (after s.seq) q (text "setBreakpoints") b r ∧ Has b "breakpoints" (.arr l) ∧
      List.Forall₂ (fun _ j => Has j "verified" (.bool true)) ns l := by
  refine ⟨_, _, ns.map fun _ => .obj [(text "verified", .bool true)], ?_, answer_is _ _ _ (.obj [(text "breakpoints",
    .arr (ns.map fun _ => .obj [(text "verified", .bool true)]))]), by has, ?_⟩
  · rw [received_some h ha (d := ifLive (onSetBreakpoints env q a)) (by named), run_ifLive hs]
    unfold onSetBreakpoints
    simp only [idx_has hx, idx_has hp, str_str, bind_pure']
    rw [run_bind_ok (path_run hc), run_bind]
    have hl : (breakLines s.lines (asked a)).run s = (s, [], .ok ns) := by
      unfold asked
      cases hb with
      | none hn => rw [hn.found]; rfl
      | list hl hf => rw [hl.found]; exact breakLines_run hf s
    simp only [run_get]
    rw [run_bind_ok hl]
    simp only [run_bind, run_emit, run_respond, List.nil_append, List.cons_append, fate]
  · rw [List.forall₂_map_right_iff]
    exact List.forall₂_same.mpr fun _ _ => by has

theorem toClient_add {base n : Nat} (h : n + base < 2 ^ 64) : toClient base n = n + base := by
  unfold toClient; omega

theorem frame_is (s : St) (f : Frame) : IsFrame s f (frameJson s f) := by
  unfold frameJson
  refine ⟨by has, by has, ⟨sourceJson f.path, by has, by unfold sourceJson IsSource; has⟩, fun h => ?_, fun h => ?_, fun h => ?_, fun h => ?_⟩ <;>
    rw [← toClient_add h] <;> has

/-- C115: `stackTrace` is answered with the frames of the debugger, in their order, at their places. Arguments are not looked at. -/
theorem C115_stack {env : Env} {s : St} {m q : Json} (h : Request m "stackTrace" q) (hs : s.live = true) :
    ∃ r b l, received env s m = ({ s with seq := after s.seq }, [.reply r], .fine) ∧ IsResponse (after s.seq) q (text "stackTrace") b r ∧
      Has b "stackFrames" (.arr l) ∧ Has b "totalFrames" (.int l.length) ∧ List.Forall₂ (IsFrame s) env.frames l := by
  refine ⟨_, _, env.frames.map (frameJson s), ?_, answer_is _ _ _ (.obj [(text "stackFrames", .arr (env.frames.map (frameJson s))),
    (text "totalFrames", .int env.frames.length)]), by has, by rw [List.length_map]; has, ?_⟩
  · rw [received_request h]
    have : ∀ a, method env (text "stackTrace") q a = some (ifLive (onStackTrace env q)) := fun a => by named
    rw [this]
    simp only [run_ifLive hs]
    unfold onStackTrace
    simp only [run_bind, run_get, run_respond, List.nil_append, fate]
  · rw [List.forall₂_map_right_iff]
    exact List.forall₂_same.mpr fun f _ => frame_is s f

theorem scope_is (c : Scope) : IsScope c (scopeJson c) := by
  unfold scopeJson
  exact ⟨by has, by has, by has, ⟨sourceJson c.path, by has, by unfold sourceJson IsSource; has⟩⟩

/-- C115: `scopes` is answered with the scopes of the frame asked for. -/
theorem C115_scopes {env : Env} {s : St} {m a q : Json} {n : Nat} (h : Request m "scopes" q) (ha : Has m "arguments" a)
    (hn : Has a "frameId" (.int n)) (hlt : n < 2 ^ 64) (hs : s.live = true) :
    ∃ r b l, received env s m = ({ s with seq := after s.seq }, [.reply r], .fine) ∧ IsResponse (after s.seq) q (text "scopes") b r ∧
      Has b "scopes" (.arr l) ∧ List.Forall₂ IsScope (env.scopes n) l := by
  refine ⟨_, _, (env.scopes n).map scopeJson, ?_, answer_is _ _ _ (.obj [(text "scopes", .arr ((env.scopes n).map scopeJson))]), by has, ?_⟩
  · rw [received_some h ha (d := ifLive (onScopes env q a)) (by named), run_ifLive hs]
    unfold onScopes
    simp only [idx_has hn, u64_nat hlt, bind_pure', run_respond, fate]
  · rw [List.forall₂_map_right_iff]
    exact List.forall₂_same.mpr fun f _ => scope_is f

theorem var_is (v : Var) : IsVar v (varJson v) := by
  unfold varJson
  obtain ⟨n, x, r, t⟩ := v
  cases t <;> simp only [typeMember, List.cons_append, List.nil_append] <;>
    refine ⟨by has, by has, by has, fun n hn => ?_, fun hn => ?_⟩ <;>
    first
    | (cases hn; has)
    | (simp at hn; done)
    | (cases hn; done)
    | exact lacks_of (by (try simp only [List.map_cons, List.map_nil]); decide +kernel)

/-- C115: `variables` is answered with the variables under the reference asked for. -/
theorem C115_variables {env : Env} {s : St} {m a q : Json} {n : Nat} (h : Request m "variables" q) (ha : Has m "arguments" a)
    (hn : Has a "variablesReference" (.int n)) (hlt : n < 2 ^ 64) (hs : s.live = true) :
    ∃ r b l, received env s m = ({ s with seq := after s.seq }, [.reply r], .fine) ∧ IsResponse (after s.seq) q (text "variables") b r ∧
      Has b "variables" (.arr l) ∧ List.Forall₂ IsVar (env.variables n) l := by
  refine ⟨_, _, (env.variables n).map varJson, ?_, answer_is _ _ _ (.obj [(text "variables", .arr ((env.variables n).map varJson))]), by has, ?_⟩
  · rw [received_some h ha (d := ifLive (onVariables env q a)) (by named), run_ifLive hs]
    unfold onVariables
    simp only [idx_has hn, u64_nat hlt, bind_pure', run_respond, fate]
  · rw [List.forall₂_map_right_iff]
    exact List.forall₂_same.mpr fun f _ => var_is f

/-- What the commands for going on are called, and what they do. -/
inductive Steps : String → Ev → Prop where
  | next : Steps "next" .next
  | stepIn : Steps "stepIn" .stepIn
  | continue : Steps "continue" .continue

/-- C115: the commands for going on are given to the debugger, once, and answered. -/
theorem C115_steps {env : Env} {s : St} {m q : Json} {cmd : String} {e : Ev} (h : Request m cmd q) (hc : Steps cmd e) (hs : s.live = true) :
    ∃ r b, received env s m = ({ s with seq := after s.seq }, [e, .reply r], .fine) ∧ IsResponse (after s.seq) q (text cmd) b r ∧
      (cmd = "continue" → Has b "allThreadsContinued" (.bool true)) := by
  rw [received_request h]
  cases hc with
  | next =>
    refine ⟨_, _, ?_, answer_is _ _ _ .null, fun h => absurd h (by decide)⟩
    have : ∀ a, method env (text "next") q a = some (ifLive (onStep q .next "next" .null)) := fun a => by named
    rw [this]
    simp only [run_ifLive hs, onStep, run_bind, run_emit, run_respond, List.cons_append, List.nil_append, fate]
  | stepIn =>
    refine ⟨_, _, ?_, answer_is _ _ _ .null, fun h => absurd h (by decide)⟩
    have : ∀ a, method env (text "stepIn") q a = some (ifLive (onStep q .stepIn "stepIn" .null)) := fun a => by named
    rw [this]
    simp only [run_ifLive hs, onStep, run_bind, run_emit, run_respond, List.cons_append, List.nil_append, fate]
  | «continue» =>
    refine ⟨_, _, ?_, answer_is _ _ _ (.obj [(text "allThreadsContinued", .bool true)]), fun _ => by has⟩
    have : ∀ a, method env (text "continue") q a =
      some (ifLive (onStep q .continue "continue" (.obj [(text "allThreadsContinued", .bool true)]))) := fun a => by named
    rw [this]
    simp only [run_ifLive hs, onStep, run_bind, run_emit, run_respond, List.cons_append, List.nil_append, fate]

/-- C115: `disconnect` ends the session, with or without a debugger, and is answered. -/
theorem C115_disconnect {env : Env} {s : St} {m q : Json} (h : Request m "disconnect" q) :
    ∃ r, received env s m = ({ s with live := false, ended := true, seq := after s.seq }, [.destroy, .reply r], .fine) ∧
      IsResponse (after s.seq) q (text "disconnect") .null r := by
  refine ⟨_, ?_, answer_is _ _ _ .null⟩
  rw [received_request h]
  have : ∀ a, method env (text "disconnect") q a = some (onDisconnect q) := fun a => by named
  rw [this]
  simp only [onDisconnect, run_bind, run_modify, run_emit, run_respond, List.cons_append, List.nil_append, fate]

/-- C115: there is one thread; other requests are acknowledged, at any time. -/
theorem C115_others {env : Env} {s : St} {m q : Json} {cmd : String} (h : Request m cmd q)
    (hc : cmd = "threads" ∨ cmd = "configurationDone" ∨ cmd = "setExceptionBreakpoints") :
    ∃ r b, received env s m = ({ s with seq := after s.seq }, [.reply r], .fine) ∧ IsResponse (after s.seq) q (text cmd) b r ∧
      (cmd = "threads" → ∃ t, Has b "threads" (.arr [t]) ∧ Has t "id" (.int 1) ∧ Has t "name" (.str (text "main"))) := by
  rw [received_request h]
  rcases hc with rfl | rfl | rfl
  · refine ⟨_, _, ?_, answer_is _ _ _ threadsBody, fun _ => ⟨.obj [(text "id", .int 1), (text "name", .str (text "main"))], ?_, by has, by has⟩⟩
    · have : ∀ a, method env (text "threads") q a = some (respond q "threads" threadsBody) := fun a => by named
      rw [this]
      simp only [run_respond, fate]
    · unfold threadsBody; has
  · refine ⟨_, _, ?_, answer_is _ _ _ .null, fun h => absurd h (by decide)⟩
    have : ∀ a, method env (text "configurationDone") q a = some (respond q "configurationDone" .null) := fun a => by named
    rw [this]
    simp only [run_respond, fate]
  · refine ⟨_, _, ?_, answer_is _ _ _ .null, fun h => absurd h (by decide)⟩
    have : ∀ a, method env (text "setExceptionBreakpoints") q a = some (respond q "setExceptionBreakpoints" .null) := fun a => by named
    rw [this]
    simp only [run_respond, fate]

/-- C115: what the debugger reports becomes an event. -/
theorem C115_events (s : St) (reason : Bytes) (code : Int) :
    (∃ e b, (stopped reason).run s = ({ s with seq := after s.seq }, [.reply e], .ok ()) ∧ IsEvent (after s.seq) "stopped" b e ∧
      Has b "reason" (.str reason) ∧ Has b "threadId" (.int 1) ∧ Has b "allThreadsStopped" (.bool true)) ∧
    ∃ e e' b, (exited code).run s = ({ s with seq := after (after s.seq) }, [.reply e, .reply e'], .ok ()) ∧
      IsEvent (after s.seq) "exited" b e ∧ Has b "exitCode" (.int code) ∧ IsEvent (after (after s.seq)) "terminated" .null e' := by
  refine ⟨⟨_, _, rfl, event_is _ _ (.obj [(text "reason", .str reason), (text "threadId", .int 1), (text "allThreadsStopped", .bool true)]),
    by has, by has, by has⟩, _, _, _, rfl, event_is _ _ (.obj [(text "exitCode", .int code)]), by has, event_is _ _ _⟩

/-! ### any message -/

/-- Reading: no effects, and the state stays. -/
def Silent {α : Type} (d : D α) : Prop := ∀ s, (d.run s).1 = s ∧ (d.run s).2.1 = []

theorem silent_pure {α : Type} (a : α) : Silent (pure a : D α) := fun _ => ⟨rfl, rfl⟩
theorem silent_bad {α : Type} (b : Bad) : Silent (bad b : D α) := fun _ => ⟨rfl, rfl⟩
theorem silent_get : Silent get := fun _ => ⟨rfl, rfl⟩
theorem silent_bind {α β : Type} {m : D α} {f : α → D β} (hm : Silent m) (hf : ∀ a, Silent (f a)) : Silent (m >>= f) := by
  intro s
  obtain ⟨h1, h2⟩ := hm s
  rw [run_bind]
  rcases h : m.run s with ⟨s', e, r⟩
  rw [h] at h1 h2
  subst h1 h2
  cases r with
  | error b => exact ⟨rfl, rfl⟩
  | ok a => simpa using hf a s'

theorem silent_idx (j : Json) (k : String) : Silent (idx j k) := by
  unfold idx
  split
  · split
    · exact silent_pure _
    · exact silent_bad _
  · exact silent_bad _
theorem silent_bool (j : Json) : Silent (bool j) := by
  unfold bool; split
  · exact silent_pure _
  · exact silent_bad _
theorem silent_str (j : Json) : Silent (str j) := by
  unfold str; split
  · exact silent_pure _
  · exact silent_bad _
theorem silent_u64 (j : Json) : Silent (u64 j) := by
  unfold u64; split
  · exact silent_pure _
  · split
    · exact silent_pure _
    · exact silent_bad _
  · exact silent_bad _
theorem silent_path (env : Env) (p : Bytes) : Silent (path env p) := by
  refine silent_bind silent_get fun s => ?_
  split
  · split
    · exact silent_pure _
    · exact silent_bad _
  · exact silent_pure _
theorem silent_breakLines (b : Nat) (l : List Json) : Silent (breakLines b l) := by
  induction l with
  | nil => exact silent_pure _
  | cons j l ih => exact silent_bind (silent_idx _ _) fun _ => silent_bind (silent_u64 _) fun _ => silent_bind ih fun _ => silent_pure _

/-- All or nothing: either it fails and does nothing, or it does something to the debugger, at most, and then gives the answer. -/
def Whole (seq : Json) (cmd : String) (d : D Unit) : Prop := ∀ s,
  (∃ b, d.run s = (s, [], .error b)) ∨
  ∃ e r b, d.run s = ({ s with seq := after s.seq }, e ++ [.reply r], .ok ()) ∧ e.length ≤ 1 ∧ replies e = [] ∧ IsResponse (after s.seq) seq (text cmd) b r

theorem whole_bind {α : Type} {seq : Json} {cmd : String} {m : D α} {f : α → D Unit} (hm : Silent m) (hf : ∀ a, Whole seq cmd (f a)) :
    Whole seq cmd (m >>= f) := by
  intro s
  obtain ⟨h1, h2⟩ := hm s
  rw [run_bind]
  rcases h : m.run s with ⟨s', e, r⟩
  rw [h] at h1 h2
  subst h1 h2
  cases r with
  | error b => exact .inl ⟨b, rfl⟩
  | ok a =>
    rcases hf a s' with ⟨b, hb⟩ | ⟨e, r, b, hb, he⟩
    · exact .inl ⟨b, by simp [hb]⟩
    · exact .inr ⟨e, r, b, by simp [hb], he⟩

theorem whole_respond (seq : Json) (cmd : String) (b : Json) : Whole seq cmd (respond seq cmd b) := fun s =>
  .inr ⟨[], _, _, run_respond _ _ _ s, by simp, rfl, answer_is _ _ _ _⟩

theorem whole_emit {seq : Json} {cmd : String} {b : Json} {e : Ev} (he : ∀ j, e ≠ .reply j) :
    Whole seq cmd (do emit e; respond seq cmd b) := by
  intro s
  refine .inr ⟨[e], _, _, by simp only [run_bind, run_emit, run_respond]; rfl, by simp, ?_, answer_is _ _ _ _⟩
  cases e with
  | reply j => exact absurd rfl (he j)
  | _ => rfl

theorem whole_launch (env : Env) (q a : Json) : Whole q "launch" (onLaunch env q a) := by
  refine whole_bind (silent_idx _ _) fun _ => whole_bind (silent_str _) fun _ => whole_bind (silent_path _ _) fun _ => ?_
  exact whole_bind (silent_idx _ _) fun _ => whole_bind (silent_bool _) fun _ => whole_emit (by simp)

theorem whole_breakpoints (env : Env) (q a : Json) : Whole q "setBreakpoints" (onSetBreakpoints env q a) := by
  refine whole_bind (silent_idx _ _) fun _ => whole_bind (silent_idx _ _) fun _ => whole_bind (silent_str _) fun _ => ?_
  refine whole_bind (silent_path _ _) fun _ => whole_bind silent_get fun _ => whole_bind (silent_breakLines _ _) fun _ => whole_emit (by simp)

theorem whole_stack (env : Env) (q : Json) : Whole q "stackTrace" (onStackTrace env q) :=
  whole_bind silent_get fun _ => whole_respond _ _ _
theorem whole_scopes (env : Env) (q a : Json) : Whole q "scopes" (onScopes env q a) :=
  whole_bind (silent_idx _ _) fun _ => whole_bind (silent_u64 _) fun _ => whole_respond _ _ _
theorem whole_variables (env : Env) (q a : Json) : Whole q "variables" (onVariables env q a) :=
  whole_bind (silent_idx _ _) fun _ => whole_bind (silent_u64 _) fun _ => whole_respond _ _ _

/-- The commands that need a debugger. -/
def needing : List String := ["launch", "setBreakpoints", "stackTrace", "scopes", "next", "stepIn", "variables", "continue"]

/-- Commands that are always answered. -/
def always : List String := ["threads", "configurationDone", "setExceptionBreakpoints"]

/-- The table of methods, once more. -/
inductive Entry (q a : Json) : Bytes → Option (D Unit) → Prop where
  | init : Entry q a (text "initialize") (some (onInitialize q a))
  | disconnect : Entry q a (text "disconnect") (some (onDisconnect q))
  | needing {cmd : String} {d : D Unit} : cmd ∈ needing → Whole q cmd d → Entry q a (text cmd) (some (ifLive d))
  | always {cmd : String} {b : Json} : cmd ∈ always → Entry q a (text cmd) (some (respond q cmd b))
  | unknown {c : Bytes} : (∀ cmd ∈ "initialize" :: "disconnect" :: (needing ++ always), c ≠ text cmd) → Entry q a c none

theorem entry (env : Env) (c : Bytes) (q a : Json) : Entry q a c (method env c q a) := by
  unfold method
  by_cases h1 : c = text "initialize"
  · rw [if_pos h1]; subst h1; exact .init
  rw [if_neg h1]
  by_cases h2 : c = text "disconnect"
  · rw [if_pos h2]; subst h2; exact .disconnect
  rw [if_neg h2]
  by_cases h3 : c = text "launch"
  · rw [if_pos h3]; subst h3; exact .needing (cmd := "launch") (by simp [needing]) (whole_launch _ _ _)
  rw [if_neg h3]
  by_cases h4 : c = text "setBreakpoints"
  · rw [if_pos h4]; subst h4; exact .needing (cmd := "setBreakpoints") (by simp [needing]) (whole_breakpoints _ _ _)
  rw [if_neg h4]
  by_cases h5 : c = text "setExceptionBreakpoints"
  · rw [if_pos h5]; subst h5; exact .always (cmd := "setExceptionBreakpoints") (by simp [always])
  rw [if_neg h5]
  by_cases h6 : c = text "configurationDone"
  · rw [if_pos h6]; subst h6; exact .always (cmd := "configurationDone") (by simp [always])
  rw [if_neg h6]
  by_cases h7 : c = text "threads"
  · rw [if_pos h7]; subst h7; exact .always (cmd := "threads") (by simp [always])
  rw [if_neg h7]
  by_cases h8 : c = text "stackTrace"
  · rw [if_pos h8]; subst h8; exact .needing (cmd := "stackTrace") (by simp [needing]) (whole_stack _ _)
  rw [if_neg h8]
  by_cases h9 : c = text "scopes"
  · rw [if_pos h9]; subst h9; exact .needing (cmd := "scopes") (by simp [needing]) (whole_scopes _ _ _)
  rw [if_neg h9]
  by_cases h10 : c = text "next"
  · rw [if_pos h10]; subst h10; exact .needing (cmd := "next") (by simp [needing]) (whole_emit (by simp))
  rw [if_neg h10]
  by_cases h11 : c = text "stepIn"
  · rw [if_pos h11]; subst h11; exact .needing (cmd := "stepIn") (by simp [needing]) (whole_emit (by simp))
  rw [if_neg h11]
  by_cases h12 : c = text "variables"
  · rw [if_pos h12]; subst h12; exact .needing (cmd := "variables") (by simp [needing]) (whole_variables _ _ _)
  rw [if_neg h12]
  by_cases h13 : c = text "continue"
  · rw [if_pos h13]; subst h13; exact .needing (cmd := "continue") (by simp [needing]) (whole_emit (by simp))
  rw [if_neg h13]
  refine .unknown fun cmd hc => ?_
  simp only [needing, always, List.cons_append, List.nil_append, List.mem_cons, List.not_mem_nil, or_false] at hc
  rcases hc with rfl | rfl | rfl | rfl | rfl | rfl | rfl | rfl | rfl | rfl | rfl | rfl | rfl
  exacts [h1, h2, h3, h4, h8, h9, h10, h11, h12, h13, h7, h6, h5]

/-- The computation a message starts, if any. -/
theorem received_cases (env : Env) (s : St) (m : Json) (hm : Flat m) :
    received env s m = (s, [], .fine) ∨
    ∃ c q d, Has m "command" (.str c) ∧ Has m "seq" q ∧ Has m "type" (.str (text "request")) ∧
      Entry q ((m.find (text "arguments")).getD .null) c (some d) ∧
      method env c q ((m.find (text "arguments")).getD .null) = some d ∧
      received env s m = ((d.run s).1, (d.run s).2.1, fate (d.run s).2.2) := by
  unfold received
  split
  · next t ht =>
    split
    · next hr =>
      subst hr
      split
      · next c q hc hq =>
        have he := entry env c q ((m.find (text "arguments")).getD .null)
        cases hd : method env c q ((m.find (text "arguments")).getD .null) with
        | none => exact .inl rfl
        | some d =>
          rw [hd] at he
          exact .inr ⟨c, q, d, (found_iff hm).mp hc, (found_iff hm).mp hq, (found_iff hm).mp ht, he, hd, rfl⟩
      · exact .inl rfl
    · exact .inl rfl
  · exact .inl rfl

theorem configure_replies (a : Json) (s : St) : ((configure a).run s).1.seq = s.seq ∧ ((configure a).run s).2.1 = [] ∧
      ((configure a).run s).1.live = s.live ∧ ((configure a).run s).1.ended = s.ended ∧ (∃ b, ((configure a).run s).2.2 = .error b) ∨
    ((configure a).run s).1.seq = after s.seq ∧ ((configure a).run s).1.live = true ∧ ((configure a).run s).1.ended = s.ended ∧
      ∃ e, ((configure a).run s).2.1 = [.create, .reply e] ∧ IsEvent (after s.seq) "initialized" .null e := by
  have step : ∀ {α : Type} {m : D α} (_ : Silent m) (s : St), (∃ b, m.run s = (s, [], .error b)) ∨ ∃ a, m.run s = (s, [], .ok a) := by
    intro α m hm s
    obtain ⟨h1, h2⟩ := hm s
    rcases h : m.run s with ⟨s', e, r⟩
    rw [h] at h1 h2
    subst h1 h2
    cases r with
    | error b => exact .inl ⟨b, rfl⟩
    | ok a => exact .inr ⟨a, rfl⟩
  unfold configure
  rcases step (silent_idx a "linesStartAt1") s with ⟨b, hb⟩ | ⟨v, hv⟩
  · rw [run_bind_error hb]; simp
  rw [run_bind_ok hv]
  rcases step (silent_bool v) s with ⟨b, hb⟩ | ⟨l, hl⟩
  · rw [run_bind_error hb]; simp
  rw [run_bind_ok hl, run_bind_ok (run_modify _ _)]
  generalize hs1 : ({ s with lines := if l then 1 else 0 } : St) = s1
  have e1 : s1.seq = s.seq ∧ s1.live = s.live ∧ s1.ended = s.ended := by rw [← hs1]; simp
  rcases step (silent_idx a "columnsStartAt1") s1 with ⟨b, hb⟩ | ⟨v, hv⟩
  · rw [run_bind_error hb]; simp [e1]
  rw [run_bind_ok hv]
  rcases step (silent_bool v) s1 with ⟨b, hb⟩ | ⟨c, hl⟩
  · rw [run_bind_error hb]; simp [e1]
  rw [run_bind_ok hl, run_bind_ok (run_modify _ _)]
  generalize hs2 : ({ s1 with columns := if c then 1 else 0 } : St) = s2
  have e2 : s2.seq = s.seq ∧ s2.live = s.live ∧ s2.ended = s.ended := by rw [← hs2]; simpa using e1
  rcases step (silent_idx a "pathFormat") s2 with ⟨b, hb⟩ | ⟨v, hv⟩
  · rw [run_bind_error hb]; simp [e2]
  rw [run_bind_ok hv]
  rcases step (silent_str v) s2 with ⟨b, hb⟩ | ⟨f, hl⟩
  · rw [run_bind_error hb]; simp [e2]
  rw [run_bind_ok hl]
  refine .inr ?_
  simp only [run_bind, run_modify, run_emit, run_notify, List.nil_append, List.cons_append, e2, true_and]
  exact ⟨_, rfl, event_is _ _ _⟩

/-- C115: whatever is received, there is at most one answer, it comes first, it carries the number of the message and the command, and
numbers count up; the only other message is that the adapter is ready. -/
theorem C115_answers (env : Env) (s : St) (m : Json) (hm : Flat m) :
    (replies (received env s m).2.1 = [] ∧ (received env s m).1.seq = s.seq) ∨
    ∃ c q b r, Has m "command" (.str c) ∧ Has m "seq" q ∧ IsResponse (after s.seq) q c b r ∧
      ((replies (received env s m).2.1 = [r] ∧ (received env s m).1.seq = after s.seq) ∨
       ∃ e, replies (received env s m).2.1 = [r, e] ∧ (received env s m).1.seq = after (after s.seq) ∧
        c = text "initialize" ∧ IsEvent (after (after s.seq)) "initialized" .null e) := by
  rcases received_cases env s m hm with h | ⟨c, q, d, hc, hq, ht, he, hd, hr⟩
  · rw [h]; exact .inl ⟨rfl, rfl⟩
  rw [hr]
  cases he with
  | init =>
    refine .inr ⟨_, q, _, _, hc, hq, answer_is _ _ _ (.obj [(text "supportsConfigurationDoneRequest", .bool true)]), ?_⟩
    unfold onInitialize
    rw [run_bind, run_respond]
    rcases configure_replies ((m.find (text "arguments")).getD .null) { s with seq := after s.seq } with ⟨h1, h2, _⟩ | ⟨h1, _, _, e, h2, h3⟩
    · exact .inl ⟨by simp [h2, replies], h1⟩
    · exact .inr ⟨e, by simp [h2, replies], h1, rfl, h3⟩
  | disconnect =>
    refine .inr ⟨_, q, .null, _, hc, hq, answer_is _ _ _ _, .inl ⟨?_, ?_⟩⟩ <;>
      simp only [onDisconnect, run_bind, run_modify, run_emit, run_respond, List.nil_append, List.cons_append, replies]
  | needing _ hw =>
    by_cases hl : s.live = true
    · rw [run_ifLive hl]
      rcases hw s with ⟨b, hb⟩ | ⟨e, r, b, hb, _, he, hresp⟩
      · rw [hb]; exact .inl ⟨rfl, rfl⟩
      · rw [hb]
        refine .inr ⟨_, q, b, r, hc, hq, hresp, .inl ⟨?_, rfl⟩⟩
        have : ∀ e : List Ev, replies e = [] → replies (e ++ [.reply r]) = [r] := by
          intro e he
          induction e with
          | nil => rfl
          | cons x e ih => cases x <;> simp_all [replies]
        exact this e he
    · rw [run_ifLive_not (by simpa using hl)]; exact .inl ⟨rfl, rfl⟩
  | always _ =>
    rename_i cmd b _
    exact .inr ⟨_, q, b, _, hc, hq, answer_is _ _ _ _, .inl ⟨by simp only [run_respond, replies], by simp only [run_respond]⟩⟩

/-- C115: without a debugger (before `initialize` and after `disconnect`) the commands that need one do nothing at all. -/
theorem C115_not_live {env : Env} {s : St} {m q : Json} {cmd : String} (h : Request m cmd q) (hc : cmd ∈ needing) (hs : s.live = false) :
    received env s m = (s, [], .fine) := by
  rw [received_request h]
  have hne : text cmd ≠ text "initialize" ∧ text cmd ≠ text "disconnect" ∧ ∀ c ∈ always, text cmd ≠ text c := by
    simp only [needing, List.mem_cons, List.not_mem_nil, or_false] at hc
    rcases hc with rfl | rfl | rfl | rfl | rfl | rfl | rfl | rfl <;> decide +kernel
  generalize hg : method env (text cmd) q ((m.find (text "arguments")).getD .null) = d
  have he := entry env (text cmd) q ((m.find (text "arguments")).getD .null)
  rw [hg] at he
  generalize hn : text cmd = n at he
  cases he with
  | init => exact absurd hn hne.1
  | disconnect => exact absurd hn hne.2.1
  | needing _ _ => simp only [run_ifLive_not hs, fate]
  | always ha => exact absurd hn (hne.2.2 _ ha)
  | unknown hu => rfl

/-- C115: a request other than `initialize` that is refused does nothing at all; one that is not, changes the debugger by one command at
most. Bases and format change with `initialize` only; the debugger comes with `initialize` and goes with `disconnect`. -/
theorem C115_whole (env : Env) (s : St) (m : Json) (hm : Flat m) (hi : ¬ Has m "command" (.str (text "initialize")))
    (hd : ¬ Has m "command" (.str (text "disconnect"))) :
    (received env s m).1 = { s with seq := (received env s m).1.seq } ∧
    ((received env s m).2.1 = [] ∨ ∃ r, (received env s m).2.1 = [.reply r] ∨ ∃ e, (∀ j, e ≠ .reply j) ∧ (received env s m).2.1 = [e, .reply r]) := by
  rcases received_cases env s m hm with h | ⟨c, q, d, hc, hq, ht, he, hdd, hr⟩
  · rw [h]; exact ⟨rfl, .inl rfl⟩
  rw [hr]
  cases he with
  | init => exact absurd hc hi
  | disconnect => exact absurd hc hd
  | needing _ hw =>
    by_cases hl : s.live = true
    · rw [run_ifLive hl]
      rcases hw s with ⟨b, hb⟩ | ⟨e, r, b, hb, hle, he, hresp⟩
      · rw [hb]; exact ⟨rfl, .inl rfl⟩
      · rw [hb]
        refine ⟨rfl, .inr ⟨r, ?_⟩⟩
        match e, hle, he with
        | [], _, _ => exact .inl rfl
        | [x], _, hx =>
          refine .inr ⟨x, ?_, rfl⟩
          rintro j rfl
          simp [replies] at hx
    · rw [run_ifLive_not (by simpa using hl)]; exact ⟨rfl, .inl rfl⟩
  | always _ =>
    rw [run_respond]
    exact ⟨rfl, .inr ⟨_, .inl rfl⟩⟩

/-- The session: what is live after a list of messages. -/
def session (env : Env) (s : St) (ms : List Json) : St := ms.foldl (fun s m => (received env s m).1) s

/-- C115: over a whole session, there is a debugger only if `initialize` was asked for and `disconnect` not since. -/
theorem C115_session (env : Env) (ms : List Json) (hm : ∀ m ∈ ms, Flat m) (h : (session env {} ms).live = true) :
    ∃ a m b, ms = a ++ m :: b ∧ (∃ q, Request m "initialize" q) ∧ ∀ x ∈ b, ∀ q, ¬ Request x "disconnect" q := by
  suffices key : ∀ s : St, s.live = false → ∀ ms : List Json, (∀ m ∈ ms, Flat m) → (session env s ms).live = true →
      ∃ a m b, ms = a ++ m :: b ∧ (∃ q, Request m "initialize" q) ∧ ∀ x ∈ b, ∀ q, ¬ Request x "disconnect" q from key {} rfl ms hm h
  clear h hm ms
  intro s hs ms
  induction ms using List.reverseRecOn with
  | nil => intro _ h; simp [session, hs] at h
  | append_singleton ms m ih =>
    intro hm h
    have hfm := hm m (by simp)
    simp only [session, List.foldl_append, List.foldl_cons, List.foldl_nil] at h
    by_cases hdis : ∃ q, Request m "disconnect" q
    · obtain ⟨q, hq⟩ := hdis
      obtain ⟨r, hr, _⟩ := C115_disconnect (env := env) (s := session env s ms) hq
      simp only [session] at hr
      rw [hr] at h
      simp at h
    by_cases hini : ∃ q, Request m "initialize" q
    · exact ⟨ms, m, [], by simp, hini, by simp⟩
    have hlive : (session env s ms).live = true := by
      rcases received_cases env (session env s ms) m hfm with h' | ⟨c, q, d, hc, hq, ht, he, hdd, hr⟩
      · simp only [session] at h'
        rw [h'] at h
        exact h
      · have := (C115_whole env (session env s ms) m hfm ?_ ?_).1
        · simp only [session] at this
          rw [this] at h
          exact h
        · intro hc'
          exact hini ⟨q, ht, hc', hq⟩
        · intro hc'
          exact hdis ⟨q, ht, hc', hq⟩
    obtain ⟨a, m', b, hms, hi, hb⟩ := ih (fun x hx => hm x (by simp [hx])) hlive
    refine ⟨a, m', b ++ [m], by simp [hms], hi, ?_⟩
    intro x hx q hq
    rcases List.mem_append.mp hx with hx | hx
    · exact hb x hx q hq
    · simp only [List.mem_singleton] at hx
      subst hx
      exact hdis ⟨q, hq⟩

/-! ### malformed messages -/

/-- The end is fine. -/
def Safe {α : Type} (t : St → Prop) (d : D α) : Prop := ∀ s, t s → ∀ b, (d.run s).2.2 = .error b → b = .exn

theorem safe_bind {α β : Type} {t : St → Prop} {m : D α} {f : α → D β} (hs : Silent m) (hm : Safe t m)
    (hf : ∀ s a, t s → m.run s = (s, [], .ok a) → Safe t (f a)) : Safe t (m >>= f) := by
  intro s ht b hb
  obtain ⟨h1, h2⟩ := hs s
  rw [run_bind] at hb
  rcases h : m.run s with ⟨s', e, r⟩
  rw [h] at h1 h2
  simp only at h1 h2
  subst h1 h2
  rw [h] at hb
  cases r with
  | error b' => exact hm s' ht b (by rw [h]; simpa using hb)
  | ok a => exact hf s' a ht h s' ht b hb

theorem safe_idx {j : Json} {k : String} {t : St → Prop} (h : Is j k) : Safe t (idx j k) := by
  obtain ⟨v, hv⟩ := h
  rw [idx_has hv]
  intro s _ b hb
  simp at hb

theorem safe_str (j : Json) (t : St → Prop) : Safe t (str j) := by
  intro s _ b hb
  cases j <;> simp [str] at hb <;> exact hb.symm
theorem safe_bool (j : Json) (t : St → Prop) : Safe t (bool j) := by
  intro s _ b hb
  cases j <;> simp [bool] at hb <;> exact hb.symm
theorem safe_u64 {j : Json} (hj : ∀ n, j ≠ .real n) (t : St → Prop) : Safe t (u64 j) := by
  intro s _ b hb
  cases j with
  | real n => exact absurd rfl (hj n)
  | _ => simp [u64] at hb <;> exact hb.symm

theorem safe_respond (seq : Json) (cmd : String) (body : Json) (t : St → Prop) : Safe t (respond seq cmd body) := by
  intro s _ b hb
  rw [run_respond] at hb
  simp at hb

theorem safe_emit (e : Ev) (seq : Json) (cmd : String) (body : Json) (t : St → Prop) : Safe t (do emit e; respond seq cmd body) := by
  intro s _ b hb
  simp [run_bind, run_respond] at hb

/-- Paths can be converted. -/
def Good (env : Env) (s : St) : Prop := s.uri = true → ∀ p, (env.ofUri p).isSome = true

theorem safe_path (env : Env) (p : Bytes) : Safe (Good env) (path env p) := by
  intro s ht b hb
  by_cases hu : s.uri = true
  · obtain ⟨q, hq⟩ := Option.isSome_iff_exists.mp (ht hu p)
    rw [path_run (.uri hu hq)] at hb
    simp at hb
  · rw [path_run (.path p (by simpa using hu))] at hb
    simp at hb

theorem run_idx {j : Json} {k : String} {v : Json} {s : St} (hj : Is j k) (h : (idx j k).run s = (s, [], .ok v)) : Has j k v := by
  obtain ⟨w, hw⟩ := hj
  rw [idx_has hw] at h
  simp at h
  exact h ▸ hw

theorem whole_has {j : Json} {k : String} {v : Json} (h : WholeNumbers j) (hv : Has j k v) : WholeNumbers v := by
  intro n hn
  cases hv with
  | mk _ hm => exact h n (.member hm hn)

theorem not_real {j : Json} (h : WholeNumbers j) (n : Int) : j ≠ .real n := by
  rintro rfl; exact h n .self

theorem safe_breakLines {t : St → Prop} (b : Nat) {l : List Json} (h : ∀ x ∈ l, Is x "line" ∧ WholeNumbers x) : Safe t (breakLines b l) := by
  induction l with
  | nil => intro s _ b hb; simp [breakLines] at hb
  | cons j l ih =>
    have hj := h j (by simp)
    refine safe_bind (silent_idx _ _) (safe_idx hj.1) fun s v _ hv => ?_
    have hv := run_idx hj.1 hv
    refine safe_bind (silent_u64 _) (safe_u64 (not_real (whole_has hj.2 hv)) _) fun s n _ _ => ?_
    refine safe_bind (silent_breakLines _ _) (ih fun x hx => h x (by simp [hx])) fun s n _ _ => ?_
    intro s _ b hb
    simp at hb

theorem fine_of_configure (a : Json) (h1 : Is a "linesStartAt1") (h2 : Is a "columnsStartAt1") (h3 : Is a "pathFormat") (s : St) :
    fate ((configure a).run s).2.2 = .fine := by
  obtain ⟨v1, h1⟩ := h1
  obtain ⟨v2, h2⟩ := h2
  obtain ⟨v3, h3⟩ := h3
  unfold configure
  simp only [idx_has h1, idx_has h2, idx_has h3, bind_pure']
  cases v1 with
  | bool l =>
    simp only [bool_bool, bind_pure']
    cases v2 with
    | bool c =>
      simp only [bool_bool, bind_pure']
      cases v3 with
      | str f => rfl
      | _ => rfl
    | _ => rfl
  | _ => rfl

/-- C115 for malformed requests, in part: if the members the adapter reads are there, numbers are whole, and paths can be converted, the
program goes on. Members of the wrong kind do no harm. -/
theorem C115_robust_partial (env : Env) (s : St) (m : Json) (hm : Flat m) {c : Bytes} {a : Json} (hc : Has m "command" (.str c))
    (ha : Has m "arguments" a) (h : Complete c a) (hw : WholeNumbers a) (hg : Good env s) : (received env s m).2.2 = .fine := by
  rcases received_cases env s m hm with h' | ⟨c', q, d, hc', hq, ht, he, hd, hr⟩
  · rw [h']
  rw [hr]
  have : c' = c := by have := hc'.unique hc; simpa using this
  subst this
  rw [ha.found, Option.getD_some] at hd
  have fine_of : ∀ d : D Unit, Safe (Good env) d → fate (d.run s).2.2 = .fine := by
    intro d hd
    have := hd s hg
    cases hx : (d.run s).2.2 with
    | ok _ => rfl
    | error b => rw [this b hx]; rfl
  have live_of : ∀ d : D Unit, Safe (Good env) d → fate ((ifLive d).run s).2.2 = .fine := by
    intro d hd
    by_cases hl : s.live = true
    · rw [run_ifLive hl]; exact fine_of d hd
    · rw [run_ifLive_not (by simpa using hl)]; rfl
  clear he
  unfold method at hd
  by_cases h1 : c' = text "initialize"
  · rw [if_pos h1] at hd
    cases hd
    obtain ⟨ha1, ha2, ha3⟩ := h.initialise h1
    unfold onInitialize
    rw [run_bind_ok (run_respond _ _ _ _)]
    refine fine_of_configure a ha1 ha2 ha3 _
  rw [if_neg h1] at hd
  by_cases h2 : c' = text "disconnect"
  · rw [if_pos h2] at hd; cases hd; rfl
  rw [if_neg h2] at hd
  by_cases h3 : c' = text "launch"
  · rw [if_pos h3] at hd; cases hd
    obtain ⟨ha1, ha2⟩ := h.launch h3
    refine live_of _ (safe_bind (silent_idx _ _) (safe_idx ha1) fun _ _ _ _ => safe_bind (silent_str _) (safe_str _ _) fun _ _ _ _ => ?_)
    refine safe_bind (silent_path _ _) (safe_path _ _) fun _ _ _ _ => safe_bind (silent_idx _ _) (safe_idx ha2) fun _ _ _ _ => ?_
    exact safe_bind (silent_bool _) (safe_bool _ _) fun _ _ _ _ => safe_emit _ _ _ _ _
  rw [if_neg h3] at hd
  by_cases h4 : c' = text "setBreakpoints"
  · rw [if_pos h4] at hd; cases hd
    obtain ⟨⟨v, hv, hvp⟩, hb⟩ := h.breakpoints h4
    refine live_of _ (safe_bind (silent_idx _ _) (safe_idx ⟨v, hv⟩) fun _ w _ hw' => ?_)
    have hw' := run_idx ⟨v, hv⟩ hw'
    rw [hw'.unique hv]
    refine safe_bind (silent_idx _ _) (safe_idx hvp) fun _ _ _ _ => safe_bind (silent_str _) (safe_str _ _) fun _ _ _ _ => ?_
    refine safe_bind (silent_path _ _) (safe_path _ _) fun _ _ _ _ => safe_bind silent_get ?_ fun _ st _ _ => ?_
    · intro s _ b hb; simp at hb
    refine safe_bind (silent_breakLines _ _) (safe_breakLines _ ?_) fun _ _ _ _ => safe_emit _ _ _ _ _
    intro x hx
    unfold asked at hx
    cases hf : a.find (text "breakpoints") with
    | none => rw [hf] at hx; simp at hx
    | some b =>
      rw [hf] at hx
      have hflat : Flat a := by cases ha1 : hv with | mk hn _ => intro l hl; cases hl; exact hn
      have hbb := (found_iff hflat).mp hf
      refine ⟨hb b hbb x hx, ?_⟩
      have hwb := whole_has hw hbb
      cases b with
      | arr l => exact fun n hn => hwb n (.elem hx hn)
      | obj l =>
        simp only [Json.items, List.mem_map] at hx
        obtain ⟨⟨k, y⟩, hy, rfl⟩ := hx
        exact fun n hn => hwb n (.member hy hn)
      | null => simp [Json.items] at hx
      | _ => simp only [Json.items, List.mem_singleton] at hx; subst hx; exact hwb
  rw [if_neg h4] at hd
  by_cases h5 : c' = text "setExceptionBreakpoints"
  · rw [if_pos h5] at hd; cases hd; rfl
  rw [if_neg h5] at hd
  by_cases h6 : c' = text "configurationDone"
  · rw [if_pos h6] at hd; cases hd; rfl
  rw [if_neg h6] at hd
  by_cases h7 : c' = text "threads"
  · rw [if_pos h7] at hd; cases hd; rfl
  rw [if_neg h7] at hd
  by_cases h8 : c' = text "stackTrace"
  · rw [if_pos h8] at hd; cases hd
    refine live_of _ (safe_bind silent_get ?_ fun _ _ _ _ => safe_respond _ _ _ _)
    intro s _ b hb; simp at hb
  rw [if_neg h8] at hd
  by_cases h9 : c' = text "scopes"
  · rw [if_pos h9] at hd; cases hd
    refine live_of _ (safe_bind (silent_idx _ _) (safe_idx (h.scopes h9)) fun _ v _ hv => ?_)
    have hv := run_idx (h.scopes h9) hv
    exact safe_bind (silent_u64 _) (safe_u64 (not_real (whole_has hw hv)) _) fun _ _ _ _ => safe_respond _ _ _ _
  rw [if_neg h9] at hd
  by_cases h10 : c' = text "next"
  · rw [if_pos h10] at hd; cases hd; exact live_of _ (safe_emit _ _ _ _ _)
  rw [if_neg h10] at hd
  by_cases h11 : c' = text "stepIn"
  · rw [if_pos h11] at hd; cases hd; exact live_of _ (safe_emit _ _ _ _ _)
  rw [if_neg h11] at hd
  by_cases h12 : c' = text "variables"
  · rw [if_pos h12] at hd; cases hd
    refine live_of _ (safe_bind (silent_idx _ _) (safe_idx (h.vars h12)) fun _ v _ hv => ?_)
    have hv := run_idx (h.vars h12) hv
    exact safe_bind (silent_u64 _) (safe_u64 (not_real (whole_has hw hv)) _) fun _ _ _ _ => safe_respond _ _ _ _
  rw [if_neg h12] at hd
  by_cases h13 : c' = text "continue"
  · rw [if_pos h13] at hd; cases hd; exact live_of _ (safe_emit _ _ _ _ _)
  rw [if_neg h13] at hd
  simp at hd

/-! ### what goes wrong -/

/-- A world. -/
def someEnv : Env := ⟨fun p => if p.head? = some 47 then some p else none, fun p => 47 :: p,
  [⟨0, text "open", text "/f", (4, 0), (5, 0)⟩], fun _ => [], fun _ => [⟨text "&A", text "1", 0, .a⟩]⟩

/-- A request. -/
def request (cmd : String) (a : Json) : Json :=
  .obj [(text "seq", .int 7), (text "type", .str (text "request")), (text "command", .str (text cmd)), (text "arguments", a)]

/-- C115 does not hold of `initialize` as the protocol has it: `linesStartAt1`, `columnsStartAt1` and `pathFormat` may be left out there;
here that is undefined, after success was reported. -/
theorem C115_initialize_witness (s : St) : (received someEnv s (request "initialize" (.obj [(text "adapterID", .str [])]))).2.2 = .ub ∧
    (replies (received someEnv s (request "initialize" (.obj [(text "adapterID", .str [])]))).2.1).length = 1 := ⟨rfl, rfl⟩

/-- An `initialize` without arguments is answered with success, but there is no debugger, and nothing that is asked for later is answered. -/
theorem C115_silent_witness :
    let s := (received someEnv {} (.obj [(text "seq", .int 1), (text "type", .str (text "request")), (text "command", .str (text "initialize"))]))
    (replies s.2.1).length = 1 ∧ s.2.2 = .fine ∧ s.1.live = false ∧
    received someEnv s.1 (request "launch" (.obj [(text "program", .str [47]), (text "stopOnEntry", .bool true)])) = (s.1, [], .fine) :=
  ⟨rfl, rfl, rfl, rfl⟩

/-- A session with a debugger; paths are URIs. -/
def uriSt : St := { live := true, lines := 1, columns := 1, uri := true }

/-- A program that is no URI ends the language server, although it should be refused. -/
theorem C115_uri_witness : (received someEnv uriSt (request "launch" (.obj [(text "program", .str []), (text "stopOnEntry", .bool true)]))).2.2 =
    .dies := rfl

/-- Line 0 of a client that counts from 1 becomes the last line there can be. -/
theorem C115_line_witness : (received someEnv uriSt (request "setBreakpoints" (.obj [(text "source", .obj [(text "path", .str [47])]),
    (text "breakpoints", .arr [.obj [(text "line", .int 0)]])]))).2.1.head? = some (.breakpoints [47] [18446744073709551615]) := rfl

/-- Requests nobody knows, like `stepOut` or `evaluate`, and requests that are refused are never answered. -/
theorem C115_unanswered_witness : received someEnv uriSt (request "stepOut" .null) = (uriSt, [], .fine) ∧
    received someEnv uriSt (request "scopes" (.obj [(text "frameId", .str [])])) = (uriSt, [], .fine) := ⟨rfl, rfl⟩

/-! ### examples -/

example : Request (request "launch" .null) "launch" (.int 7) := by
  unfold request
  exact ⟨by has, by has, by has⟩

/-- A session: lines count from 1, columns from 0. -/
def exampleInit : Json :=
  request "initialize" (.obj [(text "linesStartAt1", .bool true), (text "columnsStartAt1", .bool false), (text "pathFormat", .str (text "path"))])

example : (received someEnv {} exampleInit).1 = { live := true, lines := 1, columns := 0, uri := false, seq := 2 } := rfl
example : (session someEnv {} [exampleInit, request "next" .null]).seq = 3 := rfl
example : (received someEnv (session someEnv {} [exampleInit]) (request "setBreakpoints" (.obj [(text "source", .obj [(text "path", .str [97])]),
    (text "breakpoints", .arr [.obj [(text "line", .int 3)], .obj [(text "line", .int 9)]])]))).2.1.head? = some (.breakpoints [47, 97] [2, 8]) := rfl
example : Complete (text "launch") (.obj [(text "program", .str []), (text "stopOnEntry", .null)]) :=
  ⟨fun h => absurd h (by decide +kernel), fun _ => ⟨⟨.str [], by has⟩, ⟨.null, by has⟩⟩, fun h => absurd h (by decide +kernel),
    fun h => absurd h (by decide +kernel), fun h => absurd h (by decide +kernel)⟩
example : Good someEnv {} := fun h => nomatch h

end Verif.DapMsg
