import Verif.Broken.Model
/-!
What the client may expect of its questions about a document: they are answered in the order they were sent, from an analysis that came to its end and
that is of the text the document has after the notifications sent before, unless the document is not open or a newer text is on its way.
-/
namespace Verif.Broken

/-- The messages that arrived. -/
def arrivals : List Ev → List Req
  | [] => []
  | .arrive r :: es => r :: arrivals es
  | .work :: es => arrivals es

/-- How many didOpen and didChange there are. -/
def notified : List Req → Nat
  | [] => 0
  | .opened _ :: rs => notified rs + 1
  | .changed _ :: rs => notified rs + 1
  | .closed _ :: rs => notified rs
  | .ask _ _ :: rs => notified rs

/-- Whether the document is open after these messages, `now` telling whether it was before. -/
def isOpenFrom (d : Uri) (now : Bool) : List Req → Bool
  | [] => now
  | .opened u :: rs => isOpenFrom d (if u = d then true else now) rs
  | .closed u :: rs => isOpenFrom d (if u = d then false else now) rs
  | .changed _ :: rs => isOpenFrom d now rs
  | .ask _ _ :: rs => isOpenFrom d now rs

/-- Whether the document is open after these messages. -/
def isOpen (d : Uri) (rs : List Req) : Bool := isOpenFrom d false rs

/-- An analysis that needs no member while that member or the program itself is being analysed. -/
def Calm (t : Uri) (busy : List Uri) : List Step → Prop
  | [] => True
  | .ask m :: l => m ≠ t ∧ m ∉ busy ∧ Calm t (m :: busy) l
  | .done m _ :: l => Calm t (busy.erase m) l

/-- The answer to a question about `d`, after the messages `pre` were carried out: from a complete analysis of the text these messages leave; or none, because
the document is not open or because a newer text had already arrived. -/
def Served (d : Uri) (pre : List Req) (e : Entry) : Prop :=
  ∀ k, e.req = .ask k d →
    (∃ c, e.ans = some (.from c) ∧ isOpen d pre = true ∧ c.whole = true ∧ c.owner = d ∧ c.text = notified pre) ∨
    (e.ans = some .nothing ∧ (isOpen d pre = false ∨ notified pre < e.arrived))

/-- A client that closes only what is open. -/
def Orderly (rs : List Req) : Prop := ∀ pre d post, rs = pre ++ .closed d :: post → isOpen d pre = true

/-- The worker is about to complete a symbol in a document from an analysis that was broken off after it had come to know the document. -/
def Stuck (s : St) : Prop :=
  ∃ d p o i c, s.phase = .begun (.ask (.complete true) d) ∧ s.cancel = false ∧ related s d = some p ∧ s.files p = some o ∧
    o.ctx = some i ∧ s.ctxs[i]? = some c ∧ c.whole = false ∧ d ∈ c.known

end Verif.Broken
