import Verif.Spec.Request
import Verif.Model.LiveMachine
import Verif.Spec.Packages
/-!
# Specification of requests that differ in the query and the fragment
-/

namespace Verif

/-- No JSON file has an exports field. -/
def NoExports (fs : Fs) : Prop :=
  ∀ p doc json, fs.read p = some doc → doc.json = some json → json.get cs!"exports" = none

/-- A request by path, where no option redirects. -/
def PathCall (o : Opts) : Call → Prop
  | .resolve path request => Plain o path (parseRequest request).target ∧ o.browserField = false ∧
      IsPath (parseRequest request).target
  | .sideEffects _ => True

/-- Two calls that are the same, or differ in the query and the fragment of the request. -/
inductive CallRemarked : Call → Call → Prop where
  | same (c : Call) : CallRemarked c c
  | marks {path request request' target q f q' f' : Str} : IsSplit request target q f → IsSplit request' target q' f' →
      CallRemarked (.resolve path request) (.resolve path request')

/-- The same event, but for the query and the fragment of a request. -/
inductive EventRemarked : Event → Event → Prop where
  | start {c c' : Call} (rid fuel : Nat) : CallRemarked c c' → EventRemarked (.start rid c fuel) (.start rid c' fuel)
  | change (fs : Fs) : EventRemarked (.change fs) (.change fs)
  | step (i seed : Nat) : EventRemarked (.step i seed) (.step i seed)

/-- The same history, but for the queries and the fragments of requests. -/
inductive HistoryRemarked : List Event → List Event → Prop where
  | nil : HistoryRemarked [] []
  | cons {e e' : Event} {l l' : List Event} : EventRemarked e e' → HistoryRemarked l l' →
      HistoryRemarked (e :: l) (e' :: l')

/-- The answers lead to the same place. Query and fragment of a result are those of the requests, or the same in
both. A failure names the request. Everything else is the same. -/
inductive AnswerRemarked : Call → Call → Answer → Answer → Prop where
  | same {c c' : Call} {a : Answer} : AnswerRemarked c c' a a
  | info {path request request' target q f q' f' : Str} {i j : Info} : IsSplit request target q f →
      IsSplit request' target q' f' → j.path = i.path → j.request.target = i.request.target →
      j.request.kind = i.request.kind → i.request.query = q → i.request.fragment = f → j.request.query = q' →
      j.request.fragment = f' →
      AnswerRemarked (.resolve path request) (.resolve path request')
        (.resolve (.ok (.info i))) (.resolve (.ok (.info j)))
  | failed {path request request' : Str} :
      AnswerRemarked (.resolve path request) (.resolve path request')
        (.resolve (.error (.failed request path))) (.resolve (.error (.failed request' path)))

end Verif
