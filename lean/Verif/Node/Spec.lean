import Verif.Node.Model
import Mathlib.Logic.Function.Iterate

/-!
What the properties of nodes talk about: what was handed to the transmitter on one subject or for one service and destination, and the
calls that start and stop a port.
-/

namespace Verif.Node

variable {N Tid Trk E : Type}

/-- The transfer IDs of the messages on `subject` in a list of transfers, in order. -/
def messageIds (subject : SubjectId) (ts : List (Transfer N Tid)) : List Tid :=
  ts.filterMap fun t => match t.header with
    | .message h => if h.subject = subject then some h.transferId else none
    | _ => none

/-- The transfer IDs of the requests for `service` to `destination` in a list of transfers, in order. -/
def requestIds [DecidableEq N] (service : ServiceId) (destination : N) (ts : List (Transfer N Tid)) : List Tid :=
  ts.filterMap fun t => match t.header with
    | .request h => if h.service = service ∧ h.destination = destination then some h.transferId else none
    | _ => none

/-- Everything that was handed to the transmitter in a history, in order. -/
def handedOver (outs : List (Out N Tid Trk E)) : List (Transfer N Tid) := outs.flatMap (·.sent)

/-- The call is `stop_publishing(subject)`. -/
def Op.stopsPublishing (subject : SubjectId) : Op N Tid E → Prop
  | .stopPublishing _ s => s = subject
  | _ => False

/-- The call is `stop_sending_requests` with a token for `service`. -/
def Op.stopsRequests (service : ServiceId) : Op N Tid E → Prop
  | .stopSendingRequests _ s => s = service
  | _ => False

/-- Whether the node publishes on `subject` after the history of calls and answers, most recent first: it does if there was a successful
start with no stop after it. -/
def publishing (subject : SubjectId) : List (Op N Tid E × Answer Tid E) → Bool
  | [] => false
  | (.startPublishing _ s _ _, a) :: earlier => (if s = subject then match a with | .ok => true | _ => publishing subject earlier else publishing subject earlier)
  | (.stopPublishing _ s, _) :: earlier => if s = subject then false else publishing subject earlier
  | _ :: earlier => publishing subject earlier

/-- The same for sending requests for `service`. -/
def requesting (service : ServiceId) : List (Op N Tid E × Answer Tid E) → Bool
  | [] => false
  | (.startSendingRequests _ s _ _ _, a) :: earlier => (if s = service then match a with | .token => true | _ => requesting service earlier else requesting service earlier)
  | (.stopSendingRequests _ s, _) :: earlier => if s = service then false else requesting service earlier
  | _ :: earlier => requesting service earlier

/-- A tracker that counts: it can be seen as a function that says how many transfer IDs were given out for each destination. The next ID for
a destination is the default ID incremented that many times; a refusal changes no count. -/
structure Counts (ops : TidOps Tid) (tops : TrackerOps N Tid Trk) (view : Trk → (N → Nat) → Prop) : Prop where
  start : view tops.dflt fun _ => 0
  given : ∀ t c d id t', view t c → tops.next t d = (some id, t') →
    id = ops.increment^[c d] ops.dflt ∧ ∃ c', view t' c' ∧ c' d = c d + 1 ∧ ∀ e, e ≠ d → c' e = c e
  refused : ∀ t c d t', view t c → tops.next t d = (none, t') → view t' c

end Verif.Node
