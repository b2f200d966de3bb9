import Verif.App.Model

/-!
What the properties of nodes with application-layer functions talk about: the content of heartbeat and port list messages, and the ports that a
history of calls leaves in use.
-/

namespace Verif.App

open Verif.Enc Verif.Node Verif.Dsdl

variable {N Tid Trk E : Type}

/-- The seven bytes of a heartbeat message: the uptime with the least significant byte first, health, mode and status code. -/
def heartbeatBytes (uptime : Nat) (health mode status : BitVec 8) : List Byte :=
  [BitVec.ofNat 8 uptime, BitVec.ofNat 8 (uptime / 2 ^ 8), BitVec.ofNat 8 (uptime / 2 ^ 16), BitVec.ofNat 8 (uptime / 2 ^ 24), health, mode, status]

/-- The last of the values that a history sets, or a default. -/
def lastOr {α β : Type} (f : α → Option β) (dflt : β) (history : List α) : β := ((history.filterMap f).getLast?).getD dflt

/-- The value of a call of `set_mode`. -/
def BeatOp.mode? : BeatOp N Tid E → Option (BitVec 8)
  | .setMode v => some v
  | _ => none
/-- The value of a call of `set_health`. -/
def BeatOp.health? : BeatOp N Tid E → Option (BitVec 8)
  | .setHealth v => some v
  | _ => none
/-- The value of a call of `set_status_code`. -/
def BeatOp.status? : BeatOp N Tid E → Option (BitVec 8)
  | .setStatusCode v => some v
  | _ => none
/-- The call is the one to make once per second. -/
def BeatOp.isPerSecond : BeatOp N Tid E → Bool
  | .perSecond .. => true
  | _ => false
/-- The call is not `stop_publishing` for the subject. -/
def BeatOp.keeps (subject : SubjectId) : BeatOp N Tid E → Bool
  | .inside (.stopPublishing _ s) => s ≠ subject
  | _ => true

/-- The value of a call of `set_mode`. -/
def BasicOp.mode? : BasicOp N Tid E → Option (BitVec 8)
  | .setMode v => some v
  | _ => none
/-- The value of a call of `set_health`. -/
def BasicOp.health? : BasicOp N Tid E → Option (BitVec 8)
  | .setHealth v => some v
  | _ => none
/-- The value of a call of `set_status_code`. -/
def BasicOp.status? : BasicOp N Tid E → Option (BitVec 8)
  | .setStatusCode v => some v
  | _ => none
/-- The call is the one to make once per second. -/
def BasicOp.isPerSecond : BasicOp N Tid E → Bool
  | .perSecond .. => true
  | _ => false

/-- The call is not `stop_publishing` for the subject. -/
def BasicOp.keeps (subject : SubjectId) : BasicOp N Tid E → Bool
  | .call (.stopPublishing _ s) => s ≠ subject
  | .inside (.stopPublishing _ s) => s ≠ subject
  | _ => true

/-- The messages on a subject in a list of transfers. -/
def messagesOn (subject : SubjectId) (ts : List (Transfer N Tid)) : List (Transfer N Tid) :=
  ts.filter fun t => match t.header with
    | .message h => h.subject = subject
    | _ => false

/-! ### Ports in use -/

/-- A port of a node. -/
inductive Port where
  | publisher (subject : SubjectId)
  | subscriber (subject : SubjectId)
  | client (service : ServiceId)
  | server (service : ServiceId)
deriving DecidableEq

/-- The call starts to use the port if it gets this answer. -/
def Port.startedBy : Port → Op N Tid E → Answer Tid E → Bool
  | .publisher p, .startPublishing _ s _ _, .ok => s = p
  | .subscriber p, .subscribeMessage _ s _ _, .ok => s = p
  | .client p, .startSendingRequests _ s _ _ _, .token => s = p
  | .server p, .subscribeRequest _ s _ _, .ok => s = p
  | _, _, _ => false

/-- The call stops using the port. -/
def Port.stoppedBy : Port → Op N Tid E → Bool
  | .publisher p, .stopPublishing _ s => s = p
  | .subscriber p, .unsubscribeMessage _ s => s = p
  | .client p, .stopSendingRequests _ s => s = p
  | .server p, .unsubscribeRequest _ s => s = p
  | _, _ => false

/-- The ports that a basic node uses itself. -/
def ownPort (p : Port) : Bool := p = .publisher heartbeatSubject ∨ p = .publisher portListSubject ∨ p = .server getInfoService

/-- Whether a port is in use after a history of calls and answers, the most recent first. -/
def Port.inUse (p : Port) : List (Op N Tid E × Answer Tid E) → Bool
  | [] => ownPort p
  | (op, a) :: earlier => if p.startedBy op a then true else if p.stoppedBy op then false else p.inUse earlier

/-- The calls of a history that are made through the basic node or directly on the node inside, with the answers, the most recent first. -/
def traceOf (ops : TidOps Tid) (tops : TrackerOps N Tid Trk) :
    List (Op N Tid E × Answer Tid E) → BasicNode N Tid Trk → List (BasicOp N Tid E) → List (Op N Tid E × Answer Tid E)
  | earlier, _, [] => earlier
  | earlier, n, op :: rest =>
    let o := n.step ops tops op
    let entry := match op with
      | .call c => [(c, o.answer)]
      | .inside c => [(c, o.answer)]
      | _ => []
    traceOf ops tops (entry ++ earlier) o.node rest

/-- The call starts or stops a port. -/
def concernsPort : Op N Tid E → Bool
  | .publish .. => false
  | .sendRequest .. => false
  | .sendResponse .. => false
  | .setNodeId .. => false
  | _ => true

/-- The call does not start or stop a port behind the back of the basic node. -/
def BasicOp.visible : BasicOp N Tid E → Bool
  | .inside op => !concernsPort op
  | _ => true

/-- How many of the per-second calls of a history sent their heartbeat successfully. -/
def beats (ops : TidOps Tid) (tops : TrackerOps N Tid Trk) : BasicNode N Tid Trk → List (BasicOp N Tid E) → Nat
  | _, [] => 0
  | n, op :: rest =>
    (match op with
      | .perSecond env _ => match (n.node.perSecond ops env).1 with | .ok => 1 | _ => 0
      | _ => 0) + beats ops tops (n.step ops tops op).node rest

/-- The subject list in a port list message names the subject: its bit is set in the mask, or it is in the list, or all subjects are meant. -/
def namesSubject (v : Val) (s : SubjectId) : Bool :=
  match v with
  | .variant 0 (.bits a) => (bitsOfArray a).getD s.toNat false
  | .variant 1 (.list vs) => vs.any fun x => match x with | .record [.num k] => k = s.toNat | _ => false
  | .variant 2 _ => true
  | _ => false
where
  /-- The bits of an array, the first one is the least significant bit of the first byte. -/
  bitsOfArray (a : BitArray) : List Bool := (List.range a.bitLength).map fun i => (a.bytes.getD (i / 8) 0).getLsbD (i % 8)

/-- The service list in a port list message names the service: its bit is set in the mask. -/
def namesService (v : Val) (s : ServiceId) : Bool :=
  match v with
  | .record [.bits a] => (namesSubject.bitsOfArray a).getD s.toNat false
  | _ => false

/-- A port list message names the port. -/
def names (v : Val) (p : Port) : Bool :=
  match v, p with
  | .record [x, _, _, _], .publisher s => namesSubject x s
  | .record [_, x, _, _], .subscriber s => namesSubject x s
  | .record [_, _, x, _], .client s => namesService x s
  | .record [_, _, _, x], .server s => namesService x s
  | _, _ => false

/-! ### Node information -/

/-- The header of a request for node information. -/
def infoRequest? (t : Transfer N Tid) : Option (ServiceHeader N Tid) :=
  if t.loopback then none
  else match t.header with
    | .request q => if q.service = getInfoService then some q else none
    | _ => none

/-- A handler that does not use the node. -/
structure LeavesAlone {σ ν : Type} (h : Handler σ ν N Tid) : Prop where
  message : ∀ s n m b, (h.message s n m b).2.2 = n
  request : ∀ s n t m b, (h.request s n t m b).2.2 = n
  response : ∀ s n m b, (h.response s n m b).2.2 = n
  loopback : ∀ s n t, (h.loopback s n t).2.2 = n

end Verif.App
