import Verif.Node.Lemmas
import Verif.Can.RxTableProps

/-!
A node together with its CAN receiver: C140.
-/

namespace Verif.End

open Verif.Node Verif.Can

variable {Trk E : Type}

/-- `CoreNode` with a `CanReceiver` as its receiver (`canadensis/src/node/core.rs` L31-50); the clock, the transmitter and the driver are environment. -/
structure CanNode (Trk : Type) where
  core : CoreNode NodeId Can.Tid Trk
  rx : Receiver

/-- `CoreNode::new` and `new_anonymous` (`canadensis/src/node/core.rs` L61-104) with a new receiver (`CanReceiver::new` and `new_anonymous`, `canadensis_can/src/rx.rs` L238-268) that
has the same node ID. -/
def CanNode.new (id : Option NodeId) (pubCap reqCap : Nat) : CanNode Trk := ⟨CoreNode.new id pubCap reqCap, Receiver.new id⟩

/-- What a subscribe function of the receiver answers, as the node sees it: `Transport` with the error that is made of an `OutOfMemoryError`
(`canadensis_can/src/rx.rs` L94-110, L132-153, L175-196). -/
def asSubscribed (oom : E) : SubscribeResult → Subscribed E
  | .ok => .ok
  | .memory => .error oom
  | .anonymous => .anonymous

/-- A call of the receiver by the node: the receiver afterwards and its answer (`canadensis_can/src/rx.rs` L94-209). The allocator fails during the call if `full`. -/
def rxCall (full : Bool) (oom : E) (r : Receiver) : RxCall NodeId → Receiver × Subscribed E
  | .subscribeMessage s x t => ((r.subscribeMessage full s x t).1, asSubscribed oom (r.subscribeMessage full s x t).2.1)
  | .unsubscribeMessage s => ((r.unsubscribePort .message s.toNat).1, .ok)
  | .subscribeRequest s x t => ((r.subscribeService full .request s x t).1, asSubscribed oom (r.subscribeService full .request s x t).2.1)
  | .unsubscribeRequest s => ((r.unsubscribePort .request s.toNat).1, .ok)
  | .subscribeResponse s x t => ((r.subscribeService full .response s x t).1, asSubscribed oom (r.subscribeService full .response s x t).2.1)
  | .setId id => (r.setId (some id), .ok)

/-- The call with another answer of the receiver in its environment (no counterpart in /repo: it connects the models). -/
def withSubscribed {N Tid : Type} (answer : Subscribed E) : Node.Op N Tid E → Node.Op N Tid E
  | .startSendingRequests env s t x p => .startSendingRequests { env with subscribed := answer } s t x p
  | .subscribeMessage env s x t => .subscribeMessage { env with subscribed := answer } s x t
  | .subscribeRequest env s x t => .subscribeRequest { env with subscribed := answer } s x t
  | op => op

/-- A call of a function of the node (`canadensis/src/node/core.rs` L184-481): what it asks of the receiver is done, and the node goes on with the answer. The results are the node
afterwards and the call with what the receiver answered and with what it returned. -/
def CanNode.call (tops : TrackerOps NodeId Can.Tid Trk) (n : CanNode Trk) (full : Bool) (oom : E) (op : Node.Op NodeId Can.Tid E) :
    CanNode Trk × Node.Op NodeId Can.Tid E × Answer Can.Tid E :=
  let q := (n.core.step canTid tops op).rx.foldl (fun q c => rxCall full oom q.1 c) (n.rx, .ok)
  let op' := withSubscribed q.2 op
  let o := n.core.step canTid tops op'
  (⟨o.node, q.1⟩, op', o.answer)

/-- Histories of a node: calls of its functions, and frames that its receiver handles in `receive` (`canadensis/src/node/core.rs` L197-209). The list has the calls with what they
returned, the latest first. -/
inductive NodeHistory (checks : Bool) (tops : TrackerOps NodeId Can.Tid Trk) (id : Option NodeId) (P R : Nat) :
    List (Node.Op NodeId Can.Tid E × Answer Can.Tid E) → CanNode Trk → Prop where
  | new : NodeHistory checks tops id P R [] (CanNode.new id P R)
  | call {trace n} (full : Bool) (oom : E) (op : Node.Op NodeId Can.Tid E) : NodeHistory checks tops id P R trace n →
      NodeHistory checks tops id P R ((n.call tops full oom op).2 :: trace) (n.call tops full oom op).1
  | frame {trace n f full r a} : NodeHistory checks tops id P R trace n → f.id.toNat < 2 ^ 29 → n.rx.step checks (.frame f full) = some (r, a) →
      NodeHistory checks tops id P R trace { n with rx := r }

/-! ### What is in use, from the history of calls and answers, the latest first -/

/-- The node is subscribed to a subject: there was a successful subscription and no unsubscription after it. -/
def listening {N Tid : Type} (subject : SubjectId) : List (Node.Op N Tid E × Answer Tid E) → Bool
  | [] => false
  | (.subscribeMessage _ s _ _, .ok) :: earlier => decide (s = subject) || listening subject earlier
  | (.unsubscribeMessage _ s, _) :: earlier => !decide (s = subject) && listening subject earlier
  | _ :: earlier => listening subject earlier

/-- The node is subscribed to the requests for a service. -/
def serving {N Tid : Type} (service : ServiceId) : List (Node.Op N Tid E × Answer Tid E) → Bool
  | [] => false
  | (.subscribeRequest _ s _ _, .ok) :: earlier => decide (s = service) || serving service earlier
  | (.unsubscribeRequest _ s, _) :: earlier => !decide (s = service) && serving service earlier
  | _ :: earlier => serving service earlier

/-- The node once started to send requests for a service, whether it stopped or not. -/
def started {N Tid : Type} (service : ServiceId) : List (Node.Op N Tid E × Answer Tid E) → Bool
  | [] => false
  | (.startSendingRequests _ s _ _ _, .token) :: earlier => decide (s = service) || started service earlier
  | _ :: earlier => started service earlier

end Verif.End
