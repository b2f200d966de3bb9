import Verif.Drv.Model
import Verif.Can.DriverModel
import Verif.Can.RxSpec
import Verif.Pnp.Model

/-!
The plug-and-play client for a bxCAN peripheral: `canadensis_bxcan/src/pnp.rs`, with the parts that it is made of: a `PnpClient`, a `CanTransmitter`, a `CanReceiver`, and a `SingleQueueDriver` of a
`SingleFrameQueue` and a `BxCanDriver`.
-/

namespace Verif.Drv

open Verif.Can Verif.Node Verif.Pnp Verif.App

/-- `BxCanPnpClient` (`canadensis_bxcan/src/pnp.rs` L13-24) for allocation messages of version 1, the only ones for which `AllocationMessage` of `canadensis_pnp_client` is implemented. The clock is environment. -/
structure BxPnp where
  client : PnpClient Can.Tid
  transmitter : Transmitter
  receiver : Receiver
  queue : SingleFrameQueue
  can : BxCan

/-- `BxCanPnpClient::new` (`canadensis_bxcan/src/pnp.rs` L33-45); `none` is the error that there is no memory for the subscription. -/
def BxPnp.new (uniqueId : UniqueId) (oom : Bool) (can : BxCan) : Option BxPnp :=
  match (Receiver.new none).subscribeMessage oom (version1 canIds).subject 9 (milliseconds 1000) with
  | (receiver, .ok, _) =>
    some ⟨⟨uniqueId, AnonymousPublisher.new canTid (version1 canIds).subject nominal (milliseconds 1000)⟩, ⟨8, 0, 0⟩, receiver, SingleFrameQueue.new, can⟩
  | _ => none

/-- What `CanTransmitter::push` returns (`canadensis_can/src/tx.rs` L57-83), as the publisher sees it. -/
def asPush : PushResult Empty → Push (PushResult Empty)
  | .ok => .ok
  | .wouldBlock => .wouldBlock
  | r => .error r

/-- What happens around the publisher during a call: the time and the answer of the transmitter. (The calls are those of `canadensis_bxcan/src/pnp.rs`; a history of them has no counterpart in /repo.) -/
def pnpEnv (now : Instant) (push : Push (PushResult Empty)) : Env (PushResult Empty) := ⟨now, true, push, .ok, .memory⟩

/-- `BxCanPnpClient::publish_request` (`canadensis_bxcan/src/pnp.rs` L50-52): `PnpClient::send_request` (`canadensis_pnp_client/src/lib.rs` L74-83) with the transmitter and the driver of this client;
`none` is a panic. The publisher hands at most one transfer to the transmitter (`canadensis/src/anonymous.rs` L109-134); which one does not depend on the answer. `cap` is the constant `FRAME_CAPACITY`. -/
def BxPnp.publishRequest (cap : Nat) (p : BxPnp) (now : Instant) : Option BxPnp :=
  let handed : List CanTransfer :=
    (p.client.publisher.send canTid (p.transmitter.mtu - 1) (pnpEnv now .ok) ((version1 canIds).payload ((version1 canIds).withUniqueId p.client.uniqueId)) false).2.2
  match handed with
  | [] => (p.client.sendRequest canTid (version1 canIds) (p.transmitter.mtu - 1) (pnpEnv now .ok)).map fun c => { p with client := c.1 }
  | t :: _ =>
    match p.transmitter.push (singleQueueDriver Empty singleFrameQueueImpl) cap t p.queue with
    | none => none
    | some (transmitter, queue, answer) =>
      (p.client.sendRequest canTid (version1 canIds) (p.transmitter.mtu - 1) (pnpEnv now (asPush answer))).map fun c => { p with client := c.1, transmitter, queue }

/-- The loop of `CanReceiver::receive` (`canadensis_can/src/rx.rs` L62-81) with `SingleQueueDriver::receive` (`canadensis_can/src/queue/mod.rs` L120-122) and the bxCAN driver. The number counts the
iterations; when it is 0, the controller has nothing left (see `BxPnp.handleIncoming`). Each iteration has its time and its answer of the allocator. -/
def bxReceive (checks : Bool) (env : Nat → Instant × Bool) : Nat → Receiver → BxCan → Option (Receiver × BxCan × ReceiveResult)
  | 0, r, d => some (r, d, .none)
  | n + 1, r, d =>
    match d.receive (env n).1 with
    | (d, .wouldBlock) => some (r, d, .none)
    | (d, .overrun) => some (r, d, .driver)
    | (d, .frame f) =>
      match r.acceptFrame checks (env n).2 f with
      | none => none
      | some (r, .transfer t) => some (r, d, .transfer t)
      | some (r, .outOfMemory) => some (r, d, .memory)
      | some (r, .nothing) => bxReceive checks env n r d

/-- `BxCanPnpClient::handle_incoming_frames` (`canadensis_bxcan/src/pnp.rs` L55-60) with `PnpClient::receive` (`canadensis_pnp_client/src/lib.rs` L88-103). Each iteration but the last takes something
from the controller or a copy of an own frame, so there are not more of them than these and one. -/
def BxPnp.handleIncoming (checks : Bool) (p : BxPnp) (env : Nat → Instant × Bool) : Option (BxPnp × Option NodeId) :=
  match bxReceive checks env (p.can.received.length + p.can.loopback.length + 1) p.receiver p.can with
  | none => none
  | some (receiver, can, result) =>
    let p := { p with receiver, can }
    match p.client.receive (E := Unit) (version1 canIds)
        (match result with | .transfer t => .transfer t | .none => .nothing | .memory => .error () | .driver => .error ()) with
    | .id id => some (p, some id)
    | .nothing => some (p, none)
    | .error _ => some (p, none)
    | .panic => none

/-- The calls of the client, and what the controller does by itself: it sends what is in a mailbox, or receives something. (The calls are those of `canadensis_bxcan/src/pnp.rs`; a history of them has no counterpart in /repo.) -/
inductive PnpOp where
  | publish (now : Instant)
  | handle (env : Nat → Instant × Bool)
  | bus (i : Fin 3) (now : Instant)
  | arrive (x : RxItem)

/-- One step: the client, what `handle_incoming_frames` returned, and what happened at the bus. (The calls are those of `canadensis_bxcan/src/pnp.rs`; a history of them has no counterpart in /repo.) -/
def BxPnp.step (cap : Nat) (checks : Bool) (p : BxPnp) : PnpOp → Option (BxPnp × Option NodeId × List BusEvent)
  | .publish now => (p.publishRequest cap now).map fun p => (p, none, [])
  | .handle env => (p.handleIncoming checks env).map fun q => (q.1, q.2, [])
  | .bus i now => (p.can.step (.bus i now)).map fun q => ({ p with can := q.1 }, none, q.2.2)
  | .arrive x => (p.can.step (.arrive x)).map fun q => ({ p with can := q.1 }, none, q.2.2)

/-- Any number of steps: the client, the node IDs that were returned, and what happened at the bus. (The calls are those of `canadensis_bxcan/src/pnp.rs`; a history of them has no counterpart in /repo.) -/
def BxPnp.run (cap : Nat) (checks : Bool) : BxPnp → List PnpOp → Option (BxPnp × List NodeId × List BusEvent)
  | p, [] => some (p, [], [])
  | p, op :: ops =>
    match p.step cap checks op with
    | none => none
    | some (p, id, es) => (p.run cap checks ops).map fun q => (q.1, id.toList ++ q.2.1, es ++ q.2.2)

end Verif.Drv
