import Verif.Drv.OrderModel
import Verif.Can.TxModel

/-!
A device that sends transfers: a `CanTransmitter` (`canadensis_can/src/tx.rs`), a `SingleQueueDriver` with an `ArrayQueue` (`canadensis_can/src/queue/mod.rs` L54-182), and a `BxCanDriver`
(`canadensis_bxcan/src/lib.rs`).
-/

namespace Verif.End

open Verif.Can Verif.Drv

/-- The device. `answers` and `events` are records, not part of the code: what `push` returned for each transfer, and what happened at the bus. (`canadensis_can/src/tx.rs` L57-220 with the queue and the driver of `Verif.Drv.OrderModel`; a history of calls has no counterpart in /repo.) -/
structure Device (N : Nat) where
  transmitter : Transmitter
  q : ArrayQueue N
  d : BxCan
  answers : List (CanTransfer × PushResult Empty)
  events : List BusEvent

/-- A new device for classic CAN: `CanTransmitter::new` (`canadensis_can/src/tx.rs` L93-101, 8 bytes for the `Mtu` `Can8`), `SingleQueueDriver::new` (`canadensis_can/src/queue/mod.rs` L67-69),
`BxCanDriver::new` (`canadensis_bxcan/src/lib.rs` L53-63). -/
def Device.new (N : Nat) : Device N := ⟨⟨8, 0, 0⟩, ArrayQueue.new N, BxCan.new, [], []⟩

/-- What happens: a transfer is given to `CanTransmitter::push`; the queue is flushed, the controller sends the frame in a mailbox or receives something, or `receive` is called, see `SysOp`. (`canadensis_can/src/tx.rs` L57-220 with the queue and the driver of `Verif.Drv.OrderModel`; a history of calls has no counterpart in /repo.) -/
inductive DeviceOp where
  | send (t : CanTransfer)
  | flush (fuel : Nat) (times : List Instant) (turns : List Turn)
  | bus (i : Fin 3) (now : Instant)
  | arrive (x : RxItem)
  | receive (now : Instant)

/-- Something other than a push happens to queue and controller. (`canadensis_can/src/tx.rs` L57-220 with the queue and the driver of `Verif.Drv.OrderModel`; a history of calls has no counterpart in /repo.) -/
def Device.other (choose : Chooser) {N : Nat} (dev : Device N) (op : SysOp) : Option (Device N) :=
  ((Sys.mk dev.q dev.d [] dev.events).step choose op).map fun s => { dev with q := s.q, d := s.d, events := s.events }

/-- One step; `none` is a panic. For `send` it is `CanTransmitter::push` (`canadensis_can/src/tx.rs` L57-83); `cap` is the constant `FRAME_CAPACITY`. -/
def Device.step (choose : Chooser) (cap : Nat) {N : Nat} (dev : Device N) : DeviceOp → Option (Device N)
  | .send t =>
    match dev.transmitter.push (singleQueueDriver Empty (arrayQueueImpl N)) cap t dev.q with
    | none => none
    | some (transmitter, q, answer) => some { dev with transmitter, q, answers := dev.answers ++ [(t, answer)] }
  | .flush fuel times turns => dev.other choose (.flush fuel times turns)
  | .bus i now => dev.other choose (.bus i now)
  | .arrive x => dev.other choose (.arrive x)
  | .receive now => dev.other choose (.receive now)

/-- Any number of steps. (`canadensis_can/src/tx.rs` L57-220 with the queue and the driver of `Verif.Drv.OrderModel`; a history of calls has no counterpart in /repo.) -/
def Device.run (choose : Chooser) (cap : Nat) {N : Nat} : Device N → List DeviceOp → Option (Device N)
  | dev, [] => some dev
  | dev, op :: ops => (dev.step choose cap op).bind fun dev => dev.run choose cap ops

end Verif.End
