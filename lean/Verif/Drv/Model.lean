import Verif.Can.DriverModel
import Verif.Can.FilterModel
import Mathlib.Logic.Function.Basic

/-!
The drivers for CAN controllers: `canadensis_bxcan/src/lib.rs` and `canadensis_linux/src/lib.rs`. A panic is `none`.

The crates `bxcan` and `socketcan` are not in /repo. The controller is modelled as three transmit mailboxes, in each of which a frame may wait, and a list of received frames. Which mailbox takes a
frame, whether the controller takes it at all, whether an abort comes too late, and when a waiting frame is sent are left to the environment.
-/

namespace Verif.Drv

open Verif.Can

/-- `bxcan::Id` (a dependency, not in /repo). -/
inductive BxId where
  | standard (id : BitVec 11)
  | extended (id : BitVec 29)
deriving DecidableEq, Repr

/-- `bxcan::Frame` (a dependency, not in /repo); there are no data in a remote frame. -/
structure BxFrame where
  id : BxId
  data : Option (List Byte)
deriving DecidableEq, Repr

/-- `cyphal_frame_to_bxcan` (`canadensis_bxcan/src/lib.rs` L305-309): `ExtendedId::new` takes 29 bits, and `Data::new` eight bytes. -/
def toBx (f : Frame) : Option BxFrame :=
  if f.id.toNat < 2 ^ 29 ∧ f.data.length ≤ 8 then some ⟨.extended (f.id.setWidth 29), some f.data⟩ else none

/-- `bxcan_frame_to_cyphal` (`canadensis_bxcan/src/lib.rs` L315-330); `none` is an error. Every extended ID is a valid `CanId`, and eight bytes fit into every `Frame`. -/
def fromBx (f : BxFrame) (timestamp : Instant) : Option Frame :=
  match f.id with
  | .standard _ => none
  | .extended id => f.data.map fun data => { timestamp, id := id.setWidth 32, loopback := false, data }

/-- A frame in a mailbox. `given` is not there in the code: it is the frame that the driver was given, so that one can say what becomes of it. -/
structure Boxed where
  frame : BxFrame
  given : Frame
deriving DecidableEq

/-- Something that `Can::receive` returns: a frame, or the error that there was an overrun. -/
inductive RxItem where
  | frame (f : BxFrame)
  | overrun
deriving DecidableEq

/-- `BxCanDriver` (`canadensis_bxcan/src/lib.rs` L41-49, and L275-277 for the deadlines): the controller with its mailboxes and what it has received, the deadlines, and the loopback
frames. -/
structure BxCan where
  boxes : Fin 3 → Option Boxed
  received : List RxItem
  deadlines : Fin 3 → Option Instant
  loopback : List Frame

/-- `BxCanDriver::new` (`canadensis_bxcan/src/lib.rs` L56-62), for a controller that is not sending. -/
def BxCan.new : BxCan := ⟨fun _ => none, [], fun _ => none, []⟩

/-- `LOOPBACK_CAPACITY` (`canadensis_bxcan/src/lib.rs` L38). -/
def loopbackCapacity : Nat := 2

/-- What happens at the bus. This record is not part of the code. -/
inductive BusEvent where
  /-- The frame was sent, at the time `now`. -/
  | sent (f : Frame) (now : Instant)
  /-- The driver aborted the transmission, at the time `now`. -/
  | aborted (f : Frame) (now : Instant)
deriving DecidableEq

/-- What the environment does during a call of `transmit`: the time, the mailbox that the controller picks (`none` is `WouldBlock`), and for each mailbox whether an abort comes too late. (`canadensis_bxcan/src/lib.rs` L166-200; the controller is not in /repo.) -/
structure TxEnv where
  now : Instant
  mailbox : Option (Fin 3)
  late : Fin 3 → Bool

/-- The body of the loop in `clean_expired_frames` (`canadensis_bxcan/src/lib.rs` L260-268). After `Can::abort`, the mailbox is empty: the frame has been aborted, or sent if it was too late for that.
A mailbox that is empty is left alone. -/
def BxCan.cleanOne (d : BxCan) (env : TxEnv) (i : Fin 3) : BxCan × List BusEvent :=
  match d.deadlines i with
  | none => (d, [])
  | some deadline =>
    if Instant.after env.now deadline then
      match d.boxes i with
      | none => (d, [])
      | some b => ({ d with boxes := Function.update d.boxes i none }, [if env.late i then .sent b.given env.now else .aborted b.given env.now])
    else (d, [])

/-- `clean_expired_frames` (`canadensis_bxcan/src/lib.rs` L256-269). -/
def BxCan.clean (d : BxCan) (env : TxEnv) : BxCan × List BusEvent :=
  let a := d.cleanOne env 0
  let b := a.1.cleanOne env 1
  let c := b.1.cleanOne env 2
  (c.1, a.2 ++ b.2 ++ c.2)

/-- `transmit_inner` (`canadensis_bxcan/src/lib.rs` L84-113) and `DeadlineTracker::replace` (L290-297). The controller puts the frame into the mailbox; the frame that was in it is the dequeued
frame. -/
def BxCan.transmitInner (d : BxCan) (env : TxEnv) (f : Frame) : Option (BxCan × TransmitResult Empty) :=
  match toBx f with
  | none => none
  | some frame =>
    match env.mailbox with
    | none => some (d, .wouldBlock)
    | some i =>
      let d' := { d with boxes := Function.update d.boxes i (some ⟨frame, f⟩), deadlines := Function.update d.deadlines i (some f.timestamp) }
      match d.boxes i, d.deadlines i with
      | some removed, some deadline => some (d', .ok (fromBx removed.frame deadline))
      | _, _ => some (d', .ok none)

/-- The copy of a loopback frame that has been put into the controller (`canadensis_bxcan/src/lib.rs` L173-180); it is dropped if the queue is full. -/
def BxCan.storeCopy (d : BxCan) (f : Frame) (now : Instant) : BxCan :=
  if f.loopback && decide (d.loopback.length < loopbackCapacity) then { d with loopback := d.loopback ++ [{ f with timestamp := now }] } else d

/-- `BxCanDriver::transmit` (`canadensis_bxcan/src/lib.rs` L166-187). `deadline >= now` is "not before" for these times. -/
def BxCan.transmit (d : BxCan) (env : TxEnv) (f : Frame) : Option (BxCan × TransmitResult Empty × List BusEvent) :=
  let (d, events) := d.clean env
  if !Instant.before f.timestamp env.now then
    match d.transmitInner env f with
    | none => none
    | some (d, .ok displaced) => some (d.storeCopy f env.now, .ok displaced, events)
    | some (d, status) => some (d, status, events)
  else some (d, .ok none, events)

/-- `BxCanDriver::try_reserve` (`canadensis_bxcan/src/lib.rs` L156-164). -/
def BxCan.tryReserve (_ : BxCan) (frames : Nat) : Bool := frames == 1

/-- What `receive` returns: a frame, `WouldBlock`, or the error that there was an overrun. (`canadensis_bxcan/src/lib.rs` L208-215.) -/
inductive RxResult where
  | frame (f : Frame)
  | wouldBlock
  | overrun
deriving DecidableEq

/-- `receive_from_bus` (`canadensis_bxcan/src/lib.rs` L120-137), on what the controller has received; `now` is the time when the frame that is returned is read. -/
def receiveFromBus (now : Instant) : List RxItem → List RxItem × RxResult
  | [] => ([], .wouldBlock)
  | .overrun :: rest => (rest, .overrun)
  | .frame f :: rest =>
    match fromBx f now with
    | some f => (rest, .frame f)
    | none => receiveFromBus now rest

/-- `BxCanDriver::receive` (`canadensis_bxcan/src/lib.rs` L208-215) and `receive_loopback` (L139-146). -/
def BxCan.receive (d : BxCan) (now : Instant) : BxCan × RxResult :=
  match receiveFromBus now d.received with
  | (rest, .wouldBlock) =>
    match d.loopback with
    | [] => ({ d with received := rest }, .wouldBlock)
    | f :: fs => ({ d with received := rest, loopback := fs }, .frame f)
  | (rest, r) => ({ d with received := rest }, r)

/-- What happens to a driver and its controller: the calls, the transmission of the frame in a mailbox, and the reception of something. (The calls are those of `canadensis_bxcan/src/lib.rs` L166-250; a history of them has no counterpart in /repo.) -/
inductive BxOp where
  | transmit (env : TxEnv) (f : Frame)
  | receive (now : Instant)
  | bus (i : Fin 3) (now : Instant)
  | arrive (x : RxItem)

/-- What a call returns. (The calls are those of `canadensis_bxcan/src/lib.rs` L166-250; a history of them has no counterpart in /repo.) -/
inductive BxAnswer where
  | transmitted (r : TransmitResult Empty)
  | received (r : RxResult)
  | nothing

/-- One step. (The calls are those of `canadensis_bxcan/src/lib.rs` L166-250; a history of them has no counterpart in /repo.) -/
def BxCan.step (d : BxCan) : BxOp → Option (BxCan × BxAnswer × List BusEvent)
  | .transmit env f => (d.transmit env f).map fun p => (p.1, .transmitted p.2.1, p.2.2)
  | .receive now => some ((d.receive now).1, .received (d.receive now).2, [])
  | .bus i now =>
    match d.boxes i with
    | none => some (d, .nothing, [])
    | some b => some ({ d with boxes := Function.update d.boxes i none }, .nothing, [.sent b.given now])
  | .arrive x => some ({ d with received := d.received ++ [x] }, .nothing, [])

/-- Any number of steps: what the calls return, and what happens at the bus. (The calls are those of `canadensis_bxcan/src/lib.rs` L166-250; a history of them has no counterpart in /repo.) -/
def BxCan.run : BxCan → List BxOp → Option (BxCan × List BxAnswer × List BusEvent)
  | d, [] => some (d, [], [])
  | d, op :: ops =>
    match d.step op with
    | none => none
    | some (d, a, es) => (d.run ops).map fun p => (p.1, a :: p.2.1, es ++ p.2.2)

end Verif.Drv
