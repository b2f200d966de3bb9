import Verif.Drv.Model

/-!
A queue of frames in front of a bxCAN controller: `SingleQueueDriver` (`canadensis_can/src/queue/mod.rs` L54-182) with an `ArrayQueue` and a `BxCanDriver` (`canadensis_bxcan/src/lib.rs`), and what
the controller does in the meantime. A panic is `none`, or sets `panicked` if it happens in a call of the controller's driver.
-/

namespace Verif.Drv

open Verif.Can

/-- How a controller chooses a mailbox for a frame, given the frames that wait in the mailboxes (`bxcan::Can::transmit`, a dependency, not in /repo); `none` is `WouldBlock`. -/
abbrev Chooser := (Fin 3 → Option BxFrame) → BxFrame → Option (Fin 3)

/-- What happens around one call of `BxCanDriver::transmit`: the mailboxes whose frames have been sent before it, and what `TxEnv` says. (`canadensis_bxcan/src/lib.rs` L166-200; the controller is not in /repo.) -/
structure Turn where
  before : List (Fin 3 × Instant)
  now : Instant
  late : Fin 3 → Bool

/-- A driver during a flush. `times` are the next answers of the clock to `flush`, and `turns` what happens around the next calls of `transmit`; if there are no more, time stands still. `events` is a
record, not part of the code. (`canadensis_can/src/queue/mod.rs` L54-182; a history of calls has no counterpart in /repo.) -/
structure Target where
  d : BxCan
  times : List Instant
  turns : List Turn
  events : List BusEvent
  panicked : Bool

/-- The controller sends the frame in a mailbox, if there is one. (The controller; no counterpart in /repo.) -/
def BxCan.sendBox (d : BxCan) (i : Fin 3) (now : Instant) : BxCan × List BusEvent :=
  match d.boxes i with
  | none => (d, [])
  | some b => ({ d with boxes := Function.update d.boxes i none }, [.sent b.given now])

/-- The controller sends several frames. (The controller; no counterpart in /repo.) -/
def BxCan.sendBoxes : BxCan → List (Fin 3 × Instant) → BxCan × List BusEvent
  | d, [] => (d, [])
  | d, p :: ps => (((d.sendBox p.1 p.2).1.sendBoxes ps).1, (d.sendBox p.1 p.2).2 ++ ((d.sendBox p.1 p.2).1.sendBoxes ps).2)

/-- The mailbox that the controller will choose for `f`, after the cleanup. (The controller; no counterpart in /repo.) -/
def Chooser.mailbox (choose : Chooser) (d : BxCan) (now : Instant) (late : Fin 3 → Bool) (f : Frame) : Option (Fin 3) :=
  match toBx f with
  | none => none
  | some b => choose (fun i => ((d.clean ⟨now, none, late⟩).1.boxes i).map (·.frame)) b

/-- `BxCanDriver` as the driver of a flush. (`canadensis_can/src/queue/mod.rs` L138-182 with `canadensis_bxcan/src/lib.rs` L166-200.) -/
def bxTarget (choose : Chooser) : FlushTarget Target Empty where
  now s :=
    match s.times with
    | [] => (s, 0#32)
    | t :: ts => ({ s with times := ts }, t)
  transmit s f :=
    let turn := s.turns.head?.getD ⟨[], 0#32, fun _ => false⟩
    let (d, sent) := s.d.sendBoxes turn.before
    match d.transmit ⟨turn.now, choose.mailbox d turn.now turn.late f, turn.late⟩ f with
    | none => ({ s with d, turns := s.turns.tail, events := s.events ++ sent, panicked := true }, .wouldBlock)
    | some (d, r, es) => ({ s with d, turns := s.turns.tail, events := s.events ++ sent ++ es }, r)

/-- The whole system. `accepted` and `events` are records, not part of the code: the frames that the queue took, and what happened at the bus. (`canadensis_can/src/queue/mod.rs` L54-182; a history of calls has no counterpart in /repo.) -/
structure Sys (N : Nat) where
  q : ArrayQueue N
  d : BxCan
  accepted : List Frame
  events : List BusEvent

/-- A new system. (`canadensis_can/src/queue/mod.rs` L54-182; a history of calls has no counterpart in /repo.) -/
def Sys.new (N : Nat) : Sys N := ⟨ArrayQueue.new N, BxCan.new, [], []⟩

/-- What happens: a frame is pushed into the queue, the queue is flushed (`fuel` iterations are looked at), the controller sends the frame in a mailbox or receives something, or `receive` is
called. (`canadensis_can/src/queue/mod.rs` L54-182; a history of calls has no counterpart in /repo.) -/
inductive SysOp where
  | push (f : Frame)
  | flush (fuel : Nat) (times : List Instant) (turns : List Turn)
  | bus (i : Fin 3) (now : Instant)
  | arrive (x : RxItem)
  | receive (now : Instant)

/-- One step; `none` is a panic. (`canadensis_can/src/queue/mod.rs` L54-182; a history of calls has no counterpart in /repo.) -/
def Sys.step (choose : Chooser) {N : Nat} (s : Sys N) : SysOp → Option (Sys N)
  | .push f =>
    match (singleQueueDriver Empty (arrayQueueImpl N)).transmit s.q f with
    | none => none
    | some (q, .ok _) => some { s with q, accepted := s.accepted ++ [f] }
    | some (q, _) => some { s with q }
  | .flush fuel times turns =>
    match flushSingleQueue (arrayQueueImpl N) (bxTarget choose) fuel s.q ⟨s.d, times, turns, s.events, false⟩ with
    | none => none
    | some (q, t, _, _) => if t.panicked then none else some { s with q, d := t.d, events := t.events }
  | .bus i now => some { s with d := (s.d.sendBox i now).1, events := s.events ++ (s.d.sendBox i now).2 }
  | .arrive x => some { s with d := { s.d with received := s.d.received ++ [x] } }
  | .receive now => some { s with d := (s.d.receive now).1 }

/-- Any number of steps. (`canadensis_can/src/queue/mod.rs` L54-182; a history of calls has no counterpart in /repo.) -/
def Sys.run (choose : Chooser) {N : Nat} : Sys N → List SysOp → Option (Sys N)
  | s, [] => some s
  | s, op :: ops => (s.step choose op).bind fun s => s.run choose ops

end Verif.Drv
