import Verif.Drv.Model

/-!
`LinuxCan`: `canadensis_linux/src/lib.rs`. A panic is `none`.

The crate `socketcan` and the kernel are not in /repo. A socket is a list of what waits to be read, and the record of what was written. What `write_frame_insist` answers is left to the environment.
-/

namespace Verif.Drv

open Verif.Can

/-- What `EmbeddedFrame::id` and `EmbeddedFrame::data` tell of a frame of a socket. -/
structure SockFrame where
  id : BxId
  data : List Byte
deriving DecidableEq, Repr

/-- What waits to be read from a socket: a frame, or an error that reading gives. (`canadensis_linux/src/lib.rs` L66-77 and L92-98.) -/
inductive SockItem (E : Type) where
  | frame (f : SockFrame)
  | error (e : E)
deriving DecidableEq, Repr

/-- `LinuxCan` (`canadensis_linux/src/lib.rs` L25-27) and its socket. `written` is a record of what was written, not part of the code. -/
structure Linux (E : Type) where
  incoming : List (SockItem E)
  written : List SockFrame

/-- What `write_frame_insist` answers. (`canadensis_linux/src/lib.rs` L66-77 and L92-98.) -/
inductive WriteResult (E : Type) where
  | ok | wouldBlock
  | error (e : E)
deriving DecidableEq, Repr

variable {E : Type}

/-- `LinuxCan::transmit` (`canadensis_linux/src/lib.rs` L48-76). `fits` tells which lengths a frame of this kind of socket may have. -/
def Linux.transmit (d : Linux E) (fits : Nat → Bool) (now : Instant) (answer : WriteResult E) (f : Frame) : Option (Linux E × TransmitResult E) :=
  if Instant.before f.timestamp now then some (d, .ok none)
  else if f.id.toNat < 2 ^ 29 then
    if fits f.data.length then
      match answer with
      | .ok => some ({ d with written := d.written ++ [⟨.extended (f.id.setWidth 29), f.data⟩] }, .ok none)
      | .wouldBlock => some (d, .wouldBlock)
      | .error e => some (d, .other e)
    else none
  else none

/-- What `LinuxCan::receive` returns. (`canadensis_linux/src/lib.rs` L90-117.) -/
inductive LinuxRx (E : Type) where
  | frame (f : Frame)
  | wouldBlock
  | error (e : E)
deriving DecidableEq, Repr

/-- The loop of `LinuxCan::receive` (`canadensis_linux/src/lib.rs` L90-117). `capacity` is `FRAME_CAPACITY`; `now` is the time when the frame that is returned has been read. -/
def linuxReceive (capacity : Nat) (now : Instant) : List (SockItem E) → List (SockItem E) × LinuxRx E
  | [] => ([], .wouldBlock)
  | .error e :: rest => (rest, .error e)
  | .frame f :: rest =>
    if f.data.length ≤ capacity then
      match f.id with
      | .standard _ => linuxReceive capacity now rest
      | .extended id => (rest, .frame { timestamp := now, id := id.setWidth 32, loopback := false, data := f.data })
    else linuxReceive capacity now rest

/-- `LinuxCan::receive` (`canadensis_linux/src/lib.rs` L90-117). -/
def Linux.receive (d : Linux E) (capacity : Nat) (now : Instant) : Linux E × LinuxRx E :=
  ({ d with incoming := (linuxReceive capacity now d.incoming).1 }, (linuxReceive capacity now d.incoming).2)

/-- `LinuxCan::try_reserve` (`canadensis_linux/src/lib.rs` L43-46). -/
def Linux.tryReserve (_ : Linux E) (_ : Nat) : Bool := true

/-- `SystemClock::now` (`canadensis_linux/src/lib.rs` L165-171), that many microseconds after the clock was made. -/
def systemClockNow (micros : Nat) : Instant := BitVec.ofNat 32 micros

/-- What happens to a driver and its socket. (The calls are those of `canadensis_linux/src/lib.rs` L48-135; a history of them has no counterpart in /repo.) -/
inductive LinuxOp (E : Type) where
  | transmit (now : Instant) (answer : WriteResult E) (f : Frame)
  | receive (now : Instant)
  | arrive (x : SockItem E)

/-- What a call returns. (The calls are those of `canadensis_linux/src/lib.rs` L48-135; a history of them has no counterpart in /repo.) -/
inductive LinuxAnswer (E : Type) where
  | transmitted (r : TransmitResult E)
  | received (r : LinuxRx E)
  | nothing

/-- One step. (The calls are those of `canadensis_linux/src/lib.rs` L48-135; a history of them has no counterpart in /repo.) -/
def Linux.step (fits : Nat → Bool) (capacity : Nat) (d : Linux E) : LinuxOp E → Option (Linux E × LinuxAnswer E)
  | .transmit now answer f => (d.transmit fits now answer f).map fun p => (p.1, .transmitted p.2)
  | .receive now => some ((d.receive capacity now).1, .received (d.receive capacity now).2)
  | .arrive x => some ({ d with incoming := d.incoming ++ [x] }, .nothing)

/-- Any number of steps. (The calls are those of `canadensis_linux/src/lib.rs` L48-135; a history of them has no counterpart in /repo.) -/
def Linux.run (fits : Nat → Bool) (capacity : Nat) : Linux E → List (LinuxOp E) → Option (Linux E × List (LinuxAnswer E))
  | d, [] => some (d, [])
  | d, op :: ops =>
    match d.step fits capacity op with
    | none => none
    | some (d, a) => (d.run fits capacity ops).map fun p => (p.1, a :: p.2)

end Verif.Drv
