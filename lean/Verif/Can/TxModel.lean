import Verif.Can.Frame
import Verif.Crc.Model

/-!
The CAN transmitter: `canadensis_can/src/tx.rs`, `tx/breakdown.rs` and the frame statistics in `lib.rs`.

A panic is the result `none`. Lengths are unbounded: a slice has at most 2^63 - 1 bytes, so `payload_length`, its CRC and
its tail bytes fit into a `usize`.
-/

namespace Verif.Can

open Verif.Crc (digestBytes16 crc16Init)

/-- `round_up_frame_length` (`canadensis_can/src/lib.rs` L84-96). -/
def roundUpFrameLength (length : Nat) : Option Nat :=
  if length ≤ 8 then some length
  else if length ≤ 12 then some 12
  else if length ≤ 16 then some 16
  else if length ≤ 20 then some 20
  else if length ≤ 24 then some 24
  else if length ≤ 32 then some 32
  else if length ≤ 48 then some 48
  else if length ≤ 64 then some 64
  else none

/-- `FrameStats` (`canadensis_can/src/lib.rs` L75-81). -/
structure FrameStats where
  frames : Nat
  lastFramePadding : Nat
deriving DecidableEq, Repr

/-- `usize::div_ceil`. -/
def divCeil (a b : Nat) : Nat := if a % b = 0 then a / b else a / b + 1

/-- `calculate_frame_stats` (`canadensis_can/src/lib.rs` L41-70). -/
def calculateFrameStats (payloadLength mtu : Nat) : Option FrameStats :=
  if ¬ mtu ≤ 64 then none
  else if ¬ mtu > 1 then none
  else
    let mtuWithoutTail := mtu - 1
    let crcLength := if payloadLength ≤ mtuWithoutTail then 0 else 2
    let tailBytes := max 1 (divCeil (payloadLength + crcLength) mtuWithoutTail)
    let totalLength := payloadLength + crcLength + tailBytes
    let frames := divCeil totalLength mtu
    let lastFrameLength := totalLength % mtu
    match roundUpFrameLength lastFrameLength with
    | none => none
    | some rounded => some { frames, lastFramePadding := rounded - lastFrameLength }

/-- `Breakdown` (`canadensis_can/src/tx/breakdown.rs` L14-27). -/
structure Breakdown where
  mtu : Nat
  transferId : Tid
  start : Bool
  toggle : Bool
  frame : List Byte
deriving DecidableEq, Repr

/-- `Breakdown::new` (`canadensis_can/src/tx/breakdown.rs` L30-38). -/
def Breakdown.new (mtu : Nat) (transferId : Tid) : Breakdown :=
  { mtu, transferId, start := true, toggle := true, frame := [] }

/-- `heapless::Vec::<u8, 64>::push(..).expect(..)` as used in `canadensis_can/src/tx/breakdown.rs` L50-57, L67, L75-82. -/
def push64 (frame : List Byte) (b : Byte) : Option (List Byte) :=
  if frame.length < 64 then some (frame ++ [b]) else none

/-- `Breakdown::add` (`canadensis_can/src/tx/breakdown.rs` L43-70). -/
def Breakdown.add (b : Breakdown) (byte : Byte) : Option (Breakdown × Option (List Byte)) :=
  if b.frame.length = b.mtu - 1 then
    match push64 b.frame (makeTailByte b.start false b.toggle b.transferId) with
    | none => none
    | some full =>
      match push64 [] byte with
      | none => none
      | some frame => some ({ b with start := false, toggle := !b.toggle, frame }, some full)
  else
    match push64 b.frame byte with
    | none => none
    | some frame => some ({ b with frame }, none)

/-- `Breakdown::finish` (`canadensis_can/src/tx/breakdown.rs` L73-84). -/
def Breakdown.finish (b : Breakdown) : Option (List Byte) :=
  push64 b.frame (makeTailByte b.start true b.toggle b.transferId)

/-- What `TransmitDriver::transmit` returns (`canadensis_can/src/driver.rs`): `Ok(displaced)`, `Err(WouldBlock)` or
`Err(Other(e))`. -/
inductive TransmitResult (E : Type) where
  | ok (displaced : Option Frame)
  | wouldBlock
  | other (e : E)
deriving DecidableEq, Repr

/-- A transmit driver (`TransmitDriver`, `canadensis_can/src/driver.rs` L19-40) with state `σ`; the answer `true` of
`tryReserve` is `Ok(())`, and `none` is a panic. The clock that `transmit` may read is part of the state. -/
structure TxDriver (σ E : Type) where
  tryReserve : σ → Nat → Option (σ × Bool)
  transmit : σ → Frame → Option (σ × TransmitResult E)

/-- What `push` returns (`canadensis_can/src/tx.rs` L57-83 and `Error`, `canadensis_can/src/types.rs` L210). -/
inductive PushResult (E : Type) where
  | ok | memory | wouldBlock
  | driver (e : E)
deriving DecidableEq, Repr

/-- `Frame::new` followed by `set_loopback` (`canadensis_can/src/data.rs` L126-133, L143-145); `cap` is `FRAME_CAPACITY`. -/
def Frame.make (cap : Nat) (timestamp : Instant) (id : BitVec 32) (loopback : Bool) (data : List Byte) : Option Frame :=
  if data.length ≤ cap then some { timestamp, id, loopback, data } else none

variable {σ E : Type}

/-- `CanTransmitter::push_frame` (`canadensis_can/src/tx.rs` L198-211) with `map_err(Error::Driver)`. `mk` makes the frame
from its data. -/
def pushFrame (d : TxDriver σ E) (mk : List Byte → Option Frame) (data : List Byte) (s : σ) : Option (σ × PushResult E) :=
  match mk data with
  | none => none
  | some frame =>
    match d.transmit s frame with
    | none => none
    | some (s, .ok _) => some (s, .ok)
    | some (s, .wouldBlock) => some (s, .wouldBlock)
    | some (s, .other e) => some (s, .driver e)

/-- The loops over bytes in `push_inner` (`canadensis_can/src/tx.rs` L144-159 and L166-179): every byte goes into the
breakdown and a frame that is full goes to the driver. The count of pushed frames starts at `n`; the second loop in the code
does not count. The inner result is `.error` if a push failed and the function returned. -/
def pushBytes (d : TxDriver σ E) (mk : List Byte → Option Frame) :
    List Byte → Breakdown → Nat → σ → Option (σ × Except (PushResult E) (Breakdown × Nat))
  | [], b, n, s => some (s, .ok (b, n))
  | byte :: rest, b, n, s =>
    match b.add byte with
    | none => none
    | some (b, none) => pushBytes d mk rest b n s
    | some (b, some data) =>
      match pushFrame d mk data s with
      | none => none
      | some (s, .ok) => pushBytes d mk rest b (n + 1) s
      | some (s, e) => some (s, .error e)

/-- `crc_bytes` in `push_inner` (`canadensis_can/src/tx.rs` L166). -/
def crcBytes (crc : BitVec 16) : List Byte := [(crc >>> 8).setWidth 8, crc.setWidth 8]

/-- `CanTransmitter::push_inner` (`canadensis_can/src/tx.rs` L120-193). The CRC is computed over payload and padding while
they are read in the code; the result is the same. -/
def pushInner (d : TxDriver σ E) (cap mtu : Nat) (transfer : CanTransfer) (s : σ) : Option (σ × PushResult E) :=
  match calculateFrameStats transfer.payload.length mtu with
  | none => none
  | some stats =>
    match d.tryReserve s stats.frames with
    | none => none
    | some (s, false) => some (s, .memory)
    | some (s, true) =>
      let padded := transfer.payload ++ List.replicate stats.lastFramePadding 0#8
      match makeCanId transfer.header transfer.payload with
      | none => none
      | some canId =>
        let mk := Frame.make cap transfer.header.timestamp canId transfer.loopback
        match pushBytes d mk padded (Breakdown.new mtu transfer.header.transferId) 0 s with
        | none => none
        | some (s, .error e) => some (s, e)
        | some (s, .ok (b, frames)) =>
          match pushBytes d mk (if frames ≠ 0 then crcBytes (digestBytes16 crc16Init padded) else []) b frames s with
          | none => none
          | some (s, .error e) => some (s, e)
          | some (s, .ok (b, _)) =>
            match b.finish with
            | none => none
            | some data => pushFrame d mk data s

/-- `CanTransmitter` (`canadensis_can/src/tx.rs` L26-39). -/
structure Transmitter where
  mtu : Nat
  transferCount : BitVec 64
  errorCount : BitVec 64
deriving DecidableEq, Repr

/-- `CanTransmitter::push` (`canadensis_can/src/tx.rs` L57-83). -/
def Transmitter.push (d : TxDriver σ E) (cap : Nat) (t : Transmitter) (transfer : CanTransfer) (s : σ) :
    Option (Transmitter × σ × PushResult E) :=
  match pushInner d cap t.mtu transfer s with
  | none => none
  | some (s, .ok) => some ({ t with transferCount := t.transferCount + 1 }, s, .ok)
  | some (s, e) => some ({ t with errorCount := t.errorCount + 1 }, s, e)

end Verif.Can
