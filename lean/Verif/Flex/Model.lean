import Verif.Can.TxModel

/-!
The driver for the FlexCAN peripheral of the S32K146 in `examples/s32k146_node/src`: message buffers, the FIFO for received frames, the layout of the memory, `send` and `receive`, and the driver that
`canadensis_can` uses. Words and bytes of the peripheral's memory are values here; the configuration registers (`init`, modes, clocks) are not modelled. The filters, which nothing writes into the table, are in `Verif.Flex.Filter`.
-/

namespace Verif.Flex

open Verif.Can

/-! ### `examples/s32k146_node/src/flexcan/id.rs` and `frame.rs` -/

/-- `Id` (`examples/s32k146_node/src/flexcan/id.rs` L13-14). -/
structure Id where
  raw : BitVec 32
deriving DecidableEq, Repr

/-- `Id::standard` (`examples/s32k146_node/src/flexcan/id.rs` L20-22). -/
def Id.standard (bits : BitVec 16) : Id := ⟨bits.setWidth 32 &&& 0x7ff#32⟩

/-- `Id::extended` (`examples/s32k146_node/src/flexcan/id.rs` L26-28). -/
def Id.extended (bits : BitVec 32) : Id := ⟨0x80000000#32 ||| (bits &&& 0x1fffffff#32)⟩

/-- `Id::is_extended` (`examples/s32k146_node/src/flexcan/id.rs` L31-33). -/
def Id.isExtended (id : Id) : Bool := id.raw &&& 0x80000000#32 != 0#32

/-- `Id::bits` (`examples/s32k146_node/src/flexcan/id.rs` L35-37). -/
def Id.bits (id : Id) : BitVec 32 := id.raw &&& 0x1fffffff#32

/-- `Dlc::length` (`examples/s32k146_node/src/flexcan/frame.rs` L32-51); a `Dlc` is a number below 16. -/
def dlcLength (dlc : Fin 16) : Nat := #v[0, 1, 2, 3, 4, 5, 6, 7, 8, 12, 16, 20, 24, 32, 48, 64][dlc]

/-- `Dlc::from_length` (`examples/s32k146_node/src/flexcan/frame.rs` L52-73). -/
def dlcFromLength (length : Nat) : Option (Fin 16) :=
  match length with
  | 0 => some 0 | 1 => some 1 | 2 => some 2 | 3 => some 3 | 4 => some 4 | 5 => some 5 | 6 => some 6 | 7 => some 7 | 8 => some 8
  | 12 => some 9 | 16 => some 10 | 20 => some 11 | 24 => some 12 | 32 => some 13 | 48 => some 14 | 64 => some 15
  | _ => none

/-- `Dlc::as_u8` (`examples/s32k146_node/src/flexcan/frame.rs` L74-93). -/
def dlcAsU8 (dlc : Fin 16) : BitVec 8 := BitVec.ofNat 8 dlc.val

/-- `Dlc::from_u8` (`examples/s32k146_node/src/flexcan/frame.rs` L94-115). -/
def dlcFromU8 (dlc : BitVec 8) : Option (Fin 16) := if h : dlc.toNat < 16 then some ⟨dlc.toNat, h⟩ else none

/-- `Frame` (`examples/s32k146_node/src/flexcan/frame.rs` L120-125); `data` are the 64 bytes. -/
structure FlexFrame where
  id : Id
  dlc : Fin 16
  remote : Bool
  data : List Byte
deriving DecidableEq, Repr

/-- `Frame::new` (`examples/s32k146_node/src/flexcan/frame.rs` L130-140). -/
def FlexFrame.new (id : Id) (data : List Byte) : Option FlexFrame :=
  match dlcFromLength data.length with
  | none => none
  | some dlc => some ⟨id, dlc, false, data ++ List.replicate (64 - data.length) 0#8⟩

/-- `Frame::new_remote` (`examples/s32k146_node/src/flexcan/frame.rs` L141-149). -/
def FlexFrame.newRemote (id : Id) (dlc : BitVec 8) : Option FlexFrame :=
  match dlcFromU8 dlc with
  | none => none
  | some dlc => some ⟨id, dlc, true, List.replicate 64 0#8⟩

/-- `Frame::data` (`examples/s32k146_node/src/flexcan/frame.rs` L162-164). -/
def FlexFrame.bytes (f : FlexFrame) : List Byte := f.data.take (dlcLength f.dlc)

/-! ### `examples/s32k146_node/src/flexcan/buffer/header.rs` and `buffer.rs` -/

/-- `CODE_TX_ABORT` and `CODE_TX_DATA` (`examples/s32k146_node/src/flexcan/buffer/header.rs` L8-9). -/
def codeTxAbort : BitVec 8 := 9#8
def codeTxData : BitVec 8 := 12#8

/-- `Header` (`examples/s32k146_node/src/flexcan/buffer/header.rs` L13-30). -/
structure Header where
  timestamp : BitVec 16
  dlc : BitVec 8
  rtr : Bool
  ide : Bool
  srr : Bool
  code : BitVec 8
  esi : Bool
  brs : Bool
  edl : Bool
  id : BitVec 32
  priority : BitVec 8
deriving DecidableEq, Repr

/-- A bit of a word. -/
def bitAt (v : BitVec 32) (offset : Nat) : Bool := ((v >>> offset) &&& 1#32) == 1#32

/-- A `bool` as `u32`. -/
def ofBool (b : Bool) : BitVec 32 := if b then 1#32 else 0#32

/-- `Header::from_bits` (`examples/s32k146_node/src/flexcan/buffer/header.rs` L40-61). -/
def Header.fromBits (controlStatus id : BitVec 32) : Header where
  timestamp := controlStatus.setWidth 16
  dlc := ((controlStatus >>> 16) &&& 0x0f#32).setWidth 8
  rtr := bitAt controlStatus 20
  ide := bitAt controlStatus 21
  srr := bitAt controlStatus 22
  code := ((controlStatus >>> 24) &&& 0x0f#32).setWidth 8
  esi := bitAt controlStatus 29
  brs := bitAt controlStatus 30
  edl := bitAt controlStatus 31
  id := if bitAt controlStatus 21 then id &&& 0x1fffffff#32 else (id >>> 18) &&& 0x7ff#32
  priority := ((id >>> 29) &&& 0x7#32).setWidth 8

/-- `Header::as_bits` (`examples/s32k146_node/src/flexcan/buffer/header.rs` L64-81). -/
def Header.asBits (h : Header) : BitVec 32 × BitVec 32 :=
  (h.timestamp.setWidth 32 ||| (h.dlc &&& 0x0f#8).setWidth 32 <<< 16 ||| ofBool h.rtr <<< 20 ||| ofBool h.ide <<< 21 ||| ofBool h.srr <<< 22 |||
      (h.code &&& 0x0f#8).setWidth 32 <<< 24 ||| ofBool h.esi <<< 29 ||| ofBool h.brs <<< 30 ||| ofBool h.edl <<< 31,
    (if h.ide then h.id &&& 0x1fffffff#32 else (h.id &&& 0x7ff#32) <<< 18) ||| (h.priority &&& 0x7#8).setWidth 32 <<< 29)

/-- `Header::mailbox_arbitration_value` (`examples/s32k146_node/src/flexcan/buffer/header.rs` L102-115). -/
def Header.arbitrationValue (h : Header) : BitVec 32 :=
  if h.ide then ((h.id >>> 18) <<< 21) ||| (ofBool h.srr <<< 20) ||| (ofBool h.ide <<< 19) ||| ((h.id &&& 0x3ffff#32) <<< 1) ||| ofBool h.rtr
  else (h.id <<< 21) ||| (ofBool h.rtr <<< 20)

/-- `Header::compare_transmit_priority` (`examples/s32k146_node/src/flexcan/buffer/header.rs` L96-100). -/
def Header.comparePriority (a b : Header) : Ordering := (compare a.arbitrationValue.toNat b.arbitrationValue.toNat).swap

/-- `Header::default` (`derive(Default)`, `examples/s32k146_node/src/flexcan/buffer/header.rs` L12) with another code. -/
def Header.blank (code : BitVec 8) : Header := ⟨0#16, 0#8, false, false, false, code, false, false, false, 0#32, 0#8⟩

/-- `Message` (`examples/s32k146_node/src/flexcan/buffer.rs` L16-28) with room for `N` bytes. -/
structure Message (N : Nat) where
  controlStatus : BitVec 32
  id : BitVec 32
  data : Vector Byte N
deriving DecidableEq

/-- `Message::read_header` (`examples/s32k146_node/src/flexcan/buffer.rs` L34-38). -/
def Message.readHeader {N : Nat} (m : Message N) : Header := Header.fromBits m.controlStatus m.id

/-- `Message::write_header` (`examples/s32k146_node/src/flexcan/buffer.rs` L45-51). -/
def Message.writeHeader {N : Nat} (m : Message N) (h : Header) : Message N := { m with controlStatus := h.asBits.1, id := h.asBits.2 }

/-- `shift_index` (`examples/s32k146_node/src/flexcan/buffer.rs` L73-75). -/
def shiftIndex (index : Nat) : Nat := index ^^^ 3

/-- The loop of `write_data` (`examples/s32k146_node/src/flexcan/buffer.rs` L56-59) from byte `i` on; `none` is a panic. -/
def writeFrom {N : Nat} (i : Nat) : List Byte → Vector Byte N → Option (Vector Byte N)
  | [], v => some v
  | b :: bs, v => if h : shiftIndex i < N then writeFrom (i + 1) bs (v.set (shiftIndex i) b h) else none

/-- `Message::write_data` (`examples/s32k146_node/src/flexcan/buffer.rs` L52-62). -/
def Message.writeData {N : Nat} (m : Message N) (data : List Byte) : Option (Message N) := (writeFrom 0 (data.take N) m.data).map fun d => { m with data := d }

/-- `Message::read_data` (`examples/s32k146_node/src/flexcan/buffer.rs` L63-69) and the same loop of `LegacyFifo::read_data` (`examples/s32k146_node/src/flexcan/fifo_legacy.rs` L70-81) into a buffer of
`length` bytes, all zero; `none` is a panic. -/
def readBytes {N : Nat} (v : Vector Byte N) (length : Nat) : Option (List Byte) :=
  ((List.range (min length N)).mapM fun i => v[shiftIndex i]?).map fun bs => bs ++ List.replicate (length - min length N) 0#8

/-! ### `examples/s32k146_node/src/flexcan/config.rs` -/

/-- `message_buffer_space` (`examples/s32k146_node/src/flexcan/config.rs` L183-190): start and end of a message buffer; `none` is a division by zero. -/
def bufferSpace (index size : Nat) : Option (Nat × Nat) :=
  if size = 0 ∨ 512 / size = 0 then none
  else
    let start := 0x80 + 512 * (index / (512 / size)) + size * (index % (512 / size))
    some (start, start + size)

/-- `legacy_fifo_space` (`examples/s32k146_node/src/flexcan/config.rs` L154-157). -/
def fifoSpace (filters : Nat) : Nat × Nat := (0x80, 0x80 + (0x60 + 4 * filters))

/-! ### `examples/s32k146_node/src/flexcan/mod.rs` -/

/-- What `send` returns: `Ok` with a frame that was removed, `WouldBlock`, a panic, or that it still waits. (`examples/s32k146_node/src/flexcan/mod.rs` L240-317.) -/
inductive Sent where
  | ok (removed : Option FlexFrame)
  | wouldBlock
  | panic
  | waiting
deriving DecidableEq

/-- What the peripheral does while `send` aborts a frame: what the n-th read of the interrupt flag of the buffer gives, and the code in the buffer afterwards. (`examples/s32k146_node/src/flexcan/mod.rs` L240-317.) -/
structure SendEnv where
  flag : Nat → Bool
  code : BitVec 8

/-- The loop `while flag != 0 {}` (`examples/s32k146_node/src/flexcan/mod.rs` L280), `fuel` iterations of it: has it ended? -/
def waits (flag : Nat → Bool) : Nat → Nat → Bool
  | 0, _ => false
  | fuel + 1, n => if flag n then waits flag fuel (n + 1) else true

/-- The frame that was in the buffer (`examples/s32k146_node/src/flexcan/mod.rs` L285-297); `none` is a panic. -/
def copyOut (h : Header) (data : Vector Byte 8) : Option FlexFrame :=
  let id := if h.ide then Id.extended h.id else Id.standard (h.id.setWidth 16)
  if h.rtr then FlexFrame.newRemote id h.dlc
  else if h.dlc.toNat ≤ 8 then (readBytes data h.dlc.toNat).bind fun bytes => FlexFrame.new id bytes
  else none

/-- The header that `send` makes (`examples/s32k146_node/src/flexcan/mod.rs` L241-253). -/
def sendHeader (f : FlexFrame) : Header where
  timestamp := 0#16
  dlc := dlcAsU8 f.dlc
  rtr := f.remote
  ide := f.id.isExtended
  srr := f.id.isExtended
  code := codeTxData
  esi := false
  brs := false
  edl := false
  id := f.id.bits
  priority := 0#8

/-- The last lines of `send` (`examples/s32k146_node/src/flexcan/mod.rs` L313-315). -/
def store (mb : Message 8) (f : FlexFrame) (removed : Option FlexFrame) : Message 8 × Sent :=
  match mb.writeData f.bytes with
  | none => (mb, .panic)
  | some mb => (mb.writeHeader (sendHeader f), .ok removed)

/-- `FlexCan::send` (`examples/s32k146_node/src/flexcan/mod.rs` L240-317) with message buffer 8. Simplified: the two writes that clear the interrupt flag (L266 and L303) have no effect of their own here;
what the reads of that flag give after the first of them, and the code read back in L281, come from `env`. -/
def send (env : SendEnv) (fuel : Nat) (mb : Message 8) (f : FlexFrame) : Message 8 × Sent :=
  let old := mb.readHeader
  if old.code = codeTxData then
    match old.comparePriority (sendHeader f) with
    | .lt =>
      let mb := mb.writeHeader (.blank codeTxAbort)
      if waits env.flag fuel 0 then
        if env.code = codeTxAbort then
          match copyOut old mb.data with
          | none => (mb, .panic)
          | some removed => store mb f (some removed)
        else store mb f none
      else (mb, .waiting)
    | _ => (mb, .wouldBlock)
  else store mb f none

/-- The head of the FIFO (`LegacyFifo`, `examples/s32k146_node/src/flexcan/fifo_legacy.rs` L17-28). -/
structure Fifo where
  flags : BitVec 32
  id : BitVec 32
  data : Vector Byte 8

/-- `LegacyFifo::read_header` (`examples/s32k146_node/src/flexcan/fifo_legacy.rs` L32-60): the ID, whether it is a remote frame, and the length code. Time stamp and filter index are not used. -/
def Fifo.readHeader (f : Fifo) : Option (Id × Bool × Fin 16) :=
  let id := if bitAt f.flags 21 then Id.extended (f.id &&& 0x1fffffff#32) else Id.standard ((f.id >>> 18).setWidth 16)
  match dlcFromU8 (((f.flags >>> 16) &&& 0xf#32).setWidth 8) with
  | none => none
  | some dlc => some (id, bitAt f.flags 20, dlc)

/-- `FlexCan::receive` (`examples/s32k146_node/src/flexcan/mod.rs` L319-341) when there is a frame; `none` is a panic. -/
def receive (fifo : Fifo) : Option FlexFrame :=
  match fifo.readHeader with
  | none => none
  | some (id, remote, dlc) =>
    if dlcLength dlc ≤ 8 then
      match readBytes fifo.data (dlcLength dlc) with
      | none => none
      | some bytes => if remote then FlexFrame.newRemote id (dlcAsU8 dlc) else FlexFrame.new id bytes
    else none

/-! ### `examples/s32k146_node/src/main.rs` -/

/-- `CanId::try_from(..).unwrap()` and `Frame::new` (`examples/s32k146_node/src/main.rs` L302-306 and L332-336; `canadensis_can/src/data.rs` L34-41 and L126-133), for classic CAN. -/
def toFrame (now : Instant) (f : FlexFrame) : Option Frame := if f.id.bits.toNat < 2 ^ 29 then Frame.make 8 now f.id.bits false f.bytes else none

/-- `FlexCanDriver::transmit` (`examples/s32k146_node/src/main.rs` L291-312). -/
def transmit (env : SendEnv) (fuel : Nat) (mb : Message 8) (frame : Frame) : Option (Message 8 × Option (TransmitResult Empty)) :=
  match FlexFrame.new (Id.extended frame.id) frame.data with
  | none => none
  | some f =>
    match send env fuel mb f with
    | (_, .panic) => none
    | (mb, .waiting) => some (mb, none)
    | (mb, .wouldBlock) => some (mb, some .wouldBlock)
    | (mb, .ok none) => some (mb, some (.ok none))
    | (mb, .ok (some removed)) =>
      if removed.id.isExtended then
        match toFrame 0#32 removed with
        | none => none
        | some g => some (mb, some (.ok (some g)))
      else some (mb, some (.ok none))

/-- `FlexCanDriver::receive` (`examples/s32k146_node/src/main.rs` L323-341): the outer `none` is a panic, the inner one `WouldBlock`. -/
def driverReceive (now : Instant) : Option Fifo → Option (Option Frame)
  | none => some none
  | some fifo =>
    match receive fifo with
    | none => none
    | some f => if f.id.isExtended then (toFrame now f).map some else some none

end Verif.Flex
