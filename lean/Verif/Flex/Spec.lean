import Verif.Flex.Model

/-!
What the driver of the FlexCAN peripheral should do, in terms of the bits on the bus and of the layout of the peripheral's memory.
-/

namespace Verif.Flex

open Verif.Can

/-! ### Arbitration -/

/-- The lowest `n` bits of a number, the highest of them first. -/
def bitsOf : Nat → Nat → List Bool
  | 0, _ => []
  | n + 1, v => v.testBit n :: bitsOf n v

/-- The bits of a frame that take part in the arbitration, in the order in which they are sent; `true` is recessive. With an extended ID: 11 bits of the ID, SRR, IDE, the other 18 bits, RTR. With a
standard ID: the 11 bits, RTR, IDE. -/
def wire (h : Header) : List Bool :=
  if h.ide then bitsOf 11 (h.id.toNat / 2 ^ 18) ++ [true, true] ++ bitsOf 18 h.id.toNat ++ [h.rtr] else bitsOf 11 h.id.toNat ++ [h.rtr, false]

/-- The first wins the arbitration: at the first place where the two differ it sends the dominant bit. -/
def Beats (a b : List Bool) : Prop := ∃ p ra rb, a = p ++ false :: ra ∧ b = p ++ true :: rb

/-- Every field has a value that its place in the buffer can hold. -/
structure Fits (h : Header) : Prop where
  dlc : h.dlc.toNat < 16
  code : h.code.toNat < 16
  priority : h.priority.toNat < 8
  id : h.id.toNat < if h.ide then 2 ^ 29 else 2 ^ 11

/-! ### What the peripheral finds in a message buffer -/

/-- The field of `n` bits at `offset` of a word. -/
def field (w : BitVec 32) (offset n : Nat) : Nat := w.toNat / 2 ^ offset % 2 ^ n

/-- Where byte `i` of a frame is: the words of the buffer are big-endian. -/
def place (i : Nat) : Nat := 4 * (i / 4) + (3 - i % 4)

/-- The buffer holds these bytes. -/
def HoldsBytes {N : Nat} (v : Vector Byte N) (bytes : List Byte) : Prop := ∀ i, (h : i < bytes.length) → v[place i]? = some bytes[i]

/-- The words describe a data frame with an extended ID and these data, without FD, which is to be sent. -/
structure HoldsFrame (mb : Message 8) (id : BitVec 32) (bytes : List Byte) : Prop where
  code : field mb.controlStatus 24 4 = 12
  length : field mb.controlStatus 16 4 = bytes.length
  rtr : field mb.controlStatus 20 1 = 0
  ide : field mb.controlStatus 21 1 = 1
  srr : field mb.controlStatus 22 1 = 1
  fd : field mb.controlStatus 29 3 = 0
  id : field mb.id 0 29 = id.toNat
  bytes : HoldsBytes mb.data bytes

/-- A frame of classic CAN as `canadensis_can` makes it. -/
def Classic (frame : Frame) : Prop := frame.id.toNat < 2 ^ 29 ∧ frame.data.length ≤ 8

/-- The FIFO shows a frame with an extended ID. -/
structure Shows (fifo : Fifo) (id : BitVec 32) (dlc : Nat) (remote : Bool) : Prop where
  ide : field fifo.flags 21 1 = 1
  dlc : field fifo.flags 16 4 = dlc
  rtr : field fifo.flags 20 1 = remote.toNat
  id : field fifo.id 0 29 = id.toNat

/-! ### Executions -/

/-- The driver is asked to transmit a frame (and reads the flag at most `fuel` times while it waits), or the peripheral has sent the frame in the buffer. -/
inductive Op where
  | transmit (frame : Frame) (env : SendEnv) (fuel : Nat)
  | complete

/-- What happens to a frame, named by its ID and data: the driver takes it, it goes over the bus, or the driver hands it back. -/
inductive Event where
  | taken (frame : BitVec 32 × List Byte)
  | onBus (frame : BitVec 32 × List Byte)
  | handedBack (frame : BitVec 32 × List Byte)
deriving DecidableEq

/-- The frame in the buffer as the peripheral reads it, if it is to be sent. -/
def inBuffer (mb : Message 8) : List (BitVec 32 × List Byte) :=
  if field mb.controlStatus 24 4 = 12 then
    [(BitVec.ofNat 32 (field mb.id 0 29), (List.range (field mb.controlStatus 16 4)).map fun i => mb.data[place i]?.getD 0#8)]
  else []

/-- One step. `none`: a panic, or the driver does not return. The frame in the buffer goes over the bus when the peripheral completes it (the code becomes `TX_INACTIVE`, 8), and when the code that is
read back after the request to abort is not `ABORT` (9). -/
def Op.step (mb : Message 8) : Op → Option (Message 8 × List Event)
  | .complete => some (if field mb.controlStatus 24 4 = 12 then { mb with controlStatus := mb.controlStatus &&& 0xf0ffffff#32 ||| 0x08000000#32 } else mb, (inBuffer mb).map .onBus)
  | .transmit frame env fuel =>
    match Flex.transmit env fuel mb frame with
    | none => none
    | some (_, none) => none
    | some (mb', some .wouldBlock) => some (mb', [])
    | some (mb', some (.ok (some g))) => some (mb', [.handedBack (g.id, g.data), .taken (frame.id, frame.data)])
    | some (mb', some (.ok none)) => some (mb', (inBuffer mb).map .onBus ++ [.taken (frame.id, frame.data)])
    | some (_, some (.other e)) => nomatch e

/-- A sequence of steps. -/
def runOps (mb : Message 8) : List Op → Option (Message 8 × List Event)
  | [] => some (mb, [])
  | o :: os =>
    match o.step mb with
    | none => none
    | some (mb, es) =>
      match runOps mb os with
      | none => none
      | some (mb, es') => some (mb, es ++ es')

def taken (es : List Event) : List (BitVec 32 × List Byte) := es.filterMap fun | .taken f => some f | _ => none
def onBus (es : List Event) : List (BitVec 32 × List Byte) := es.filterMap fun | .onBus f => some f | _ => none
def handedBack (es : List Event) : List (BitVec 32 × List Byte) := es.filterMap fun | .handedBack f => some f | _ => none

end Verif.Flex
