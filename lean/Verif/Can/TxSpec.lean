import Verif.Can.TxModel
import Verif.Can.RxSpec
import Verif.Crc.Props

/-!
Vocabulary for the properties of the CAN transmitter: what a correct sequence of frames for a transfer is, and what it means
to hand such a sequence to a driver.
-/

namespace Verif.Can

open Verif.Crc (crc16 be16)

/-- The data lengths that CAN and CAN FD frames can have. -/
def LegalLength (n : Nat) : Prop := n ≤ 8 ∨ n ∈ [12, 16, 20, 24, 32, 48, 64]

instance (n : Nat) : Decidable (LegalLength n) := inferInstanceAs (Decidable (_ ∨ _))

/-- `fs` is a correct way to send the transfer with frames of at most `mtu` bytes and the CAN ID `id`; `padding` is the
number of zero bytes added. -/
structure Segmentation (mtu : Nat) (transfer : CanTransfer) (id : BitVec 32) (padding : Nat) (fs : List Frame) : Prop where
  /-- There is at least one frame. -/
  nonempty : fs ≠ []
  /-- Every frame carries the CAN ID, deadline and loopback flag of the transfer. -/
  fields : ∀ f ∈ fs, f.id = id ∧ f.timestamp = transfer.header.timestamp ∧ f.loopback = transfer.loopback
  /-- Every frame has a legal length, not above the MTU. -/
  legal : ∀ f ∈ fs, f.data.length ≤ mtu ∧ LegalLength f.data.length
  /-- All frames but the last one are full. -/
  full : ∀ i (hi : i + 1 < fs.length), (fs[i]).data.length = mtu
  /-- The tail bytes: start flag exactly on the first frame, end flag exactly on the last, toggle alternating from one, and
  the transfer ID in each. -/
  tails : ∀ i (hi : i < fs.length), ∃ last, (fs[i]).data.getLast? = some last ∧
    TailByte.parse last = { start := decide (i = 0), end_ := decide (i + 1 = fs.length), toggle := decide (i % 2 = 0),
                            transferId := transfer.header.transferId }
  /-- The frames carry the payload, the padding, and, in case of several frames, the CRC of both. -/
  content : fs.flatMap Frame.body = transfer.payload ++ List.replicate padding 0#8 ++
    (if fs.length = 1 then [] else be16 (crc16 (transfer.payload ++ List.replicate padding 0#8)))
  /-- One frame is used exactly if the payload and the tail byte fit into it. -/
  single : fs.length = 1 ↔ transfer.payload.length + 1 ≤ mtu
  /-- There is no more padding than needed to reach a legal length in the last frame, and only the last frame has any. -/
  minimal : ∀ f, fs.getLast? = some f → padding < f.data.length ∧ ∀ n, LegalLength n → f.data.length - padding ≤ n → f.data.length ≤ n

variable {σ E : Type}

/-- Hand frames to a driver one after the other, up to the first failure; `none` is a panic of the driver. -/
def transmitAll (d : TxDriver σ E) : List Frame → σ → Option (σ × PushResult E)
  | [], s => some (s, .ok)
  | f :: fs, s =>
    match d.transmit s f with
    | none => none
    | some (s, .ok _) => transmitAll d fs s
    | some (s, .wouldBlock) => some (s, .wouldBlock)
    | some (s, .other e) => some (s, .driver e)

/-- Reserve space for all frames, then hand them to the driver. -/
def reserveAndTransmit (d : TxDriver σ E) (fs : List Frame) (s : σ) : Option (σ × PushResult E) :=
  match d.tryReserve s fs.length with
  | none => none
  | some (s, false) => some (s, .memory)
  | some (s, true) => transmitAll d fs s

end Verif.Can
