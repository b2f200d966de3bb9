import Verif.Can.RoundTripProps

/-!
Vocabulary for streams: the transfers that a node sends one after the other in one session, of which frames may be lost.
-/

namespace Verif.Can

/-- The frames of a transfer: what the transmitter hands to the driver, whatever the driver. -/
def SentAs (cap mtu : Nat) (transfer : CanTransfer) (frames : List Frame) : Prop :=
  ∀ (σ E : Type) (d : TxDriver σ E) (s : σ), pushInner d cap mtu transfer s = reserveAndTransmit d frames s

/-- One transfer of a stream: the transfer, its frames, and what of them arrives. -/
structure Item where
  transfer : CanTransfer
  frames : List Frame
  arrived : List Frame

/-- What arrives are frames of the transfer in their order, perhaps not all of them. -/
def Item.Sound (cap mtu : Nat) (loopback : Bool) (it : Item) : Prop :=
  SentAs cap mtu it.transfer it.frames ∧ ∃ some, some.Sublist it.frames ∧ Arrives loopback some it.arrived

/-- All frames arrive. -/
def Item.Whole (loopback : Bool) (it : Item) : Prop := Arrives loopback it.frames it.arrived

/-- Each transfer has the transfer ID after that of the one before. -/
def Consecutive (items : List Item) : Prop :=
  ∀ i (h : i + 1 < items.length), items[i + 1].transfer.header.transferId = items[i].transfer.header.transferId.increment

/-- Of 30 transfers in a row, at least one frame arrives. -/
def NotAllLost (items : List Item) : Prop := ∀ i, i + 30 ≤ items.length → ∃ it ∈ (items.drop i).take 30, it.arrived ≠ []

/-- What is delivered for a transfer: at most one transfer, with its header; nothing if no frame arrives; and if all arrive, the transfer with the time of the first frame, and its
payload with less than a frame of zeros after it, cut to the extent. -/
structure Outcome (mtu : Nat) (loopback : Bool) (extent : Nat) (it : Item) (out : List CanTransfer) : Prop where
  atMostOne : out.length ≤ 1
  header : ∀ t ∈ out, ∃ now, t.header = it.transfer.header.setTimestamp now
  lost : it.arrived = [] → out = []
  whole : it.Whole loopback → ∃ first padding, it.arrived.head? = some first ∧ padding < mtu ∧
    out = [{ header := it.transfer.header.setTimestamp first.timestamp, loopback, payload := (it.transfer.payload ++ List.replicate padding 0#8).take extent }]

end Verif.Can
