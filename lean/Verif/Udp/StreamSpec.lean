import Verif.Udp.RxRun

/-!
Vocabulary for streams: many transfers of one session, of whose datagrams any may be lost.
-/

namespace Verif.Udp

/-- A transfer as it is received: with a time, and cut to the extent. -/
def IsReceived (t : UdpTransfer) (extent : Nat) (out : UdpTransfer) : Prop :=
  ∃ now, out = { header := t.header.setTimestamp now, loopback := false, payload := t.payload.take extent }

/-- A transfer on its way: the pieces that it is cut into, and what arrives of it. -/
structure Shipment where
  transfer : UdpTransfer
  chunks : List (List Byte)
  arrived : List Packet

/-- Nothing is lost. -/
def Shipment.whole (it : Shipment) : Bool := it.arrived.map (·.data) == datagrams it.transfer.header it.chunks

/-- The transfer belongs to the session, its datagrams are those that the transmitter makes (and the last one has room for the CRC, see C34), and some of them arrive, in order, while there is
memory. -/
structure Shipment.Sound (mtu : Nat) (key : Key) (it : Shipment) : Prop where
  key : keyOf? it.transfer.header = some key
  pieces : Pieces mtu it.transfer it.chunks
  count : it.chunks.length ≤ 2 ^ 31
  fits : it.transfer.payload.length + 4 ≤ mtu - 24 ∨ (it.transfer.payload.length + 4) % (mtu - 24) = 0 ∨ 4 ≤ (it.transfer.payload.length + 4) % (mtu - 24)
  arrived : (it.arrived.map (·.data)).Sublist (datagrams it.transfer.header it.chunks)
  memory : ∀ p ∈ it.arrived, p.oom = false ∧ p.oomSession = false

/-- What is left of the transfer without its first datagrams does not, by chance, end with its own CRC. -/
def Shipment.NoCollision (it : Shipment) : Prop :=
  ∀ i body, 0 < i → i < it.chunks.length → (it.chunks.drop i).flatten ≠ body ++ Verif.Crc.le32 (Verif.Crc.crc32c body)

/-- Each transfer has a higher ID than those before. -/
def Increasing (items : List Shipment) : Prop := items.Pairwise fun a b => a.transfer.header.transferId < b.transfer.header.transferId

/-- The transfers that are certainly returned. While nothing is damaged, these are all that arrive whole. A damaged transfer may bring the receiver out of step. Then a transfer of one datagram is returned
and brings it back into step; a transfer of three or more datagrams that arrives whole is not certainly returned, but brings it back into step; one of two datagrams does not even do that. -/
def certain (inStep : Bool) : List Shipment → List Shipment
  | [] => []
  | it :: items =>
    if it.arrived = [] then certain inStep items
    else if it.whole then
      if inStep || it.chunks.length == 1 then it :: certain true items
      else certain (it.chunks.length != 2) items
    else certain false items

end Verif.Udp
