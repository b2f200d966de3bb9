import Verif.Udp.Model

/-! Vocabulary for the properties of the UDP transmitter. -/

namespace Verif.Udp

open Verif.Hdr (NodeId16 Tid64 TransportHeader)

/-- The IPv4 address that a transfer is sent to: 239.0.0.0 plus the subject ID for a message, 239.1.0.0 plus the ID of the destination node
for a request or response. -/
def destinationIp : UdpHeader → Nat
  | .message h => 0xef000000 + h.subject.toNat
  | .request h => 0xef010000 + h.destination.val.toNat
  | .response h => 0xef010000 + h.destination.val.toNat

/-- The header of datagram number `i` of a transfer. -/
def frameHeader (h : UdpHeader) (i : Nat) (last : Bool) : TransportHeader :=
  { priority := h.priority
    dataSpecifier := match h with
      | .message m => .subject m.source m.subject
      | .request s => .request s.source s.destination s.service
      | .response s => .response s.source s.destination s.service
    transferId := h.transferId
    frameIndex := BitVec.ofNat 32 i
    lastFrame := last
    data := 0#16 }

/-- `chunks` are the pieces that a transfer is cut into for a given MTU: together they are the payload followed by its CRC-32C,
and each piece but the last fills a datagram. -/
structure Pieces (mtu : Nat) (t : UdpTransfer) (chunks : List (List Byte)) : Prop where
  whole : chunks.flatten = t.payload ++ Verif.Crc.le32 (Verif.Crc.crc32c t.payload)
  nonempty : ∀ c ∈ chunks, c ≠ []
  fits : ∀ c ∈ chunks, 24 + c.length ≤ mtu
  full : ∀ c ∈ chunks.dropLast, 24 + c.length = mtu

/-- The datagrams of a transfer cut into pieces: piece number `i` follows a header with index `i`, and only the last one is
marked as last. -/
def datagrams (h : UdpHeader) (chunks : List (List Byte)) : List (List Byte) :=
  chunks.mapIdx (fun i c => Verif.Hdr.encode (frameHeader h i (i + 1 == chunks.length)) ++ c)

/-- Sending datagrams in order: the clock is read before each one, it is sent if the deadline is later, and the first error
ends everything. -/
def sendAll {σ E : Type} (env : Env σ E) (deadline : Instant) (ip : BitVec 32) (port : BitVec 16) : List (List Byte) → σ → σ × Option E
  | [], s => (s, none)
  | d :: ds, s =>
    let p := env.now s
    if Instant.after deadline p.2 then
      let q := env.sendTo p.1 d ip port
      match q.2 with
      | some e => (q.1, some e)
      | none => sendAll env deadline ip port ds q.1
    else sendAll env deadline ip port ds p.1

end Verif.Udp
