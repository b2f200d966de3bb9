import Verif.Udp.RxSpec

/-! Concrete transfers for the examples. -/

namespace Verif.Udp

open Verif.Hdr (NodeId16 Tid64 TransportHeader)

def node (v : BitVec 16) (h : v ≠ 0xffff#16 := by decide) : NodeId16 := ⟨v, h⟩

/-- A message with transfer ID `tid` from node 42 on subject 7509 with the bytes 0, 1, 2, ... . -/
def demoTid (tid : Nat) (n : Nat) : UdpTransfer :=
  { header := .message { timestamp := 100#32, transferId := BitVec.ofNat 64 tid, priority := 4#3, subject := 7509#13, source := some (node 42#16) }
    loopback := false, payload := (List.range n).map (BitVec.ofNat 8) }

def demo (n : Nat) : UdpTransfer := demoTid 77 n

/-- Cutting a list into pieces. -/
def cut (k : Nat) : Nat → List Byte → List (List Byte)
  | 0, _ => []
  | fuel + 1, l => if l.isEmpty then [] else l.take k :: cut k fuel (l.drop k)

def demoChunks (mtu n : Nat) : List (List Byte) :=
  cut (mtu - 24) (n + 4) ((demo n).payload ++ Verif.Crc.le32 (Verif.Crc.crc32c (demo n).payload))

theorem demo_pieces (mtu n : Nat) (h : (demoChunks mtu n).flatten = (demo n).payload ++ Verif.Crc.le32 (Verif.Crc.crc32c (demo n).payload) ∧
    (∀ c ∈ demoChunks mtu n, c ≠ []) ∧ (∀ c ∈ demoChunks mtu n, 24 + c.length ≤ mtu) ∧ ∀ c ∈ (demoChunks mtu n).dropLast, 24 + c.length = mtu) :
    Pieces mtu (demo n) (demoChunks mtu n) := ⟨h.1, h.2.1, h.2.2.1, h.2.2.2⟩

/-- The datagrams of `demoTid tid n`, arriving at time `now`. -/
def demoPackets (mtu tid n : Nat) (now : Instant) : List Packet :=
  (datagrams (demoTid tid n).header (demoChunks mtu n)).map (fun data => { data, now, oomSession := false, oom := false })

/-- A receiver with node ID 7 that is subscribed to subject 7509 with an extent of 9 bytes and a timeout of two seconds. -/
def demoReceiver : Receiver := ((Receiver.new (some (node 7#16))).subscribeMessage false (fun _ => false) 7509#13 9 2000000#32).1

/-- The session of node 42. -/
def demoKey : Key := { kind := .message, port := 7509, source := node 42#16 }

end Verif.Udp
