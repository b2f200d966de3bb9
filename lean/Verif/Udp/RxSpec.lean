import Verif.Udp.TxSpec

/-! Vocabulary for the properties of the UDP receiver. -/

namespace Verif.Udp

open Verif.Hdr (NodeId16 Tid64 TransportHeader)

/-- A datagram with a valid header: the header and what follows it. -/
structure Frame where
  header : TransportHeader
  bytes : List Byte
  now : Instant
  oomSession : Bool
  oom : Bool

/-- The frame in a datagram: at least 28 bytes of it fit into the buffer and the first 24 are a valid header. -/
def Packet.frame (mtu : Nat) (p : Packet) : Option Frame :=
  if (p.data.take mtu).length < 28 then none
  else (Verif.Hdr.decode ((p.data.take mtu).take 24)).map (fun header =>
    { header, bytes := (p.data.take mtu).drop 24, now := p.now, oomSession := p.oomSession, oom := p.oom })

/-- A session: the kind of transfer, the port and the node that sends. -/
structure Key where
  kind : Kind
  port : Nat
  source : NodeId16
deriving DecidableEq

/-- The session of a frame; anonymous frames have none. -/
def Frame.key? (f : Frame) : Option Key :=
  match f.header.dataSpecifier with
  | .subject (some source) subject => some { kind := .message, port := subject.toNat, source }
  | .subject none _ => none
  | .request source _ service => some { kind := .request, port := service.toNat, source }
  | .response source _ service => some { kind := .response, port := service.toNat, source }

/-- The session of a transfer; anonymous transfers have none. -/
def keyOf? (h : UdpHeader) : Option Key := h.source.map (fun source => { kind := h.kind, port := h.port, source })

/-- The frames of one session among datagrams. -/
def framesOf (mtu : Nat) (key : Key) (ps : List Packet) : List Frame :=
  (ps.filterMap (Packet.frame mtu)).filter (fun f => f.key? = some key)

/-- The datagrams of one session. -/
def packetsIn (mtu : Nat) (key : Key) (ps : List Packet) : List Packet :=
  ps.filter (fun p => (p.frame mtu).bind Frame.key? = some key)

/-- The transfers of one session. -/
def transfersOf (key : Key) (ts : List UdpTransfer) : List UdpTransfer := ts.filter (fun t => keyOf? t.header = some key)

/-- What happens to a receiver and its socket. The Booleans tell that the socket operation fails. -/
inductive Op where
  | packet (p : Packet)
  | subscribeMessage (fails : Bool) (subject : SubjectId) (extent : Nat) (timeout : Duration)
  | unsubscribeMessage (fails : Bool) (subject : SubjectId)
  | subscribeRequest (fails : Bool) (service : ServiceId) (extent : Nat) (timeout : Duration)
  | unsubscribeRequest (fails : Bool) (service : ServiceId)
  | subscribeResponse (fails : Bool) (service : ServiceId) (extent : Nat) (timeout : Duration)
  | unsubscribeResponse (fails : Bool) (service : ServiceId)
  | setId (id : Option NodeId16)

/-- The transfers in an output. -/
def Output.transfers : Output → List UdpTransfer
  | .transfer t => [t]
  | _ => []

/-- A receiver and the multicast groups of its socket. -/
structure World where
  receiver : Receiver
  groups : Groups

/-- One event: the new state and the transfers returned; `none` is a panic. -/
def World.step (mtu : Nat) (w : World) : Op → Option (World × List UdpTransfer)
  | .packet p => (w.receiver.acceptInner mtu p).map (fun q => ({ w with receiver := q.1 }, q.2.transfers))
  | .subscribeMessage fails subject extent timeout =>
    let q := w.receiver.subscribeMessage fails w.groups subject extent timeout
    some (⟨q.1, q.2.1⟩, [])
  | .unsubscribeMessage fails subject =>
    let q := w.receiver.unsubscribeMessage fails w.groups subject
    some (⟨q.1, q.2⟩, [])
  | .subscribeRequest fails service extent timeout =>
    let q := w.receiver.subscribeService fails w.groups .request service extent timeout
    some (⟨q.1, q.2.1⟩, [])
  | .unsubscribeRequest fails service =>
    let q := w.receiver.unsubscribeService fails w.groups .request service
    some (⟨q.1, q.2⟩, [])
  | .subscribeResponse fails service extent timeout =>
    let q := w.receiver.subscribeService fails w.groups .response service extent timeout
    some (⟨q.1, q.2.1⟩, [])
  | .unsubscribeResponse fails service =>
    let q := w.receiver.unsubscribeService fails w.groups .response service
    some (⟨q.1, q.2⟩, [])
  | .setId id => some ({ w with receiver := w.receiver.setId id }, [])

/-- A sequence of events. -/
def World.exec (mtu : Nat) (w : World) : List Op → Option (World × List UdpTransfer)
  | [] => some (w, [])
  | op :: ops => (w.step mtu op).bind (fun p => (p.1.exec mtu ops).map (fun q => (q.1, p.2 ++ q.2)))

/-- Datagrams only. -/
def Receiver.run (mtu : Nat) (r : Receiver) : List Packet → Option (Receiver × List UdpTransfer)
  | [] => some (r, [])
  | p :: ps => (r.acceptInner mtu p).bind (fun q => (q.1.run mtu ps).map (fun q' => (q'.1, q.2.transfers ++ q'.2)))

/-- The datagrams among the events. -/
def packetsOf : List Op → List Packet
  | [] => []
  | .packet p :: ops => p :: packetsOf ops
  | _ :: ops => packetsOf ops

/-- A new receiver with a socket that is in no group. -/
def World.new (nodeId : Option NodeId16) : World := { receiver := Receiver.new nodeId, groups := fun _ => false }

end Verif.Udp
