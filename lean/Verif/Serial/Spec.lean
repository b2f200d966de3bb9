import Verif.Serial.Model

/-! Vocabulary for the properties of the serial transport. -/

namespace Verif.Serial

open Verif.Cobs (Unescaper)
open Verif.Crc (Tracker)
open Verif.Hdr (NodeId16 Tid64 RawHeader TransportHeader)

/-- The things that happen to a receiver. A call of `receive` is a `clean` followed by bytes (`receive_eq_exec`). -/
inductive Op where
  | clean (now : Instant)
  | byte (b : Byte) (now : Instant) (oom : Bool)
  | subscribe (oom : Bool) (k : Kind) (port extent : Nat) (timeout : Duration)
  | unsubscribe (k : Kind) (port : Nat)
  | setId (id : Option NodeId16)

/-- The transfers in an output. -/
def Output.transfers : Output → List SerialTransfer
  | .transfer t => [t]
  | _ => []

/-- One event: the new receiver and the transfers returned; `none` is a panic. -/
def Receiver.step (r : Receiver) : Op → Option (Receiver × List SerialTransfer)
  | .clean now => some (r.cleanExpired now, [])
  | .byte b now oom => (r.handleByte oom b now).map (fun p => (p.1, p.2.transfers))
  | .subscribe oom k port extent timeout => some ((r.subscribe oom k port extent timeout).1, [])
  | .unsubscribe k port => some (r.unsubscribe k port, [])
  | .setId id => some (r.setId id, [])

/-- A sequence of events. -/
def Receiver.exec (r : Receiver) : List Op → Option (Receiver × List SerialTransfer)
  | [] => some (r, [])
  | op :: ops => (r.step op).bind (fun p => (p.1.exec ops).map (fun q => (q.1, p.2 ++ q.2)))

/-- The bytes among the events. -/
def bytesOf : List Op → List Byte
  | [] => []
  | .byte b _ _ :: ops => b :: bytesOf ops
  | _ :: ops => bytesOf ops

/-- The bytes of a transfer before escaping: header, payload and the CRC-32C of the payload. -/
def frameData (t : SerialTransfer) : List Byte :=
  Verif.Hdr.encode (TransportHeader.ofCore t.header) ++ t.payload ++ Verif.Crc.le32 (Verif.Crc.crc32c t.payload)

/-- Calls of `receive` only, and no allocation failures. -/
def Quiet (ops : List Op) : Prop := ∀ op ∈ ops, (∃ now, op = .clean now) ∨ (∃ b now, op = .byte b now false)

/-- The receiver is waiting for a delimiter or has just seen one. -/
def Receiver.Between (r : Receiver) : Prop := r.state = .idle ∨ r.state = .betweenTransfers

/-- The receiver wants a transfer with this header: there is a subscription with this extent, the transfer is addressed to
this node, and it is newer than the last one of its session, if there is a session. -/
structure Wants (r : Receiver) (h : SerialHeader) (sub : Subscription) : Prop where
  subscribed : r.subscriptions.find h.kind h.port = some sub
  addressed : ∀ d, h.destination = some d → r.nodeId = some d
  newer : ∀ s session, h.source = some s → sub.sessions s = some session → session.lastTransferId < h.transferId

/-- The bytes on the wire for a transfer: a delimiter, the escaped frame, a delimiter. -/
def wire (t : SerialTransfer) : List Byte := [0#8] ++ (Verif.Cobs.escaped (frameData t)).getD [] ++ [0#8]

end Verif.Serial
