import Verif.Core.Transfer

/-! # Comparing and copying headers and transfers

The comparisons and copies of `canadensis_core/src/transfer.rs` are written out field by field. The comparisons of node
IDs, transfer IDs and payloads and the copies of them are those of the transport and of the payload type: parameters. -/

namespace Verif

variable {Node Tid : Type}

/-- `PartialEq for MessageHeader` (`canadensis_core/src/transfer.rs` L56-69). -/
def MessageHeader.same [BEq Node] [BEq Tid] (a b : MessageHeader Node Tid) : Bool :=
  a.timestamp == b.timestamp && a.transferId == b.transferId && a.priority == b.priority && a.subject == b.subject
    && a.source == b.source

/-- `PartialEq for ServiceHeader` (`canadensis_core/src/transfer.rs` L121-135). -/
def ServiceHeader.same [BEq Node] [BEq Tid] (a b : ServiceHeader Node Tid) : Bool :=
  a.timestamp == b.timestamp && a.transferId == b.transferId && a.priority == b.priority && a.service == b.service
    && a.source == b.source && a.destination == b.destination

/-- `PartialEq for Header` (`canadensis_core/src/transfer.rs` L171-185). -/
def Header.same [BEq Node] [BEq Tid] : Header Node Tid → Header Node Tid → Bool
  | .message a, .message b => a.same b
  | .request a, .request b => a.same b
  | .response a, .response b => a.same b
  | _, _ => false

/-- `PartialEq for Transfer` (`canadensis_core/src/transfer.rs` L312-324). -/
def Transfer.same [BEq Node] [BEq Tid] (a b : Transfer Node Tid) : Bool :=
  a.header.same b.header && a.loopback == b.loopback && a.payload == b.payload

/-- `MessageTransfer` (`canadensis_core/src/transfer.rs` L341-359), with a payload of any type. -/
structure MessageTransfer (Node Tid Payload : Type) where
  header : MessageHeader Node Tid
  loopback : Bool
  payload : Payload
deriving DecidableEq

/-- `ServiceTransfer` (`canadensis_core/src/transfer.rs` L407-425), with a payload of any type. -/
structure ServiceTransfer (Node Tid Payload : Type) where
  header : ServiceHeader Node Tid
  loopback : Bool
  payload : Payload
deriving DecidableEq

/-- `PartialEq for MessageTransfer` (`canadensis_core/src/transfer.rs` L393-405). -/
def MessageTransfer.same {P : Type} [BEq Node] [BEq Tid] [BEq P] (a b : MessageTransfer Node Tid P) : Bool :=
  a.header.same b.header && a.loopback == b.loopback && a.payload == b.payload

/-- `PartialEq for ServiceTransfer` (`canadensis_core/src/transfer.rs` L459-471). -/
def ServiceTransfer.same {P : Type} [BEq Node] [BEq Tid] [BEq P] (a b : ServiceTransfer Node Tid P) : Bool :=
  a.header.same b.header && a.loopback == b.loopback && a.payload == b.payload

/-- `Clone for MessageHeader` (`canadensis_core/src/transfer.rs` L39-54). -/
def MessageHeader.clone (node : Node → Node) (tid : Tid → Tid) (h : MessageHeader Node Tid) : MessageHeader Node Tid where
  timestamp := h.timestamp
  transferId := tid h.transferId
  priority := h.priority
  subject := h.subject
  source := h.source.map node

/-- `Clone for ServiceHeader` (`canadensis_core/src/transfer.rs` L103-119). -/
def ServiceHeader.clone (node : Node → Node) (tid : Tid → Tid) (h : ServiceHeader Node Tid) : ServiceHeader Node Tid where
  timestamp := h.timestamp
  transferId := tid h.transferId
  priority := h.priority
  service := h.service
  source := node h.source
  destination := node h.destination

/-- `Clone for Header` (`canadensis_core/src/transfer.rs` L156-169). -/
def Header.clone (node : Node → Node) (tid : Tid → Tid) : Header Node Tid → Header Node Tid
  | .message h => .message (h.clone node tid)
  | .request h => .request (h.clone node tid)
  | .response h => .response (h.clone node tid)

/-- `Clone for Transfer` (`canadensis_core/src/transfer.rs` L325-339). -/
def Transfer.clone (node : Node → Node) (tid : Tid → Tid) (t : Transfer Node Tid) : Transfer Node Tid where
  header := t.header.clone node tid
  loopback := t.loopback
  payload := t.payload

/-- `Header::set_priority` (`canadensis_core/src/transfer.rs` L219-229). -/
def Header.setPriority (p : Priority) : Header Node Tid → Header Node Tid
  | .message h => .message { h with priority := p }
  | .request h => .request { h with priority := p }
  | .response h => .response { h with priority := p }

end Verif
