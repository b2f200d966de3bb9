import Verif.Core.Time

/-!
Transfer headers and transfers: `canadensis_core/src/transfer.rs`, and the ID types of `canadensis_core/src/lib.rs`.

The bounded integer types (`SubjectId`, `ServiceId`, `Priority`) have private fields and can only be made by checked
constructors, so they are modelled by bit vectors of exactly their width.
-/

namespace Verif

/-- `Priority` (`canadensis_core/src/lib.rs` L189-240): eight levels, 0 is the most urgent. -/
abbrev Priority := BitVec 3
/-- `SubjectId` (`canadensis_core/src/lib.rs` L39): 0..=8191. -/
abbrev SubjectId := BitVec 13
/-- `ServiceId` (`canadensis_core/src/lib.rs` L103): 0..=511. -/
abbrev ServiceId := BitVec 9

/-- `Priority::try_from(u8)` (`canadensis_core/src/lib.rs` L242-258). -/
def Priority.tryFrom (v : BitVec 8) : Option Priority :=
  if v.toNat ≤ 7 then some (v.setWidth 3) else none

/-- `SubjectId::try_from(u16)` (`canadensis_core/src/lib.rs` L58-68). -/
def SubjectId.tryFrom (v : BitVec 16) : Option SubjectId :=
  if v.toNat ≤ 8191 then some (v.setWidth 13) else none

/-- `ServiceId::try_from(u16)` (`canadensis_core/src/lib.rs` L122-132). -/
def ServiceId.tryFrom (v : BitVec 16) : Option ServiceId :=
  if v.toNat ≤ 511 then some (v.setWidth 9) else none

/-- `MessageHeader` (`canadensis_core/src/transfer.rs` L12-25). -/
structure MessageHeader (Node Tid : Type) where
  timestamp : Instant
  transferId : Tid
  priority : Priority
  subject : SubjectId
  source : Option Node
deriving DecidableEq, Repr

/-- `ServiceHeader` (`canadensis_core/src/transfer.rs` L73-88). -/
structure ServiceHeader (Node Tid : Type) where
  timestamp : Instant
  transferId : Tid
  priority : Priority
  service : ServiceId
  source : Node
  destination : Node
deriving DecidableEq, Repr

/-- `Header` (`canadensis_core/src/transfer.rs` L139-146). -/
inductive Header (Node Tid : Type) where
  | message (h : MessageHeader Node Tid)
  | request (h : ServiceHeader Node Tid)
  | response (h : ServiceHeader Node Tid)
deriving DecidableEq, Repr

/-- The three kinds of transfer (`TransferKind`, `canadensis_can/src/rx.rs` L640-644 and
`canadensis_core/src/subscription.rs`). -/
inductive Kind where
  | message | request | response
deriving DecidableEq, Repr

namespace Header
variable {Node Tid : Type}

/-- `Header::timestamp` (`canadensis_core/src/transfer.rs` L189-196). -/
def timestamp : Header Node Tid → Instant
  | message h => h.timestamp | request h => h.timestamp | response h => h.timestamp

/-- `Header::set_timestamp` (`canadensis_core/src/transfer.rs` L198-208). -/
def setTimestamp (t : Instant) : Header Node Tid → Header Node Tid
  | message h => message { h with timestamp := t }
  | request h => request { h with timestamp := t }
  | response h => response { h with timestamp := t }

/-- `Header::priority` (`canadensis_core/src/transfer.rs` L210-217). -/
def priority : Header Node Tid → Priority
  | message h => h.priority | request h => h.priority | response h => h.priority

/-- `Header::source` (`canadensis_core/src/transfer.rs` L232-239). -/
def source : Header Node Tid → Option Node
  | message h => h.source | request h => some h.source | response h => some h.source

/-- `Header::port_id` (`canadensis_core/src/transfer.rs` L242-249), as a number. -/
def port : Header Node Tid → Nat
  | message h => h.subject.toNat | request h => h.service.toNat | response h => h.service.toNat

/-- `Header::transfer_id` (`canadensis_core/src/transfer.rs` L251-258). -/
def transferId : Header Node Tid → Tid
  | message h => h.transferId | request h => h.transferId | response h => h.transferId

/-- `TransferKind::from_header` (`canadensis_can/src/rx.rs` L647-653). -/
def kind : Header Node Tid → Kind
  | message _ => .message | request _ => .request | response _ => .response

/-- The destination of a service transfer; messages have none (field access in Rust, no accessor). -/
def destination : Header Node Tid → Option Node
  | message _ => none | request h => some h.destination | response h => some h.destination

@[simp] theorem setTimestamp_timestamp (h : Header Node Tid) (t : Instant) :
    (h.setTimestamp t).timestamp = t := by cases h <;> rfl
@[simp] theorem setTimestamp_priority (h : Header Node Tid) (t : Instant) :
    (h.setTimestamp t).priority = h.priority := by cases h <;> rfl
@[simp] theorem setTimestamp_source (h : Header Node Tid) (t : Instant) :
    (h.setTimestamp t).source = h.source := by cases h <;> rfl
@[simp] theorem setTimestamp_port (h : Header Node Tid) (t : Instant) :
    (h.setTimestamp t).port = h.port := by cases h <;> rfl
@[simp] theorem setTimestamp_kind (h : Header Node Tid) (t : Instant) :
    (h.setTimestamp t).kind = h.kind := by cases h <;> rfl
@[simp] theorem setTimestamp_transferId (h : Header Node Tid) (t : Instant) :
    (h.setTimestamp t).transferId = h.transferId := by cases h <;> rfl
@[simp] theorem setTimestamp_destination (h : Header Node Tid) (t : Instant) :
    (h.setTimestamp t).destination = h.destination := by cases h <;> rfl
@[simp] theorem setTimestamp_twice (h : Header Node Tid) (t u : Instant) :
    (h.setTimestamp t).setTimestamp u = h.setTimestamp u := by cases h <;> rfl
@[simp] theorem setTimestamp_self (h : Header Node Tid) : h.setTimestamp h.timestamp = h := by cases h <;> rfl

end Header

/-- `Transfer<Vec<u8>, _>` (`canadensis_core/src/transfer.rs` L263-280). -/
structure Transfer (Node Tid : Type) where
  header : Header Node Tid
  loopback : Bool
  payload : List Byte
deriving DecidableEq, Repr

end Verif
