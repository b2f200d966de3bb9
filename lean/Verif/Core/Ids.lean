import Verif.Parse.Ast

/-! # The checked integers: subject, service and port IDs, CAN node IDs and CAN transfer IDs

In the code each is a wrapper around a `u16` or a `u8` with a private field. Elsewhere in the model the wrapper is a bit
vector of the width of the range, as in `Verif.Can.NodeId`. Here it is kept as in the code, an integer that could hold
more, so that the range is something to prove. -/

namespace Verif.Ids

open Verif.Parse

/-- `SubjectId(u16)` (`canadensis_core/src/lib.rs` L36-39). -/
structure SubjectId where
  value : BitVec 16
deriving DecidableEq

/-- `ServiceId(u16)` (`canadensis_core/src/lib.rs` L100-103). -/
structure ServiceId where
  value : BitVec 16
deriving DecidableEq

/-- `PortId(u16)` (`canadensis_core/src/lib.rs` L153-156). -/
structure PortId where
  value : BitVec 16
deriving DecidableEq

/-- `CanNodeId(u8)` (`canadensis_can/src/types.rs` L29-31). -/
structure NodeId where
  value : BitVec 8
deriving DecidableEq

/-- `CanTransferId(u8)` (`canadensis_can/src/types.rs` L131-134). -/
structure TransferId where
  value : BitVec 8
deriving DecidableEq

/-- The end of `VALID_SUBJECT_IDS` (`canadensis_core/src/lib.rs` L34). -/
def lastSubject : BitVec 16 := 8191#16

/-- The end of `VALID_SERVICE_IDS` (`canadensis_core/src/lib.rs` L98). -/
def lastService : BitVec 16 := 511#16

/-- The end of `VALID_NODE_IDS` (`canadensis_can/src/types.rs` L23). -/
def lastNode : BitVec 8 := 127#8

/-- The end of `VALID_TRANSFER_IDS` (`canadensis_can/src/types.rs` L129). -/
def lastTransfer : BitVec 8 := 31#8

/-- `SubjectId::from_truncating` (`canadensis_core/src/lib.rs` L48-50). -/
def SubjectId.fromTruncating (value : BitVec 16) : SubjectId := ⟨value &&& lastSubject⟩

/-- `SubjectId::try_from(u16)` (`canadensis_core/src/lib.rs` L58-68). -/
def SubjectId.tryFrom (value : BitVec 16) : Option SubjectId := if value ≤ lastSubject then some ⟨value⟩ else none

/-- `SubjectId::from_str` (`canadensis_core/src/lib.rs` L89-96), with `str::parse::<u16>` from std. -/
def SubjectId.fromStr (s : List Char) : Option SubjectId :=
  (fromStrRadix 10 65535 s).bind fun n => SubjectId.tryFrom (BitVec.ofNat 16 n)

/-- `Display for SubjectId` (`canadensis_core/src/lib.rs` L269-273), with `Display for u16` from std, without padding. -/
def SubjectId.display (id : SubjectId) : List Char := Nat.toDigits 10 id.value.toNat

/-- `ServiceId::from_truncating` (`canadensis_core/src/lib.rs` L112-114). -/
def ServiceId.fromTruncating (value : BitVec 16) : ServiceId := ⟨value &&& lastService⟩

/-- `ServiceId::try_from(u16)` (`canadensis_core/src/lib.rs` L122-132). -/
def ServiceId.tryFrom (value : BitVec 16) : Option ServiceId := if value ≤ lastService then some ⟨value⟩ else none

/-- `From<SubjectId> for PortId` (`canadensis_core/src/lib.rs` L158-162). -/
def PortId.ofSubject (subject : SubjectId) : PortId := ⟨subject.value⟩

/-- `From<ServiceId> for PortId` (`canadensis_core/src/lib.rs` L171-175). -/
def PortId.ofService (service : ServiceId) : PortId := ⟨service.value⟩

/-- `TryFrom<PortId> for SubjectId` (`canadensis_core/src/lib.rs` L164-169). -/
def PortId.toSubject (port : PortId) : Option SubjectId := SubjectId.tryFrom port.value

/-- `TryFrom<PortId> for ServiceId` (`canadensis_core/src/lib.rs` L177-182). -/
def PortId.toService (port : PortId) : Option ServiceId := ServiceId.tryFrom port.value

/-- `CanNodeId::from_truncating` (`canadensis_can/src/types.rs` L45-47). -/
def NodeId.fromTruncating (value : BitVec 8) : NodeId := ⟨value &&& lastNode⟩

/-- `CanNodeId::try_from(u8)` (`canadensis_can/src/types.rs` L80-90). -/
def NodeId.tryFrom (value : BitVec 8) : Option NodeId := if value ≤ lastNode then some ⟨value⟩ else none

/-- `CanNodeId::try_from(u16)` (`canadensis_can/src/types.rs` L92-102). -/
def NodeId.tryFrom16 (value : BitVec 16) : Option NodeId :=
  if value ≤ lastNode.setWidth 16 then some ⟨value.setWidth 8⟩ else none

/-- `CanTransferId::try_from(u8)` (`canadensis_can/src/types.rs` L163-173). -/
def TransferId.tryFrom (value : BitVec 8) : Option TransferId := if value ≤ lastTransfer then some ⟨value⟩ else none

/-- `CanTransferId::increment` (`canadensis_can/src/types.rs` L152-161); `none` is the panic of an overflow in
`self.0 + 1`. -/
def TransferId.increment (id : TransferId) : Option TransferId :=
  if id.value = lastTransfer then some ⟨0#8⟩ else if id.value = 255#8 then none else some ⟨id.value + 1#8⟩

/-- The subject IDs that code outside the crate can get: the constants and results of the functions
(`canadensis_core/src/lib.rs` L41-96, L164-169; the field is private). -/
inductive SubjectId.Made : SubjectId → Prop
  | min : Made ⟨0#16⟩
  | max : Made ⟨lastSubject⟩
  | truncating (v) : Made (.fromTruncating v)
  | tryFrom {v id} : SubjectId.tryFrom v = some id → Made id
  | parsed {s id} : SubjectId.fromStr s = some id → Made id
  | ofPort {p : PortId} {id} : p.toSubject = some id → Made id

/-- The service IDs that code outside the crate can get (`canadensis_core/src/lib.rs` L105-132, L177-182). -/
inductive ServiceId.Made : ServiceId → Prop
  | min : Made ⟨0#16⟩
  | max : Made ⟨lastService⟩
  | truncating (v) : Made (.fromTruncating v)
  | tryFrom {v id} : ServiceId.tryFrom v = some id → Made id
  | ofPort {p : PortId} {id} : p.toService = some id → Made id

/-- The port IDs that code outside the crate can get (`canadensis_core/src/lib.rs` L158-175). -/
inductive PortId.Made : PortId → Prop
  | subject {id} : SubjectId.Made id → Made (.ofSubject id)
  | service {id} : ServiceId.Made id → Made (.ofService id)

/-- The CAN node IDs that code outside the crate can get (`canadensis_can/src/types.rs` L33-102). -/
inductive NodeId.Made : NodeId → Prop
  | min : Made ⟨0#8⟩
  | max : Made ⟨lastNode⟩
  | truncating (v) : Made (.fromTruncating v)
  | tryFrom {v id} : NodeId.tryFrom v = some id → Made id
  | tryFrom16 {v id} : NodeId.tryFrom16 v = some id → Made id

/-- The CAN transfer IDs that code outside the crate can get (`canadensis_can/src/types.rs` L136-173). -/
inductive TransferId.Made : TransferId → Prop
  | default : Made ⟨0#8⟩
  | max : Made ⟨lastTransfer⟩
  | tryFrom {v id} : TransferId.tryFrom v = some id → Made id
  | increment {a id} : Made a → a.increment = some id → Made id

end Verif.Ids
