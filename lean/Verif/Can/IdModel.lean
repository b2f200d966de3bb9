import Verif.Core.Transfer

/-!
CAN identifiers: `canadensis_can/src/types.rs`, `data.rs`, `tx.rs` (encoding) and `rx.rs` (decoding).
A panic is `none`.
-/

namespace Verif.Can

/-- `CanNodeId` (`canadensis_can/src/types.rs` L31): 0..=127. -/
abbrev NodeId := BitVec 7
/-- `CanTransferId` (`canadensis_can/src/types.rs` L134): 0..=31. -/
abbrev Tid := BitVec 5

abbrev CanHeader := Header NodeId Tid
abbrev CanTransfer := Transfer NodeId Tid

/-- `CanNodeId::try_from(u8)` (`canadensis_can/src/types.rs` L80-90). -/
def NodeId.tryFrom (v : BitVec 8) : Option NodeId :=
  if v.toNat ≤ 127 then some (v.setWidth 7) else none

/-- `CanNodeId::from_truncating` (`canadensis_can/src/types.rs` L45-47): `value & 127`. -/
def NodeId.fromTruncating (v : BitVec 8) : NodeId := (v &&& 0x7f#8).setWidth 7

/-- `CanNodeId::is_diagnostic_reserved` (`canadensis_can/src/types.rs` L51-53). -/
def NodeId.isDiagnosticReserved (v : NodeId) : Bool := decide (127 - 1 ≤ v.toNat)

/-- `CanTransferId::increment` (`canadensis_can/src/types.rs` L153-160). -/
def Tid.increment (t : Tid) : Tid := if t.toNat = 31 then 0#5 else t + 1#5

/-- `CanTransferId::try_from(u8)` (`canadensis_can/src/types.rs` L163-173). -/
def Tid.tryFrom (v : BitVec 8) : Option Tid :=
  if v.toNat ≤ 31 then some (v.setWidth 5) else none

/-- `CanId::try_from(u32)` (`canadensis_can/src/data.rs` L31-42): the 32-bit value is kept when no bit above bit 28 is
set. -/
def canIdTryFrom (v : BitVec 32) : Option (BitVec 32) :=
  if v &&& ~~~(0x1fffffff#32) = 0#32 then some v else none

/-- The `while` loop of `make_pseudo_id` (`canadensis_can/src/tx.rs` L285-287). `fuel` bounds the iterations and running
out is reported as `none`; `u8::from(id) - 1` cannot underflow because the loop condition needs an ID of at least 126. -/
def pseudoLoop : Nat → NodeId → Option NodeId
  | 0, _ => none
  | fuel + 1, id =>
    if id.isDiagnosticReserved then pseudoLoop fuel (NodeId.fromTruncating (id.setWidth 8 - 1#8)) else some id

/-- `make_pseudo_id` (`canadensis_can/src/tx.rs` L279-289). -/
def makePseudoId (payload : List Byte) : Option NodeId :=
  pseudoLoop 128 (NodeId.fromTruncating (payload.foldl (fun state b => state ^^^ b) 0x55#8))

/-- `encode_common_service_fields` (`canadensis_can/src/tx.rs` L269-276). -/
def encodeCommonServiceFields (h : ServiceHeader NodeId Tid) : BitVec 32 :=
  (h.service.setWidth 32 <<< 14) ||| (h.destination.setWidth 32 <<< 7) ||| (1#32 <<< 25)

/-- The source field: `header.source().cloned().unwrap_or_else(|| make_pseudo_id(payload))`
(`canadensis_can/src/tx.rs` L236-239). -/
def sourceField (h : CanHeader) (payload : List Byte) : Option NodeId :=
  match h.source with
  | some s => some s
  | none => makePseudoId payload

/-- `make_can_id` (`canadensis_can/src/tx.rs` L231-265). -/
def makeCanId (h : CanHeader) (payload : List Byte) : Option (BitVec 32) := do
  let bits := 0#32 ||| (h.priority.setWidth 32 <<< 26)
  let source ← sourceField h payload
  let bits := bits ||| source.setWidth 32
  let bits := match h with
    | .message m =>
      let bits := bits ||| (m.subject.setWidth 32 <<< 8)
      let bits := bits ||| ((1#32 <<< 21) ||| (1#32 <<< 22))
      if m.source.isNone then bits ||| (1#32 <<< 24) else bits
    | .request s => (bits ||| encodeCommonServiceFields s) ||| (1#32 <<< 24)
    | .response s => bits ||| encodeCommonServiceFields s
  canIdTryFrom bits

/-- `CanIdParseError` (`canadensis_can/src/rx.rs` L441-446). -/
inductive CanIdParseError where
  | bit23Set | bit7Set
deriving DecidableEq, Repr

/-- `GetBits::bit_set` for `u32` (`canadensis_can/src/rx.rs` L515-517). -/
def bitSet (v : BitVec 32) (offset : Nat) : Bool := ((v >>> offset) &&& 1#32) == 1#32

/-- `GetBits::get_u8` for `u32` (`canadensis_can/src/rx.rs` L518-520). -/
def getU8 (v : BitVec 32) (offset : Nat) : BitVec 8 := (v >>> offset).setWidth 8

/-- `GetBits::get_u16` for `u32` (`canadensis_can/src/rx.rs` L521-523). -/
def getU16 (v : BitVec 32) (offset : Nat) : BitVec 16 := (v >>> offset).setWidth 16

/-- `parse_can_id` (`canadensis_can/src/rx.rs` L449-504). The `expect`s are the places that may yield `none`. -/
def parseCanId (bits : BitVec 32) (timestamp : Instant) (transferId : Tid) :
    Option (Except CanIdParseError CanHeader) :=
  if bitSet bits 23 then some (.error .bit23Set)
  else
    match Priority.tryFrom (getU8 bits 26), NodeId.tryFrom (getU8 bits 0 &&& 0x7f#8) with
    | some priority, some sourceId =>
      if bitSet bits 25 then
        match ServiceId.tryFrom (getU16 bits 14 &&& 0x1ff#16), NodeId.tryFrom (getU8 bits 7 &&& 0x7f#8) with
        | some service, some destination =>
          let h : ServiceHeader NodeId Tid :=
            { timestamp, transferId, priority, service, source := sourceId, destination }
          if bitSet bits 24 then some (.ok (.request h)) else some (.ok (.response h))
        | _, _ => none
      else if bitSet bits 7 then some (.error .bit7Set)
      else
        let source := if bitSet bits 24 then none else some sourceId
        match SubjectId.tryFrom (getU16 bits 8 &&& 0x1fff#16) with
        | some subject => some (.ok (.message { timestamp, transferId, priority, subject, source }))
        | none => none
    | _, _ => none

end Verif.Can
