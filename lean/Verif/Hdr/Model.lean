import Verif.Core.Transfer
import Verif.Core.Bytes
import Verif.Crc.Props

/-!
Model of `canadensis_header/src/lib.rs`, the 24-byte header used by the serial and UDP transports.
-/

namespace Verif.Hdr

open Verif.Crc (crc16)

/-- `NodeId16` (`canadensis_header/src/lib.rs` L353-372): any `u16` except for 65535. The field is private and the only
constructors (`try_from` L362-372, `min_value`/`max_value` L391-399) respect this. -/
abbrev NodeId16 := { v : BitVec 16 // v ≠ 0xffff#16 }

/-- `TransferId64` (`canadensis_header/src/lib.rs` L401-406). -/
abbrev Tid64 := BitVec 64

/-- `TransferId64::increment` (`canadensis_header/src/lib.rs` L408-412). -/
def Tid64.increment (t : Tid64) : Tid64 := t + 1#64

/-- `NodeId16::try_from(u16)` (`canadensis_header/src/lib.rs` L362-372). -/
def NodeId16.tryFrom (v : BitVec 16) : Option NodeId16 :=
  if h : v = 0xffff#16 then none else some ⟨v, h⟩

/-- `DataSpecifier` (`canadensis_header/src/lib.rs` L309-326). -/
inductive DataSpecifier where
  | subject (source : Option NodeId16) (subject : SubjectId)
  | request (source to : NodeId16) (service : ServiceId)
  | response (source to : NodeId16) (service : ServiceId)
deriving DecidableEq

/-- `DataSpecifier::source_node_id` (`canadensis_header/src/lib.rs` L329-335). -/
def DataSpecifier.source : DataSpecifier → Option NodeId16
  | .subject source _ => source
  | .request source _ _ => some source
  | .response source _ _ => some source

/-- `DataSpecifier::destination_node_id` (`canadensis_header/src/lib.rs` L336-342). -/
def DataSpecifier.destination : DataSpecifier → Option NodeId16
  | .subject _ _ => none
  | .request _ to _ => some to
  | .response _ to _ => some to

/-- `Header` (`canadensis_header/src/lib.rs` L97-115). -/
structure TransportHeader where
  priority : Priority
  dataSpecifier : DataSpecifier
  transferId : Tid64
  frameIndex : BitVec 32
  lastFrame : Bool
  data : BitVec 16
deriving DecidableEq

/-- `RawHeader` (`canadensis_header/src/lib.rs` L23-44). -/
structure RawHeader where
  version : Byte
  priority : Byte
  sourceNodeId : BitVec 16
  destinationNodeId : BitVec 16
  dataSpecifier : BitVec 16
  transferId : BitVec 64
  frameIndexEot : BitVec 32
  data : BitVec 16
  headerChecksum : BitVec 16
deriving DecidableEq

/-- `SIZE` (`canadensis_header/src/lib.rs` L17). -/
def size : Nat := 24

/-- All fields but the checksum, in memory order (`#[repr(C)]` of types with alignment 1,
`canadensis_header/src/lib.rs` L23-41). -/
def RawHeader.fieldBytes (h : RawHeader) : List Byte :=
  h.version :: h.priority :: (leBytes 2 h.sourceNodeId.toNat ++ leBytes 2 h.destinationNodeId.toNat ++
    leBytes 2 h.dataSpecifier.toNat ++ leBytes 8 h.transferId.toNat ++ leBytes 4 h.frameIndexEot.toNat ++
    leBytes 2 h.data.toNat)

/-- `IntoBytes::as_bytes` of `RawHeader` (derived, `canadensis_header/src/lib.rs` L23-44). The checksum is big-endian. -/
def RawHeader.asBytes (h : RawHeader) : List Byte := h.fieldBytes ++ Verif.Crc.be16 h.headerChecksum

/-- `FromBytes::read_from_bytes` of `RawHeader` (derived, `canadensis_header/src/lib.rs` L23-44): succeeds exactly for 24
bytes. -/
def RawHeader.fromBytes : List Byte → Option RawHeader
  | [b0, b1, b2, b3, b4, b5, b6, b7, b8, b9, b10, b11, b12, b13, b14, b15, b16, b17, b18, b19, b20, b21, b22, b23] =>
    some {
      version := b0
      priority := b1
      sourceNodeId := BitVec.ofNat 16 (leNat [b2, b3])
      destinationNodeId := BitVec.ofNat 16 (leNat [b4, b5])
      dataSpecifier := BitVec.ofNat 16 (leNat [b6, b7])
      transferId := BitVec.ofNat 64 (leNat [b8, b9, b10, b11, b12, b13, b14, b15])
      frameIndexEot := BitVec.ofNat 32 (leNat [b16, b17, b18, b19])
      data := BitVec.ofNat 16 (leNat [b20, b21])
      headerChecksum := BitVec.ofNat 16 (leNat [b23, b22]) }
  | _ => none

/-- `LAST_FRAME` (`canadensis_header/src/lib.rs` L86). -/
def lastFrameFlag : BitVec 32 := 0x80000000#32
/-- `DATA_SPEC_SERVICE_NOT_MESSAGE` (`canadensis_header/src/lib.rs` L88). -/
def serviceNotMessage : BitVec 16 := 0x8000#16
/-- `DATA_SPEC_REQUEST_NOT_RESPONSE` (`canadensis_header/src/lib.rs` L89). -/
def requestNotResponse : BitVec 16 := 0x4000#16
/-- `NODE_ID_RESERVED_ANONYMOUS_OR_BROADCAST` (`canadensis_header/src/lib.rs` L360). -/
def nodeIdReserved : BitVec 16 := 0xffff#16
/-- `VERSION` (`canadensis_header/src/lib.rs` L84). -/
def headerVersion : Byte := 1#8

/-- `RawHeader::is_last_frame` (`canadensis_header/src/lib.rs` L67-69). -/
def RawHeader.isLastFrame (h : RawHeader) : Bool := (h.frameIndexEot &&& lastFrameFlag) != 0#32

/-- `RawHeader::frame_index` (`canadensis_header/src/lib.rs` L71-73). -/
def RawHeader.frameIndex (h : RawHeader) : BitVec 32 := h.frameIndexEot &&& ~~~lastFrameFlag

/-- `RawHeader::checksum_valid` (`canadensis_header/src/lib.rs` L75-80). -/
def RawHeader.checksumValid (h : RawHeader) : Bool := crc16 h.asBytes == 0#16

/-- `check_node_id` (`canadensis_header/src/lib.rs` L345-351). -/
def checkNodeId (id : BitVec 16) : Option (Option NodeId16) :=
  if id = nodeIdReserved then some none
  else (NodeId16.tryFrom id).map some

/-- The data specifier in `TryFrom<RawHeader> for Header` (`canadensis_header/src/lib.rs` L132-156). `none` is
`Err(InvalidValue)`. -/
def parseSpecifier (spec : BitVec 16) (source destination : Option NodeId16) : Option DataSpecifier :=
  if spec &&& serviceNotMessage = serviceNotMessage then
    match ServiceId.tryFrom (spec &&& ~~~(serviceNotMessage ||| requestNotResponse)) with
    | none => none
    | some service =>
      match source with
      | none => none
      | some source =>
        match destination with
        | none => none
        | some to =>
          if spec &&& requestNotResponse = requestNotResponse then some (.request source to service)
          else some (.response source to service)
  else
    match SubjectId.tryFrom (spec &&& ~~~serviceNotMessage) with
    | none => none
    | some subject => some (.subject source subject)

/-- `TryFrom<RawHeader> for Header` (`canadensis_header/src/lib.rs` L117-165). `none` is `Err(InvalidValue)`. -/
def TransportHeader.tryFrom (h : RawHeader) : Option TransportHeader :=
  if h.version ≠ headerVersion then none
  else if !h.checksumValid then none
  else
    match Priority.tryFrom h.priority with
    | none => none
    | some priority =>
      match checkNodeId h.sourceNodeId with
      | none => none
      | some source =>
        match checkNodeId h.destinationNodeId with
        | none => none
        | some destination =>
          match parseSpecifier h.dataSpecifier source destination with
          | none => none
          | some dataSpecifier =>
            some { priority, dataSpecifier, transferId := h.transferId, frameIndex := h.frameIndex
                   lastFrame := h.isLastFrame, data := h.data }

/-- The node ID field of a header (`canadensis_header/src/lib.rs` L175-186). -/
def nodeIdField (id : Option NodeId16) : BitVec 16 :=
  match id with
  | some id => id.val
  | none => nodeIdReserved

/-- The data specifier field (`canadensis_header/src/lib.rs` L187-197). -/
def specifierField : DataSpecifier → BitVec 16
  | .subject _ subject => subject.setWidth 16
  | .request _ _ service => serviceNotMessage ||| requestNotResponse ||| service.setWidth 16
  | .response _ _ service => serviceNotMessage ||| service.setWidth 16

/-- `From<Header> for RawHeader` (`canadensis_header/src/lib.rs` L167-213). The `debug_assert!` at the end is the theorem
`C25_checksum_valid`. -/
def RawHeader.ofHeader (h : TransportHeader) : RawHeader :=
  let raw : RawHeader :=
    { version := headerVersion
      priority := h.priority.setWidth 8
      sourceNodeId := nodeIdField h.dataSpecifier.source
      destinationNodeId := nodeIdField h.dataSpecifier.destination
      dataSpecifier := specifierField h.dataSpecifier
      transferId := h.transferId
      frameIndexEot := h.frameIndex ||| (if h.lastFrame then lastFrameFlag else 0#32)
      data := h.data
      headerChecksum := 0#16 }
  { raw with headerChecksum := crc16 (raw.asBytes.take (raw.asBytes.length - 2)) }

/-- `Header::as_core_header` (`canadensis_header/src/lib.rs` L219-257). -/
def TransportHeader.asCoreHeader (h : TransportHeader) (timestamp : Instant) : Header NodeId16 Tid64 :=
  match h.dataSpecifier with
  | .subject source subject => .message { timestamp, transferId := h.transferId, priority := h.priority, subject, source }
  | .request source to service =>
    .request { timestamp, transferId := h.transferId, priority := h.priority, service, source, destination := to }
  | .response source to service =>
    .response { timestamp, transferId := h.transferId, priority := h.priority, service, source, destination := to }

/-- `From<&core::transfer::Header> for Header` (`canadensis_header/src/lib.rs` L260-297). -/
def TransportHeader.ofCore (h : Header NodeId16 Tid64) : TransportHeader :=
  { priority := h.priority
    dataSpecifier := match h with
      | .message m => .subject m.source m.subject
      | .request s => .request s.source s.destination s.service
      | .response s => .response s.source s.destination s.service
    transferId := h.transferId
    frameIndex := 0#32
    lastFrame := true
    data := 0#16 }

end Verif.Hdr
