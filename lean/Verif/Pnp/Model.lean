import Verif.App.Model
import Verif.Crc.Model
import Verif.Hdr.Model

/-!
Plug-and-play node IDs: `canadensis/src/service/pnp/{mod,client,server}.rs` and `canadensis_pnp_client/src/lib.rs`.

As in `Verif.Node.Model`, each call is given what the environment does during it. `none` is a panic. The node is a `CoreNode`.
-/

namespace Verif.Pnp

open Verif.Dsdl Verif.Enc Verif.Node Verif.App

/-! ### Node IDs and unique IDs -/

/-- What the code uses of `Transport::NodeId` (canadensis_core/src/transport.rs L205-234): `Into<u16>`, `TryFrom<u16>` and `Bounded::max_value`. -/
structure IdOps (N : Type) where
  toU16 : N → BitVec 16
  tryFrom : BitVec 16 → Option N
  max : N

/-- `CanNodeId` (canadensis_can/src/types.rs L22-64, L92-115). -/
def canIds : IdOps (BitVec 7) := ⟨fun n => n.setWidth 16, fun v => if v ≤ 127#16 then some (v.setWidth 7) else none, 127#7⟩

/-- `NodeId16` (canadensis_header/src/lib.rs L353-398). -/
def headerIds : IdOps Hdr.NodeId16 := ⟨fun n => n.1, Hdr.NodeId16.tryFrom, ⟨65534#16, by decide⟩⟩

/-- A unique ID: `[u8; 16]` (canadensis/src/service/pnp/mod.rs L29). -/
abbrev UniqueId := { l : List Byte // l.length = 16 }

/-! ### The hash of a unique ID -/

/-- One bit of CRC-64/WE. Not in /repo (crate `crc_any`): polynomial 0x42f0e1eba9ea3693, not reflected. -/
def step64 (v : BitVec 64) : BitVec 64 := if v.getLsbD 63 then (v <<< 1) ^^^ 0x42f0e1eba9ea3693#64 else v <<< 1

/-- One byte of CRC-64/WE. Not in /repo (crate `crc_any`). -/
def digest64 (v : BitVec 64) (b : Byte) : BitVec 64 := Crc.iter step64 8 (v ^^^ ((b.setWidth 64) <<< 56))

/-- CRC-64/WE: initial value and final XOR are all ones. Not in /repo (crate `crc_any`). -/
def crc64we (bytes : List Byte) : BitVec 64 := bytes.foldl digest64 (BitVec.allOnes 64) ^^^ BitVec.allOnes 64

/-- `crc_64we_48_bits` (canadensis/src/service/pnp/mod.rs L79-84, canadensis_pnp_client/src/lib.rs L170-175). -/
def hash48 (id : UniqueId) : BitVec 64 := crc64we id.1 &&& 0xffffffffffff#64

/-! ### Allocation messages -/

/-- `uavcan.node.ID.1.0` (canadensis_data_types/src/generated.rs L9269-9317). -/
def idType : Message := .struct none false (.data (.prim (.uint 16 true)) .scalar .nil)

/-- `uavcan.pnp.NodeIDAllocationData.1.0` (canadensis_data_types/src/generated.rs L10601-10678). -/
def alloc1Type : Message := .struct none false (.data (.prim (.uint 48 false)) .scalar (.data (.composite idType) (.var 1) .nil))

/-- `uavcan.pnp.NodeIDAllocationData.2.0` (canadensis_data_types/src/generated.rs L10679-10752). -/
def alloc2Type : Message := .struct (some 384) false (.data (.composite idType) .scalar (.data (.prim (.uint 8 true)) (.fixed 16) .nil))

/-- `node_id_allocation_data_1_0::NodeIDAllocationData` (canadensis_data_types/src/generated.rs L10614-10635), where an `ID` is its `value`. -/
structure Alloc1 where
  uniqueIdHash : BitVec 64
  allocatedNodeId : Option (BitVec 16)
deriving DecidableEq

/-- `node_id_allocation_data_2_0::NodeIDAllocationData` (canadensis_data_types/src/generated.rs L10694-10715), where an `ID` is its `value`. -/
structure Alloc2 where
  nodeId : BitVec 16
  uniqueId : UniqueId
deriving DecidableEq

/-- The value as the generated code sees it (canadensis_data_types/src/generated.rs L10614-10635). -/
def Alloc1.val (m : Alloc1) : Val :=
  .record [.num m.uniqueIdHash.toNat, .list (m.allocatedNodeId.toList.map fun id => .record [.num id.toNat])]

/-- The value as the generated code sees it (canadensis_data_types/src/generated.rs L10694-10715). -/
def Alloc2.val (m : Alloc2) : Val := .record [.record [.num m.nodeId.toNat], .list (m.uniqueId.1.map fun b => .num b.toNat)]

/-- What `deserialize_from_bytes` returns (canadensis_encoding/src/lib.rs L80-87): a message or an error, or it panics. -/
inductive Parsed (M : Type) where
  | ok (m : M)
  | error
  | panic

/-- The fields of a value of `alloc1Type` (canadensis_data_types/src/generated.rs L10661-10675). A value of another shape does not occur. -/
def Alloc1.ofVal : Val → Option Alloc1
  | .record [.num h, .list []] => some ⟨BitVec.ofNat 64 h, none⟩
  | .record [.num h, .list [.record [.num id]]] => some ⟨BitVec.ofNat 64 h, some (BitVec.ofNat 16 id)⟩
  | _ => none

/-- The number in a value (no counterpart in /repo). -/
def byteOf : Val → Byte
  | .num n => BitVec.ofNat 8 n
  | _ => 0

/-- The fields of a value of `alloc2Type` (canadensis_data_types/src/generated.rs L10694-10715). A value of another shape does not occur. -/
def Alloc2.ofVal : Val → Option Alloc2
  | .record [.record [.num id], .list l] =>
    if h : (l.map byteOf).length = 16 then some ⟨BitVec.ofNat 16 id, ⟨l.map byteOf, h⟩⟩ else none
  | _ => none

/-- `deserialize_from_bytes` (canadensis_encoding/src/lib.rs L80-87) of a type whose values are `M`. -/
def parse {M : Type} (t : Message) (ofVal : Val → Option M) (bytes : List Byte) : Parsed M :=
  match t.deserialize (ReadCursor.new bytes) with
  | none => .panic
  | some (.error _, _) => .error
  | some (.ok v, _) =>
    match ofVal v with
    | some m => .ok m
    | none => .panic

/-- `AllocationMessage` (canadensis/src/service/pnp/mod.rs L18-39; the one of canadensis_pnp_client/src/lib.rs L127-141 has no `payloadSizeMax` and no
`withNodeId`). -/
structure AllocationMessage (N M : Type) where
  subject : SubjectId
  payloadSizeMax : Nat
  withUniqueId : UniqueId → M
  matchesUniqueId : M → UniqueId → Bool
  nodeId : M → Option N
  withNodeId : M → N → M
  payload : M → Payload
  fromBytes : List Byte → Parsed M

/-- `AllocationMessage` for version 1.0 (canadensis/src/service/pnp/mod.rs L41-75, canadensis_pnp_client/src/lib.rs L143-166). -/
def version1 {N : Type} (ids : IdOps N) : AllocationMessage N Alloc1 where
  subject := 8166#13
  payloadSizeMax := 9
  withUniqueId id := ⟨hash48 id, none⟩
  matchesUniqueId m id := m.uniqueIdHash = hash48 id
  nodeId m := m.allocatedNodeId.bind ids.tryFrom
  withNodeId m id := ⟨m.uniqueIdHash, some (ids.toU16 id)⟩
  payload m := .of alloc1Type.writer m.val
  fromBytes := parse alloc1Type Alloc1.ofVal

/-- `AllocationMessage` for version 2.0 (canadensis/src/service/pnp/mod.rs L86-116). -/
def version2 {N : Type} (ids : IdOps N) : AllocationMessage N Alloc2 where
  subject := 8165#13
  payloadSizeMax := 18
  withUniqueId id := ⟨0#16, id⟩
  matchesUniqueId m id := m.uniqueId = id
  nodeId m := ids.tryFrom m.nodeId
  withNodeId m id := ⟨ids.toU16 id, m.uniqueId⟩
  payload m := .of alloc2Type.writer m.val
  fromBytes := parse alloc2Type Alloc2.ofVal

/-! ### Making a client or a server -/

/-- What `PnpClientService::new` and `PnpServerService::new` return (`NewError`, canadensis/src/service/pnp/mod.rs L119-130). -/
inductive NewAnswer (E : Type) where
  | ok | subscribe (e : E) | outOfMemory | duplicate | publish (e : E) | panic
deriving DecidableEq

variable {N Tid Trk E M : Type}

/-- A node that subscribes to a subject and starts to publish to it (canadensis/src/service/pnp/client.rs L41-50,
canadensis/src/service/pnp/server.rs L65-82, L86-103): the answer, the node afterwards and what was asked of the receiver. -/
def joinSubject (ops : TidOps Tid) (node : CoreNode N Tid Trk) (env : Env E) (subject : SubjectId) (extent : Nat) :
    NewAnswer E × CoreNode N Tid Trk × List (RxCall N) :=
  let o := node.subscribeMessage env subject extent (milliseconds 1000)
  match o.answer with
  | .ok =>
    let o' : Out N Tid Trk E := o.node.startPublishing ops subject (milliseconds 1000) nominal
    match o'.answer with
    | .ok => (.ok, o'.node, o.rx)
    | .memory => (.outOfMemory, o'.node, o.rx)
    | .duplicate => (.duplicate, o'.node, o.rx)
    | .transport e => (.publish e, o'.node, o.rx)
    | _ => (.panic, o'.node, o.rx)
  | .transport e => (.subscribe e, o.node, o.rx)
  | _ => (.panic, o.node, o.rx)

/-- The result of a call of a handler (canadensis/src/lib.rs L112-188): whether it handled the transfer, its state and the node afterwards, what was
handed to the transmitter and what was asked of the receiver. -/
structure Handled (σ N Tid Trk : Type) where
  handled : Bool
  state : σ
  node : CoreNode N Tid Trk
  sent : List (Transfer N Tid) := []
  rx : List (RxCall N) := []

/-! ### The client of a node -/

/-- `PnpClientService::new` (canadensis/src/service/pnp/client.rs L28-57), with a transmitter whose `mtu()` is `mtu`. The service is its unique ID. The
`debug_assert!` panics, as it does in a debug build. -/
def ClientService.new (ops : TidOps Tid) (a : AllocationMessage N M) (mtu : Nat) (node : CoreNode N Tid Trk) (env : Env E) :
    NewAnswer E × CoreNode N Tid Trk × List (RxCall N) :=
  if a.payloadSizeMax ≤ mtu then joinSubject ops node env a.subject a.payloadSizeMax else (.panic, node, [])

/-- `PnpClientService::send_request` (canadensis/src/service/pnp/client.rs L60-66). -/
def ClientService.sendRequest (ops : TidOps Tid) (a : AllocationMessage N M) (uniqueId : UniqueId) (node : CoreNode N Tid Trk) (env : Env E) :
    Out N Tid Trk E := node.publish ops env a.subject (a.payload (a.withUniqueId uniqueId)) false

/-- `PnpClientServiceHandler::handle_message` (canadensis/src/service/pnp/client.rs L84-101). -/
def ClientService.handleMessage (a : AllocationMessage N M) (uniqueId : UniqueId) (node : CoreNode N Tid Trk) (_ : MessageHeader N Tid)
    (payload : List Byte) : Option (Handled Unit N Tid Trk) :=
  match a.fromBytes payload with
  | .panic => none
  | .error => some ⟨false, (), node, [], []⟩
  | .ok message =>
    if a.matchesUniqueId message uniqueId then
      match a.nodeId message with
      | some id =>
        let o₁ : Out N Tid Trk Unit := node.setNodeId id
        let o₂ : Out N Tid Trk Unit := o₁.node.unsubscribeMessage a.subject
        let o₃ : Out N Tid Trk Unit := o₂.node.stopPublishing a.subject
        some ⟨true, (), o₃.node, [], o₁.rx ++ o₂.rx ++ o₃.rx⟩
      | none => some ⟨false, (), node, [], []⟩
    else some ⟨false, (), node, [], []⟩

/-! ### The client without a node -/

/-- `PnpClient` (canadensis_pnp_client/src/lib.rs L28-39) without its transmitter and receiver, which are environment. -/
structure PnpClient (Tid : Type) where
  uniqueId : UniqueId
  publisher : AnonymousPublisher Tid

/-- `PnpClient::new` (canadensis_pnp_client/src/lib.rs L49-71): the client, or the error of the receiver (`Subscribed.anonymous` is not an error of a
message subscription; the model gives no client for it), and what was asked of the receiver. -/
def PnpClient.new (ops : TidOps Tid) (a : AllocationMessage N M) (uniqueId : UniqueId) (env : Env E) :
    Option (PnpClient Tid) × List (RxCall N) :=
  (match env.subscribed with
    | .ok => some ⟨uniqueId, AnonymousPublisher.new ops a.subject nominal (milliseconds 1000)⟩
    | _ => none, [.subscribeMessage a.subject 9 (milliseconds 1000)])

/-- `PnpClient::send_request` (canadensis_pnp_client/src/lib.rs L74-83), with a transmitter whose `mtu()` is `mtu`: the client afterwards and what was
handed to the transmitter; `none` is a panic. -/
def PnpClient.sendRequest (ops : TidOps Tid) (a : AllocationMessage N M) (c : PnpClient Tid) (mtu : Nat) (env : Env E) :
    Option (PnpClient Tid × List (Transfer N Tid)) :=
  let r : AnonymousAnswer Tid E × AnonymousPublisher Tid × List (Transfer N Tid) :=
    c.publisher.send ops mtu env (a.payload (a.withUniqueId c.uniqueId)) false
  match r.1 with
  | .other .ok => some ({ c with publisher := r.2.1 }, r.2.2)
  | _ => none

/-- What `PnpClient::receive` returns (canadensis_pnp_client/src/lib.rs L88-92). -/
inductive Got (N E : Type) where
  | id (n : N) | nothing | error (e : E) | panic
deriving DecidableEq

/-- `PnpClient::receive` (canadensis_pnp_client/src/lib.rs L85-103), where the receiver answers `r`. -/
def PnpClient.receive (a : AllocationMessage N M) (c : PnpClient Tid) (r : Received N Tid E) : Got N E :=
  match r with
  | .error e => .error e
  | .nothing => .nothing
  | .transfer t =>
    match a.fromBytes t.payload with
    | .panic => .panic
    | .error => .nothing
    | .ok message =>
      if a.matchesUniqueId message c.uniqueId then
        match a.nodeId message with
        | some id => .id id
        | none => .nothing
      else .nothing

/-! ### The server -/

/-- `Assignment` (canadensis/src/service/pnp/server.rs L17-26). -/
inductive Assignment where
  | unassigned | reserved | assigned (id : UniqueId)
deriving DecidableEq

/-- `Assignment::is_assigned_and` (canadensis/src/service/pnp/server.rs L29-36). -/
def Assignment.isAssignedAnd (a : Assignment) (f : UniqueId → Bool) : Bool :=
  match a with
  | .assigned id => f id
  | .reserved => true
  | .unassigned => false

/-- `Assignment::is_assigned` (canadensis/src/service/pnp/server.rs L38-41). -/
def Assignment.isAssigned (a : Assignment) : Bool := a.isAssignedAnd fun _ => true

/-- `PnpServerService` (canadensis/src/service/pnp/server.rs L44-48): its `assignments`, `C` elements. -/
abbrev Server := List Assignment

/-- `PnpServerService::new` (canadensis/src/service/pnp/server.rs L51-110), with a transmitter whose `mtu()` is `mtu`; `env` is for the first
subscription and `env'` for the second. The `debug_assert_eq!` panics, as it does in a debug build. -/
def Server.new (ops : TidOps Tid) (ids : IdOps N) (C mtu : Nat) (node : CoreNode N Tid Trk) (env env' : Env E) :
    NewAnswer E × CoreNode N Tid Trk × List (RxCall N) × Option Server :=
  if C = (ids.toU16 ids.max).toNat then
    match joinSubject ops node env (version1 ids).subject (version1 ids).payloadSizeMax with
    | (.ok, node, rx) =>
      if (version2 ids).payloadSizeMax ≤ mtu then
        match joinSubject ops node env' (version2 ids).subject (version2 ids).payloadSizeMax with
        | (.ok, node, rx') => (.ok, node, rx ++ rx', some (List.replicate C .unassigned))
        | (a, node, rx') => (a, node, rx ++ rx', none)
      else (.ok, node, rx, some (List.replicate C .unassigned))
    | (a, node, rx) => (a, node, rx, none)
  else (.panic, node, [], none)

/-- `PnpServerService::assign` (canadensis/src/service/pnp/server.rs L117-125); `none` is the panic of an index out of bounds. -/
def Server.assign (ids : IdOps N) (s : Server) (id : N) (uniqueId : UniqueId) : Option Server :=
  let idx := (ids.toU16 id).toNat
  match s[idx]? with
  | none => none
  | some a => if a.isAssigned then some s else some (s.set idx (.assigned uniqueId))

/-- The two searches in `handle_allocation_message` (canadensis/src/service/pnp/server.rs L162-178): the index found, and the assignments afterwards.
The second search counts from the end, and its result is used as an index from the start. -/
def Server.allocate (s : Server) (matching : UniqueId → Bool) : Option Nat × Server :=
  match s.findIdx? fun a => a.isAssignedAnd matching with
  | some i => (some i, s)
  | none =>
    match s.reverse.findIdx? fun a => !a.isAssigned with
    | some i => (some i, s.set i .reserved)
    | none => (none, s)

/-- `PnpServerServiceHandler::handle_allocation_message` (canadensis/src/service/pnp/server.rs L154-184). -/
def Server.handleAllocation (ops : TidOps Tid) (ids : IdOps N) (a : AllocationMessage N M) (s : Server) (node : CoreNode N Tid Trk) (env : Env E)
    (message : M) : Option (Handled Server N Tid Trk) :=
  match s.allocate (a.matchesUniqueId message) with
  | (none, s) => some ⟨true, s, node, [], []⟩
  | (some i, s) =>
    if i < 65536 then
      match ids.tryFrom (BitVec.ofNat 16 i) with
      | none => none
      | some id =>
        let o := node.publish ops env a.subject (a.payload (a.withNodeId message id)) false
        match o.answer with
        | .panic => none
        | _ => some ⟨true, s, o.node, o.sent, []⟩
    else none

/-- `PnpServerServiceHandler::handle_message` (canadensis/src/service/pnp/server.rs L188-217). -/
def Server.handleMessage (ops : TidOps Tid) (ids : IdOps N) (s : Server) (node : CoreNode N Tid Trk) (env : Env E) (header : MessageHeader N Tid)
    (payload : List Byte) : Option (Handled Server N Tid Trk) :=
  if header.subject = (version1 ids).subject then
    match (version1 ids).fromBytes payload with
    | .panic => none
    | .error => some ⟨false, s, node, [], []⟩
    | .ok message => s.handleAllocation ops ids (version1 ids) node env message
  else if header.subject = (version2 ids).subject then
    match (version2 ids).fromBytes payload with
    | .panic => none
    | .error => some ⟨false, s, node, [], []⟩
    | .ok message => s.handleAllocation ops ids (version2 ids) node env message
  else if header.subject = heartbeatSubject then
    match header.source with
    | none => some ⟨false, s, node, [], []⟩
    | some id =>
      match heartbeatType.deserialize (ReadCursor.new payload) with
      | none => none
      | some (.error _, _) => some ⟨false, s, node, [], []⟩
      | some (.ok _, _) =>
        let idx := (ids.toU16 id).toNat
        match s[idx]? with
        | none => none
        | some a => some ⟨false, if a.isAssigned then s else s.set idx .reserved, node, [], []⟩
  else some ⟨false, s, node, [], []⟩

/-- What happens to a server and its node (no counterpart in /repo: the caller's program and the network): `assign` is called, a message is handed to
the handler, or the node is used for something else. -/
inductive ServerOp (N Tid E : Type) where
  | assign (id : N) (uniqueId : UniqueId)
  | message (env : Env E) (header : MessageHeader N Tid) (payload : List Byte)
  | other (op : Op N Tid E)

/-- One call (no counterpart in /repo): the server and its node afterwards and what the handler sent; `none` is a panic. -/
def Server.step (ops : TidOps Tid) (tops : TrackerOps N Tid Trk) (ids : IdOps N) (w : Server × CoreNode N Tid Trk) :
    ServerOp N Tid E → Option ((Server × CoreNode N Tid Trk) × List (Transfer N Tid))
  | .assign id uniqueId => (w.1.assign ids id uniqueId).map fun s => ((s, w.2), [])
  | .message env header payload => (w.1.handleMessage ops ids w.2 env header payload).map fun h => ((h.state, h.node), h.sent)
  | .other op => some ((w.1, (w.2.step ops tops op).node), [])

/-- A history of calls (no counterpart in /repo): the server and its node afterwards; `none` is a panic. -/
def Server.run (ops : TidOps Tid) (tops : TrackerOps N Tid Trk) (ids : IdOps N) (w : Server × CoreNode N Tid Trk) (history : List (ServerOp N Tid E)) :
    Option (Server × CoreNode N Tid Trk) :=
  history.foldlM (fun w op => (Server.step ops tops ids w op).map Prod.fst) w

end Verif.Pnp
