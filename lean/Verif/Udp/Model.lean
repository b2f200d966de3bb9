import Verif.Hdr.Props

/-!
Model of `canadensis_udp/src/tx.rs`, `tx/breakdown.rs`, `rx.rs`, `rx/buildup.rs`, `rx/subscriptions.rs` and `address.rs`.

`none` is a panic unless a comment says otherwise. Sizes are natural numbers: overflow of `usize` is not modelled. A new
vector after `with_capacity(n)`, `reserve(n)` or `try_reserve_exact(n)` has capacity `n`, as in the implementation of the
standard library (its documentation promises at least `n`).
-/

namespace Verif.Udp

open Verif.Crc (Tracker)
open Verif.Hdr (NodeId16 Tid64 RawHeader TransportHeader DataSpecifier)

/-- `Header<UdpTransport>` (`canadensis_udp/src/lib.rs` L64-73). -/
abbrev UdpHeader := Header NodeId16 Tid64
/-- `Transfer<Vec<u8>, UdpTransport>` (`canadensis_udp/src/lib.rs` L64-73). -/
abbrev UdpTransfer := Transfer NodeId16 Tid64

/-- `TRANSFER_CRC_SIZE` (`canadensis_udp/src/lib.rs` L51). -/
def transferCrcSize : Nat := 4
/-- `MIN_PACKET_SIZE` (`canadensis_udp/src/lib.rs` L56). -/
def minPacketSize : Nat := Verif.Hdr.size + transferCrcSize

/-! ### Addresses -/

/-- `Address` (`canadensis_udp/src/address.rs` L69-74). -/
inductive Address where
  | node (id : NodeId16)
  | multicast (subject : SubjectId)
deriving DecidableEq

/-- `MULTICAST_BASE` (`canadensis_udp/src/address.rs` L19). -/
def multicastBase : BitVec 32 := 0xef000000#32
/-- `MULTICAST_MASK` (`canadensis_udp/src/address.rs` L21). -/
def multicastMask : BitVec 32 := 0xfffe0000#32
/-- `SERVICE_NOT_MESSAGE_BIT` (`canadensis_udp/src/address.rs` L23). -/
def serviceBit : BitVec 32 := 0x00010000#32
/-- `SUBJECT_RESERVED_BIT` (`canadensis_udp/src/address.rs` L25). -/
def subjectReservedBit : BitVec 32 := 0x00008000#32

/-- `From<Address> for Ipv4Addr` (`canadensis_udp/src/address.rs` L27-40). An IPv4 address is its 32-bit number. -/
def Address.toIp : Address → BitVec 32
  | .node id => multicastBase ||| serviceBit ||| id.val.setWidth 32
  | .multicast subject => multicastBase ||| subject.setWidth 32

/-- `TryFrom<Ipv4Addr> for Address` (`canadensis_udp/src/address.rs` L42-66). `none` is `Err(InvalidValue)`. -/
def Address.tryFrom (ip : BitVec 32) : Option Address :=
  if ip &&& multicastMask ≠ multicastBase then none
  else if ip &&& serviceBit = serviceBit then (NodeId16.tryFrom (ip.setWidth 16)).map Address.node
  else if ip &&& subjectReservedBit ≠ 0#32 then none
  else (SubjectId.tryFrom (ip.setWidth 16)).map Address.multicast

/-! ### Transmitter -/

/-- All bytes that the iterator `AddCrc` gives (`canadensis_udp/src/tx/breakdown.rs` L346-395), from its CRC state and what is
left of the inner iterator. -/
def addCrc (crc : BitVec 32) : List Byte → List Byte
  | [] =>
    let c := Verif.Crc.getCrc32 crc
    [c.setWidth 8, (c >>> 8).setWidth 8, (c >>> 16).setWidth 8, (c >>> 24).setWidth 8]
  | b :: bs => b :: addCrc (Verif.Crc.digest32 crc b) bs

/-- `HeaderBase` (`canadensis_udp/src/tx/breakdown.rs` L37-45). -/
structure HeaderBase where
  dataSpecifier : DataSpecifier
  transferId : Tid64
  priority : Priority
  data : BitVec 16

/-- `UdpFrame` (`canadensis_udp/src/tx.rs` L176-179). -/
structure UdpFrame where
  deadline : Instant
  data : List Byte
deriving DecidableEq

/-- `Breakdown` (`canadensis_udp/src/tx/breakdown.rs` L16-34). `payload` is what the peekable iterator has still to give. -/
structure Breakdown where
  headerBase : HeaderBase
  deadline : Instant
  payload : List Byte
  frameIndex : BitVec 32
  done : Bool
  currentFrame : List Byte
  mtu : Nat

/-- The bytes reserved for the header (`canadensis_udp/src/tx/breakdown.rs` L58, L80-81). -/
def emptyFrame : List Byte := List.replicate Verif.Hdr.size 0#8

/-- `Breakdown::new` (`canadensis_udp/src/tx/breakdown.rs` L48-63). -/
def Breakdown.new (headerBase : HeaderBase) (deadline : Instant) (payload : List Byte) (mtu : Nat) : Breakdown :=
  { headerBase, deadline, payload := addCrc Verif.Crc.crc32Init payload, frameIndex := 0#32, done := false
    currentFrame := emptyFrame, mtu }

/-- `make_header` (`canadensis_udp/src/tx/breakdown.rs` L86-95). -/
def Breakdown.makeHeader (b : Breakdown) (lastFrame : Bool) : TransportHeader :=
  { priority := b.headerBase.priority, dataSpecifier := b.headerBase.dataSpecifier, transferId := b.headerBase.transferId
    frameIndex := b.frameIndex, lastFrame, data := b.headerBase.data }

/-- `take_frame` (`canadensis_udp/src/tx/breakdown.rs` L70-83). The first 24 bytes of the frame are overwritten. -/
def Breakdown.takeFrame (b : Breakdown) (header : TransportHeader) : UdpFrame × Breakdown :=
  ({ deadline := b.deadline, data := (RawHeader.ofHeader header).asBytes ++ b.currentFrame.drop Verif.Hdr.size },
    { b with currentFrame := emptyFrame })

/-- The loop of `Breakdown::next` (`canadensis_udp/src/tx/breakdown.rs` L108-135), over what is left of the payload iterator.
`none` is the panic of `assert_eq!`. -/
def Breakdown.fill (b : Breakdown) : List Byte → Option (Option UdpFrame × Breakdown)
  | [] =>
    if b.currentFrame.length ≠ Verif.Hdr.size then
      let p := ({ b with payload := [] } : Breakdown).takeFrame (b.makeHeader true)
      some (some p.1, { p.2 with done := true })
    else some (none, { b with payload := [] })
  | byte :: rest =>
    let b := { b with currentFrame := b.currentFrame ++ [byte] }
    if b.currentFrame.length = b.mtu then
      let morePayloadComing := !rest.isEmpty
      let p := ({ b with payload := rest } : Breakdown).takeFrame (b.makeHeader (!morePayloadComing))
      let b := { p.2 with frameIndex := b.frameIndex + 1#32 }
      if b.frameIndex &&& Verif.Hdr.lastFrameFlag = 0#32 then some (some p.1, b) else none
    else b.fill rest

/-- `Breakdown::next` (`canadensis_udp/src/tx/breakdown.rs` L104-136). -/
def Breakdown.next (b : Breakdown) : Option (Option UdpFrame × Breakdown) :=
  if b.done then some (none, b) else b.fill b.payload

/-- The clock and the socket that the transmitter uses, as one state machine (`canadensis_udp/src/driver.rs` L12-49,
`canadensis_core/src/time.rs`): reading the clock, and `send_to`, where `some e` is an error. -/
structure Env (σ E : Type) where
  now : σ → σ × Instant
  sendTo : σ → List Byte → BitVec 32 → BitVec 16 → σ × Option E

/-- `send_frames` (`canadensis_udp/src/tx.rs` L62-81), as recursion on a bound for the number of frames (`none` if there are
more, `C33_segmentation` shows that this does not happen). The inner `some e` is `Err(e)`. -/
def sendFrames {σ E : Type} (env : Env σ E) (ip : BitVec 32) (port : BitVec 16) : Nat → Breakdown → σ → Option (σ × Option E)
  | 0, _, _ => none
  | fuel + 1, b, s =>
    match b.next with
    | none => none
    | some (none, _) => some (s, none)
    | some (some frame, b) =>
      let p := env.now s
      if Instant.after frame.deadline p.2 then
        let q := env.sendTo p.1 frame.data ip port
        match q.2 with
        | some e => some (q.1, some e)
        | none => sendFrames env ip port fuel b q.1
      else sendFrames env ip port fuel b p.1

/-- The destination address in `push` (`canadensis_udp/src/tx.rs` L103-145). -/
def destinationAddress : UdpHeader → Address
  | .message h => .multicast h.subject
  | .request h => .node h.destination
  | .response h => .node h.destination

/-- The header base in `push` (`canadensis_udp/src/tx.rs` L103-145). -/
def headerBase : UdpHeader → HeaderBase
  | .message h => { dataSpecifier := .subject h.source h.subject, transferId := h.transferId, priority := h.priority, data := 0#16 }
  | .request h =>
    { dataSpecifier := .request h.source h.destination h.service, transferId := h.transferId, priority := h.priority, data := 0#16 }
  | .response h =>
    { dataSpecifier := .response h.source h.destination h.service, transferId := h.transferId, priority := h.priority, data := 0#16 }

/-- `UdpTransmitter::new` (`canadensis_udp/src/tx.rs` L33-44): the assertion on the MTU. -/
def newTransmitter (mtu : Nat) (destinationPort : BitVec 16) : Option (BitVec 16) :=
  if mtu > Verif.Hdr.size + transferCrcSize then some destinationPort else none

/-- `push` and `push_inner` (`canadensis_udp/src/tx.rs` L46-60, L93-156). -/
def push {σ E : Type} (env : Env σ E) (mtu : Nat) (destinationPort : BitVec 16) (t : UdpTransfer) (s : σ) : Option (σ × Option E) :=
  let b := Breakdown.new (headerBase t.header) t.header.timestamp t.payload mtu
  sendFrames env (destinationAddress t.header).toIp destinationPort (t.payload.length + 6) b s

/-- `UdpTransmitter::mtu` (`canadensis_udp/src/tx.rs` L168-171). -/
def transmitterMtu (mtu : Nat) : Nat := mtu - Verif.Hdr.size - transferCrcSize

/-! ### Receiver -/

/-- `Buildup` (`canadensis_udp/src/rx/buildup.rs` L23-35); `capacity` is the capacity of `bytes`. -/
structure Buildup where
  bytes : List Byte
  capacity : Nat
  crc : Tracker
  nextFrameIndex : BitVec 32
  priority : Priority
  transferId : Tid64
deriving DecidableEq

/-- Digesting one byte and storing the byte that comes out while there is room
(`canadensis_udp/src/rx/buildup.rs` L50-56, L84-90, `canadensis_udp/src/rx.rs` L448-454). -/
def collectByte (capacity : Nat) (p : List Byte × Tracker) (byte : Byte) : List Byte × Tracker :=
  let d := p.2.digest byte
  match d.1 with
  | some digested => (if p.1.length < capacity then p.1 ++ [digested] else p.1, d.2)
  | none => (p.1, d.2)

/-- The `for_each` over the bytes of a frame (`canadensis_udp/src/rx/buildup.rs` L50-56, L84-90, `canadensis_udp/src/rx.rs`
L448-454). -/
def collectBytes (capacity : Nat) (p : List Byte × Tracker) (bytes : List Byte) : List Byte × Tracker :=
  bytes.foldl (collectByte capacity) p

/-- `Buildup::new` (`canadensis_udp/src/rx/buildup.rs` L42-65). `none` is `Err(OutOfMemoryError)`. The addition cannot overflow
because the index in a header has 31 bits. -/
def Buildup.new (oom : Bool) (header : TransportHeader) (bytes : List Byte) (maxLength : Nat) : Option Buildup :=
  if oom then none
  else
    let p := collectBytes maxLength ([], Tracker.new) bytes
    some { bytes := p.1, capacity := maxLength, crc := p.2, nextFrameIndex := header.frameIndex + 1#32
           priority := header.priority, transferId := header.transferId }

/-- `BuildupError` (`canadensis_udp/src/rx/buildup.rs` L104-115). -/
inductive BuildupError where
  | index | priority | transferId | memory | crc
deriving DecidableEq

/-- `Buildup::push` (`canadensis_udp/src/rx/buildup.rs` L74-93). -/
def Buildup.push (b : Buildup) (header : TransportHeader) (bytes : List Byte) : Except BuildupError Buildup :=
  if header.frameIndex ≠ b.nextFrameIndex then .error .index
  else if header.transferId ≠ b.transferId then .error .transferId
  else if header.priority ≠ b.priority then .error .priority
  else
    let p := collectBytes b.capacity (b.bytes, b.crc) bytes
    .ok { b with bytes := p.1, crc := p.2, nextFrameIndex := b.nextFrameIndex + 1#32 }

/-- `ActiveSession<UdpTransferId, UdpSessionData>` (`canadensis_core/src/session.rs` L70-77, `canadensis_udp/src/rx.rs` L412-414). -/
structure ActiveSession where
  time : Instant
  transferId : Tid64
  buildup : Option Buildup
deriving DecidableEq

/-- `Session` (`canadensis_core/src/session.rs` L55-65). -/
inductive Session where
  | active (a : ActiveSession)
  | complete (time : Instant) (transferId : Tid64)
deriving DecidableEq

/-- `UdpSession::handle_frame` (`canadensis_udp/src/rx.rs` L430-486). The session after the call and the result. -/
def ActiveSession.handleFrame (oom : Bool) (a : ActiveSession) (header : TransportHeader) (bytes : List Byte) (maxLength : Nat) :
    ActiveSession × Except BuildupError (Option (List Byte)) :=
  if bytes.length < transferCrcSize then (a, .ok none)
  else if header.frameIndex = 0#32 ∧ header.lastFrame = true then
    if oom then (a, .error .memory)
    else
      let p := collectBytes maxLength ([], Tracker.new) bytes
      if p.2.correct then (a, .ok (some p.1)) else (a, .error .crc)
  else
    match a.buildup with
    | some buildup =>
      let a := { a with buildup := none }
      match buildup.push header bytes with
      | .error e => (a, .error e)
      | .ok buildup =>
        if header.lastFrame then
          if buildup.crc.correct then (a, .ok (some buildup.bytes)) else (a, .error .crc)
        else ({ a with buildup := some buildup }, .ok none)
    | none =>
      match Buildup.new oom header bytes maxLength with
      | none => ({ a with buildup := none }, .error .memory)
      | some b => ({ a with buildup := some b }, .ok none)

/-- `convert_reassembly_result` (`canadensis_udp/src/rx.rs` L368-407). -/
def convertResult (payload : List Byte) (header : TransportHeader) (firstFrameTime : Instant) : UdpTransfer :=
  { header := match header.dataSpecifier with
      | .subject source subject =>
        .message { timestamp := firstFrameTime, transferId := header.transferId, priority := header.priority, subject, source }
      | .request source to service =>
        .request { timestamp := firstFrameTime, transferId := header.transferId, priority := header.priority, service, source, destination := to }
      | .response source to service =>
        .response { timestamp := firstFrameTime, transferId := header.transferId, priority := header.priority, service, source, destination := to }
    loopback := false
    payload }

/-- `Subscription` (`canadensis_udp/src/rx.rs` L261-265). The session tracker is a function from node IDs to sessions; insertion
can run out of memory. -/
structure Subscription where
  payloadSizeMax : Nat
  timeout : Duration
  sessions : NodeId16 → Option Session

/-- `Subscription::new` (`canadensis_udp/src/rx.rs` L272-278). -/
def Subscription.new (payloadSizeMax : Nat) (timeout : Duration) : Subscription :=
  { payloadSizeMax, timeout, sessions := fun _ => none }

/-- Result of a frame: nothing, a transfer, or `Err(OutOfMemoryError)` (`canadensis_udp/src/rx.rs` L66). -/
inductive Output where
  | nothing
  | transfer (t : UdpTransfer)
  | outOfMemory
deriving DecidableEq

/-- An active session without a buildup (`canadensis_udp/src/rx.rs` L313-317, L331-335). -/
def freshSession (header : TransportHeader) (now : Instant) : ActiveSession :=
  { time := now, transferId := header.transferId, buildup := none }

/-- The transfer ID check (`canadensis_udp/src/rx.rs` L319-342): `none` is the panic of the subtraction of instants, `some none`
a duplicate. -/
def Session.admit (s : Session) (timeout : Duration) (header : TransportHeader) (now : Instant) : Option (Option ActiveSession) :=
  match s with
  | .active a => some (some a)
  | .complete lastTime lastId =>
    match Instant.sub? now lastTime with
    | none => none
    | some age =>
      if lastId < header.transferId ∨ timeout < age then some (some (freshSession header now))
      else some none

/-- The rest of `handle_frame_non_anonymous` on an active session (`canadensis_udp/src/rx.rs` L343-365): what is left in the
session table for this node, and the result. -/
def ActiveSession.accept (oom : Bool) (a : ActiveSession) (header : TransportHeader) (bytes : List Byte) (maxLength : Nat) :
    Option Session × Output :=
  let p := a.handleFrame oom header bytes maxLength
  match p.2 with
  | .ok (some payload) =>
    (some (.complete p.1.time p.1.transferId), .transfer (convertResult payload header p.1.time))
  | .ok none => (some (.active p.1), .nothing)
  | .error _ => (none, .nothing)

/-- `handle_frame_non_anonymous` (`canadensis_udp/src/rx.rs` L305-366) as a step of the session of one node. `oomSession` tells
that a new session cannot be inserted, `oom` that payload memory cannot be reserved. -/
def sessionStep (oomSession oom : Bool) (maxLength : Nat) (timeout : Duration) (s : Option Session) (header : TransportHeader)
    (bytes : List Byte) (now : Instant) : Option (Option Session × Output) :=
  match s with
  | none =>
    if oomSession then some (none, .outOfMemory)
    else some ((freshSession header now).accept oom header bytes maxLength)
  | some s =>
    match s.admit timeout header now with
    | none => none
    | some none => some (some s, .nothing)
    | some (some a) => some (a.accept oom header bytes maxLength)

/-- Replaces the session of one node (session table insertion and removal, `canadensis_udp/src/rx.rs` L312-318, L348-351,
L362). -/
def Subscription.setSession (sub : Subscription) (source : NodeId16) (s : Option Session) : Subscription :=
  { sub with sessions := fun n => if n = source then s else sub.sessions n }

/-- The anonymous case of `handle_frame` (`canadensis_udp/src/rx.rs` L288-302). -/
def handleAnonymous (oom : Bool) (maxLength : Nat) (header : TransportHeader) (bytes : List Byte) (now : Instant) : Output :=
  match ((freshSession header now).handleFrame oom header bytes maxLength).2 with
  | .ok (some payload) => .transfer (convertResult payload header now)
  | .ok none => .nothing
  | .error .memory => .outOfMemory
  | .error _ => .nothing

/-- `handle_frame` (`canadensis_udp/src/rx.rs` L280-303). -/
def Subscription.handleFrame (oomSession oom : Bool) (sub : Subscription) (header : TransportHeader) (bytes : List Byte)
    (now : Instant) : Option (Subscription × Output) :=
  match header.dataSpecifier.source with
  | some source =>
    match sessionStep oomSession oom sub.payloadSizeMax sub.timeout (sub.sessions source) header bytes now with
    | none => none
    | some p => some (sub.setSession source p.1, p.2)
  | none => some (sub, handleAnonymous oom sub.payloadSizeMax header bytes now)

/-- `Subscriptions` (`canadensis_udp/src/rx/subscriptions.rs` L9-16): one map per kind of transfer. A `BTreeMap` is a list of
entries with different keys; ports are numbers. -/
structure Subscriptions where
  message : List (Nat × Subscription)
  request : List (Nat × Subscription)
  response : List (Nat × Subscription)

/-- `Subscriptions::new` (`canadensis_udp/src/rx/subscriptions.rs` L19-25). -/
def Subscriptions.new : Subscriptions := { message := [], request := [], response := [] }

/-- The map of one kind (field access in `canadensis_udp/src/rx/subscriptions.rs` L27-69). -/
def Subscriptions.get (s : Subscriptions) : Kind → List (Nat × Subscription)
  | .message => s.message
  | .request => s.request
  | .response => s.response

/-- Writing the map of one kind (field access in `canadensis_udp/src/rx/subscriptions.rs` L27-69). -/
def Subscriptions.set (s : Subscriptions) (k : Kind) (l : List (Nat × Subscription)) : Subscriptions :=
  match k with
  | .message => { s with message := l }
  | .request => { s with request := l }
  | .response => { s with response := l }

/-- `subscribe_message`, `subscribe_request`, `subscribe_response` (`canadensis_udp/src/rx/subscriptions.rs` L28-30, L36-38,
L44-46). -/
def Subscriptions.subscribe (s : Subscriptions) (k : Kind) (port : Nat) (sub : Subscription) : Subscriptions :=
  s.set k ((port, sub) :: (s.get k).filter (fun e => e.1 != port))

/-- `unsubscribe_message`, `unsubscribe_request`, `unsubscribe_response` (`canadensis_udp/src/rx/subscriptions.rs` L32-34, L40-42,
L48-50). -/
def Subscriptions.unsubscribe (s : Subscriptions) (k : Kind) (port : Nat) : Subscriptions :=
  s.set k ((s.get k).filter (fun e => e.1 != port))

/-- `find_message_subscription_mut` etc., reading (`canadensis_udp/src/rx/subscriptions.rs` L52-69). -/
def Subscriptions.find (s : Subscriptions) (k : Kind) (port : Nat) : Option Subscription :=
  ((s.get k).find? (fun e => e.1 == port)).map (·.2)

/-- Writing through `find_message_subscription_mut` etc. (`canadensis_udp/src/rx/subscriptions.rs` L52-69). -/
def Subscriptions.store (s : Subscriptions) (k : Kind) (port : Nat) (sub : Subscription) : Subscriptions :=
  s.set k ((s.get k).map (fun e => if e.1 == port then (port, sub) else e))

/-- `any_service_subscriptions` (`canadensis_udp/src/rx/subscriptions.rs` L72-74). -/
def Subscriptions.anyService (s : Subscriptions) : Bool := !(s.request.isEmpty && s.response.isEmpty)

/-- `UdpReceiver` (`canadensis_udp/src/rx.rs` L27-36). The local address is only passed on to the socket. -/
structure Receiver where
  subscriptions : Subscriptions
  nodeId : Option NodeId16

/-- `UdpReceiver::new` (`canadensis_udp/src/rx.rs` L44-53). -/
def Receiver.new (nodeId : Option NodeId16) : Receiver := { subscriptions := .new, nodeId }

/-- The kind of a header's data specifier (the `match` in `canadensis_udp/src/rx.rs` L87-121). -/
def specifierKind : DataSpecifier → Kind
  | .subject _ _ => .message
  | .request _ _ _ => .request
  | .response _ _ _ => .response

/-- The port of a header's data specifier (the `match` in `canadensis_udp/src/rx.rs` L87-121). -/
def specifierPort : DataSpecifier → Nat
  | .subject _ subject => subject.toNat
  | .request _ _ service => service.toNat
  | .response _ _ service => service.toNat

/-- `RawHeader::read_from_prefix` and `Header::try_from` (`canadensis_udp/src/rx.rs` L77-79). -/
def readHeader (buffer : List Byte) : Option TransportHeader :=
  (RawHeader.fromBytes (buffer.take Verif.Hdr.size)).bind TransportHeader.tryFrom

/-- A datagram that `recv` returns (`canadensis_udp/src/rx.rs` L67-72), with the clock reading after it and the behaviour of the
allocator. -/
structure Packet where
  data : List Byte
  now : Instant
  oomSession : Bool
  oom : Bool
deriving DecidableEq

/-- `accept_inner` after `recv` (`canadensis_udp/src/rx.rs` L62-123). The socket writes at most `mtu` bytes into the buffer;
longer datagrams are cut. -/
def Receiver.acceptInner (mtu : Nat) (r : Receiver) (p : Packet) : Option (Receiver × Output) :=
  let buffer := p.data.take mtu
  if buffer.length < minPacketSize then some (r, .nothing)
  else
    match readHeader buffer with
    | none => some (r, .nothing)
    | some header =>
      let k := specifierKind header.dataSpecifier
      let port := specifierPort header.dataSpecifier
      match r.subscriptions.find k port with
      | none => some (r, .nothing)
      | some sub =>
        match sub.handleFrame p.oomSession p.oom header (buffer.drop Verif.Hdr.size) p.now with
        | none => none
        | some q => some ({ r with subscriptions := r.subscriptions.store k port q.1 }, q.2)

/-- What `recv` of the socket returns (`canadensis_udp/src/driver.rs` L44-48). -/
inductive Input (E : Type) where
  | packet (p : Packet)
  | wouldBlock
  | error (e : E)

/-- What `receive` returns (`canadensis_udp/src/rx.rs` L162-166). -/
inductive Received (E : Type) where
  | nothing
  | transfer (t : UdpTransfer)
  | outOfMemory
  | socket (e : E)

/-- `receive` (`canadensis_udp/src/rx.rs` L162-180). The list is what the socket will return; its end is `WouldBlock`. The rest of
the list is left for the next call. -/
def Receiver.receive {E : Type} (mtu : Nat) (r : Receiver) : List (Input E) → Option (Receiver × Received E × List (Input E))
  | [] => some (r, .nothing, [])
  | .wouldBlock :: rest => some (r, .nothing, rest)
  | .error e :: rest => some (r, .socket e, rest)
  | .packet p :: rest =>
    match r.acceptInner mtu p with
    | none => none
    | some (r, .transfer t) => some (r, .transfer t, rest)
    | some (r, .outOfMemory) => some (r, .outOfMemory, rest)
    | some (r, .nothing) => r.receive mtu rest

/-! ### Subscriptions and multicast groups -/

/-- The groups that a socket is a member of. `fails` tells that the next operation fails and changes nothing
(`join_multicast_v4`, `leave_multicast_v4`, `canadensis_udp/src/driver.rs` L18-37). -/
abbrev Groups := BitVec 32 → Bool

/-- `join_multicast_v4` (`canadensis_udp/src/driver.rs` L18-27). -/
def Groups.join (g : Groups) (ip : BitVec 32) : Groups := fun a => if a = ip then true else g a

/-- `leave_multicast_v4` (`canadensis_udp/src/driver.rs` L28-37). -/
def Groups.leave (g : Groups) (ip : BitVec 32) : Groups := fun a => if a = ip then false else g a

/-- Result of a subscribe call (`canadensis_udp/src/rx.rs` L188, L208). -/
inductive Subscribed where
  | ok | socketError | anonymous
deriving DecidableEq

/-- `subscribe_message` (`canadensis_udp/src/rx.rs` L182-195). -/
def Receiver.subscribeMessage (fails : Bool) (r : Receiver) (g : Groups) (subject : SubjectId) (payloadSizeMax : Nat)
    (timeout : Duration) : Receiver × Groups × Subscribed :=
  if fails then (r, g, .socketError)
  else
    ({ r with subscriptions := r.subscriptions.subscribe .message subject.toNat (Subscription.new payloadSizeMax timeout) },
      g.join (Address.multicast subject).toIp, .ok)

/-- `unsubscribe_message` (`canadensis_udp/src/rx.rs` L197-200). -/
def Receiver.unsubscribeMessage (fails : Bool) (r : Receiver) (g : Groups) (subject : SubjectId) : Receiver × Groups :=
  ({ r with subscriptions := r.subscriptions.unsubscribe .message subject.toNat },
    if fails then g else g.leave (Address.multicast subject).toIp)

/-- `service_subscribe_check_multicast` (`canadensis_udp/src/rx.rs` L127-136); `none` is a socket error. -/
def Receiver.serviceSubscribeCheck (fails : Bool) (r : Receiver) (g : Groups) : Option Groups :=
  match r.nodeId with
  | some id =>
    if !r.subscriptions.anyService then
      if fails then none else some (g.join (Address.node id).toIp)
    else some g
  | none => some g

/-- `service_unsubscribe_check_multicast` (`canadensis_udp/src/rx.rs` L140-149); the callers ignore an error. -/
def Receiver.serviceUnsubscribeCheck (fails : Bool) (r : Receiver) (g : Groups) : Groups :=
  match r.nodeId with
  | some id =>
    if !r.subscriptions.anyService then
      if fails then g else g.leave (Address.node id).toIp
    else g
  | none => g

/-- `subscribe_request` and `subscribe_response` (`canadensis_udp/src/rx.rs` L202-218, L225-241). -/
def Receiver.subscribeService (fails : Bool) (r : Receiver) (g : Groups) (k : Kind) (service : ServiceId) (payloadSizeMax : Nat)
    (timeout : Duration) : Receiver × Groups × Subscribed :=
  match r.serviceSubscribeCheck fails g with
  | none => (r, g, .socketError)
  | some g =>
    if r.nodeId.isSome then
      ({ r with subscriptions := r.subscriptions.subscribe k service.toNat (Subscription.new payloadSizeMax timeout) }, g, .ok)
    else (r, g, .anonymous)

/-- `unsubscribe_request` and `unsubscribe_response` (`canadensis_udp/src/rx.rs` L220-223, L243-246). -/
def Receiver.unsubscribeService (fails : Bool) (r : Receiver) (g : Groups) (k : Kind) (service : ServiceId) : Receiver × Groups :=
  let r := { r with subscriptions := r.subscriptions.unsubscribe k service.toNat }
  (r, r.serviceUnsubscribeCheck fails g)

/-- `set_id` (`canadensis_udp/src/rx.rs` L248-250). -/
def Receiver.setId (r : Receiver) (id : Option NodeId16) : Receiver := { r with nodeId := id }

end Verif.Udp
