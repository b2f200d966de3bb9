import Verif.Core.Transfer
import Verif.Enc.Model
import Verif.Can.IdModel
import Verif.Can.TidModel

/-!
Nodes: `canadensis/src/{publisher,requester,anonymous,serialize}.rs`, `canadensis/src/node/core.rs` and the handler chain of
`canadensis/src/lib.rs`.

The clock, the allocator, the transmitter and the receiver are environment: what they answer during one call is the record `Env` given to
that call, and what the node asks of them is part of the result (`Out`). A theorem about every history of calls quantifies over all answers.
A Rust panic is the answer `panic`.
-/

namespace Verif.Node

open Verif.Enc

/-! ### Transfer IDs -/

/-- What the node uses of `Transport` and `TransferId` (`canadensis_core/src/transport.rs` L15-30, L205-212): the default transfer ID and
`increment`. -/
structure TidOps (Tid : Type) where
  dflt : Tid
  increment : Tid → Tid

/-- The Cyphal/CAN transfer ID: `CanTransferId` (`canadensis_can/src/types.rs` L132-161; `Default` is 0). -/
def canTid : TidOps (BitVec 5) := ⟨0#5, Can.Tid.increment⟩

/-- The transfer ID of the serial and UDP transports: `TransferId64` (`canadensis_header/src/lib.rs` L400-411; `increment` is
`wrapping_add(1)`). -/
def tid64 : TidOps (BitVec 64) := ⟨0#64, fun t => t + 1#64⟩

/-- `TransferIdTracker` (`canadensis_core/src/lib.rs` L296-303): the default tracker and `next_transfer_id`, where `none` is
`OutOfMemoryError`. -/
structure TrackerOps (N Tid Trk : Type) where
  dflt : Trk
  next : Trk → N → Option Tid × Trk

/-! ### Bounded maps -/

/-- `heapless::FnvIndexMap` with a capacity, as a list of entries with different keys. Not in /repo (dependency). Removal keeps the order of
the other entries here and swaps in the last one there; only the iterators `publishers()` and `clients()` could show the difference. -/
abbrev IMap (K V : Type) := List (K × V)

namespace IMap
variable {K V : Type} [DecidableEq K]

/-- `FnvIndexMap::get`. Not in /repo (dependency). -/
def get? (m : IMap K V) (k : K) : Option V := (m.find? fun e => e.1 = k).map Prod.snd

/-- `FnvIndexMap::contains_key`. Not in /repo (dependency). -/
def contains (m : IMap K V) (k : K) : Bool := m.any fun e => e.1 = k

/-- Assignment through `FnvIndexMap::get_mut`. Not in /repo (dependency). -/
def put (m : IMap K V) (k : K) (v : V) : IMap K V := m.map fun e => if e.1 = k then (k, v) else e

/-- `FnvIndexMap::insert`: replaces the value of a key that is there, otherwise adds an entry; `none` is the error of a full map. Not in
/repo (dependency). -/
def insert (m : IMap K V) (cap : Nat) (k : K) (v : V) : Option (IMap K V) :=
  if m.contains k then some (m.put k v) else if m.length < cap then some (m ++ [(k, v)]) else none

/-- `FnvIndexMap::remove`. Not in /repo (dependency). -/
def remove (m : IMap K V) (k : K) : IMap K V := m.filter fun e => ¬ e.1 = k

end IMap

/-- `TransferIdFixedMap::next_transfer_id` (`canadensis/src/requester.rs` L157-175) with capacity `cap`. -/
def fixedMapNext {N Tid : Type} [DecidableEq N] (ops : TidOps Tid) (cap : Nat) (m : IMap N Tid) (destination : N) : Option Tid × IMap N Tid :=
  match m.get? destination with
  | some current => (some current, m.put destination (ops.increment current))
  | none =>
    match m.insert cap destination (ops.increment ops.dflt) with
    | some m' => (some ops.dflt, m')
    | none => (none, m)

/-- `TransferIdFixedMap` as a tracker (`canadensis/src/requester.rs` L137-175). -/
def fixedMapTracker {N Tid : Type} [DecidableEq N] (ops : TidOps Tid) (cap : Nat) : TrackerOps N Tid (IMap N Tid) :=
  ⟨[], fixedMapNext ops cap⟩

/-- `CanTransferIdTracker` as a tracker (`canadensis_can/src/lib.rs` L98-127, modelled in `Verif.Can.TidModel`). That model gives `none` for a
panic; `Verif.Can.C16_transfer_ids_count_per_destination` shows that there is none, so the second case is not reached. -/
def canTracker : TrackerOps (BitVec 7) (BitVec 5) Can.CanTransferIdTracker :=
  ⟨.default, fun t d => match t.nextTransferId d with | some (t', id) => (some id, t') | none => (none, t)⟩

/-! ### Serializing a payload -/

/-- A value of a type that implements `Serialize`, as the node uses it (`canadensis_encoding/src/lib.rs` L26-44): `size_bits()` and
`serialize(cursor)`, where `none` is a panic. -/
structure Payload where
  sizeBits : Nat
  serialize : WriteCursor → Option WriteCursor

/-- The value `v` of a type with serializer `w` as a payload (`canadensis_encoding/src/lib.rs` L26-44). -/
def Payload.of {α : Type} (w : Writer α) (v : α) : Payload := ⟨w.sizeBits v, w.serialize v⟩

/-- What `do_serialize` does with its closure (`canadensis/src/serialize.rs` L11-30): the closure is called with the bytes, or the allocation
failed, or `serialize` panicked. -/
inductive Serialized where
  | bytes (b : List Byte)
  | outOfMemory
  | panic
deriving DecidableEq

/-- `do_serialize` (`canadensis/src/serialize.rs` L11-30). `alloc` is whether an allocation of the buffer succeeds; payloads of at most 64
bytes use the stack. -/
def doSerialize (p : Payload) (alloc : Bool) : Serialized :=
  let payloadBytes := (p.sizeBits + 7) / 8
  if payloadBytes > 64 then
    if alloc then
      match p.serialize (WriteCursor.new (List.replicate payloadBytes 0)) with
      | some c => .bytes c.bytes
      | none => .panic
    else .outOfMemory
  else
    match p.serialize (WriteCursor.new ((List.replicate 64 0).take payloadBytes)) with
    | some c => .bytes c.bytes
    | none => .panic

/-! ### Environment and answers -/

/-- What `Transmitter::push` answers (`canadensis_core/src/transport.rs` L46-57). -/
inductive Push (E : Type) where
  | ok | wouldBlock | error (e : E)
deriving DecidableEq

/-- What a subscribe function of the receiver answers (`canadensis_core/src/transport.rs` L82-203; `ServiceSubscribeError`,
`canadensis_core/src/error.rs` L20-26). -/
inductive Subscribed (E : Type) where
  | ok | anonymous | error (e : E)
deriving DecidableEq

/-- What the environment does during one call of a node function: the time, whether an allocation succeeds, what the transmitter answers to
a pushed transfer, what the receiver answers to a subscription, and what the error type makes of an `OutOfMemoryError`. -/
structure Env (E : Type) where
  now : Instant
  alloc : Bool
  push : Push E
  subscribed : Subscribed E
  oom : E

/-- What a node function returns. One type for all of them: `ok` is `Ok(())` or nothing, `token` is `Ok(ServiceToken)`, `sent t` is
`Ok(transfer_id)`, the others are the errors of `PublishError` and `StartSendError` (`canadensis/src/lib.rs` L534-569), `nb::Error` and a
panic. -/
inductive Answer (Tid E : Type) where
  | ok | token | sent (t : Tid)
  | notPublishing | wouldBlock | transport (e : E)
  | duplicate | memory | anonymous
  | panic
deriving DecidableEq

/-- What a node asks of its receiver (`canadensis_core/src/transport.rs` L82-203). -/
inductive RxCall (N : Type) where
  | subscribeMessage (subject : SubjectId) (extent : Nat) (timeout : Duration)
  | unsubscribeMessage (subject : SubjectId)
  | subscribeRequest (service : ServiceId) (extent : Nat) (timeout : Duration)
  | unsubscribeRequest (service : ServiceId)
  | subscribeResponse (service : ServiceId) (extent : Nat) (timeout : Duration)
  | setId (id : N)
deriving DecidableEq

/-- The result of `transmitter.push` as the node functions that return nothing report it (`canadensis/src/node/core.rs` L246-256). -/
def Push.answer {Tid E : Type} : Push E → Answer Tid E
  | .ok => .ok
  | .wouldBlock => .wouldBlock
  | .error e => .transport e

/-! ### Publishers and requesters -/

/-- `Publisher` (`canadensis/src/publisher.rs` L11-18). -/
structure Publisher (Tid : Type) where
  nextTransferId : Tid
  timeout : Duration
  priority : Priority
deriving DecidableEq

/-- `Publisher::new` (`canadensis/src/publisher.rs` L22-33). -/
def Publisher.new {Tid : Type} (ops : TidOps Tid) (timeout : Duration) (priority : Priority) : Publisher Tid := ⟨ops.dflt, timeout, priority⟩

/-- `Publisher::publish`, `publish_loopback` and `send_payload` (`canadensis/src/publisher.rs` L36-122): the answer, the publisher afterwards
and what was handed to the transmitter. -/
def Publisher.publish {N Tid E : Type} (ops : TidOps Tid) (p : Publisher Tid) (env : Env E) (source : Option N) (subject : SubjectId)
    (payload : Payload) (loopback : Bool) : Answer Tid E × Publisher Tid × List (Transfer N Tid) :=
  let deadline := env.now.plus p.timeout
  match doSerialize payload env.alloc with
  | .outOfMemory => (.transport env.oom, p, [])
  | .panic => (.panic, p, [])
  | .bytes b =>
    let header : MessageHeader N Tid := ⟨deadline, p.nextTransferId, p.priority, subject, source⟩
    (env.push.answer, { p with nextTransferId := ops.increment p.nextTransferId }, [⟨.message header, loopback, b⟩])

/-- `Requester` (`canadensis/src/requester.rs` L14-21). -/
structure Requester (Trk : Type) where
  priority : Priority
  timeout : Duration
  transferIds : Trk
deriving DecidableEq

/-- `Requester::new` (`canadensis/src/requester.rs` L24-39). -/
def Requester.new {N Tid Trk : Type} (tops : TrackerOps N Tid Trk) (timeout : Duration) (priority : Priority) : Requester Trk :=
  ⟨priority, timeout, tops.dflt⟩

/-- `Requester::send`, `send_loopback` and `send_payload` (`canadensis/src/requester.rs` L41-134). -/
def Requester.send {N Tid Trk E : Type} (tops : TrackerOps N Tid Trk) (r : Requester Trk) (env : Env E) (source : N) (service : ServiceId)
    (payload : Payload) (destination : N) (loopback : Bool) : Answer Tid E × Requester Trk × List (Transfer N Tid) :=
  let deadline := env.now.plus r.timeout
  match doSerialize payload env.alloc with
  | .outOfMemory => (.transport env.oom, r, [])
  | .panic => (.panic, r, [])
  | .bytes b =>
    match tops.next r.transferIds destination with
    | (none, trk) => (.transport env.oom, { r with transferIds := trk }, [])
    | (some id, trk) =>
      let header : ServiceHeader N Tid := ⟨deadline, id, r.priority, service, source, destination⟩
      (match env.push with | .ok => .sent id | .wouldBlock => .wouldBlock | .error e => .transport e,
        { r with transferIds := trk }, [⟨.request header, loopback, b⟩])

/-- `AnonymousPublisher` (`canadensis/src/anonymous.rs` L20-32). -/
structure AnonymousPublisher (Tid : Type) where
  priority : Priority
  subject : SubjectId
  nextTransferId : Tid
  timeout : Duration
deriving DecidableEq

/-- `AnonymousPublisher::new` (`canadensis/src/anonymous.rs` L40-53). -/
def AnonymousPublisher.new {Tid : Type} (ops : TidOps Tid) (subject : SubjectId) (priority : Priority) (timeout : Duration) :
    AnonymousPublisher Tid := ⟨priority, subject, ops.dflt, timeout⟩

/-- What `AnonymousPublisher::send` returns: `AnonymousPublishError::Length` or the answer of the transmitter
(`canadensis/src/anonymous.rs` L136-146). -/
inductive AnonymousAnswer (Tid E : Type) where
  | length
  | other (a : Answer Tid E)
deriving DecidableEq

/-- `AnonymousPublisher::send`, `send_loopback`, `send_inner` and `send_payload` (`canadensis/src/anonymous.rs` L55-134), with a
transmitter whose `mtu()` is `mtu`. -/
def AnonymousPublisher.send {N Tid E : Type} (ops : TidOps Tid) (p : AnonymousPublisher Tid) (mtu : Nat) (env : Env E) (payload : Payload)
    (loopback : Bool) : AnonymousAnswer Tid E × AnonymousPublisher Tid × List (Transfer N Tid) :=
  if (payload.sizeBits + 7) / 8 > mtu then (.length, p, [])
  else
    let deadline := env.now.plus p.timeout
    match doSerialize payload env.alloc with
    | .outOfMemory => (.other (.transport env.oom), p, [])
    | .panic => (.other .panic, p, [])
    | .bytes b =>
      let header : MessageHeader N Tid := ⟨deadline, p.nextTransferId, p.priority, p.subject, none⟩
      (.other env.push.answer, { p with nextTransferId := ops.increment p.nextTransferId }, [⟨.message header, loopback, b⟩])

/-! ### The core node -/

/-- `CoreNode` (`canadensis/src/node/core.rs` L31-50) without its clock, transmitter, receiver and driver, which are environment. `pubCap` and
`reqCap` are the const parameters `P` and `R`. -/
structure CoreNode (N Tid Trk : Type) where
  nodeId : Option N
  publishers : IMap SubjectId (Publisher Tid)
  requesters : IMap ServiceId (Requester Trk)
  pubCap : Nat
  reqCap : Nat

/-- `ResponseToken` (`canadensis/src/lib.rs` L49-59). -/
structure ResponseToken (N Tid : Type) where
  service : ServiceId
  client : N
  transfer : Tid
  priority : Priority
deriving DecidableEq

/-- The result of a call: what it returned, the node afterwards, what it handed to the transmitter and what it asked of the receiver. -/
structure Out (N Tid Trk E : Type) where
  answer : Answer Tid E
  node : CoreNode N Tid Trk
  sent : List (Transfer N Tid) := []
  rx : List (RxCall N) := []

namespace CoreNode
variable {N Tid Trk E : Type}

/-- `CoreNode::new`, `new_anonymous` and `new_inner` (`canadensis/src/node/core.rs` L61-104). -/
def new (nodeId : Option N) (pubCap reqCap : Nat) : CoreNode N Tid Trk := ⟨nodeId, [], [], pubCap, reqCap⟩

/-- `CoreNode::start_publishing` (`canadensis/src/node/core.rs` L211-225). -/
def startPublishing (ops : TidOps Tid) (n : CoreNode N Tid Trk) (subject : SubjectId) (timeout : Duration) (priority : Priority) :
    Out N Tid Trk E :=
  if n.publishers.contains subject then ⟨.duplicate, n, [], []⟩
  else
    match n.publishers.insert n.pubCap subject (Publisher.new ops timeout priority) with
    | some m => ⟨.ok, { n with publishers := m }, [], []⟩
    | none => ⟨.memory, n, [], []⟩

/-- `CoreNode::stop_publishing` (`canadensis/src/node/core.rs` L227-229). -/
def stopPublishing (n : CoreNode N Tid Trk) (subject : SubjectId) : Out N Tid Trk E :=
  ⟨.ok, { n with publishers := n.publishers.remove subject }, [], []⟩

/-- `CoreNode::publish` and `publish_loopback` (`canadensis/src/node/core.rs` L231-284). -/
def publish (ops : TidOps Tid) (n : CoreNode N Tid Trk) (env : Env E) (subject : SubjectId) (payload : Payload) (loopback : Bool) :
    Out N Tid Trk E :=
  match n.publishers.get? subject with
  | none => ⟨.notPublishing, n, [], []⟩
  | some p =>
    let r := p.publish ops env n.nodeId subject payload loopback
    ⟨r.1, { n with publishers := n.publishers.put subject r.2.1 }, r.2.2, []⟩

/-- `CoreNode::start_sending_requests` (`canadensis/src/node/core.rs` L285-325). -/
def startSendingRequests (tops : TrackerOps N Tid Trk) (n : CoreNode N Tid Trk) (env : Env E) (service : ServiceId) (timeout : Duration)
    (extent : Nat) (priority : Priority) : Out N Tid Trk E :=
  match n.nodeId with
  | none => ⟨.anonymous, n, [], []⟩
  | some _ =>
    if n.requesters.contains service then ⟨.duplicate, n, [], []⟩
    else
      match n.requesters.insert n.reqCap service (Requester.new tops timeout priority) with
      | none => ⟨.memory, n, [], []⟩
      | some m =>
        let call : List (RxCall N) := [.subscribeResponse service extent timeout]
        match env.subscribed with
        | .ok => ⟨.token, { n with requesters := m }, [], call⟩
        | .error e => ⟨.transport e, { n with requesters := IMap.remove m service }, [], call⟩
        | .anonymous => ⟨.anonymous, { n with requesters := IMap.remove m service }, [], call⟩

/-- `CoreNode::stop_sending_requests` (`canadensis/src/node/core.rs` L327-332): the receiver keeps its subscription to the responses. -/
def stopSendingRequests (n : CoreNode N Tid Trk) (service : ServiceId) : Out N Tid Trk E :=
  ⟨.ok, { n with requesters := n.requesters.remove service }, [], []⟩

/-- `CoreNode::send_request` and `send_request_loopback` (`canadensis/src/node/core.rs` L334-383). The token is its service ID
(`canadensis/src/lib.rs` L548). -/
def sendRequest (tops : TrackerOps N Tid Trk) (n : CoreNode N Tid Trk) (env : Env E) (service : ServiceId) (payload : Payload)
    (destination : N) (loopback : Bool) : Out N Tid Trk E :=
  match n.requesters.get? service with
  | none => ⟨.panic, n, [], []⟩
  | some r =>
    match n.nodeId with
    | none => ⟨.panic, n, [], []⟩
    | some id =>
      let s := r.send tops env id service payload destination loopback
      ⟨s.1, { n with requesters := n.requesters.put service s.2.1 }, s.2.2, []⟩

/-- `CoreNode::subscribe_message` (`canadensis/src/node/core.rs` L385-393). A message subscription has no `Anonymous` error; the model gives
`anonymous` for it if the environment says so. -/
def subscribeMessage (n : CoreNode N Tid Trk) (env : Env E) (subject : SubjectId) (extent : Nat) (timeout : Duration) : Out N Tid Trk E :=
  ⟨match env.subscribed with | .ok => .ok | .error e => .transport e | .anonymous => .anonymous, n, [],
    [.subscribeMessage subject extent timeout]⟩

/-- `CoreNode::unsubscribe_message` (`canadensis/src/node/core.rs` L395-397). -/
def unsubscribeMessage (n : CoreNode N Tid Trk) (subject : SubjectId) : Out N Tid Trk E := ⟨.ok, n, [], [.unsubscribeMessage subject]⟩

/-- `CoreNode::subscribe_request` (`canadensis/src/node/core.rs` L399-407). -/
def subscribeRequest (n : CoreNode N Tid Trk) (env : Env E) (service : ServiceId) (extent : Nat) (timeout : Duration) : Out N Tid Trk E :=
  ⟨match env.subscribed with | .ok => .ok | .error e => .transport e | .anonymous => .anonymous, n, [],
    [.subscribeRequest service extent timeout]⟩

/-- `CoreNode::unsubscribe_request` (`canadensis/src/node/core.rs` L409-411). -/
def unsubscribeRequest (n : CoreNode N Tid Trk) (service : ServiceId) : Out N Tid Trk E := ⟨.ok, n, [], [.unsubscribeRequest service]⟩

/-- `CoreNode::send_response` and `send_response_payload` (`canadensis/src/node/core.rs` L161-182, L413-427). -/
def sendResponse (n : CoreNode N Tid Trk) (env : Env E) (token : ResponseToken N Tid) (timeout : Duration) (payload : Payload) :
    Out N Tid Trk E :=
  let deadline := env.now.plus timeout
  match doSerialize payload env.alloc with
  | .outOfMemory => ⟨.transport env.oom, n, [], []⟩
  | .panic => ⟨.panic, n, [], []⟩
  | .bytes b =>
    match n.nodeId with
    | none => ⟨.panic, n, [], []⟩
    | some id =>
      let header : ServiceHeader N Tid := ⟨deadline, token.transfer, token.priority, token.service, id, token.client⟩
      ⟨env.push.answer, n, [⟨.response header, false, b⟩], []⟩

/-- `CoreNode::set_node_id` (`canadensis/src/node/core.rs` L461-464). -/
def setNodeId (n : CoreNode N Tid Trk) (id : N) : Out N Tid Trk E := ⟨.ok, { n with nodeId := some id }, [], [.setId id]⟩

end CoreNode

/-- A call of one of the functions of a node (`Node`, `canadensis/src/lib.rs` L335-532; the model's `Op` has no counterpart in /repo), with
what the environment did during it. `flush`, `receive` and the accessors do not change the state modelled here. -/
inductive Op (N Tid E : Type) where
  | startPublishing (env : Env E) (subject : SubjectId) (timeout : Duration) (priority : Priority)
  | stopPublishing (env : Env E) (subject : SubjectId)
  | publish (env : Env E) (subject : SubjectId) (payload : Payload) (loopback : Bool)
  | startSendingRequests (env : Env E) (service : ServiceId) (timeout : Duration) (extent : Nat) (priority : Priority)
  | stopSendingRequests (env : Env E) (service : ServiceId)
  | sendRequest (env : Env E) (service : ServiceId) (payload : Payload) (destination : N) (loopback : Bool)
  | subscribeMessage (env : Env E) (subject : SubjectId) (extent : Nat) (timeout : Duration)
  | unsubscribeMessage (env : Env E) (subject : SubjectId)
  | subscribeRequest (env : Env E) (service : ServiceId) (extent : Nat) (timeout : Duration)
  | unsubscribeRequest (env : Env E) (service : ServiceId)
  | sendResponse (env : Env E) (token : ResponseToken N Tid) (timeout : Duration) (payload : Payload)
  | setNodeId (env : Env E) (id : N)

namespace CoreNode
variable {N Tid Trk E : Type}

/-- One call of a node function (`canadensis/src/node/core.rs` L184-481). -/
def step (ops : TidOps Tid) (tops : TrackerOps N Tid Trk) (n : CoreNode N Tid Trk) : Op N Tid E → Out N Tid Trk E
  | .startPublishing _ s t p => n.startPublishing ops s t p
  | .stopPublishing _ s => n.stopPublishing s
  | .publish env s p l => n.publish ops env s p l
  | .startSendingRequests env s t x p => n.startSendingRequests tops env s t x p
  | .stopSendingRequests _ s => n.stopSendingRequests s
  | .sendRequest env s p d l => n.sendRequest tops env s p d l
  | .subscribeMessage env s x t => n.subscribeMessage env s x t
  | .unsubscribeMessage _ s => n.unsubscribeMessage s
  | .subscribeRequest env s x t => n.subscribeRequest env s x t
  | .unsubscribeRequest _ s => n.unsubscribeRequest s
  | .sendResponse env k t p => n.sendResponse env k t p
  | .setNodeId _ id => n.setNodeId id

/-- A history of calls: the results in order and the node afterwards (no counterpart in /repo: the caller's program). -/
def run (ops : TidOps Tid) (tops : TrackerOps N Tid Trk) : CoreNode N Tid Trk → List (Op N Tid E) → List (Out N Tid Trk E) × CoreNode N Tid Trk
  | n, [] => ([], n)
  | n, op :: rest =>
    let o := n.step ops tops op
    let r := run ops tops o.node rest
    (o :: r.1, r.2)

end CoreNode

/-! ### Receiving -/

/-- `TransferHandler` (`canadensis/src/lib.rs` L112-188): four functions that may use the node, of type `ν` here, and say whether they handled
the transfer. `σ` is the handler's own state. A message handler gets a `MessageTransfer`, which is a transfer with a message header, and so
on; here the header and the payload are two arguments (the `loopback` flag in them is always false, `canadensis/src/node/core.rs` L125-160). -/
structure Handler (σ ν N Tid : Type) where
  message : σ → ν → MessageHeader N Tid → List Byte → Bool × σ × ν
  request : σ → ν → ResponseToken N Tid → ServiceHeader N Tid → List Byte → Bool × σ × ν
  response : σ → ν → ServiceHeader N Tid → List Byte → Bool × σ × ν
  loopback : σ → ν → Transfer N Tid → Bool × σ × ν

/-- `TransferHandlerChain` (`canadensis/src/lib.rs` L237-333). -/
def Handler.chain {σ₀ σ₁ ν N Tid : Type} (h₀ : Handler σ₀ ν N Tid) (h₁ : Handler σ₁ ν N Tid) : Handler (σ₀ × σ₁) ν N Tid where
  message s n h b :=
    let r := h₀.message s.1 n h b
    if r.1 then (true, (r.2.1, s.2), r.2.2) else let q := h₁.message s.2 r.2.2 h b; (q.1, (r.2.1, q.2.1), q.2.2)
  request s n t h b :=
    let r := h₀.request s.1 n t h b
    if r.1 then (true, (r.2.1, s.2), r.2.2) else let q := h₁.request s.2 r.2.2 t h b; (q.1, (r.2.1, q.2.1), q.2.2)
  response s n h b :=
    let r := h₀.response s.1 n h b
    if r.1 then (true, (r.2.1, s.2), r.2.2) else let q := h₁.response s.2 r.2.2 h b; (q.1, (r.2.1, q.2.1), q.2.2)
  loopback s n t :=
    let r := h₀.loopback s.1 n t
    if r.1 then (true, (r.2.1, s.2), r.2.2) else let q := h₁.loopback s.2 r.2.2 t; (q.1, (r.2.1, q.2.1), q.2.2)

/-- `CoreNode::handle_incoming_transfer` (`canadensis/src/node/core.rs` L114-159). The result of the handler is not used there; it is kept
here to state the properties of handler chains. -/
def handleIncoming {σ ν N Tid : Type} (h : Handler σ ν N Tid) (s : σ) (n : ν) (t : Transfer N Tid) : Bool × σ × ν :=
  if t.loopback then h.loopback s n t
  else
    match t.header with
    | .message m => h.message s n m t.payload
    | .request q => h.request s n ⟨q.service, q.source, q.transferId, q.priority⟩ q t.payload
    | .response q => h.response s n q t.payload

/-- What the receiver answers to one call of `receive` (`canadensis_core/src/transport.rs` L100-117). -/
inductive Received (N Tid E : Type) where
  | transfer (t : Transfer N Tid)
  | nothing
  | error (e : E)

/-- `CoreNode::receive` (`canadensis/src/node/core.rs` L197-209). The receiver answers with the list `rs`, one element per call; a list that
ends without `nothing` or an error stands for a run that has not finished (`none` as the result). -/
def receive {σ ν N Tid E : Type} (h : Handler σ ν N Tid) : σ → ν → List (Received N Tid E) → Option (Option E) × σ × ν
  | s, n, [] => (none, s, n)
  | s, n, .nothing :: _ => (some none, s, n)
  | s, n, .error e :: _ => (some (some e), s, n)
  | s, n, .transfer t :: rest =>
    let r := handleIncoming h s n t
    receive h r.2.1 r.2.2 rest

end Verif.Node
