import Verif.App.Types

/-!
Nodes with application-layer functions: `canadensis/src/node/{minimal,basic}.rs` and `canadensis/src/service/{heartbeat,port_list,get_info}.rs`.

The node inside a `MinimalNode` or a `BasicNode` can be of any type that implements `Node`; here it is a `CoreNode` (`Verif.Node.Model`). As there,
each call is given what the environment does during it, a panic is the answer `panic` (or `none`), and a theorem quantifies over all environments.
-/

namespace Verif.App

open Verif.Enc Verif.Node

variable {N Tid Trk E : Type}

/-! ### Heartbeats -/

/-- The heartbeat of a new node (canadensis/src/node/minimal.rs L39-48, canadensis/src/service/heartbeat.rs L27-36). -/
def Heartbeat.initial : Heartbeat := ⟨0, 0, 0, 0⟩

/-- `self.heartbeat.uptime.saturating_add(1)` (canadensis/src/node/minimal.rs L76, canadensis/src/service/heartbeat.rs L64). -/
def Heartbeat.tick (h : Heartbeat) : Heartbeat := { h with uptime := if h.uptime = BitVec.allOnes 32 then h.uptime else h.uptime + 1#32 }

/-- `MinimalNode` (canadensis/src/node/minimal.rs L18-26). -/
structure MinimalNode (N Tid Trk : Type) where
  node : CoreNode N Tid Trk
  heartbeat : Heartbeat

/-- `MinimalNode::new` (canadensis/src/node/minimal.rs L35-58): the answer, and the node if it is `ok`. -/
def MinimalNode.new (ops : TidOps Tid) (node : CoreNode N Tid Trk) : Answer Tid E × Option (MinimalNode N Tid Trk) :=
  let o : Out N Tid Trk E := node.startPublishing ops heartbeatSubject (BitVec.ofNat 32 500000) nominal
  match o.answer with
  | .ok => (.ok, some ⟨o.node, Heartbeat.initial⟩)
  | a => (a, none)

/-- `MinimalNode::run_per_second_tasks` and `send_heartbeat` (canadensis/src/node/minimal.rs L66-78): the answer, the node afterwards and what was
handed to the transmitter. -/
def MinimalNode.perSecond (ops : TidOps Tid) (n : MinimalNode N Tid Trk) (env : Env E) :
    Answer Tid E × MinimalNode N Tid Trk × List (Transfer N Tid) :=
  let heartbeat := n.heartbeat.tick
  let o := n.node.publish ops env heartbeatSubject heartbeat.payload false
  (o.answer, ⟨o.node, heartbeat⟩, o.sent)

/-- `HeartbeatService::new` (canadensis/src/service/heartbeat.rs L22-42): the answer, the node afterwards, and the service, which is its heartbeat
(L10-13), if it is `ok`. -/
def HeartbeatService.new (ops : TidOps Tid) (node : CoreNode N Tid Trk) : Answer Tid E × CoreNode N Tid Trk × Option Heartbeat :=
  let o : Out N Tid Trk E := node.startPublishing ops heartbeatSubject (milliseconds 1000) nominal
  match o.answer with
  | .ok => (.ok, o.node, some Heartbeat.initial)
  | a => (a, o.node, none)

/-- `HeartbeatService::publish_heartbeat` (canadensis/src/service/heartbeat.rs L60-66). -/
def HeartbeatService.publish (ops : TidOps Tid) (service : Heartbeat) (node : CoreNode N Tid Trk) (env : Env E) : Out N Tid Trk E × Heartbeat :=
  let heartbeat := service.tick
  (node.publish ops env heartbeatSubject heartbeat.payload false, heartbeat)

/-! ### The port list -/

/-- `heapless::Vec::swap_remove`: the last element takes the place of the removed one. Not in /repo (dependency). -/
def swapRemove {α : Type} (l : List α) (i : Nat) : List α :=
  match l.getLast? with
  | some x => (l.set i x).dropLast
  | none => l

/-- `insert_into_list` (canadensis/src/node/basic.rs L402-429); `none` is a panic. A `heapless::Vec<_, 255>` is full at 255 elements. -/
def SubjectIdList.insert (l : SubjectIdList) (subject : SubjectId) : Option SubjectIdList :=
  match l with
  | .mask m => (m.set subject.toNat true).map .mask
  | .sparse list =>
    if list.contains (subject.setWidth 16) then some (.sparse list)
    else if list.length < 255 then some (.sparse (list ++ [subject.setWidth 16]))
    else
      match BitArray.new 1024 8192 with
      | none => none
      | some m =>
        match list.foldlM (fun m port => m.set port.toNat true) m with
        | none => none
        | some m => (m.set subject.toNat true).map .mask
  | .total => some .total

/-- `remove_from_list` (canadensis/src/node/basic.rs L431-454); `none` is a panic. -/
def SubjectIdList.remove (l : SubjectIdList) (subject : SubjectId) : Option SubjectIdList :=
  match l with
  | .mask m => (m.set subject.toNat false).map .mask
  | .sparse list =>
    match list.findIdx? (· == subject.setWidth 16) with
    | some position => some (.sparse (swapRemove list position))
    | none => some (.sparse list)
  | .total =>
    match BitArray.new 1024 8192 with
    | none => none
    | some m => ((m.fill true).set subject.toNat false).map .mask

/-- `BasicNode` (canadensis/src/node/basic.rs L31-39). `info` is the node information as a payload: its only use is to be sent. -/
structure BasicNode (N Tid Trk : Type) where
  node : MinimalNode N Tid Trk
  portList : PortList
  info : Payload
  seconds : BitVec 8

/-- The port list of a new node (canadensis/src/node/basic.rs L73-98); `none` is a panic. -/
def PortList.initial : Option PortList :=
  match BitArray.new 64 512, BitArray.new 64 512 with
  | some clients, some servers =>
    (servers.set getInfoService.toNat true).map fun servers =>
      ⟨.sparse [heartbeatSubject.setWidth 16, portListSubject.setWidth 16], .sparse [], clients, servers⟩
  | _, _ => none

/-- `BasicNode::new` (canadensis/src/node/basic.rs L49-108): the answer (`transport` and `anonymous` are errors of the receiver, `duplicate` and
`memory` of the transmitter), what was asked of the receiver, and the node if the answer is `ok`. -/
def BasicNode.new (ops : TidOps Tid) (env : Env E) (node : CoreNode N Tid Trk) (info : Payload) :
    Answer Tid E × List (RxCall N) × Option (BasicNode N Tid Trk) :=
  let o₁ := node.subscribeRequest env getInfoService 0 (milliseconds 1000)
  match o₁.answer with
  | .ok =>
    let o₂ : Out N Tid Trk E := o₁.node.startPublishing ops portListSubject (milliseconds 1000) optional
    match o₂.answer with
    | .ok =>
      match (MinimalNode.new ops o₂.node : Answer Tid E × Option (MinimalNode N Tid Trk)) with
      | (.ok, some minimal) =>
        match PortList.initial with
        | some list => (.ok, o₁.rx, some ⟨minimal, list, info, 0⟩)
        | none => (.panic, o₁.rx, none)
      | (a, _) => (a, o₁.rx, none)
    | a => (a, o₁.rx, none)
  | a => (a, o₁.rx, none)

/-- The result of a call of a `BasicNode`: what it returned, the node afterwards, what it handed to the transmitter and what it asked of the receiver
(no counterpart in /repo). -/
structure BasicOut (N Tid Trk E : Type) where
  answer : Answer Tid E
  node : BasicNode N Tid Trk
  sent : List (Transfer N Tid) := []
  rx : List (RxCall N) := []

namespace BasicNode

/-- `BasicNode::run_per_second_tasks` and `publish_port_list` (canadensis/src/node/basic.rs L111-130). `env` is for the heartbeat and `env'` for the
port list. -/
def perSecond (ops : TidOps Tid) (n : BasicNode N Tid Trk) (env env' : Env E) : BasicOut N Tid Trk E :=
  let r := n.node.perSecond ops env
  match r.1 with
  | .ok =>
    if n.seconds = 10#8 then
      let o := r.2.1.node.publish ops env' portListSubject n.portList.payload false
      ⟨o.answer, { n with node := { r.2.1 with node := o.node }, seconds := 1#8 }, r.2.2 ++ o.sent, []⟩
    else ⟨.ok, { n with node := r.2.1, seconds := n.seconds + 1#8 }, r.2.2, []⟩
  | a => ⟨a, { n with node := r.2.1 }, r.2.2, []⟩

/-- A call that is forwarded to the node inside, after which the port list is updated according to the answer
(canadensis/src/node/basic.rs L187-345). -/
def forward (ops : TidOps Tid) (tops : TrackerOps N Tid Trk) (n : BasicNode N Tid Trk) (op : Op N Tid E)
    (update : PortList → Answer Tid E → Option PortList) : BasicOut N Tid Trk E :=
  let o := n.node.node.step ops tops op
  let n' := { n with node := { n.node with node := o.node } }
  match update n.portList o.answer with
  | some list => ⟨o.answer, { n' with portList := list }, o.sent, o.rx⟩
  | none => ⟨.panic, n', o.sent, o.rx⟩

/-- The functions of `Node` for a `BasicNode` (canadensis/src/node/basic.rs L164-400): `start_publishing` L187-199, `stop_publishing` L201-204,
`publish` and `publish_loopback` L206-226, `start_sending_requests` L228-248, `stop_sending_requests` L250-257, `send_request` and
`send_request_loopback` L259-291, `subscribe_message` L293-307, `unsubscribe_message` L309-312, `subscribe_request` L314-328, `unsubscribe_request`
L330-333, `send_response` L335-345, `set_node_id` L381-383. -/
def call (ops : TidOps Tid) (tops : TrackerOps N Tid Trk) (n : BasicNode N Tid Trk) (op : Op N Tid E) : BasicOut N Tid Trk E :=
  match op with
  | .startPublishing _ s _ _ => n.forward ops tops op fun l a =>
    match a with
    | .ok => (l.publishers.insert s).map fun x => { l with publishers := x }
    | _ => some l
  | .stopPublishing _ s => n.forward ops tops op fun l _ => (l.publishers.remove s).map fun x => { l with publishers := x }
  | .startSendingRequests _ s _ _ _ => n.forward ops tops op fun l a =>
    match a with
    | .token => (l.clients.set s.toNat true).map fun x => { l with clients := x }
    | _ => some l
  | .stopSendingRequests _ s => n.forward ops tops op fun l _ => (l.clients.set s.toNat false).map fun x => { l with clients := x }
  | .subscribeMessage _ s _ _ => n.forward ops tops op fun l a =>
    match a with
    | .ok => (l.subscribers.insert s).map fun x => { l with subscribers := x }
    | _ => some l
  | .unsubscribeMessage _ s => n.forward ops tops op fun l _ => (l.subscribers.remove s).map fun x => { l with subscribers := x }
  | .subscribeRequest _ s _ _ => n.forward ops tops op fun l a =>
    match a with
    | .ok => (l.servers.set s.toNat true).map fun x => { l with servers := x }
    | _ => some l
  | .unsubscribeRequest _ s => n.forward ops tops op fun l _ => (l.servers.set s.toNat false).map fun x => { l with servers := x }
  | .publish .. => n.forward ops tops op fun l _ => some l
  | .sendRequest .. => n.forward ops tops op fun l _ => some l
  | .sendResponse .. => n.forward ops tops op fun l _ => some l
  | .setNodeId .. => n.forward ops tops op fun l _ => some l

/-- A call of the node inside, by a transfer handler (canadensis/src/node/basic.rs L173-185 hands the node inside to the handlers) or through
`node_mut` (L150-152). -/
def inside (ops : TidOps Tid) (tops : TrackerOps N Tid Trk) (n : BasicNode N Tid Trk) (op : Op N Tid E) : BasicOut N Tid Trk E :=
  let o := n.node.node.step ops tops op
  ⟨o.answer, { n with node := { n.node with node := o.node } }, o.sent, o.rx⟩

end BasicNode

/-- What a program does with a `BasicNode` (no counterpart in /repo: the caller's program): a function of `Node`, a function of the node inside, the
tasks to run once per second, or a setter (canadensis/src/node/basic.rs L133-143). -/
inductive BasicOp (N Tid E : Type) where
  | call (op : Op N Tid E)
  | inside (op : Op N Tid E)
  | perSecond (env env' : Env E)
  | setMode (value : BitVec 8)
  | setHealth (value : BitVec 8)
  | setStatusCode (value : BitVec 8)

namespace BasicNode

/-- One call of a `BasicNode`; `set_mode`, `set_health` and `set_status_code` are canadensis/src/node/basic.rs L133-143 and
canadensis/src/node/minimal.rs L81-91. -/
def step (ops : TidOps Tid) (tops : TrackerOps N Tid Trk) (n : BasicNode N Tid Trk) : BasicOp N Tid E → BasicOut N Tid Trk E
  | .call op => n.call ops tops op
  | .inside op => n.inside ops tops op
  | .perSecond env env' => n.perSecond ops env env'
  | .setMode v => ⟨.ok, { n with node := { n.node with heartbeat := { n.node.heartbeat with mode := v } } }, [], []⟩
  | .setHealth v => ⟨.ok, { n with node := { n.node with heartbeat := { n.node.heartbeat with health := v } } }, [], []⟩
  | .setStatusCode v => ⟨.ok, { n with node := { n.node with heartbeat := { n.node.heartbeat with status := v } } }, [], []⟩

/-- A history of calls: the results in order and the node afterwards (no counterpart in /repo). -/
def run (ops : TidOps Tid) (tops : TrackerOps N Tid Trk) :
    BasicNode N Tid Trk → List (BasicOp N Tid E) → List (BasicOut N Tid Trk E) × BasicNode N Tid Trk
  | n, [] => ([], n)
  | n, op :: rest =>
    let o := n.step ops tops op
    let r := run ops tops o.node rest
    (o :: r.1, r.2)

end BasicNode

/-- What a program does with a `MinimalNode` or a node and a `HeartbeatService` (no counterpart in /repo). -/
inductive BeatOp (N Tid E : Type) where
  | inside (op : Op N Tid E)
  | perSecond (env : Env E)
  | setMode (value : BitVec 8)
  | setHealth (value : BitVec 8)
  | setStatusCode (value : BitVec 8)

/-- One call of a `MinimalNode` (canadensis/src/node/minimal.rs L66-102): what was handed to the transmitter and the node afterwards. -/
def MinimalNode.step (ops : TidOps Tid) (tops : TrackerOps N Tid Trk) (n : MinimalNode N Tid Trk) :
    BeatOp N Tid E → List (Transfer N Tid) × MinimalNode N Tid Trk
  | .inside op => let o := n.node.step ops tops op; (o.sent, { n with node := o.node })
  | .perSecond env => let r := n.perSecond ops env; (r.2.2, r.2.1)
  | .setMode v => ([], { n with heartbeat := { n.heartbeat with mode := v } })
  | .setHealth v => ([], { n with heartbeat := { n.heartbeat with health := v } })
  | .setStatusCode v => ([], { n with heartbeat := { n.heartbeat with status := v } })

/-- One call of a node or of a `HeartbeatService` that uses it (canadensis/src/service/heartbeat.rs L44-66). The pair of the node and the heartbeat of the
service is written as a `MinimalNode`. -/
def HeartbeatService.step (ops : TidOps Tid) (tops : TrackerOps N Tid Trk) (n : MinimalNode N Tid Trk) :
    BeatOp N Tid E → List (Transfer N Tid) × MinimalNode N Tid Trk
  | .inside op => let o := n.node.step ops tops op; (o.sent, { n with node := o.node })
  | .perSecond env => let r := HeartbeatService.publish ops n.heartbeat n.node env; (r.1.sent, ⟨r.1.node, r.2⟩)
  | .setMode v => ([], { n with heartbeat := { n.heartbeat with mode := v } })
  | .setHealth v => ([], { n with heartbeat := { n.heartbeat with health := v } })
  | .setStatusCode v => ([], { n with heartbeat := { n.heartbeat with status := v } })

/-- The node after a history of calls of a `MinimalNode` (no counterpart in /repo). -/
def MinimalNode.after (ops : TidOps Tid) (tops : TrackerOps N Tid Trk) (n : MinimalNode N Tid Trk) (history : List (BeatOp N Tid E)) :
    MinimalNode N Tid Trk := history.foldl (fun n op => (MinimalNode.step ops tops n op).2) n

/-- The node after a history of calls of a node and a `HeartbeatService` (no counterpart in /repo). -/
def HeartbeatService.after (ops : TidOps Tid) (tops : TrackerOps N Tid Trk) (n : MinimalNode N Tid Trk) (history : List (BeatOp N Tid E)) :
    MinimalNode N Tid Trk := history.foldl (fun n op => (HeartbeatService.step ops tops n op).2) n

/-! ### The port list service -/

/-- `collect` into a `heapless::Vec<_, 255>`, which panics if there are more elements. Not in /repo (dependency). -/
def collect255 (l : List SubjectId) : Option SubjectIdList :=
  if l.length ≤ 255 then some (.sparse (l.map (·.setWidth 16))) else none

/-- The `fold` that makes a mask from the services (canadensis/src/service/port_list.rs L58-69). -/
def maskOf (l : List ServiceId) : Option BitArray :=
  match BitArray.new 64 512 with
  | none => none
  | some m => l.foldlM (fun m s => m.set s.toNat true) m

/-- `PortListService::publish_port_list` (canadensis/src/service/port_list.rs L40-72). `subscribers` and `servers` are what the receiver's iterators
yield. -/
def PortListService.publish (ops : TidOps Tid) (node : CoreNode N Tid Trk) (subscribers : List SubjectId) (servers : List ServiceId) (env : Env E) :
    Out N Tid Trk E :=
  match collect255 (node.publishers.map Prod.fst), collect255 subscribers, maskOf (node.requesters.map Prod.fst), maskOf servers with
  | some p, some s, some c, some v => node.publish ops env portListSubject (PortList.payload ⟨p, s, c, v⟩) false
  | _, _, _, _ => ⟨.panic, node, [], []⟩

/-- What `PortListService::new` returns (`NewError`, canadensis/src/service/port_list.rs L76-87). -/
inductive NewPortList (E : Type) where
  | ok | anonymous | outOfMemory | duplicate | other (e : E) | panic
deriving DecidableEq

/-- `PortListService::new` (canadensis/src/service/port_list.rs L24-37). -/
def PortListService.new (ops : TidOps Tid) (node : CoreNode N Tid Trk) : NewPortList E × CoreNode N Tid Trk :=
  match node.nodeId with
  | none => (.anonymous, node)
  | some _ =>
    let o : Out N Tid Trk E := node.startPublishing ops portListSubject (milliseconds 10000) optional
    match o.answer with
    | .ok => (.ok, o.node)
    | .memory => (.outOfMemory, o.node)
    | .duplicate => (.duplicate, o.node)
    | .transport e => (.other e, o.node)
    | _ => (.panic, o.node)

/-! ### Node information -/

/-- A node that handlers use, with what the environment does during the calls to come and what was handed to the transmitter (no counterpart in
/repo). -/
structure World (N Tid Trk E : Type) where
  node : CoreNode N Tid Trk
  env : Nat → Env E
  calls : Nat
  sent : List (Transfer N Tid)

/-- A call of `send_response` by a handler (canadensis/src/node/core.rs L413-427). -/
def World.sendResponse (w : World N Tid Trk E) (token : ResponseToken N Tid) (timeout : Duration) (payload : Payload) : World N Tid Trk E :=
  let o := w.node.sendResponse (w.env w.calls) token timeout payload
  { w with node := o.node, calls := w.calls + 1, sent := w.sent ++ o.sent }

/-- `NodeInfoHandler` (canadensis/src/node/basic.rs L457-477) and `GetInfoServiceHandler` (canadensis/src/service/get_info.rs L53-71). The other
functions are the default ones (canadensis/src/lib.rs L112-175). -/
def infoHandler (info : Payload) : Handler Unit (World N Tid Trk E) N Tid where
  message _ w _ _ := (false, (), w)
  request _ w token h _ := if h.service = getInfoService then (true, (), w.sendResponse token (milliseconds 1000) info) else (false, (), w)
  response _ w _ _ := (false, (), w)
  loopback _ w _ := (false, (), w)

/-- `BasicNode::receive` (canadensis/src/node/basic.rs L173-185). -/
def BasicNode.receive {σ : Type} (info : Payload) (h : Handler σ (World N Tid Trk E) N Tid) (s : σ) (w : World N Tid Trk E)
    (rs : List (Received N Tid E)) : Option (Option E) × (Unit × σ) × World N Tid Trk E :=
  Node.receive ((infoHandler info).chain h) ((), s) w rs

end Verif.App
