import Verif.Node.Lemmas
import Verif.Enc.CompositeProps

/-!
C51 to C53, C60, C64 and C65: what a node hands to its transmitter, how it delivers what it receives, and which ports it uses.
-/

namespace Verif.Node

open Verif.Enc

variable {N Tid Trk E : Type}

/-! ### C64: payloads -/

/-- **C64.** The payload made for a value whose serializer writes the bits `bits` and announces that many bytes: exactly as many bytes as the
bits need, the bits in order and zeros after them (position `p` is bit `p % 8` of byte `p / 8`). It does not panic, and it fails only if
there are more than 64 bytes and the buffer cannot be allocated. -/
theorem C64_payload {α : Type} (w : Writer α) (v : α) (bits : List Bool) (hw : WritesBits w v bits) (alloc : Bool) :
    (doSerialize (.of w v) alloc = .outOfMemory ↔ alloc = false ∧ 64 < (bits.length + 7) / 8) ∧
    (doSerialize (.of w v) alloc ≠ .panic) ∧
    ∀ b, doSerialize (.of w v) alloc = .bytes b → b.length = (bits.length + 7) / 8 ∧ ∀ p, bitAt b p = bits.getD p false := by
  have hser : ∀ L, bits.length ≤ 8 * L → w.serialize v (WriteCursor.new (List.replicate L 0)) = some (wcur L bits) := by
    exact fun L hL => hw.serialize_wcur L hL
  have hbytes : ∀ b, b = pack ((bits.length + 7) / 8) bits →
      b.length = (bits.length + 7) / 8 ∧ ∀ p, bitAt b p = bits.getD p false := by
    rintro b rfl
    refine ⟨by simp, fun p => ?_⟩
    by_cases hp : p < 8 * ((bits.length + 7) / 8)
    · rw [bitAt_pack _ _ _ hp]
    · have h1 : bitAt (pack ((bits.length + 7) / 8) bits) p = false := by
        unfold bitAt
        rw [List.getD_eq_getElem?_getD, List.getElem?_eq_none (by simp; omega)]
        simp
      rw [h1, List.getD_eq_getElem?_getD, List.getElem?_eq_none (by omega)]
      rfl
  have htake : ∀ L, L ≤ 64 → (List.replicate 64 (0 : Byte)).take L = List.replicate L 0 := by
    intro L hL
    rw [List.take_replicate, Nat.min_eq_left hL]
  have hsize : ((Payload.of w v).sizeBits + 7) / 8 = (bits.length + 7) / 8 := hw.size.symm
  unfold doSerialize
  rw [hsize]
  simp only
  by_cases hbig : (bits.length + 7) / 8 > 64
  · rw [if_pos hbig]
    cases alloc with
    | false => simp; omega
    | true =>
      simp only [if_true, Payload.of]
      rw [hser _ (by omega)]
      refine ⟨by simp, by simp, fun b hb => hbytes b ?_⟩
      injection hb with hb
      exact hb.symm
  · rw [if_neg hbig, htake _ (by omega)]
    simp only [Payload.of]
    rw [hser _ (by omega)]
    refine ⟨by simp; omega, by simp, fun b hb => hbytes b ?_⟩
    injection hb with hb
    exact hb.symm

/-- A payload of these valid fields. -/
def demoPayload (fs : List Field) : Payload := ⟨(encode fs).length, writeAll fs⟩

/-- 20 bits need three bytes. -/
example : doSerialize (demoPayload [.uint 12 0xabc, .uint 8 0xff]) false = .bytes [0xbc, 0xfa, 0x0f] := by decide +kernel

/-- 65 bytes need an allocation. -/
example : doSerialize (demoPayload [.bytes (List.replicate 65 7)]) false = .outOfMemory ∧
    doSerialize (demoPayload [.bytes (List.replicate 65 7)]) true = .bytes (List.replicate 65 7) := by decide +kernel

/-- The theorem on a type of valid fields. -/
example : doSerialize (.of demoWriter ⟨[.uint 12 0xabc, .bool true], by simp [Field.Ok]⟩) false ≠ .panic :=
  (C64_payload _ ⟨[.uint 12 0xabc, .bool true], by simp [Field.Ok]⟩ _ ((fieldsWriter_lawful 64).writesBits _) false).2.1

/-! ### C51: messages -/

theorem start_publisher {ops : TidOps Tid} {n : CoreNode N Tid Trk} {s : SubjectId} {timeout : Duration} {priority : Priority}
    (h : (n.startPublishing (E := E) ops s timeout priority).answer = .ok) :
    (n.startPublishing (E := E) ops s timeout priority).node.publishers.get? s = some (Publisher.new ops timeout priority) := by
  unfold CoreNode.startPublishing at h ⊢
  split at h
  · exact absurd h (by simp)
  · rename_i hc
    rw [if_neg hc]
    split at h
    · rename_i m hm
      simp only
      rw [IMap.get?_insert hm, if_pos rfl]
    · exact absurd h (by simp)

/-- **C51.** After a successful start of publishing on a subject, and whatever is called and whatever the environment answers as long as
publishing on the subject is not stopped: the `k`-th message handed to the transmitter on the subject (counting from 0) carries the default
transfer ID incremented `k` times. -/
theorem C51_transfer_ids (ops : TidOps Tid) (tops : TrackerOps N Tid Trk) (n : CoreNode N Tid Trk) (s : SubjectId) (timeout : Duration)
    (priority : Priority) (hstart : (n.startPublishing (E := E) ops s timeout priority).answer = .ok) (history : List (Op N Tid E))
    (hstop : ∀ op ∈ history, ¬ op.stopsPublishing s) (k : Nat) (id : Tid)
    (hk : (messageIds s (handedOver ((n.startPublishing (E := E) ops s timeout priority).node.run ops tops history).1))[k]? = some id) :
    id = ops.increment^[k] ops.dflt := by
  have hp := start_publisher hstart
  obtain ⟨m, h1, h2⟩ := run_publisher ops tops s history _ _ hp hstop
  rw [h1, List.getElem?_map] at hk
  obtain ⟨i, hi, rfl⟩ := Option.map_eq_some_iff.1 hk
  rw [List.getElem?_eq_some_iff] at hi
  obtain ⟨hlt, hi⟩ := hi
  rw [List.getElem_range] at hi
  subst hi
  rfl

/-- **C51.** In that situation a message to be published whose bytes could be made is handed over exactly once, with the next transfer ID
in this count, whatever happened to the messages before; its deadline is the time of the call plus the timeout given at the start, its
priority is the one given at the start, its source is the node's current ID; the call reports what the transmitter answered. If the bytes
could not be made nothing is handed over. -/
theorem C51_publish (ops : TidOps Tid) (tops : TrackerOps N Tid Trk) (n : CoreNode N Tid Trk) (s : SubjectId) (timeout : Duration)
    (priority : Priority) (hstart : (n.startPublishing (E := E) ops s timeout priority).answer = .ok) (history : List (Op N Tid E))
    (hstop : ∀ op ∈ history, ¬ op.stopsPublishing s) (env : Env E) (payload : Payload) (loopback : Bool) :
    let r := (n.startPublishing (E := E) ops s timeout priority).node.run ops tops history
    let o := r.2.publish ops env s payload loopback
    match doSerialize payload env.alloc with
    | .bytes b => o.answer = env.push.answer ∧ o.sent = [⟨.message ⟨env.now.plus timeout,
        ops.increment^[(messageIds s (handedOver r.1)).length] ops.dflt, priority, s, r.2.nodeId⟩, loopback, b⟩]
    | .outOfMemory => o.answer = .transport env.oom ∧ o.sent = []
    | .panic => o.answer = .panic := by
  intro r o
  have hp := start_publisher hstart
  obtain ⟨m, h1, h2⟩ := run_publisher ops tops s history _ _ hp hstop
  have hlen : (messageIds s (handedOver r.1)).length = m := by
    show (messageIds s (handedOver ((n.startPublishing (E := E) ops s timeout priority).node.run ops tops history).1)).length = m
    rw [h1]; simp
  have ho : o = r.2.publish ops env s payload loopback := rfl
  have hr : r.2.publishers.get? s = some ⟨ops.increment^[m] ops.dflt, timeout, priority⟩ := h2
  rw [ho, hlen]
  unfold CoreNode.publish
  rw [hr]
  simp only [Publisher.publish]
  cases doSerialize payload env.alloc <;> simp

/-- On Cyphal/CAN "incremented `k` times" is `k` modulo 32, on the other transports `k` modulo 2^64. -/
theorem C51_id_values (k : Nat) :
    (canTid.increment^[k] canTid.dflt).toNat = k % 2 ^ 5 ∧ (tid64.increment^[k] tid64.dflt).toNat = k % 2 ^ 64 := by
  rw [canTid_iterate, tid64_iterate]
  simp

/-- The environment of the examples: time 5, allocations succeed, the transmitter answers `p`. -/
abbrev demoEnv (p : Push Unit) : Env Unit := ⟨5, true, p, .ok, ()⟩

/-- A CAN node that publishes on two subjects; the transmitter refuses some messages. Publishing on subject 100 is started twice (the second
start fails) and the other subject is stopped in between. -/
def demoHistory : List (Op (BitVec 7) (BitVec 5) Unit) :=
  [.publish (demoEnv .ok) 100 (demoPayload [.uint 8 1]) false,
   .startPublishing (demoEnv .ok) 200 9 3,
   .publish (demoEnv .wouldBlock) 100 (demoPayload [.uint 8 2]) false,
   .startPublishing (demoEnv .ok) 100 1 1,
   .publish (demoEnv (.error ())) 200 (demoPayload [.uint 8 3]) false,
   .stopPublishing (demoEnv .ok) 200,
   .setNodeId (demoEnv .ok) 42,
   .publish (demoEnv .ok) 100 (demoPayload [.uint 8 4]) true]

def demoNode : CoreNode (BitVec 7) (BitVec 5) Can.CanTransferIdTracker := .new none 2 1

example : (demoNode.startPublishing (E := Unit) canTid 100 7 2).answer = .ok ∧
    ((demoNode.startPublishing (E := Unit) canTid 100 7 2).node.run canTid canTracker demoHistory).1.map (·.answer) =
      [.ok, .ok, .wouldBlock, .duplicate, .transport (), .ok, .ok, .ok] ∧
    messageIds 100 (handedOver ((demoNode.startPublishing (E := Unit) canTid 100 7 2).node.run canTid canTracker demoHistory).1) = [0, 1, 2] := by
  decide +kernel

example : ∀ op ∈ demoHistory, ¬ op.stopsPublishing 100 := by
  intro op h
  simp only [demoHistory, List.mem_cons, List.not_mem_nil, or_false] at h
  rcases h with rfl | rfl | rfl | rfl | rfl | rfl | rfl | rfl <;> simp [Op.stopsPublishing]

/-! ### C52: requests -/

theorem start_requester {tops : TrackerOps N Tid Trk} {n : CoreNode N Tid Trk} {env : Env E} {s : ServiceId} {timeout : Duration}
    {extent : Nat} {priority : Priority} (h : (n.startSendingRequests tops env s timeout extent priority).answer = .token) :
    (n.startSendingRequests tops env s timeout extent priority).node.requesters.get? s = some (Requester.new tops timeout priority) := by
  unfold CoreNode.startSendingRequests at h ⊢
  split at h
  · exact absurd h (by simp)
  · split at h
    · exact absurd h (by simp)
    · rename_i hc
      rw [if_neg hc]
      split at h
      · exact absurd h (by simp)
      · rename_i m hm
        simp only at h ⊢
        split at h
        · simp only
          rw [IMap.get?_insert hm, if_pos rfl]
        · exact absurd h (by simp)
        · exact absurd h (by simp)

/-- **C52.** After a successful start of sending requests for a service, and whatever is called and whatever the environment answers as
long as sending is not stopped: the `k`-th request handed to the transmitter for the service and a destination (counting from 0) carries
the default transfer ID incremented `k` times. `Counts` holds for both trackers (`C52_trackers`). -/
theorem C52_transfer_ids [DecidableEq N] {ops : TidOps Tid} {tops : TrackerOps N Tid Trk} {view : Trk → (N → Nat) → Prop}
    (hv : Counts ops tops view) (n : CoreNode N Tid Trk) (env : Env E) (s : ServiceId) (timeout : Duration) (extent : Nat)
    (priority : Priority) (hstart : (n.startSendingRequests tops env s timeout extent priority).answer = .token)
    (history : List (Op N Tid E)) (hstop : ∀ op ∈ history, ¬ op.stopsRequests s) (d : N) (k : Nat) (id : Tid)
    (hk : (requestIds s d (handedOver ((n.startSendingRequests tops env s timeout extent priority).node.run ops tops history).1))[k]? = some id) :
    id = ops.increment^[k] ops.dflt := by
  obtain ⟨r', c', -, -, -, -, h⟩ := run_requester hv s history _ _ _ (start_requester hstart) hv.start hstop
  rw [(h d).1, List.getElem?_map] at hk
  obtain ⟨i, hi, rfl⟩ := Option.map_eq_some_iff.1 hk
  rw [List.getElem?_eq_some_iff] at hi
  obtain ⟨hlt, hi⟩ := hi
  rw [List.getElem_range] at hi
  subst hi
  simp

/-- **C52.** In that situation a request whose bytes could be made is either refused for lack of memory, with nothing handed over, or
handed over exactly once, with the next transfer ID in the count for its destination; the deadline and the priority are as given at the
start, the source is the node's ID; the call returns the transfer ID if the transmitter accepts the transfer. -/
theorem C52_send [DecidableEq N] {ops : TidOps Tid} {tops : TrackerOps N Tid Trk} {view : Trk → (N → Nat) → Prop}
    (hv : Counts ops tops view) (n : CoreNode N Tid Trk) (env : Env E) (s : ServiceId) (timeout : Duration) (extent : Nat)
    (priority : Priority) (hstart : (n.startSendingRequests tops env s timeout extent priority).answer = .token)
    (history : List (Op N Tid E)) (hstop : ∀ op ∈ history, ¬ op.stopsRequests s) (env' : Env E) (payload : Payload) (d : N) (loopback : Bool)
    (source : N) (hid : ((n.startSendingRequests tops env s timeout extent priority).node.run ops tops history).2.nodeId = some source)
    (b : List Byte) (hb : doSerialize payload env'.alloc = .bytes b) :
    let r := (n.startSendingRequests tops env s timeout extent priority).node.run ops tops history
    let o := r.2.sendRequest tops env' s payload d loopback
    let id := ops.increment^[(requestIds s d (handedOver r.1)).length] ops.dflt
    (o.answer = .transport env'.oom ∧ o.sent = []) ∨
    (o.answer = (match env'.push with | .ok => .sent id | .wouldBlock => .wouldBlock | .error e => .transport e) ∧
      o.sent = [⟨.request ⟨env'.now.plus timeout, id, priority, s, source, d⟩, loopback, b⟩]) := by
  intro r o id
  obtain ⟨r', c', h1, h2, h3, h4, h5⟩ := run_requester hv s history _ _ _ (start_requester hstart) hv.start hstop
  have hlen : (requestIds s d (handedOver r.1)).length = c' d := by
    show (requestIds s d (handedOver ((n.startSendingRequests tops env s timeout extent priority).node.run ops tops history).1)).length = c' d
    rw [(h5 d).1]; simp
  have ho : o = r.2.sendRequest tops env' s payload d loopback := rfl
  have hid' : id = ops.increment^[c' d] ops.dflt := by show ops.increment^[(requestIds s d (handedOver r.1)).length] ops.dflt = _; rw [hlen]
  have hr : r.2.requesters.get? s = some r' := h1
  have hn : r.2.nodeId = some source := hid
  rw [ho, hid']
  unfold CoreNode.sendRequest
  rw [hr, hn]
  simp only [Requester.send, hb]
  rcases hnext : tops.next r'.transferIds d with ⟨_ | i, trk⟩
  · left; exact ⟨rfl, rfl⟩
  · right
    obtain ⟨hi, -⟩ := hv.given _ _ _ _ _ h2 hnext
    subst hi
    refine ⟨rfl, ?_⟩
    simp [h3, h4, Requester.new]

/-- **C52.** Both trackers count: the table of destinations (`TransferIdFixedMap`) of any capacity with any transfer ID type, and the packed
counters of Cyphal/CAN. -/
theorem C52_trackers :
    (∀ (N Tid : Type) (_ : DecidableEq N) (ops : TidOps Tid) (cap : Nat), ∃ view, Counts ops (fixedMapTracker (N := N) ops cap) view) ∧
    ∃ view, Counts canTid canTracker view :=
  ⟨fun _ _ _ ops cap => ⟨_, fixedMap_counts ops cap⟩, _, canTracker_counts⟩

/-- **C52.** With the table of destinations, a request whose bytes could be made is refused exactly if no request for this service has gone
to the destination since the start and requests have already gone to `cap` different destinations. So a destination that was served once
is always served. -/
theorem C52_full_table [DecidableEq N] (ops : TidOps Tid) (cap : Nat) (n : CoreNode N Tid (IMap N Tid)) (env : Env E) (s : ServiceId)
    (timeout : Duration) (extent : Nat) (priority : Priority)
    (hstart : (n.startSendingRequests (fixedMapTracker ops cap) env s timeout extent priority).answer = .token)
    (history : List (Op N Tid E)) (hstop : ∀ op ∈ history, ¬ op.stopsRequests s) (env' : Env E) (payload : Payload) (d : N) (loopback : Bool)
    (source : N)
    (hid : ((n.startSendingRequests (fixedMapTracker ops cap) env s timeout extent priority).node.run ops (fixedMapTracker ops cap) history).2.nodeId =
      some source)
    (b : List Byte) (hb : doSerialize payload env'.alloc = .bytes b) (served : List N) (hnd : served.Nodup)
    (hserved : ∀ e, e ∈ served ↔ requestIds s e (handedOver
      ((n.startSendingRequests (fixedMapTracker ops cap) env s timeout extent priority).node.run ops (fixedMapTracker ops cap) history).1) ≠ []) :
    (((n.startSendingRequests (fixedMapTracker ops cap) env s timeout extent priority).node.run ops (fixedMapTracker ops cap) history).2.sendRequest
      (fixedMapTracker ops cap) env' s payload d loopback).sent = [] ↔ d ∉ served ∧ cap ≤ served.length := by
  obtain ⟨r', c', h1, h2, h3, h4, h5⟩ :=
    run_requester (fixedMap_counts_valid (N := N) ops cap) s history _ _ _ (start_requester hstart) (fixedMap_counts_valid ops cap).start hstop
  have hmem : ∀ e, e ∈ served ↔ c' e ≠ 0 := by
    intro e
    rw [hserved e, (h5 e).1]
    simp
  rw [← fixedMap_refuses ops cap r'.transferIds c' h2.1 h2.2 served hnd hmem d]
  unfold CoreNode.sendRequest
  rw [h1, hid]
  simp only [Requester.send, hb]
  rcases hnext : (fixedMapTracker ops cap).next r'.transferIds d with ⟨_ | i, trk⟩
  · simp
  · simp

/-- A serial node with a table for two destinations sends requests to three; the third destination is refused, the others go on. -/
def demoRequests : List (Op (BitVec 16) (BitVec 64) Unit) :=
  [.sendRequest (demoEnv .ok) 30 (demoPayload [.uint 8 1]) 7 false, .sendRequest (demoEnv .wouldBlock) 30 (demoPayload [.uint 8 2]) 8 false,
   .sendRequest (demoEnv .ok) 30 (demoPayload [.uint 8 3]) 9 false, .sendRequest (demoEnv .ok) 30 (demoPayload [.uint 8 4]) 8 false,
   .sendRequest (demoEnv .ok) 30 (demoPayload [.uint 8 5]) 7 false]

def demoClient : CoreNode (BitVec 16) (BitVec 64) (IMap (BitVec 16) (BitVec 64)) := .new (some 1) 1 1

example : (demoClient.startSendingRequests (fixedMapTracker tid64 2) (demoEnv .ok) 30 100 64 4).answer = .token ∧
    ((demoClient.startSendingRequests (fixedMapTracker tid64 2) (demoEnv .ok) 30 100 64 4).node.run tid64 (fixedMapTracker tid64 2)
      demoRequests).1.map (·.answer) = [.sent 0, .wouldBlock, .transport (), .sent 1, .sent 1] := by
  decide +kernel

/-! ### C65: the ports in use -/

/-- A history of calls and what they answered, the most recent call first. -/
def traceOf (ops : TidOps Tid) (tops : TrackerOps N Tid Trk) (n : CoreNode N Tid Trk) (history : List (Op N Tid E)) :
    List (Op N Tid E × Answer Tid E) := (history.zip ((n.run ops tops history).1.map (·.answer))).reverse

theorem insert_isSome {K V : Type} [DecidableEq K] (m : IMap K V) (cap : Nat) (k : K) (v : V) (h : (m.get? k).isSome = false) :
    (m.insert cap k v).isSome = decide (m.length < cap) := by
  unfold IMap.insert
  rw [IMap.contains_eq, h]
  by_cases hl : m.length < cap <;> simp [hl]

/-- **C65.** After any history of calls of a new node, `publishers()` lists exactly the subjects with a successful start and no stop after it,
each once and at most `P`. Starting succeeds exactly if the subject is not among them and there are fewer than `P`; publishing on a subject
that is not among them is refused and hands nothing over. -/
theorem C65_publishers (ops : TidOps Tid) (tops : TrackerOps N Tid Trk) (nodeId : Option N) (P R : Nat) (history : List (Op N Tid E)) :
    let n := ((CoreNode.new nodeId P R : CoreNode N Tid Trk).run ops tops history).2
    let trace := traceOf ops tops (CoreNode.new nodeId P R) history
    (∀ s, s ∈ n.publishers.map Prod.fst ↔ publishing s trace = true) ∧ (n.publishers.map Prod.fst).Nodup ∧ n.publishers.length ≤ P ∧
    (∀ s t p, (n.startPublishing (E := E) ops s t p).answer =
      if publishing s trace then .duplicate else if n.publishers.length < P then .ok else .memory) ∧
    (∀ env s pl l, publishing s trace = false → (n.publish (E := E) ops env s pl l).answer = .notPublishing ∧ (n.publish (E := E) ops env s pl l).sent = []) := by
  intro n trace
  obtain ⟨h1, h2, h3, h4, h5⟩ := run_ports ops tops history (CoreNode.new nodeId P R : CoreNode N Tid Trk) []
    ⟨⟨List.nodup_nil, Nat.zero_le _⟩, ⟨List.nodup_nil, Nat.zero_le _⟩⟩ (fun s => rfl) (fun s => rfl)
  have h4' : ∀ s, (n.publishers.get? s).isSome = publishing s trace := by
    intro s
    have := h4 s
    rw [List.append_nil] at this
    exact this
  have hcap : n.pubCap = P := h2
  refine ⟨fun s => by rw [IMap.mem_keys, h4' s], h1.1.1, by rw [← hcap]; exact h1.1.2, fun s t p => ?_, fun env s pl l hs => ?_⟩
  · unfold CoreNode.startPublishing
    rw [IMap.contains_eq, h4' s]
    cases hpub : publishing s trace with
    | true => simp
    | false =>
      have hi := insert_isSome n.publishers n.pubCap s (Publisher.new ops t p) ((h4' s).trans hpub)
      rw [hcap] at hi ⊢
      by_cases hl : n.publishers.length < P
      · obtain ⟨m, hm⟩ := Option.isSome_iff_exists.1 (hi.trans (by simp [hl]))
        simp [hm, hl]
      · have hm : n.publishers.insert P s (Publisher.new ops t p) = none := by
          rw [← Option.not_isSome_iff_eq_none, hi]; simpa using hl
        simp [hm, hl]
  · have hnone : n.publishers.get? s = none := by
      rw [← Option.not_isSome_iff_eq_none, h4' s, hs]; simp
    unfold CoreNode.publish
    rw [hnone]
    exact ⟨rfl, rfl⟩

/-- **C65.** The same for `clients()`: the services with a successful start and no stop after it, each once and at most `R`. An anonymous node
cannot start sending requests; otherwise starting fails with `Duplicate` if the service is among them, for lack of memory if there are `R`,
and otherwise reports what the receiver answers to the subscription for the responses, which is the only thing asked of the receiver. -/
theorem C65_clients (ops : TidOps Tid) (tops : TrackerOps N Tid Trk) (nodeId : Option N) (P R : Nat) (history : List (Op N Tid E)) :
    let n := ((CoreNode.new nodeId P R : CoreNode N Tid Trk).run ops tops history).2
    let trace := traceOf ops tops (CoreNode.new nodeId P R) history
    (∀ s, s ∈ n.requesters.map Prod.fst ↔ requesting s trace = true) ∧ (n.requesters.map Prod.fst).Nodup ∧ n.requesters.length ≤ R ∧
    (∀ env s t x p, (n.startSendingRequests (E := E) tops env s t x p).answer =
        (if n.nodeId = none then .anonymous else if requesting s trace then .duplicate else if ¬ n.requesters.length < R then .memory
          else match env.subscribed with | .ok => .token | .error e => .transport e | .anonymous => .anonymous) ∧
      (n.startSendingRequests (E := E) tops env s t x p).rx =
        (if n.nodeId = none ∨ requesting s trace ∨ ¬ n.requesters.length < R then [] else [.subscribeResponse s x t])) := by
  intro n trace
  obtain ⟨h1, h2, h3, h4, h5⟩ := run_ports ops tops history (CoreNode.new nodeId P R : CoreNode N Tid Trk) []
    ⟨⟨List.nodup_nil, Nat.zero_le _⟩, ⟨List.nodup_nil, Nat.zero_le _⟩⟩ (fun s => rfl) (fun s => rfl)
  have h5' : ∀ s, (n.requesters.get? s).isSome = requesting s trace := by
    intro s
    have := h5 s
    rw [List.append_nil] at this
    exact this
  have hcap : n.reqCap = R := h3
  refine ⟨fun s => by rw [IMap.mem_keys, h5' s], h1.2.1, by rw [← hcap]; exact h1.2.2, fun env s t x p => ?_⟩
  unfold CoreNode.startSendingRequests
  cases hid : n.nodeId with
  | none => simp
  | some id =>
    simp only
    rw [IMap.contains_eq, h5' s]
    cases hpub : requesting s trace with
    | true => simp
    | false =>
      have hi := insert_isSome n.requesters n.reqCap s (Requester.new tops t p) ((h5' s).trans hpub)
      rw [hcap] at hi ⊢
      by_cases hl : n.requesters.length < R
      · obtain ⟨m, hm⟩ := Option.isSome_iff_exists.1 (hi.trans (by simp [hl]))
        rw [hm]
        cases env.subscribed <;> simp [hl]
      · have hm : n.requesters.insert R s (Requester.new tops t p) = none := by
          rw [← Option.not_isSome_iff_eq_none, hi]; simpa using hl
        simp [hm, hl]

/-- In the history above, subject 100 is not started but subject 200 is, then stopped. -/
example : publishing 200 (traceOf canTid canTracker demoNode (demoHistory.take 5)) = true ∧
    publishing 200 (traceOf canTid canTracker demoNode demoHistory) = false ∧
    (demoNode.run canTid canTracker (demoHistory.take 5)).2.publishers.map Prod.fst = [200, 100] := by decide +kernel

/-- The last node ID that was set in the history, or the initial one. -/
def lastId (initial : Option N) (history : List (Op N Tid E)) : Option N :=
  ((history.filterMap fun op => match op with | .setNodeId _ id => some id | _ => none).getLast?).or initial

/-- **C65.** The node ID of a node (the source of everything that it sends, see C51, C52 and C53) is the one that was set last, and every call
of `set_node_id` also tells the receiver, whatever the other calls do. -/
theorem C65_node_id (ops : TidOps Tid) (tops : TrackerOps N Tid Trk) (history : List (Op N Tid E)) : ∀ n : CoreNode N Tid Trk,
    (n.run ops tops history).2.nodeId = lastId n.nodeId history ∧
    ∀ (k : Nat) (env : Env E) (id : N), history[k]? = some (.setNodeId env id) →
      ∃ o, (n.run ops tops history).1[k]? = some o ∧ .setId id ∈ o.rx := by
  induction history with
  | nil => intro n; simp [CoreNode.run, lastId]
  | cons op rest ih =>
    intro n
    have hstep : (n.step ops tops op).node.nodeId = (match op with | .setNodeId _ id => some id | _ => n.nodeId) := by
      cases op <;> simp only [CoreNode.step, CoreNode.startPublishing, CoreNode.stopPublishing, CoreNode.publish, CoreNode.startSendingRequests,
        CoreNode.stopSendingRequests, CoreNode.sendRequest, CoreNode.subscribeMessage, CoreNode.unsubscribeMessage, CoreNode.subscribeRequest,
        CoreNode.unsubscribeRequest, CoreNode.sendResponse, CoreNode.setNodeId]
      all_goals (repeat' split) <;> first | rfl | simp_all
    obtain ⟨h1, h2⟩ := ih (n.step ops tops op).node
    simp only [CoreNode.run]
    refine ⟨?_, ?_⟩
    · rw [h1, hstep]
      unfold lastId
      cases op <;> simp [List.getLast?_cons]
    · intro k env id hk
      cases k with
      | zero =>
        simp only [List.getElem?_cons_zero, Option.some.injEq] at hk
        subst hk
        exact ⟨_, rfl, by simp [CoreNode.step, CoreNode.setNodeId]⟩
      | succ k => simpa using h2 k env id (by simpa using hk)

/-- A node that starts anonymous and then gets the IDs 5 and 9. -/
example : lastId (Tid := BitVec 5) (none : Option (BitVec 7)) [.setNodeId (demoEnv .ok) 5, .stopPublishing (demoEnv .ok) 3, .setNodeId (demoEnv .ok) 9]
    = some 9 := by decide +kernel

/-! ### C53: delivery and responses -/

/-- **C53.** Every request that is received (and is not a loopback copy) is given to the handler's request function together with a token;
a response sent with that token, at any later time and in any state of the node, has the service, transfer ID and priority of the request,
goes to the node that sent the request, and carries the ID that the node has then as its source; its deadline is the time of the call plus
the timeout. It is handed over exactly once if its bytes can be made. (Without a node ID the call panics.) -/
theorem C53_response {σ ν : Type} (h : Handler σ ν N Tid) (st : σ) (nd : ν) (q : ServiceHeader N Tid) (payload : List Byte) :
    ∃ token, handleIncoming h st nd ⟨.request q, false, payload⟩ = h.request st nd token q payload ∧
      ∀ (n : CoreNode N Tid Trk) (env : Env E) (timeout : Duration) (p : Payload) (id : N), n.nodeId = some id →
        match doSerialize p env.alloc with
        | .bytes b => (n.sendResponse env token timeout p).answer = env.push.answer ∧ (n.sendResponse env token timeout p).sent =
            [⟨.response ⟨env.now.plus timeout, q.transferId, q.priority, q.service, id, q.source⟩, false, b⟩]
        | .outOfMemory => (n.sendResponse env token timeout p).answer = .transport env.oom ∧ (n.sendResponse env token timeout p).sent = []
        | .panic => (n.sendResponse env token timeout p).answer = .panic := by
  refine ⟨⟨q.service, q.source, q.transferId, q.priority⟩, rfl, fun n env timeout p id hid => ?_⟩
  unfold CoreNode.sendResponse
  rw [hid]
  cases doSerialize p env.alloc <;> simp

/-- What a handler can see of one transfer. -/
inductive Event (N Tid : Type) where
  | message (h : MessageHeader N Tid) (b : List Byte)
  | request (t : ResponseToken N Tid) (h : ServiceHeader N Tid) (b : List Byte)
  | response (h : ServiceHeader N Tid) (b : List Byte)
  | loopback (t : Transfer N Tid)
deriving DecidableEq

/-- The handler `h`, with a record of the calls it gets. -/
def Handler.recorded {σ ν : Type} (h : Handler σ ν N Tid) : Handler (σ × List (Event N Tid)) ν N Tid where
  message s n m b := let r := h.message s.1 n m b; (r.1, (r.2.1, s.2 ++ [.message m b]), r.2.2)
  request s n t q b := let r := h.request s.1 n t q b; (r.1, (r.2.1, s.2 ++ [.request t q b]), r.2.2)
  response s n q b := let r := h.response s.1 n q b; (r.1, (r.2.1, s.2 ++ [.response q b]), r.2.2)
  loopback s n t := let r := h.loopback s.1 n t; (r.1, (r.2.1, s.2 ++ [.loopback t]), r.2.2)

/-- How a transfer is to be presented: a loopback copy as such and nothing else, the others according to their kind. -/
def eventOf (t : Transfer N Tid) : Event N Tid :=
  if t.loopback then .loopback t
  else match t.header with
    | .message m => .message m t.payload
    | .request q => .request ⟨q.service, q.source, q.transferId, q.priority⟩ q t.payload
    | .response q => .response q t.payload

/-- The transfers that the receiver returned before it first had nothing or failed. -/
def transfersOf : List (Received N Tid E) → List (Transfer N Tid)
  | .transfer t :: rest => t :: transfersOf rest
  | _ => []

/-- **C53.** One call of `receive` delivers every transfer that the receiver returns until it has nothing more or fails, each exactly once,
in order, and to the function for its kind. The handler may do anything. -/
theorem C53_delivery {σ ν : Type} (h : Handler σ ν N Tid) (rs : List (Received N Tid E)) : ∀ (s : σ) (seen : List (Event N Tid)) (n : ν),
    (receive h.recorded (s, seen) n rs).2.1.2 = seen ++ (transfersOf rs).map eventOf := by
  induction rs with
  | nil => intro s seen n; simp [receive, transfersOf]
  | cons r rs ih =>
    intro s seen n
    cases r with
    | nothing => simp [receive, transfersOf]
    | error e => simp [receive, transfersOf]
    | transfer t =>
      have hstep : ∃ h1 s' n', handleIncoming h.recorded (s, seen) n t = (h1, (s', seen ++ [eventOf t]), n') := by
        obtain ⟨header, loopback, payload⟩ := t
        cases loopback with
        | true => exact ⟨_, _, _, rfl⟩
        | false => cases header <;> exact ⟨_, _, _, rfl⟩
      obtain ⟨h1, s', n', hs⟩ := hstep
      simp only [receive, transfersOf, hs, ih, List.map_cons, List.append_assoc, List.singleton_append]

/-- The first answer of the receiver that is not a transfer: success if there was nothing, otherwise the error. -/
def outcome (rs : List (Received N Tid E)) : Option (Option E) :=
  rs.findSome? fun r => match r with | .transfer _ => none | .nothing => some none | .error e => some (some e)

/-- **C53.** `receive` returns the error of the receiver if it failed, and success if the receiver had nothing more. -/
theorem C53_outcome {σ ν : Type} (h : Handler σ ν N Tid) (rs : List (Received N Tid E)) : ∀ (s : σ) (n : ν),
    (receive h s n rs).1 = outcome rs := by
  induction rs with
  | nil => intro s n; rfl
  | cons r rs ih =>
    intro s n
    cases r with
    | nothing => rfl
    | error e => rfl
    | transfer t =>
      have : outcome (.transfer t :: rs) = outcome rs := rfl
      rw [this, ← ih]
      rfl

/-- A handler that does nothing. -/
def idle : Handler Unit Unit N Tid := ⟨fun _ _ _ _ => (false, (), ()), fun _ _ _ _ _ => (false, (), ()), fun _ _ _ _ => (false, (), ()), fun _ _ _ => (false, (), ())⟩

example : (receive (E := Unit) (N := BitVec 7) (Tid := BitVec 5) idle.recorded ((), []) ()
    [.transfer ⟨.request ⟨1, 9, 3, 30, 4, 5⟩, false, [1]⟩, .transfer ⟨.message ⟨2, 8, 1, 100, none⟩, true, [2]⟩, .nothing,
     .transfer ⟨.message ⟨2, 8, 1, 100, none⟩, false, [2]⟩]).2.1.2 =
    [.request ⟨30, 4, 9, 3⟩ ⟨1, 9, 3, 30, 4, 5⟩ [1], .loopback ⟨.message ⟨2, 8, 1, 100, none⟩, true, [2]⟩] := by decide +kernel

example : ((CoreNode.new (some 5) 1 1 : CoreNode (BitVec 7) (BitVec 5) Unit).sendResponse (demoEnv .ok) ⟨30, 4, 9, 3⟩ 10
    (demoPayload [.uint 8 1])).sent = [⟨.response ⟨15, 9, 3, 30, 5, 4⟩, false, [1]⟩] := by decide +kernel

/-! ### C60: chains of handlers -/

/-- A chain of handlers built with `chain` in any way, with the type of its state. -/
inductive Chain (ν N Tid : Type) : Type → Type 1 where
  | one {σ : Type} (h : Handler σ ν N Tid) : Chain ν N Tid σ
  | chain {σ₀ σ₁ : Type} (a : Chain ν N Tid σ₀) (b : Chain ν N Tid σ₁) : Chain ν N Tid (σ₀ × σ₁)

/-- The handler that the calls of `chain` make. -/
def Chain.handler {ν : Type} : {σ : Type} → Chain ν N Tid σ → Handler σ ν N Tid
  | _, .one h => h
  | _, .chain a b => a.handler.chain b.handler

/-- A handler with its state. -/
structure Live (ν N Tid : Type) where
  σ : Type
  handler : Handler σ ν N Tid
  state : σ

/-- The handlers of a chain from first to last, with their states. -/
def Chain.list {ν : Type} : {σ : Type} → Chain ν N Tid σ → σ → List (Live ν N Tid)
  | _, .one h, s => [⟨_, h, s⟩]
  | _, .chain a b, s => a.list s.1 ++ b.list s.2

/-- Offering a transfer to handlers in order until one says that it handled it; the handlers after that one are not involved. -/
def offer {ν : Type} (t : Transfer N Tid) : List (Live ν N Tid) → ν → Bool × List (Live ν N Tid) × ν
  | [], n => (false, [], n)
  | l :: rest, n =>
    let r := handleIncoming l.handler l.state n t
    let l' : Live ν N Tid := ⟨l.σ, l.handler, r.2.1⟩
    if r.1 then (true, l' :: rest, r.2.2)
    else ((offer t rest r.2.2).1, l' :: (offer t rest r.2.2).2.1, (offer t rest r.2.2).2.2)

theorem offer_append {ν : Type} (t : Transfer N Tid) (as bs : List (Live ν N Tid)) : ∀ n : ν, offer t (as ++ bs) n =
    if (offer t as n).1 then (true, (offer t as n).2.1 ++ bs, (offer t as n).2.2)
    else ((offer t bs (offer t as n).2.2).1, (offer t as n).2.1 ++ (offer t bs (offer t as n).2.2).2.1, (offer t bs (offer t as n).2.2).2.2) := by
  induction as with
  | nil => intro n; simp [offer]
  | cons a as ih =>
    intro n
    rw [List.cons_append]
    simp only [offer]
    by_cases h : (handleIncoming a.handler a.state n t).1
    · simp [h]
    · simp only [h, ih]
      by_cases h' : (offer t as (handleIncoming a.handler a.state n t).2.2).1 <;> simp [h']

theorem chain_incoming {σ₀ σ₁ ν : Type} (a : Handler σ₀ ν N Tid) (b : Handler σ₁ ν N Tid) (s : σ₀ × σ₁) (n : ν) (t : Transfer N Tid) :
    handleIncoming (a.chain b) s n t =
      if (handleIncoming a s.1 n t).1 then (true, ((handleIncoming a s.1 n t).2.1, s.2), (handleIncoming a s.1 n t).2.2)
      else ((handleIncoming b s.2 (handleIncoming a s.1 n t).2.2 t).1,
        ((handleIncoming a s.1 n t).2.1, (handleIncoming b s.2 (handleIncoming a s.1 n t).2.2 t).2.1),
        (handleIncoming b s.2 (handleIncoming a s.1 n t).2.2 t).2.2) := by
  obtain ⟨header, loopback, payload⟩ := t
  cases loopback with
  | true => rfl
  | false => cases header <;> rfl

/-- **C60.** However a chain was built, a transfer given to it is offered to its handlers from first to last until one handles it: the result,
the states of all the handlers and the node afterwards are those of offering it in this way. In particular the handlers after the one that
handled it keep their state, and two chains of the same handlers in the same order do the same. -/
theorem C60_chain {ν σ : Type} (c : Chain ν N Tid σ) (t : Transfer N Tid) : ∀ (s : σ) (n : ν),
    offer t (c.list s) n = ((handleIncoming c.handler s n t).1, c.list (handleIncoming c.handler s n t).2.1, (handleIncoming c.handler s n t).2.2) := by
  induction c with
  | one h =>
    intro s n
    simp only [Chain.list, Chain.handler, offer]
    by_cases hh : (handleIncoming h s n t).1 <;> simp [hh]
  | chain a b iha ihb =>
    intro s n
    have hl : (Chain.chain a b).list s = a.list s.1 ++ b.list s.2 := rfl
    have hh : (Chain.chain a b).handler = a.handler.chain b.handler := rfl
    rw [hl, hh, chain_incoming, offer_append, iha s.1 n]
    simp only
    by_cases h : (handleIncoming a.handler s.1 n t).1
    · rw [if_pos h, if_pos h]; rfl
    · rw [if_neg h, if_neg h, ihb]; rfl

/-- **C60**, associativity: chaining three handlers in either way gives the same result, node and states. -/
theorem C60_associative {ν σ₀ σ₁ σ₂ : Type} (a : Handler σ₀ ν N Tid) (b : Handler σ₁ ν N Tid) (c : Handler σ₂ ν N Tid) (s₀ : σ₀) (s₁ : σ₁)
    (s₂ : σ₂) (n : ν) (t : Transfer N Tid) :
    let l := handleIncoming ((a.chain b).chain c) ((s₀, s₁), s₂) n t
    let r := handleIncoming (a.chain (b.chain c)) (s₀, (s₁, s₂)) n t
    l.1 = r.1 ∧ l.2.2 = r.2.2 ∧ l.2.1.1.1 = r.2.1.1 ∧ l.2.1.1.2 = r.2.1.2.1 ∧ l.2.1.2 = r.2.1.2.2 := by
  intro l r
  have hl : l = handleIncoming ((a.chain b).chain c) ((s₀, s₁), s₂) n t := rfl
  have hr : r = handleIncoming (a.chain (b.chain c)) (s₀, (s₁, s₂)) n t := rfl
  rw [chain_incoming, chain_incoming] at hl
  rw [chain_incoming, chain_incoming] at hr
  rw [hl, hr]
  by_cases h : (handleIncoming a s₀ n t).1
  · simp [h]
  · by_cases h' : (handleIncoming b s₁ (handleIncoming a s₀ n t).2.2 t).1 <;> simp [h, h']

/-- A handler that counts the messages it is offered and handles those on subject `s`. The node is a list of the subjects handled. -/
def counter (s : SubjectId) : Handler Nat (List SubjectId) (BitVec 7) (BitVec 5) :=
  { message := fun k n h _ => if h.subject = s then (true, k + 1, n ++ [s]) else (false, k + 1, n)
    request := fun k n _ _ _ => (false, k, n)
    response := fun k n _ _ => (false, k, n)
    loopback := fun k n _ => (false, k, n) }

/-- Three handlers; the message is for the second one, the third is not offered it. -/
example : handleIncoming (((counter 1).chain (counter 2)).chain (counter 2)) ((0, 0), 0) [] ⟨.message ⟨0, 0, 0, 2, none⟩, false, []⟩ =
    (true, ((1, 1), 0), [2]) := by decide +kernel

/-! ### C66: anonymous publishers -/

/-- A history of calls of an anonymous publisher's `send` and `send_loopback`. -/
def AnonymousPublisher.run (ops : TidOps Tid) (mtu : Nat) : AnonymousPublisher Tid → List (Env E × Payload × Bool) →
    List (AnonymousAnswer Tid E × List (Transfer N Tid)) × AnonymousPublisher Tid
  | p, [] => ([], p)
  | p, (env, payload, loopback) :: rest =>
    let r := p.send (N := N) ops mtu env payload loopback
    let q := AnonymousPublisher.run ops mtu r.2.1 rest
    ((r.1, r.2.2) :: q.1, q.2)

theorem anonymous_run (ops : TidOps Tid) (mtu : Nat) (calls : List (Env E × Payload × Bool)) : ∀ p : AnonymousPublisher Tid,
    ∃ k, ((p.run (N := N) ops mtu calls).1.flatMap (·.2)).length = k ∧
      (p.run (N := N) ops mtu calls).2 = { p with nextTransferId := ops.increment^[k] p.nextTransferId } := by
  induction calls with
  | nil => intro p; exact ⟨0, rfl, rfl⟩
  | cons call rest ih =>
    intro p
    obtain ⟨env, payload, loopback⟩ := call
    have hrun : p.run (N := N) ops mtu ((env, payload, loopback) :: rest) =
      (((p.send (N := N) ops mtu env payload loopback).1, (p.send (N := N) ops mtu env payload loopback).2.2) ::
        (((p.send (N := N) ops mtu env payload loopback).2.1).run (N := N) ops mtu rest).1,
       (((p.send (N := N) ops mtu env payload loopback).2.1).run (N := N) ops mtu rest).2) := rfl
    rw [hrun]
    simp only [List.flatMap_cons, List.length_append]
    obtain ⟨k, h1, h2⟩ := ih (p.send (N := N) ops mtu env payload loopback).2.1
    rw [h1, h2]
    refine ⟨_, rfl, ?_⟩
    unfold AnonymousPublisher.send
    by_cases hm : (payload.sizeBits + 7) / 8 > mtu
    · simp [if_pos hm]
    · rw [if_neg hm]
      cases doSerialize payload env.alloc with
      | bytes b =>
        simp only [List.length_singleton]
        rw [Nat.add_comm 1 k, Function.iterate_succ_apply]
      | outOfMemory => simp
      | panic => simp

/-- **C66.** An anonymous publisher, after any calls: a message that needs more bytes than fit into one frame is refused with `Length` and
nothing is handed over; another one whose bytes could be made is handed over exactly once, without a source and with a transfer ID that
counts the messages handed over so far. -/
theorem C66_anonymous (ops : TidOps Tid) (mtu : Nat) (subject : SubjectId) (priority : Priority) (timeout : Duration)
    (calls : List (Env E × Payload × Bool)) (env : Env E) (payload : Payload) (loopback : Bool) :
    let r := (AnonymousPublisher.new ops subject priority timeout).run (N := N) ops mtu calls
    let o := r.2.send (N := N) ops mtu env payload loopback
    if mtu < (payload.sizeBits + 7) / 8 then o.1 = .length ∧ o.2.2 = []
    else match doSerialize payload env.alloc with
      | .bytes b => o.1 = .other env.push.answer ∧ o.2.2 = [⟨.message ⟨env.now.plus timeout,
          ops.increment^[(r.1.flatMap (·.2)).length] ops.dflt, priority, subject, none⟩, loopback, b⟩]
      | .outOfMemory => o.1 = .other (.transport env.oom) ∧ o.2.2 = []
      | .panic => o.1 = .other .panic := by
  intro r o
  obtain ⟨k, h1, h2⟩ := anonymous_run (N := N) ops mtu calls (AnonymousPublisher.new ops subject priority timeout)
  have h1' : (r.1.flatMap (·.2)).length = k := h1
  have h2' : r.2 = ⟨priority, subject, ops.increment^[k] ops.dflt, timeout⟩ := h2
  have ho : o = r.2.send (N := N) ops mtu env payload loopback := rfl
  rw [ho, h1', h2']
  unfold AnonymousPublisher.send
  by_cases hm : (payload.sizeBits + 7) / 8 > mtu
  · rw [if_pos hm, if_pos (by omega)]; exact ⟨rfl, rfl⟩
  · rw [if_neg hm, if_neg (by omega)]
    cases doSerialize payload env.alloc <;> simp

example : ((AnonymousPublisher.new canTid 100 4 10).run (N := BitVec 7) canTid 7
    [(demoEnv .ok, demoPayload [.uint 8 1], false), (demoEnv .ok, demoPayload [.bytes (List.replicate 8 0)], false),
     (demoEnv .wouldBlock, demoPayload [.uint 8 2], true)]).1 =
    [(.other .ok, [⟨.message ⟨15, 0, 4, 100, none⟩, false, [1]⟩]), (.length, []),
     (.other .wouldBlock, [⟨.message ⟨15, 1, 4, 100, none⟩, true, [2]⟩])] := by decide +kernel

end Verif.Node
