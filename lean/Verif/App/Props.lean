import Verif.App.Runs

/-!
Properties of nodes with application-layer functions: the heartbeat (C54), the port list (C55, C56) and node information (C72).
-/

namespace Verif.App

open Verif.Enc Verif.Node Verif.Dsdl

variable {N Tid Trk E : Type}

/-! ### C54: heartbeats -/

theorem beat_sent {ops : TidOps Tid} {n : MinimalNode N Tid Trk} {t : Duration} {k : Nat} {health mode status : BitVec 8}
    (hp : Publishes n.node heartbeatSubject t nominal) (hr : Reports n.heartbeat k health mode status) (hh : health.toNat < 4) (hm : mode.toNat < 8)
    (env : Env E) :
    (n.perSecond ops env).1 = env.push.answer ∧ ∃ tid, (n.perSecond ops env).2.2 =
      [⟨.message ⟨env.now.plus t, tid, nominal, heartbeatSubject, n.node.nodeId⟩, false, heartbeatBytes (min (k + 1) (2 ^ 32 - 1)) health mode status⟩] := by
  have r := hr.tick
  have hb := n.heartbeat.tick.payload_spec (by rw [r.health]; exact hh) (by rw [r.mode]; exact hm) env.alloc
  rw [r.uptime, r.health, r.mode, r.status] at hb
  exact publish_bytes hp env hb

/-- **C54** for `MinimalNode`. After any history in which publishing heartbeats was not stopped, the next per-second call hands over one message. It is
on the heartbeat subject, has nominal priority and a deadline 500 ms later, and reports an uptime that is the number of per-second calls so far
including this one (at most 2^32-1), and the last health, mode and status code that were set (0 if none). The call returns what the transmitter said.

Partial: only if the health is less than 4 and the mode less than 8, see `C54_counterexample_health`. -/
theorem C54_minimal_partial (ops : TidOps Tid) (tops : TrackerOps N Tid Trk) (node : CoreNode N Tid Trk) (n : MinimalNode N Tid Trk)
    (hn : MinimalNode.new (E := E) ops node = (.ok, some n)) (history : List (BeatOp N Tid E)) (hk : ∀ op ∈ history, op.keeps heartbeatSubject = true)
    (health mode status : BitVec 8) (h1 : health = lastOr (·.health?) 0 history) (h2 : mode = lastOr (·.mode?) 0 history)
    (h3 : status = lastOr (·.status?) 0 history) (hh : health.toNat < 4) (hm : mode.toNat < 8) (env : Env E) :
    let m := MinimalNode.after ops tops n history
    (m.perSecond ops env).1 = env.push.answer ∧ ∃ tid, (m.perSecond ops env).2.2 =
      [⟨.message ⟨env.now.plus (milliseconds 500), tid, nominal, heartbeatSubject, m.node.nodeId⟩, false,
        heartbeatBytes (min (history.countP (·.isPerSecond) + 1) (2 ^ 32 - 1)) health mode status⟩] := by
  intro m
  subst h1 h2 h3
  unfold MinimalNode.new at hn
  simp only at hn
  split at hn
  · rename_i ha
    simp only [Prod.mk.injEq, Option.some.injEq, true_and] at hn
    subst hn
    exact beat_sent (minimal_publishes ops tops _ (milliseconds 500) nominal history _ (start_publishes ha) hk) (minimal_reports ops tops _ rfl history) hh hm env
  · simp at hn

/-- **C54** for `HeartbeatService`: the same with a deadline of 1000 ms.

Partial: only if the health is less than 4 and the mode less than 8, see `C54_counterexample_health`. -/
theorem C54_service_partial (ops : TidOps Tid) (tops : TrackerOps N Tid Trk) (node node' : CoreNode N Tid Trk) (s : Heartbeat)
    (hn : HeartbeatService.new (E := E) ops node = (.ok, node', some s)) (history : List (BeatOp N Tid E))
    (hk : ∀ op ∈ history, op.keeps heartbeatSubject = true)
    (health mode status : BitVec 8) (h1 : health = lastOr (·.health?) 0 history) (h2 : mode = lastOr (·.mode?) 0 history)
    (h3 : status = lastOr (·.status?) 0 history) (hh : health.toNat < 4) (hm : mode.toNat < 8) (env : Env E) :
    let m := HeartbeatService.after ops tops ⟨node', s⟩ history
    (HeartbeatService.publish ops m.heartbeat m.node env).1.answer = env.push.answer ∧
    ∃ tid, (HeartbeatService.publish ops m.heartbeat m.node env).1.sent =
      [⟨.message ⟨env.now.plus (milliseconds 1000), tid, nominal, heartbeatSubject, m.node.nodeId⟩, false,
        heartbeatBytes (min (history.countP (·.isPerSecond) + 1) (2 ^ 32 - 1)) health mode status⟩] := by
  intro m
  subst h1 h2 h3
  unfold HeartbeatService.new at hn
  simp only at hn
  split at hn
  · rename_i ha
    simp only [Prod.mk.injEq, Option.some.injEq, true_and] at hn
    obtain ⟨rfl, rfl⟩ := hn
    have hm' : m = MinimalNode.after ops tops ⟨_, Heartbeat.initial⟩ history := service_after ..
    rw [hm']
    exact beat_sent (minimal_publishes ops tops _ (milliseconds 1000) nominal history _ (start_publishes ha) hk) (minimal_reports ops tops _ rfl history) hh hm env
  · simp at hn

theorem publish_subject {ops : TidOps Tid} {n : CoreNode N Tid Trk} {env : Env E} {s : SubjectId} {p : Payload} {l : Bool} (s' : SubjectId) :
    messagesOn s' (n.publish ops env s p l).sent = if s = s' then (n.publish ops env s p l).sent else [] := by
  unfold CoreNode.publish
  split
  · simp [messagesOn]
  · simp only [Publisher.publish]
    split <;> simp only [messagesOn, List.filter] <;> by_cases hs : s = s' <;> simp [hs]

/-- **C54** for `BasicNode`, among whatever else the per-second call sends.

Partial: only if the health is less than 4 and the mode less than 8, see `C54_counterexample_health`. -/
theorem C54_basic_partial (ops : TidOps Tid) (tops : TrackerOps N Tid Trk) (env₀ : Env E) (node : CoreNode N Tid Trk) (info : Payload)
    (rx : List (RxCall N)) (n : BasicNode N Tid Trk) (hn : BasicNode.new ops env₀ node info = (.ok, rx, some n)) (history : List (BasicOp N Tid E))
    (hk : ∀ op ∈ history, op.keeps heartbeatSubject = true)
    (health mode status : BitVec 8) (h1 : health = lastOr (·.health?) 0 history) (h2 : mode = lastOr (·.mode?) 0 history)
    (h3 : status = lastOr (·.status?) 0 history) (hh : health.toNat < 4) (hm : mode.toNat < 8) (env env' : Env E) :
    let m := (n.run ops tops history).2
    ∃ tid, messagesOn heartbeatSubject (m.perSecond ops env env').sent =
      [⟨.message ⟨env.now.plus (milliseconds 500), tid, nominal, heartbeatSubject, m.node.node.nodeId⟩, false,
        heartbeatBytes (min (history.countP (·.isPerSecond) + 1) (2 ^ 32 - 1)) health mode status⟩] := by
  intro m
  subst h1 h2 h3
  obtain ⟨f, -⟩ := new_spec tops hn
  have hp := basic_publishes ops tops _ _ _ history n f.beats f.ok hk
  obtain ⟨-, hr⟩ := basic_reports ops tops n f.heartbeat f.ok history
  obtain ⟨ha, tid, hs⟩ := beat_sent (ops := ops) hp hr hh hm env
  refine ⟨tid, ?_⟩
  have hsent : messagesOn heartbeatSubject (m.perSecond ops env env').sent = messagesOn heartbeatSubject (m.node.perSecond ops env).2.2 := by
    unfold BasicNode.perSecond
    simp only
    split
    · split
      · have : ∀ a b : List (Transfer N Tid), messagesOn heartbeatSubject (a ++ b) = messagesOn heartbeatSubject a ++ messagesOn heartbeatSubject b := by
          intro a b; simp [messagesOn]
        rw [this, publish_subject, if_neg (by decide), List.append_nil]
      · rfl
    · rfl
  rw [hsent]
  have : (m.node.perSecond ops env).2.2 = _ := hs
  rw [this]
  simp [messagesOn]
  rfl

/-! The demonstrations use a CAN node. -/

/-- A fresh CAN node with node ID 7. -/
def demoCore : CoreNode (BitVec 7) (BitVec 5) Can.CanTransferIdTracker := .new (some 7) 8 4

/-- The basic node on it, if it can be made. -/
def demoBasic : Option (BasicNode (BitVec 7) (BitVec 5) Can.CanTransferIdTracker) := (BasicNode.new canTid (demoEnv .ok) demoCore ⟨0, fun c => some c⟩).2.2

/-- A history with failures, setters and other calls. -/
def demoBeats : List (BeatOp (BitVec 7) (BitVec 5) Unit) :=
  [.perSecond (demoEnv .ok), .setHealth 2, .setMode 3, .inside (.startPublishing (demoEnv .ok) 100 5 4), .perSecond (demoEnv .wouldBlock), .setMode 1,
   .setStatusCode 200, .inside (.stopPublishing (demoEnv .ok) 100)]

/-- The third heartbeat after the history. -/
example : (match (MinimalNode.new canTid demoCore : Answer (BitVec 5) Unit × _) with
    | (.ok, some n) => decide (((MinimalNode.after canTid canTracker n demoBeats).perSecond canTid (demoEnv .ok)).2.2 =
        [⟨.message ⟨500005, 2, 4, 7509, some 7⟩, false, [3, 0, 0, 0, 2, 1, 200]⟩])
    | _ => false) = true := by decide +kernel

example : ∀ op ∈ demoBeats, op.keeps heartbeatSubject = true := by decide +kernel

example : lastOr (·.health?) 0 demoBeats = 2 ∧ lastOr (·.mode?) 0 demoBeats = 1 ∧ lastOr (·.status?) 0 demoBeats = 200 := by decide +kernel

example : (match (HeartbeatService.new canTid demoCore : Answer (BitVec 5) Unit × _ × _) with
    | (.ok, n, some s) =>
      let m := HeartbeatService.after canTid canTracker ⟨n, s⟩ demoBeats
      decide ((HeartbeatService.publish canTid m.heartbeat m.node (demoEnv .ok)).1.sent =
        [⟨.message ⟨1000005, 2, 4, 7509, some 7⟩, false, [3, 0, 0, 0, 2, 1, 200]⟩])
    | _ => false) = true := by decide +kernel

/-- **C54** fails for a health that is not less than 4: `Health` has a public field, and `set_health(Health { value: 5 })` is reported as 1
(advisory) instead of 5 or, as the DSDL definition says, 3. -/
theorem C54_counterexample_health : ∃ n : MinimalNode (BitVec 7) (BitVec 5) Can.CanTransferIdTracker,
    MinimalNode.new (E := Unit) canTid demoCore = (.ok, some n) ∧
    ((MinimalNode.after canTid canTracker n [(.setHealth 5 : BeatOp _ _ Unit)]).perSecond canTid (demoEnv .ok)).2.2.map (·.payload) = [[1, 0, 0, 0, 1, 0, 0]] := by
  refine ⟨⟨(demoCore.startPublishing (E := Unit) canTid heartbeatSubject (milliseconds 500) nominal).node, Heartbeat.initial⟩, ?_, ?_⟩
  · have : (demoCore.startPublishing (E := Unit) canTid heartbeatSubject (milliseconds 500) nominal).answer = .ok := by decide +kernel
    show MinimalNode.new (E := Unit) canTid demoCore = _
    unfold MinimalNode.new
    simp only
    rw [show BitVec.ofNat 32 500000 = milliseconds 500 from by decide, this]
  · decide +kernel

/-! ### C55: the port list of a basic node -/

/-- **C55**, when. After any history in which publishing port lists was not stopped, the next per-second call hands over a port list exactly if the
heartbeat is sent, the number of heartbeats that were sent before is a positive multiple of ten, and there is memory for the message.

Partial: the claim counts calls, this counts calls whose heartbeat was sent; see `C55_counterexample_delay`. -/
theorem C55_period_partial (ops : TidOps Tid) (tops : TrackerOps N Tid Trk) (env₀ : Env E) (node : CoreNode N Tid Trk) (info : Payload)
    (rx : List (RxCall N)) (n : BasicNode N Tid Trk) (hn : BasicNode.new ops env₀ node info = (.ok, rx, some n)) (history : List (BasicOp N Tid E))
    (hk : ∀ op ∈ history, op.keeps portListSubject = true) (env env' : Env E) :
    let m := (n.run ops tops history).2
    messagesOn portListSubject (m.perSecond ops env env').sent ≠ [] ↔
      (m.node.perSecond ops env).1 = .ok ∧ 0 < beats ops tops n history ∧ beats ops tops n history % 10 = 0 ∧ env'.alloc = true := by
  intro m
  obtain ⟨f, -⟩ := new_spec tops hn
  have hp : Publishes m.node.node portListSubject _ _ := basic_publishes ops tops _ _ _ history n f.lists f.ok hk
  obtain ⟨hok, -⟩ := basic_reports ops tops n f.heartbeat f.ok history
  have hs := run_seconds ops tops history n 0 f.ok (by rw [f.seconds]; rfl)
  rw [Nat.zero_add] at hs
  have hten : (m.seconds = 10#8 ↔ 0 < beats ops tops n history ∧ beats ops tops n history % 10 = 0) := by
    have e : m.seconds = 10#8 ↔ counter (beats ops tops n history) = 10 := by
      rw [← hs]
      exact ⟨fun h => by show m.seconds.toNat = 10; rw [h]; rfl, fun h => BitVec.eq_of_toNat_eq h⟩
    rw [e]
    unfold counter
    split <;> omega
  have app : ∀ a b : List (Transfer N Tid), messagesOn portListSubject (a ++ b) = messagesOn portListSubject a ++ messagesOn portListSubject b := by
    intro a b; simp [messagesOn]
  have beat : messagesOn portListSubject (m.node.perSecond ops env).2.2 = [] := by
    show messagesOn portListSubject (m.node.node.publish ops env heartbeatSubject m.node.heartbeat.tick.payload false).sent = []
    rw [publish_subject, if_neg (by decide)]
  have hp' : Publishes (m.node.perSecond ops env).2.1.node portListSubject _ _ := hp.publish tops env _ _ _
  obtain ⟨⟨b, hb, -⟩, hno⟩ := m.portList.payload_spec hok
  unfold BasicNode.perSecond
  simp only
  cases ha : (m.node.perSecond ops env).1 with
  | ok =>
    simp only
    by_cases hsec : m.seconds = 10#8
    · rw [if_pos hsec]
      simp only
      rw [app, beat, List.nil_append, publish_subject, if_pos rfl]
      obtain ⟨h1, h2⟩ := hten.1 hsec
      cases hal : env'.alloc with
      | true =>
        obtain ⟨-, tid, hsent⟩ := publish_bytes (ops := ops) hp' env' (payload := m.portList.payload) (b := b) (by rw [hal]; exact hb)
        rw [hsent]
        simp [h1, h2]
      | false =>
        obtain ⟨p, hp1, -⟩ := hp'
        have hempty : ((m.node.perSecond ops env).2.1.node.publish ops env' portListSubject m.portList.payload false).sent = [] := by
          unfold CoreNode.publish
          rw [hp1]
          simp only [Publisher.publish, hal, hno]
        rw [hempty]
        simp
    · rw [if_neg hsec]
      simp only
      rw [beat]
      have := mt hten.2 hsec
      constructor
      · intro h; exact absurd rfl h
      · intro h; exact absurd ⟨h.2.1, h.2.2.1⟩ this
  | _ => simp [beat]

/-- **C55**, what. After any history, every port list that the next per-second call hands over has optional priority and a deadline one second later,
comes from the node's ID, and is a serialized message of the type uavcan.node.port.List that names exactly the ports in use, however many there are.

Partial: only for histories in which the transfer handlers and the users of `node_mut` do not start or stop ports, see `C55_counterexample_handlers`, and ports
that the node used before the basic node was made on it are not counted, see `C55_counterexample_earlier`. -/
theorem C55_accuracy_partial (ops : TidOps Tid) (tops : TrackerOps N Tid Trk) (env₀ : Env E) (node : CoreNode N Tid Trk) (info : Payload)
    (rx : List (RxCall N)) (n : BasicNode N Tid Trk) (hn : BasicNode.new ops env₀ node info = (.ok, rx, some n)) (history : List (BasicOp N Tid E))
    (hk : ∀ op ∈ history, op.keeps portListSubject = true) (hv : ∀ op ∈ history, op.visible = true) (env env' : Env E) :
    let m := (n.run ops tops history).2
    ∀ t ∈ messagesOn portListSubject (m.perSecond ops env env').sent,
      (∃ tid, t.header = .message ⟨env'.now.plus (milliseconds 1000), tid, optional, portListSubject, m.node.node.nodeId⟩) ∧ t.loopback = false ∧
      ∃ w r, portListType.deserialize (ReadCursor.new t.payload) = some (.ok w, r) ∧ ∀ p, names w p = p.inUse (traceOf ops tops [] n history) := by
  intro m t ht
  obtain ⟨f, -⟩ := new_spec tops hn
  have hp : Publishes m.node.node portListSubject _ _ := basic_publishes ops tops _ _ _ history n f.lists f.ok hk
  obtain ⟨hok, -⟩ := basic_reports ops tops n f.heartbeat f.ok history
  have hnames : ∀ p, m.portList.names p = p.inUse (traceOf ops tops [] n history) := run_names ops tops history n [] f.ok f.names hv
  have app : ∀ a b : List (Transfer N Tid), messagesOn portListSubject (a ++ b) = messagesOn portListSubject a ++ messagesOn portListSubject b := by
    intro a b; simp [messagesOn]
  have beat : messagesOn portListSubject (m.node.perSecond ops env).2.2 = [] := by
    show messagesOn portListSubject (m.node.node.publish ops env heartbeatSubject m.node.heartbeat.tick.payload false).sent = []
    rw [publish_subject, if_neg (by decide)]
  have hp' : Publishes (m.node.perSecond ops env).2.1.node portListSubject _ _ := hp.publish tops env _ _ _
  have hid : (m.node.perSecond ops env).2.1.node.nodeId = m.node.node.nodeId := by
    show (m.node.node.publish ops env heartbeatSubject m.node.heartbeat.tick.payload false).node.nodeId = _
    unfold CoreNode.publish
    split <;> rfl
  obtain ⟨⟨b, hb, w, r, hw, hwn⟩, hno⟩ := m.portList.payload_spec hok
  unfold BasicNode.perSecond at ht
  simp only at ht
  cases ha : (m.node.perSecond ops env).1 with
  | ok =>
    rw [ha] at ht
    simp only at ht
    by_cases hsec : m.seconds = 10#8
    · rw [if_pos hsec] at ht
      simp only at ht
      rw [app, beat, List.nil_append, publish_subject, if_pos rfl] at ht
      cases hal : env'.alloc with
      | true =>
        obtain ⟨-, tid, hsent⟩ := publish_bytes (ops := ops) hp' env' (payload := m.portList.payload) (b := b) (by rw [hal]; exact hb)
        rw [hsent, List.mem_singleton] at ht
        subst ht
        exact ⟨⟨tid, by rw [hid]⟩, rfl, w, r, hw, fun p => by rw [hwn, hnames]⟩
      | false =>
        obtain ⟨p, hp1, -⟩ := hp'
        have hempty : ((m.node.perSecond ops env).2.1.node.publish ops env' portListSubject m.portList.payload false).sent = [] := by
          unfold CoreNode.publish
          rw [hp1]
          simp only [Publisher.publish, hal, hno]
        rw [hempty] at ht
        simp at ht
    · rw [if_neg hsec] at ht
      simp only at ht
      rw [beat] at ht
      simp at ht
  | _ => rw [ha] at ht; simp [beat] at ht

/-- **C55**, the ports in use. If the basic node was made on a fresh node, then after any history at all the ports that are in use according to the
calls and their answers are those that the node has: starting to publish or to send requests again is refused as a duplicate exactly for them (the
latter on a node with an ID). -/
theorem C55_in_use (ops : TidOps Tid) (tops : TrackerOps N Tid Trk) (env₀ : Env E) (id : Option N) (pubCap reqCap : Nat) (info : Payload)
    (rx : List (RxCall N)) (n : BasicNode N Tid Trk) (hn : BasicNode.new ops env₀ (CoreNode.new id pubCap reqCap) info = (.ok, rx, some n))
    (history : List (BasicOp N Tid E)) (env : Env E) (timeout : Duration) (extent : Nat) (priority : Priority) :
    let m := (n.run ops tops history).2
    let trace := traceOf ops tops [] n history
    (∀ s, (m.call ops tops (.startPublishing env s timeout priority)).answer = .duplicate ↔ (Port.publisher s).inUse trace = true) ∧
    (∀ s, m.node.node.nodeId ≠ none →
      ((m.call ops tops (.startSendingRequests env s timeout extent priority)).answer = .duplicate ↔ (Port.client s).inUse trace = true)) := by
  intro m trace
  obtain ⟨f, -⟩ := new_spec tops hn
  obtain ⟨hok, -⟩ := basic_reports ops tops n f.heartbeat f.ok history
  have hu : Uses m.node.node trace := run_uses ops tops env history n [] f.ok (new_uses tops hn)
  refine ⟨fun s => ?_, fun s hid => ?_⟩
  · obtain ⟨x, g, -⟩ := call_spec ops tops m hok (.startPublishing env s timeout priority)
    rw [g, ← hu.publishers]
    simp only [CoreNode.step, CoreNode.startPublishing, IMap.contains_eq]
    cases (m.node.node.publishers.get? s).isSome with
    | true => simp
    | false =>
      simp only [Bool.false_eq_true, if_false, iff_false]
      split <;> simp
  · obtain ⟨x, g, -⟩ := call_spec ops tops m hok (.startSendingRequests env s timeout extent priority)
    rw [g, ← hu.requesters]
    simp only [CoreNode.step, CoreNode.startSendingRequests, IMap.contains_eq]
    cases hi : m.node.node.nodeId with
    | none => exact absurd hi hid
    | some i =>
      simp only
      cases (m.node.node.requesters.get? s).isSome with
      | true => simp
      | false =>
        simp only [Bool.false_eq_true, if_false, iff_false]
        split
        · simp
        · split <;> simp

/-- Ten accepted heartbeats, with calls that start and stop ports. -/
def demoCalls : List (BasicOp (BitVec 7) (BitVec 5) Unit) :=
  [.call (.startPublishing (demoEnv .ok) 100 5 4), .call (.startPublishing (demoEnv .ok) 101 5 4), .call (.stopPublishing (demoEnv .ok) 100),
   .call (.subscribeMessage (demoEnv .ok) 8191 64 5), .call (.startSendingRequests (demoEnv .ok) 511 5 64 4),
   .call (.subscribeRequest { demoEnv .ok with subscribed := .error () } 42 64 5)] ++ List.replicate 10 (.perSecond (demoEnv .ok) (demoEnv .ok))

/-- Applies a check to the basic node on `demoCore`. -/
def demoCheck (f : BasicNode (BitVec 7) (BitVec 5) Can.CanTransferIdTracker → Bool) : Bool := match demoBasic with | some n => f n | none => false

/-- The ports named by a serialized port list among these. -/
def namedIn (b : List Byte) (ps : List Port) : List Port :=
  match portListType.deserialize (ReadCursor.new b) with
  | some (.ok w, _) => ps.filter (names w)
  | _ => []

example : (∀ op ∈ demoCalls, op.keeps portListSubject = true) ∧ (∀ op ∈ demoCalls, op.visible = true) := by decide +kernel

/-- The eleventh per-second call hands over the list. It names the ports in use and not the others. -/
example : demoCheck (fun n =>
    let m := (n.run canTid canTracker demoCalls).2
    let o := m.perSecond canTid (demoEnv .ok) (demoEnv .ok)
    beats canTid canTracker n demoCalls = 10 &&
    match messagesOn portListSubject o.sent with
    | [t] => namedIn t.payload [.publisher 7509, .publisher 7510, .publisher 100, .publisher 101, .subscriber 8191, .subscriber 101, .client 511, .client 430,
        .server 430, .server 42] = [.publisher 7509, .publisher 7510, .publisher 101, .subscriber 8191, .client 511, .server 430]
    | _ => false) = true := by decide +kernel

/-- **C55** fails for ports that a transfer handler starts: handlers are given the node inside the basic node, which does not update the port list. The
node publishes on subject 100 here, the list does not say so. -/
theorem C55_counterexample_handlers : demoCheck (fun n =>
    let history : List (BasicOp (BitVec 7) (BitVec 5) Unit) :=
      .inside (.startPublishing (demoEnv .ok) 100 5 4) :: List.replicate 10 (.perSecond (demoEnv .ok) (demoEnv .ok))
    let m := (n.run canTid canTracker history).2
    let o := m.perSecond canTid (demoEnv .ok) (demoEnv .ok)
    (Port.publisher 100).inUse (traceOf canTid canTracker [] n history) &&
    match messagesOn portListSubject o.sent with
    | [t] => namedIn t.payload [.publisher 100, .publisher 7509] = [.publisher 7509]
    | _ => false) = true := by decide +kernel

/-- **C55** fails for ports that were started before the basic node was made: the node publishes on subject 100 here, the list does not say so. -/
theorem C55_counterexample_earlier : (match (BasicNode.new canTid (demoEnv .ok) (demoCore.startPublishing (E := Unit) canTid 100 5 4).node ⟨0, fun c => some c⟩).2.2 with
    | none => false
    | some n =>
      let m := (n.run canTid canTracker (List.replicate 10 (.perSecond (demoEnv .ok) (demoEnv .ok)))).2
      let o := m.perSecond canTid (demoEnv .ok) (demoEnv .ok)
      (m.call canTid canTracker (.startPublishing (demoEnv .ok) 100 5 4)).answer = .duplicate &&
      match messagesOn portListSubject o.sent with
      | [t] => namedIn t.payload [.publisher 100, .publisher 7509] = [.publisher 7509]
      | _ => false) = true := by decide +kernel

/-- **C55** fails for the period: a call whose heartbeat is not sent does not count, so of the first twenty calls here none sends a list. -/
theorem C55_counterexample_delay : demoCheck (fun n =>
    let history : List (BasicOp (BitVec 7) (BitVec 5) Unit) :=
      (List.replicate 10 [.perSecond (demoEnv .ok) (demoEnv .ok), .perSecond (demoEnv .wouldBlock) (demoEnv .ok)]).flatten
    history.length = 20 && (n.run canTid canTracker history).1.all fun o => messagesOn portListSubject o.sent = []) = true := by decide +kernel

/-! ### C56: the port list service -/

theorem maskOf_spec (l : List ServiceId) : ∃ m, maskOf l = some m ∧ MaskOk 64 m ∧ ∀ s : ServiceId, bitAt m.bytes s.toNat = decide (s ∈ l) := by
  obtain ⟨m, h1, h2, h3⟩ := mask_new 64
  obtain ⟨m', g1, g2, g3⟩ := mask_foldl (n := 64) (fun s : ServiceId => s.toNat) l m h2 (fun x _ => by have := x.isLt; omega)
  refine ⟨m', ?_, g2, fun s => ?_⟩
  · unfold maskOf
    rw [show (512 : Nat) = 8 * 64 from rfl, h1]
    exact g1
  · rw [g3, h3, Bool.or_false]
    congr 1
    rw [List.mem_map]
    simp only [eq_iff_iff]
    constructor
    · rintro ⟨x, hx, he⟩
      rw [← BitVec.eq_of_toNat_eq he]
      exact hx
    · intro h; exact ⟨s, h, rfl⟩

theorem collect_spec (l : List SubjectId) (hl : l.Nodup) (h : l.length ≤ 255) :
    ∃ x, collect255 l = some x ∧ x.Ok ∧ ∀ s : SubjectId, x.names s = decide (s ∈ l) := by
  have inj : ∀ s t : SubjectId, s.setWidth 16 = t.setWidth 16 → s = t := by
    intro s t h
    apply BitVec.eq_of_toNat_eq
    have := congrArg BitVec.toNat h
    have h1 := t.isLt
    have h2 := s.isLt
    simp only [BitVec.toNat_setWidth] at this
    omega
  refine ⟨.sparse (l.map (·.setWidth 16)), by unfold collect255; rw [if_pos h], ⟨?_, by simpa using h, ?_⟩, fun s => ?_⟩
  · exact List.Nodup.map inj hl
  · intro x hx
    obtain ⟨s, -, rfl⟩ := List.mem_map.1 hx
    have := s.isLt
    simp only [BitVec.toNat_setWidth]
    omega
  · simp only [SubjectIdList.names]
    congr 1
    rw [List.mem_map]
    simp only [eq_iff_iff]
    constructor
    · rintro ⟨x, hx, he⟩
      rw [← inj _ _ he]
      exact hx
    · intro h; exact ⟨s, h, rfl⟩

/-- **C56.** After any history of calls of a node that publishes port lists, with at most 255 publishers and at most 255 message subscriptions, publishing
the port list does not panic: the call returns what the transmitter said if there is memory, and the message that is handed over is a serialized message
of the type uavcan.node.port.List that names exactly the subjects and services in use.

Partial: with more publishers or subscriptions it panics, see `C56_panics`. -/
theorem C56_list_partial (ops : TidOps Tid) (tops : TrackerOps N Tid Trk) (id : Option N) (pubCap reqCap : Nat) (history : List (Op N Tid E))
    (subscribers : List SubjectId) (servers : List ServiceId) (env : Env E) (halloc : env.alloc = true) (hs : subscribers.Nodup)
    (hsl : subscribers.length ≤ 255) :
    let n := ((CoreNode.new id pubCap reqCap : CoreNode N Tid Trk).run ops tops history).2
    let trace := Node.traceOf ops tops (CoreNode.new id pubCap reqCap) history
    n.publishers.length ≤ 255 → publishing portListSubject trace = true →
    (PortListService.publish ops n subscribers servers env).answer = env.push.answer ∧
    ∃ h b, (PortListService.publish ops n subscribers servers env).sent = [⟨.message h, false, b⟩] ∧ h.subject = portListSubject ∧
      h.source = n.nodeId ∧ ∃ w r, portListType.deserialize (ReadCursor.new b) = some (.ok w, r) ∧
        (∀ s, names w (.publisher s) = publishing s trace) ∧ (∀ s, names w (.subscriber s) = decide (s ∈ subscribers)) ∧
        (∀ s, names w (.client s) = requesting s trace) ∧ (∀ s, names w (.server s) = decide (s ∈ servers)) := by
  intro n trace hpl hpub
  have v : (CoreNode.new id pubCap reqCap : CoreNode N Tid Trk).Valid :=
    ⟨⟨by simp [CoreNode.new], by simp [CoreNode.new]⟩, ⟨by simp [CoreNode.new], by simp [CoreNode.new]⟩⟩
  obtain ⟨hv, -, -, hp, hr⟩ := run_ports ops tops history (CoreNode.new id pubCap reqCap : CoreNode N Tid Trk) [] v (fun s => rfl) (fun s => rfl)
  rw [List.append_nil] at hp hr
  have hp : ∀ s, (n.publishers.get? s).isSome = publishing s trace := hp
  have hr : ∀ s, (n.requesters.get? s).isSome = requesting s trace := hr
  have kp : ∀ s, decide (s ∈ n.publishers.map Prod.fst) = publishing s trace := by
    intro s; rw [← hp, Bool.eq_iff_iff, decide_eq_true_iff]; exact IMap.mem_keys _ _
  have kr : ∀ s, decide (s ∈ n.requesters.map Prod.fst) = requesting s trace := by
    intro s; rw [← hr, Bool.eq_iff_iff, decide_eq_true_iff]; exact IMap.mem_keys _ _
  obtain ⟨x₁, a₁, b₁, c₁⟩ := collect_spec (n.publishers.map Prod.fst) hv.1.1 (by simpa using hpl)
  obtain ⟨x₂, a₂, b₂, c₂⟩ := collect_spec subscribers hs hsl
  obtain ⟨x₃, a₃, b₃, c₃⟩ := maskOf_spec (n.requesters.map Prod.fst)
  obtain ⟨x₄, a₄, b₄, c₄⟩ := maskOf_spec servers
  obtain ⟨⟨b, hb, w, r, hw, hwn⟩, -⟩ := PortList.payload_spec ⟨x₁, x₂, x₃, x₄⟩ ⟨b₁, b₂, b₃, b₄⟩
  have hpos : (n.publishers.get? portListSubject).isSome = true := by rw [hp]; exact hpub
  obtain ⟨p, hpp⟩ := Option.isSome_iff_exists.1 hpos
  obtain ⟨g1, tid, g2⟩ := publish_bytes (ops := ops) (n := n) (s := portListSubject) ⟨p, hpp, rfl, rfl⟩ env
    (payload := PortList.payload ⟨x₁, x₂, x₃, x₄⟩) (b := b) (by rw [halloc]; exact hb)
  unfold PortListService.publish
  rw [a₁, a₂, a₃, a₄]
  simp only
  refine ⟨g1, _, b, g2, rfl, rfl, w, r, hw, fun s => ?_, fun s => ?_, fun s => ?_, fun s => ?_⟩
  · rw [hwn, ← kp, ← c₁]; rfl
  · rw [hwn, ← c₂]; rfl
  · rw [hwn, ← kr, ← c₃]; rfl
  · rw [hwn, ← c₄]; rfl

/-- **C56** fails with more than 255 publishers or more than 255 message subscriptions: the call panics, always. -/
theorem C56_panics (ops : TidOps Tid) (n : CoreNode N Tid Trk) (subscribers : List SubjectId) (servers : List ServiceId) (env : Env E)
    (h : 255 < n.publishers.length ∨ 255 < subscribers.length) : (PortListService.publish ops n subscribers servers env).answer = .panic := by
  unfold PortListService.publish collect255
  rcases h with h | h
  · rw [if_neg (by simpa using h)]
  · rw [if_neg (c := subscribers.length ≤ 255) (by omega)]
    split <;> simp_all

/-- Both cases occur: 255 subscriptions are fine and 256 are not. -/
example : match (PortListService.new (E := Unit) canTid demoCore) with
    | (o, n) => o = .ok ∧
      (PortListService.publish canTid n ((List.range 255).map fun k => BitVec.ofNat 13 k) [1, 511] (demoEnv .ok)).answer = .ok ∧
      (PortListService.publish canTid n ((List.range 256).map fun k => BitVec.ofNat 13 k) [1, 511] (demoEnv .ok)).answer = .panic := by
  decide +kernel

/-- The hypotheses of `C56_list_partial` on a history. -/
example : publishing portListSubject (Node.traceOf canTid canTracker demoCore
    [(.startPublishing (demoEnv .ok) portListSubject 5 7 : Op _ _ Unit), .startPublishing (demoEnv .ok) 100 5 4]) = true := by decide +kernel

/-! ### C72: node information -/

theorem info_incoming (info : Payload) (w : World N Tid Trk E) (t : Transfer N Tid) :
    handleIncoming (infoHandler info) () w t = match infoRequest? t with
      | some q => (true, (), w.sendResponse ⟨q.service, q.source, q.transferId, q.priority⟩ (milliseconds 1000) info)
      | none => (false, (), w) := by
  obtain ⟨header, loopback, payload⟩ := t
  cases loopback with
  | true => rfl
  | false =>
    cases header with
    | message m => rfl
    | response q => rfl
    | request q =>
      simp only [handleIncoming, infoRequest?, infoHandler, Bool.false_eq_true, if_false]
      by_cases h : q.service = getInfoService <;> simp [h]

/-- **C72.** One call of `receive` of a basic node delivers to the handler, in order and each once, the transfers that the receiver returns, except the
requests for node information. The handler may do anything. -/
theorem C72_delivery {σ : Type} (info : Payload) (h : Handler σ (World N Tid Trk E) N Tid) (rs : List (Received N Tid E)) :
    ∀ (s : σ) (seen : List (Event N Tid)) (w : World N Tid Trk E),
    (BasicNode.receive info h.recorded (s, seen) w rs).2.1.2.2 = seen ++ ((transfersOf rs).filter fun t => (infoRequest? t).isNone).map eventOf := by
  unfold BasicNode.receive
  induction rs with
  | nil => intro s seen n; simp [receive, transfersOf]
  | cons r rs ih =>
    intro s seen n
    cases r with
    | nothing => simp [receive, transfersOf]
    | error e => simp [receive, transfersOf]
    | transfer t =>
      simp only [receive, transfersOf]
      rw [chain_incoming, info_incoming]
      cases hq : infoRequest? t with
      | some q =>
        simp only [if_true, List.filter, hq, Option.isNone_some]
        exact ih _ _ _
      | none =>
        have hstep : ∃ h1 s' n', handleIncoming h.recorded (s, seen) n t = (h1, (s', seen ++ [eventOf t]), n') := by
          obtain ⟨header, loopback, payload⟩ := t
          cases loopback with
          | true => exact ⟨_, _, _, rfl⟩
          | false => cases header <;> exact ⟨_, _, _, rfl⟩
        obtain ⟨h1, s', n', hs⟩ := hstep
        simp only [Bool.false_eq_true, if_false, List.filter, hq, Option.isNone_none, hs, List.map_cons]
        rw [ih, List.append_assoc, List.singleton_append]

/-- **C72.** A request for node information is answered with the node's information, whatever the handler is, and the handler is not called. The
response goes to the node that asked, with its transfer ID and priority and a deadline one second later. -/
theorem C72_answer {σ : Type} (info : Payload) (h : Handler σ (World N Tid Trk E) N Tid) (s : σ) (w : World N Tid Trk E) (t : Transfer N Tid)
    (q : ServiceHeader N Tid) (hq : infoRequest? t = some q) (id : N) (hid : w.node.nodeId = some id) (b : List Byte)
    (hb : doSerialize info (w.env w.calls).alloc = .bytes b) (rest : List (Received N Tid E)) :
    BasicNode.receive info h s w (.transfer t :: rest) = BasicNode.receive info h s
      { w with calls := w.calls + 1, sent := w.sent ++ [⟨.response ⟨(w.env w.calls).now.plus (milliseconds 1000), q.transferId, q.priority,
        getInfoService, id, q.source⟩, false, b⟩] } rest := by
  unfold BasicNode.receive
  simp only [receive]
  rw [chain_incoming, info_incoming, hq]
  have hs : q.service = getInfoService := by
    unfold infoRequest? at hq
    split at hq
    · simp at hq
    · split at hq
      · split at hq
        · simp only [Option.some.injEq] at hq
          subst hq
          assumption
        · simp at hq
      · simp at hq
  simp only [if_true, World.sendResponse, CoreNode.sendResponse, hb, hid, hs]

/-- **C72.** If the handler does not use the node, one call of `receive` hands over exactly the responses to the requests for node information, in
order. -/
theorem C72_answers {σ : Type} (info : Payload) (h : Handler σ (World N Tid Trk E) N Tid) (hl : LeavesAlone h) (id : N) (b : List Byte)
    (rs : List (Received N Tid E)) : ∀ (s : σ) (w : World N Tid Trk E), w.node.nodeId = some id → (∀ k, doSerialize info (w.env k).alloc = .bytes b) →
    (BasicNode.receive info h s w rs).2.2.sent = w.sent ++ ((transfersOf rs).filterMap infoRequest?).mapIdx fun k q =>
      ⟨.response ⟨(w.env (w.calls + k)).now.plus (milliseconds 1000), q.transferId, q.priority, getInfoService, id, q.source⟩, false, b⟩ := by
  induction rs with
  | nil => intro s w _ _; simp [BasicNode.receive, receive, transfersOf]
  | cons r rs ih =>
    intro s w hid hb
    cases r with
    | nothing => simp [BasicNode.receive, receive, transfersOf]
    | error e => simp [BasicNode.receive, receive, transfersOf]
    | transfer t =>
      cases hq : infoRequest? t with
      | some q =>
        rw [C72_answer info h s w t q hq id hid b (hb _) rs, ih _ _ (by exact hid) (by exact hb)]
        simp only [transfersOf, List.filterMap_cons, hq, List.mapIdx_cons, List.append_assoc, List.singleton_append, Nat.add_zero]
        simp only [Nat.add_assoc, Nat.add_comm 1]
      | none =>
        have hw : (handleIncoming h s w t).2.2 = w := by
          unfold handleIncoming
          split
          · exact hl.loopback ..
          · split
            · exact hl.message ..
            · exact hl.request ..
            · exact hl.response ..
        have e : BasicNode.receive info h s w (.transfer t :: rs) = BasicNode.receive info h (handleIncoming h s w t).2.1 w rs := by
          unfold BasicNode.receive
          simp only [receive]
          rw [chain_incoming, info_incoming, hq]
          simp only [Bool.false_eq_true, if_false, hw]
        rw [e, ih _ w hid hb]
        simp only [transfersOf, List.filterMap_cons, hq]

/-- **C72.** Making a basic node asks the receiver for the requests for node information, with an extent of 0, and the node keeps the information that it
was made with, whatever happens later. -/
theorem C72_new (ops : TidOps Tid) (tops : TrackerOps N Tid Trk) (env₀ : Env E) (node : CoreNode N Tid Trk) (info : Payload)
    (rx : List (RxCall N)) (n : BasicNode N Tid Trk) (hn : BasicNode.new ops env₀ node info = (.ok, rx, some n)) (history : List (BasicOp N Tid E)) :
    rx = [.subscribeRequest getInfoService 0 (milliseconds 1000)] ∧ (n.run ops tops history).2.info = info := by
  obtain ⟨f, hi, o₁, o₂, o₃, e₁, -, -, -, -, -, -, hrx⟩ := new_spec tops hn
  refine ⟨by rw [hrx, e₁]; rfl, ?_⟩
  induction history using List.reverseRecOn with
  | nil => exact hi
  | append_singleton l op ih =>
    rw [run_snoc]
    obtain ⟨hok, -⟩ := basic_reports ops tops n f.heartbeat f.ok l
    cases op with
    | perSecond env env' => exact (perSecond_spec ops (n.run ops tops l).2 env env').2.2.trans ih
    | call op =>
      obtain ⟨x, g, -⟩ := call_spec ops tops _ hok op
      simp only [BasicNode.step, g]
      exact ih
    | inside op => exact ih
    | setMode v => exact ih
    | setHealth v => exact ih
    | setStatusCode v => exact ih

/-- A handler that handles every message. -/
def demoHandler : Handler (List (BitVec 13)) (World (BitVec 7) (BitVec 5) Can.CanTransferIdTracker Unit) (BitVec 7) (BitVec 5) where
  message s w m _ := (true, s ++ [m.subject], w)
  request s w _ _ _ := (false, s, w)
  response s w _ _ := (false, s, w)
  loopback s w _ := (false, s, w)

example : LeavesAlone demoHandler := ⟨fun _ _ _ _ => rfl, fun _ _ _ _ _ => rfl, fun _ _ _ _ => rfl, fun _ _ _ => rfl⟩

/-- Two requests for node information with a message and another request between them. -/
def demoReceive := BasicNode.receive ⟨16, fun c => c.writeU 16 0xabcd⟩ demoHandler [] ⟨demoCore, fun _ => demoEnv .ok, 0, []⟩
  [.transfer ⟨.request ⟨1, 3, 5, 430, 20, 7⟩, false, []⟩, .transfer ⟨.message ⟨1, 0, 4, 99, some 3⟩, false, [1]⟩,
   .transfer ⟨.request ⟨1, 4, 6, 431, 20, 7⟩, false, []⟩, .transfer ⟨.request ⟨1, 31, 0, 430, 21, 7⟩, false, []⟩, (.nothing : Received _ _ Unit)]

example : demoReceive.2.2.sent = [⟨.response ⟨1000005, 3, 5, 430, 7, 20⟩, false, [0xcd, 0xab]⟩, ⟨.response ⟨1000005, 31, 0, 430, 7, 21⟩, false, [0xcd, 0xab]⟩] ∧
    demoReceive.2.1.2 = [99] := by
  decide +kernel

example : (BasicNode.new canTid (demoEnv .ok) demoCore ⟨0, fun c => some c⟩).1 = .ok := by decide +kernel

/-! ### C73: a basic node passes the calls on -/

/-- **C73.** After any history, a call of a function of `Node` on a basic node returns what the node inside returns for it, hands the same transfers to
the transmitter and asks the same of the receiver, and leaves the node inside as that call does. In particular the port list never makes it panic. The
heartbeat is not affected. -/
theorem C73_transparent (ops : TidOps Tid) (tops : TrackerOps N Tid Trk) (env₀ : Env E) (node : CoreNode N Tid Trk) (info : Payload)
    (rx : List (RxCall N)) (n : BasicNode N Tid Trk) (hn : BasicNode.new ops env₀ node info = (.ok, rx, some n)) (history : List (BasicOp N Tid E))
    (op : Op N Tid E) :
    let m := (n.run ops tops history).2
    let o := m.call ops tops op
    let c := m.node.node.step ops tops op
    o.answer = c.answer ∧ o.sent = c.sent ∧ o.rx = c.rx ∧ o.node.node.node = c.node ∧ o.node.node.heartbeat = m.node.heartbeat := by
  intro m o c
  obtain ⟨f, -⟩ := new_spec tops hn
  obtain ⟨hok, -⟩ := basic_reports ops tops n f.heartbeat f.ok history
  obtain ⟨x, g, -⟩ := call_spec ops tops m hok op
  have ho : o = _ := g
  rw [ho]
  exact ⟨rfl, rfl, rfl, rfl, rfl⟩

/-- More than 255 subjects: the list becomes a mask and the calls still succeed. -/
example : demoCheck (fun n =>
    let r := n.run canTid canTracker (((List.range 257).map fun k => .call (.subscribeMessage (demoEnv .ok) (BitVec.ofNat 13 (31 * k)) 64 5)) ++
      [.call (.unsubscribeMessage (demoEnv .ok) 31)])
    r.1.all (fun o => o.answer = .ok) && r.2.portList.names (.subscriber (BitVec.ofNat 13 (31 * 256))) && !r.2.portList.names (.subscriber 31)) = true := by
  decide +kernel

end Verif.App
