import Verif.App.Lemmas

/-!
Helper lemmas about histories of calls, for the properties in `Verif.App.Props`.
-/

namespace Verif.App

open Verif.Enc Verif.Node Verif.Dsdl

variable {N Tid Trk E : Type}

/-! ### The heartbeat -/

/-- The number of seconds that is reported after `k` ticks. -/
theorem tick_uptime (h : Heartbeat) : h.tick.uptime.toNat = min (h.uptime.toNat + 1) (2 ^ 32 - 1) := by
  unfold Heartbeat.tick
  have := h.uptime.isLt
  by_cases hu : h.uptime = BitVec.allOnes 32
  · simp only
    rw [if_pos hu]
    have : h.uptime.toNat = 2 ^ 32 - 1 := by rw [hu]; rfl
    omega
  · simp only
    rw [if_neg hu]
    have hne : h.uptime.toNat ≠ 2 ^ 32 - 1 := fun he => hu (BitVec.eq_of_toNat_eq (by rw [he]; rfl))
    rw [BitVec.toNat_add]
    simp only [BitVec.toNat_ofNat]
    omega

theorem lastOr_nil {α β : Type} (f : α → Option β) (d : β) : lastOr f d [] = d := rfl

theorem lastOr_snoc {α β : Type} (f : α → Option β) (d : β) (l : List α) (x : α) : lastOr f d (l ++ [x]) = (f x).getD (lastOr f d l) := by
  unfold lastOr
  rw [List.filterMap_append, List.getLast?_append]
  cases h : f x <;> simp [h]

/-- What the heartbeat is after a history with the given numbers. -/
structure Reports (h : Heartbeat) (k : Nat) (health mode status : BitVec 8) : Prop where
  uptime : h.uptime.toNat = min k (2 ^ 32 - 1)
  health : h.health = health
  mode : h.mode = mode
  status : h.status = status

theorem Reports.tick {h : Heartbeat} {k : Nat} {health mode status : BitVec 8} (r : Reports h k health mode status) :
    Reports h.tick (k + 1) health mode status := by
  refine ⟨?_, r.health, r.mode, r.status⟩
  rw [tick_uptime, r.uptime]
  omega

theorem minimal_reports (ops : TidOps Tid) (tops : TrackerOps N Tid Trk) (n : MinimalNode N Tid Trk) (hn : n.heartbeat = Heartbeat.initial)
    (history : List (BeatOp N Tid E)) :
    Reports (MinimalNode.after ops tops n history).heartbeat (history.countP (·.isPerSecond)) (lastOr (·.health?) 0 history)
      (lastOr (·.mode?) 0 history) (lastOr (·.status?) 0 history) := by
  induction history using List.reverseRecOn with
  | nil => rw [show (MinimalNode.after ops tops n ([] : List (BeatOp N Tid E))).heartbeat = n.heartbeat from rfl, hn]; exact ⟨rfl, rfl, rfl, rfl⟩
  | append_singleton l op ih =>
    have e : MinimalNode.after ops tops n (l ++ [op]) = (MinimalNode.step ops tops (MinimalNode.after ops tops n l) op).2 := by
      simp [MinimalNode.after]
    rw [e, List.countP_append, lastOr_snoc, lastOr_snoc, lastOr_snoc]
    cases op with
    | perSecond env => exact ih.tick
    | inside op => exact ih
    | setMode v => exact ⟨ih.uptime, ih.health, rfl, ih.status⟩
    | setHealth v => exact ⟨ih.uptime, rfl, ih.mode, ih.status⟩
    | setStatusCode v => exact ⟨ih.uptime, ih.health, ih.mode, rfl⟩

theorem service_after (ops : TidOps Tid) (tops : TrackerOps N Tid Trk) (n : MinimalNode N Tid Trk) (history : List (BeatOp N Tid E)) :
    HeartbeatService.after ops tops n history = MinimalNode.after ops tops n history := by
  unfold HeartbeatService.after MinimalNode.after
  rfl

/-- The node publishes on a subject with this timeout and priority. -/
def Publishes (n : CoreNode N Tid Trk) (s : SubjectId) (t : Duration) (pr : Priority) : Prop :=
  ∃ p, n.publishers.get? s = some p ∧ p.timeout = t ∧ p.priority = pr

theorem Publishes.step {ops : TidOps Tid} {tops : TrackerOps N Tid Trk} {n : CoreNode N Tid Trk} {s : SubjectId} {t : Duration} {pr : Priority}
    (h : Publishes n s t pr) (op : Op N Tid E) (hop : ¬ op.stopsPublishing s) : Publishes (n.step ops tops op).node s t pr := by
  obtain ⟨p, h1, h2, h3⟩ := h
  rcases step_publisher ops tops n op s p h1 hop with ⟨-, g⟩ | ⟨-, g⟩
  · exact ⟨p, g, h2, h3⟩
  · exact ⟨_, g, h2, h3⟩

theorem Publishes.publish {ops : TidOps Tid} {n : CoreNode N Tid Trk} {s : SubjectId} {t : Duration} {pr : Priority} (tops : TrackerOps N Tid Trk)
    (h : Publishes n s t pr) (env : Env E) (s' : SubjectId) (p : Payload) (l : Bool) : Publishes (n.publish ops env s' p l).node s t pr :=
  Publishes.step (tops := tops) h (.publish env s' p l) (by simp [Op.stopsPublishing])

theorem publish_bytes {ops : TidOps Tid} {n : CoreNode N Tid Trk} {s : SubjectId} {t : Duration} {pr : Priority} (h : Publishes n s t pr)
    (env : Env E) {payload : Payload} {b : List Byte} (hb : doSerialize payload env.alloc = .bytes b) :
    (n.publish ops env s payload false).answer = env.push.answer ∧
      ∃ tid, (n.publish ops env s payload false).sent = [⟨.message ⟨env.now.plus t, tid, pr, s, n.nodeId⟩, false, b⟩] := by
  obtain ⟨p, h1, rfl, rfl⟩ := h
  unfold CoreNode.publish
  rw [h1]
  simp only [Publisher.publish, hb]
  exact ⟨trivial, _, rfl⟩

theorem minimal_publishes (ops : TidOps Tid) (tops : TrackerOps N Tid Trk) (s : SubjectId) (t : Duration) (pr : Priority)
    (history : List (BeatOp N Tid E)) : ∀ n : MinimalNode N Tid Trk, Publishes n.node s t pr → (∀ op ∈ history, op.keeps s = true) →
      Publishes (MinimalNode.after ops tops n history).node s t pr := by
  induction history with
  | nil => intro n h _; exact h
  | cons op rest ih =>
    intro n h hk
    have e : MinimalNode.after ops tops n (op :: rest) = MinimalNode.after ops tops (MinimalNode.step ops tops n op).2 rest := rfl
    rw [e]
    refine ih _ ?_ (fun o ho => hk o (by simp [ho]))
    have hop := hk op (by simp)
    cases op with
    | perSecond env => exact h.publish tops env _ _ _
    | inside op =>
      refine h.step op ?_
      cases op <;> simp_all [Op.stopsPublishing, BeatOp.keeps]
    | setMode v => exact h
    | setHealth v => exact h
    | setStatusCode v => exact h

/-! ### The port list -/

/-- What happens to the set of ports in use. -/
abbrev Updates (op : Op N Tid E) (a : Answer Tid E) (l l' : PortList) : Prop :=
  l'.Ok ∧ ∀ p, l'.names p = if p.startedBy op a then true else if p.stoppedBy op then false else l.names p

/-- What a call through a basic node does. -/
abbrev Forwards (ops : TidOps Tid) (tops : TrackerOps N Tid Trk) (n : BasicNode N Tid Trk) (op : Op N Tid E) (o : BasicOut N Tid Trk E) : Prop :=
  ∃ l : PortList, o = ⟨(n.node.node.step ops tops op).answer,
      ⟨⟨(n.node.node.step ops tops op).node, n.node.heartbeat⟩, l, n.info, n.seconds⟩, (n.node.node.step ops tops op).sent,
        (n.node.node.step ops tops op).rx⟩ ∧ Updates op (n.node.node.step ops tops op).answer n.portList l

theorem forward_spec {ops : TidOps Tid} {tops : TrackerOps N Tid Trk} {n : BasicNode N Tid Trk} {op : Op N Tid E}
    {update : PortList → Answer Tid E → Option PortList} (h : ∀ a, ∃ l, update n.portList a = some l ∧ Updates op a n.portList l) :
    Forwards ops tops n op (n.forward ops tops op update) := by
  obtain ⟨l, h1, h2⟩ := h (n.node.node.step ops tops op).answer
  refine ⟨l, ?_, h2⟩
  unfold BasicNode.forward
  simp only [h1]

theorem updates_same {op : Op N Tid E} {a : Answer Tid E} {l : PortList} (h : l.Ok) (h1 : ∀ p : Port, p.startedBy op a = false)
    (h2 : ∀ p : Port, p.stoppedBy op = false) : Updates op a l l := by
  refine ⟨h, fun p => ?_⟩
  rw [h1, h2]
  rfl

theorem id_ne {w : Nat} {a b : BitVec w} (h : a ≠ b) : b.toNat ≠ a.toNat := fun e => h (BitVec.eq_of_toNat_eq e.symm)

theorem call_spec (ops : TidOps Tid) (tops : TrackerOps N Tid Trk) (n : BasicNode N Tid Trk) (h : n.portList.Ok) (op : Op N Tid E) :
    Forwards ops tops n op (n.call ops tops op) := by
  cases op <;> unfold BasicNode.call
  case startPublishing env s t pr =>
    refine forward_spec fun a => ?_
    cases a with
    | ok =>
      obtain ⟨l, h1, h2, h3⟩ := n.portList.publishers.insert_spec h.publishers s
      refine ⟨{ n.portList with publishers := l }, by simp only [h1, Option.map_some], ⟨h2, h.subscribers, h.clients, h.servers⟩, fun p => ?_⟩
      cases p with
      | publisher t =>
        simp only [PortList.names, Port.startedBy, Port.stoppedBy, h3]
        by_cases ht : s = t
        · simp [ht]
        · have : ¬ t = s := fun e => ht e.symm
          simp [ht, this]
      | _ => rfl
    | _ => exact ⟨_, rfl, updates_same h (fun p => by cases p <;> rfl) (fun p => by cases p <;> rfl)⟩
  case stopPublishing env s =>
    refine forward_spec fun a => ?_
    obtain ⟨l, h1, h2, h3⟩ := n.portList.publishers.remove_spec h.publishers s
    refine ⟨{ n.portList with publishers := l }, by simp only [h1, Option.map_some], ⟨h2, h.subscribers, h.clients, h.servers⟩, fun p => ?_⟩
    cases p with
    | publisher t =>
      simp only [PortList.names, Port.startedBy, Port.stoppedBy, h3]
      by_cases ht : s = t
      · simp [ht]
      · have : ¬ t = s := fun e => ht e.symm
        simp [ht, this]
    | _ => rfl
  case subscribeMessage env s t pr =>
    refine forward_spec fun a => ?_
    cases a with
    | ok =>
      obtain ⟨l, h1, h2, h3⟩ := n.portList.subscribers.insert_spec h.subscribers s
      refine ⟨{ n.portList with subscribers := l }, by simp only [h1, Option.map_some], ⟨h.publishers, h2, h.clients, h.servers⟩, fun p => ?_⟩
      cases p with
      | subscriber t =>
        simp only [PortList.names, Port.startedBy, Port.stoppedBy, h3]
        by_cases ht : s = t
        · simp [ht]
        · have : ¬ t = s := fun e => ht e.symm
          simp [ht, this]
      | _ => rfl
    | _ => exact ⟨_, rfl, updates_same h (fun p => by cases p <;> rfl) (fun p => by cases p <;> rfl)⟩
  case unsubscribeMessage env s =>
    refine forward_spec fun a => ?_
    obtain ⟨l, h1, h2, h3⟩ := n.portList.subscribers.remove_spec h.subscribers s
    refine ⟨{ n.portList with subscribers := l }, by simp only [h1, Option.map_some], ⟨h.publishers, h2, h.clients, h.servers⟩, fun p => ?_⟩
    cases p with
    | subscriber t =>
      simp only [PortList.names, Port.startedBy, Port.stoppedBy, h3]
      by_cases ht : s = t
      · simp [ht]
      · have : ¬ t = s := fun e => ht e.symm
        simp [ht, this]
    | _ => rfl
  case startSendingRequests env s t x pr =>
    refine forward_spec fun a => ?_
    cases a with
    | token =>
      obtain ⟨l, h1, h2, h3⟩ := mask_set h.clients (i := s.toNat) (by have := s.isLt; omega) true
      refine ⟨{ n.portList with clients := l }, by simp only [h1, Option.map_some], ⟨h.publishers, h.subscribers, h2, h.servers⟩, fun p => ?_⟩
      cases p with
      | client t =>
        simp only [PortList.names, Port.startedBy, Port.stoppedBy, h3]
        by_cases ht : s = t
        · simp [ht]
        · simp [ht, id_ne ht]
      | _ => rfl
    | _ => exact ⟨_, rfl, updates_same h (fun p => by cases p <;> rfl) (fun p => by cases p <;> rfl)⟩
  case stopSendingRequests env s =>
    refine forward_spec fun a => ?_
    obtain ⟨l, h1, h2, h3⟩ := mask_set h.clients (i := s.toNat) (by have := s.isLt; omega) false
    refine ⟨{ n.portList with clients := l }, by simp only [h1, Option.map_some], ⟨h.publishers, h.subscribers, h2, h.servers⟩, fun p => ?_⟩
    cases p with
    | client t =>
      simp only [PortList.names, Port.startedBy, Port.stoppedBy, h3]
      by_cases ht : s = t
      · simp [ht]
      · simp [ht, id_ne ht]
    | _ => rfl
  case subscribeRequest env s t pr =>
    refine forward_spec fun a => ?_
    cases a with
    | ok =>
      obtain ⟨l, h1, h2, h3⟩ := mask_set h.servers (i := s.toNat) (by have := s.isLt; omega) true
      refine ⟨{ n.portList with servers := l }, by simp only [h1, Option.map_some], ⟨h.publishers, h.subscribers, h.clients, h2⟩, fun p => ?_⟩
      cases p with
      | server t =>
        simp only [PortList.names, Port.startedBy, Port.stoppedBy, h3]
        by_cases ht : s = t
        · simp [ht]
        · simp [ht, id_ne ht]
      | _ => rfl
    | _ => exact ⟨_, rfl, updates_same h (fun p => by cases p <;> rfl) (fun p => by cases p <;> rfl)⟩
  case unsubscribeRequest env s =>
    refine forward_spec fun a => ?_
    obtain ⟨l, h1, h2, h3⟩ := mask_set h.servers (i := s.toNat) (by have := s.isLt; omega) false
    refine ⟨{ n.portList with servers := l }, by simp only [h1, Option.map_some], ⟨h.publishers, h.subscribers, h.clients, h2⟩, fun p => ?_⟩
    cases p with
    | server t =>
      simp only [PortList.names, Port.startedBy, Port.stoppedBy, h3]
      by_cases ht : s = t
      · simp [ht]
      · simp [ht, id_ne ht]
    | _ => rfl
  case publish => exact forward_spec fun a => ⟨_, rfl, updates_same h (fun p => by cases p <;> rfl) (fun p => by cases p <;> rfl)⟩
  case sendRequest => exact forward_spec fun a => ⟨_, rfl, updates_same h (fun p => by cases p <;> rfl) (fun p => by cases p <;> rfl)⟩
  case sendResponse => exact forward_spec fun a => ⟨_, rfl, updates_same h (fun p => by cases p <;> rfl) (fun p => by cases p <;> rfl)⟩
  case setNodeId => exact forward_spec fun a => ⟨_, rfl, updates_same h (fun p => by cases p <;> rfl) (fun p => by cases p <;> rfl)⟩

theorem initial_spec : ∃ l, PortList.initial = some l ∧ l.Ok ∧ ∀ p, l.names p = ownPort p := by
  obtain ⟨m, h1, h2, h3⟩ := mask_new 64
  obtain ⟨v, g1, g2, g3⟩ := mask_set h2 (i := getInfoService.toNat) (by decide) true
  refine ⟨⟨.sparse [heartbeatSubject.setWidth 16, portListSubject.setWidth 16], .sparse [], m, v⟩, ?_, ⟨?_, ?_, h2, g2⟩, fun p => ?_⟩
  · unfold PortList.initial
    rw [show (512 : Nat) = 8 * 64 from rfl, h1]
    simp only [g1, Option.map_some]
  · simp [SubjectIdList.Ok, heartbeatSubject, portListSubject]
  · simp [SubjectIdList.Ok]
  · cases p with
    | publisher s =>
      simp only [PortList.names, ownPort, SubjectIdList.names]
      have e : ∀ t : SubjectId, (s.setWidth 16 = t.setWidth 16 ↔ s = t) := by
        intro t
        constructor
        · intro h
          apply BitVec.eq_of_toNat_eq
          have := congrArg BitVec.toNat h
          have h1 := t.isLt
          have h2 := s.isLt
          simp only [BitVec.toNat_setWidth] at this
          omega
        · intro h; rw [h]
      simp only [List.mem_cons, List.not_mem_nil, or_false, e]
      simp
    | subscriber s => simp [PortList.names, ownPort, SubjectIdList.names]
    | client s => simp [PortList.names, ownPort, h3]
    | server s =>
      simp only [PortList.names, ownPort, g3, h3]
      by_cases hs : s = getInfoService
      · simp [hs]
      · simp [hs, id_ne (Ne.symm hs)]

/-- A basic node that was just made. -/
structure Fresh (n : BasicNode N Tid Trk) : Prop where
  heartbeat : n.node.heartbeat = Heartbeat.initial
  seconds : n.seconds = 0
  beats : Publishes n.node.node heartbeatSubject (milliseconds 500) nominal
  lists : Publishes n.node.node portListSubject (milliseconds 1000) optional
  ok : n.portList.Ok
  names : ∀ p, n.portList.names p = ownPort p

theorem start_publishes {ops : TidOps Tid} {n : CoreNode N Tid Trk} {s : SubjectId} {t : Duration} {pr : Priority}
    (h : (n.startPublishing (E := E) ops s t pr).answer = .ok) : Publishes (n.startPublishing (E := E) ops s t pr).node s t pr :=
  ⟨_, start_publisher h, rfl, rfl⟩

theorem new_spec {ops : TidOps Tid} (tops : TrackerOps N Tid Trk) {env : Env E} {node : CoreNode N Tid Trk} {info : Payload} {rx : List (RxCall N)}
    {n : BasicNode N Tid Trk} (h : BasicNode.new ops env node info = (.ok, rx, some n)) :
    Fresh n ∧ n.info = info ∧ ∃ o₁ o₂ o₃ : Out N Tid Trk E, o₁ = node.step ops tops (.subscribeRequest env getInfoService 0 (milliseconds 1000)) ∧
      o₂ = o₁.node.step ops tops (.startPublishing env portListSubject (milliseconds 1000) optional) ∧
      o₃ = o₂.node.step ops tops (.startPublishing env heartbeatSubject (milliseconds 500) nominal) ∧
      o₁.answer = .ok ∧ o₂.answer = .ok ∧ o₃.answer = .ok ∧ n.node.node = o₃.node ∧ rx = o₁.rx := by
  unfold BasicNode.new MinimalNode.new at h
  obtain ⟨l, hl1, hl2, hl3⟩ := initial_spec
  simp only at h
  split at h
  · rename_i h1
    split at h
    · rename_i h2
      split at h
      · rename_i m hm
        split at hm
        · rename_i h3
          rw [hl1] at h
          simp only [Prod.mk.injEq, Option.some.injEq, true_and] at h hm
          obtain ⟨rfl, rfl⟩ := h
          subst hm
          refine ⟨⟨rfl, rfl, start_publishes h3, ?_, hl2, hl3⟩, rfl, _, _, _, rfl, rfl, rfl, h1, h2, h3, rfl, rfl⟩
          exact Publishes.step (tops := tops) (start_publishes h2) (.startPublishing env heartbeatSubject (milliseconds 500) nominal) (by simp [Op.stopsPublishing])
        · simp at hm
      · simp at h
    · simp at h
  · simp at h

/-! ### Histories of a basic node -/

theorem run_snoc (ops : TidOps Tid) (tops : TrackerOps N Tid Trk) (l : List (BasicOp N Tid E)) (op : BasicOp N Tid E) :
    ∀ n : BasicNode N Tid Trk, (n.run ops tops (l ++ [op])).2 = ((n.run ops tops l).2.step ops tops op).node := by
  induction l with
  | nil => intro n; rfl
  | cons o l ih => intro n; exact ih _

/-- What a per-second call does to the node. -/
theorem perSecond_spec (ops : TidOps Tid) (n : BasicNode N Tid Trk) (env env' : Env E) :
    (n.perSecond ops env env').node.node.heartbeat = n.node.heartbeat.tick ∧ (n.perSecond ops env env').node.portList = n.portList ∧
    (n.perSecond ops env env').node.info = n.info := by
  unfold BasicNode.perSecond
  simp only
  split
  · split <;> exact ⟨rfl, rfl, rfl⟩
  · exact ⟨rfl, rfl, rfl⟩

theorem basic_reports (ops : TidOps Tid) (tops : TrackerOps N Tid Trk) (n : BasicNode N Tid Trk) (hn : n.node.heartbeat = Heartbeat.initial)
    (hok : n.portList.Ok) (history : List (BasicOp N Tid E)) :
    (n.run ops tops history).2.portList.Ok ∧
    Reports (n.run ops tops history).2.node.heartbeat (history.countP (·.isPerSecond)) (lastOr (·.health?) 0 history)
      (lastOr (·.mode?) 0 history) (lastOr (·.status?) 0 history) := by
  induction history using List.reverseRecOn with
  | nil => rw [show (n.run ops tops ([] : List (BasicOp N Tid E))).2 = n from rfl, hn]; exact ⟨hok, rfl, rfl, rfl, rfl⟩
  | append_singleton l op ih =>
    rw [run_snoc, List.countP_append, lastOr_snoc, lastOr_snoc, lastOr_snoc]
    obtain ⟨h1, h2⟩ := ih
    cases op with
    | perSecond env env' =>
      obtain ⟨g1, g2, -⟩ := perSecond_spec ops (n.run ops tops l).2 env env'
      refine ⟨?_, ?_⟩
      · show ((n.run ops tops l).2.perSecond ops env env').node.portList.Ok
        rw [g2]; exact h1
      · show Reports ((n.run ops tops l).2.perSecond ops env env').node.node.heartbeat _ _ _ _
        rw [g1]; exact h2.tick
    | call op =>
      obtain ⟨x, g1, g2, -⟩ := call_spec ops tops _ h1 op
      simp only [BasicNode.step, g1]
      exact ⟨g2, h2⟩
    | inside op => exact ⟨h1, h2⟩
    | setMode v => exact ⟨h1, h2.uptime, h2.health, rfl, h2.status⟩
    | setHealth v => exact ⟨h1, h2.uptime, rfl, h2.mode, h2.status⟩
    | setStatusCode v => exact ⟨h1, h2.uptime, h2.health, h2.mode, rfl⟩

theorem perSecond_publishes {ops : TidOps Tid} (tops : TrackerOps N Tid Trk) {n : BasicNode N Tid Trk} {s : SubjectId} {t : Duration} {pr : Priority}
    (h : Publishes n.node.node s t pr) (env env' : Env E) : Publishes (n.perSecond ops env env').node.node.node s t pr := by
  unfold BasicNode.perSecond
  simp only
  split
  · split
    · exact (h.publish tops env _ _ _).publish tops env' _ _ _
    · exact h.publish tops env _ _ _
  · exact h.publish tops env _ _ _

theorem basic_publishes (ops : TidOps Tid) (tops : TrackerOps N Tid Trk) (s : SubjectId) (t : Duration) (pr : Priority)
    (history : List (BasicOp N Tid E)) : ∀ n : BasicNode N Tid Trk, Publishes n.node.node s t pr → n.portList.Ok → (∀ op ∈ history, op.keeps s = true) →
      Publishes (n.run ops tops history).2.node.node s t pr := by
  induction history with
  | nil => intro n h _ _; exact h
  | cons op rest ih =>
    intro n h hok hk
    have e : (n.run ops tops (op :: rest)).2 = ((n.step ops tops op).node.run ops tops rest).2 := rfl
    rw [e]
    have hop := hk op (by simp)
    cases op with
    | perSecond env env' =>
      exact ih _ (perSecond_publishes tops h env env') (by rw [show (n.step ops tops (.perSecond env env')).node.portList = n.portList from (perSecond_spec ops n env env').2.1]; exact hok)
        (fun o ho => hk o (by simp [ho]))
    | call op =>
      obtain ⟨x, g1, g2, -⟩ := call_spec ops tops _ hok op
      simp only [BasicNode.step, g1]
      refine ih _ (h.step op ?_) g2 (fun o ho => hk o (by simp [ho]))
      cases op <;> simp_all [Op.stopsPublishing, BasicOp.keeps]
    | inside op =>
      refine ih _ (h.step op ?_) hok (fun o ho => hk o (by simp [ho]))
      cases op <;> simp_all [Op.stopsPublishing, BasicOp.keeps]
    | setMode v => exact ih _ h hok (fun o ho => hk o (by simp [ho]))
    | setHealth v => exact ih _ h hok (fun o ho => hk o (by simp [ho]))
    | setStatusCode v => exact ih _ h hok (fun o ho => hk o (by simp [ho]))

/-- Calls that do not concern ports do not change which ports are in use. -/
theorem inUse_other {op : Op N Tid E} (h : concernsPort op = false) (a : Answer Tid E) (p : Port) (tr : List (Op N Tid E × Answer Tid E)) :
    p.inUse ((op, a) :: tr) = p.inUse tr := by
  unfold Port.inUse
  cases op <;> simp [concernsPort] at h <;> cases p <;> simp [Port.startedBy, Port.stoppedBy] <;> cases tr <;> rfl

theorem run_names (ops : TidOps Tid) (tops : TrackerOps N Tid Trk) (history : List (BasicOp N Tid E)) :
    ∀ (n : BasicNode N Tid Trk) (tr : List (Op N Tid E × Answer Tid E)), n.portList.Ok → (∀ p, n.portList.names p = p.inUse tr) →
      (∀ op ∈ history, op.visible = true) →
      ∀ p, (n.run ops tops history).2.portList.names p = p.inUse (traceOf ops tops tr n history) := by
  induction history with
  | nil => intro n tr _ h _; exact h
  | cons op rest ih =>
    intro n tr hok h hv
    have e : (n.run ops tops (op :: rest)).2 = ((n.step ops tops op).node.run ops tops rest).2 := rfl
    rw [e]
    have hop := hv op (by simp)
    have hrest : ∀ op ∈ rest, op.visible = true := fun o ho => hv o (by simp [ho])
    cases op with
    | perSecond env env' =>
      have hl : (n.step ops tops (.perSecond env env')).node.portList = n.portList := (perSecond_spec ops n env env').2.1
      exact ih _ tr (by rw [hl]; exact hok) (by rw [hl]; exact h) hrest
    | call op =>
      obtain ⟨x, g1, g2, g3⟩ := call_spec ops tops _ hok op
      simp only [BasicNode.step, traceOf, g1]
      refine ih _ _ g2 (fun p => ?_) hrest
      simp only [List.singleton_append, Port.inUse, g3, h]
    | inside op =>
      refine ih _ _ hok (fun p => ?_) hrest
      simp only [BasicOp.visible, Bool.not_eq_true'] at hop
      rw [List.singleton_append, inUse_other hop]
      exact h p
    | setMode v => exact ih _ tr hok h hrest
    | setHealth v => exact ih _ tr hok h hrest
    | setStatusCode v => exact ih _ tr hok h hrest

/-! ### The ports in use -/

/-- The calls with which a basic node starts to publish. -/
def ownCalls (env : Env E) : List (Op N Tid E × Answer Tid E) :=
  [(.startPublishing env heartbeatSubject (milliseconds 500) nominal, .ok), (.startPublishing env portListSubject (milliseconds 1000) optional, .ok),
    (.subscribeRequest env getInfoService 0 (milliseconds 1000), .ok)]

theorem inUse_publisher (env : Env E) (s : SubjectId) (tr : List (Op N Tid E × Answer Tid E)) :
    (Port.publisher s).inUse tr = publishing s (tr ++ ownCalls env) := by
  induction tr with
  | nil =>
    simp only [Port.inUse, ownPort, ownCalls, List.nil_append, publishing]
    by_cases h1 : heartbeatSubject = s
    · subst h1; simp
    · by_cases h2 : portListSubject = s
      · subst h2; simp
      · have h1' : ¬ s = heartbeatSubject := fun e => h1 e.symm
        have h2' : ¬ s = portListSubject := fun e => h2 e.symm
        simp [h1, h2, h1', h2']
  | cons x tr ih =>
    obtain ⟨op, a⟩ := x
    cases op with
    | startPublishing env s' t pr =>
      simp only [List.cons_append, publishing, Port.inUse, ih]
      cases a <;> by_cases hs : s' = s <;> simp [Port.startedBy, Port.stoppedBy, hs]
    | stopPublishing env s' =>
      simp only [List.cons_append, publishing, Port.inUse, ih]
      by_cases hs : s' = s <;> simp [Port.startedBy, Port.stoppedBy, hs]
    | _ => simp only [List.cons_append, publishing, Port.inUse, ih]; simp [Port.startedBy, Port.stoppedBy]

theorem inUse_client (env : Env E) (s : ServiceId) (tr : List (Op N Tid E × Answer Tid E)) :
    (Port.client s).inUse tr = requesting s (tr ++ ownCalls env) := by
  induction tr with
  | nil => simp [Port.inUse, ownPort, ownCalls, requesting]
  | cons x tr ih =>
    obtain ⟨op, a⟩ := x
    cases op with
    | startSendingRequests env s' t x pr =>
      simp only [List.cons_append, requesting, Port.inUse, ih]
      cases a <;> by_cases hs : s' = s <;> simp [Port.startedBy, Port.stoppedBy, hs]
    | stopSendingRequests env s' =>
      simp only [List.cons_append, requesting, Port.inUse, ih]
      by_cases hs : s' = s <;> simp [Port.startedBy, Port.stoppedBy, hs]
    | _ => simp only [List.cons_append, requesting, Port.inUse, ih]; simp [Port.startedBy, Port.stoppedBy]

/-- The node publishes and sends requests on exactly these ports. -/
structure Uses (n : CoreNode N Tid Trk) (tr : List (Op N Tid E × Answer Tid E)) : Prop where
  valid : n.Valid
  publishers : ∀ s, (n.publishers.get? s).isSome = (Port.publisher s).inUse tr
  requesters : ∀ s, (n.requesters.get? s).isSome = (Port.client s).inUse tr

theorem Uses.step {ops : TidOps Tid} {tops : TrackerOps N Tid Trk} {n : CoreNode N Tid Trk} {tr : List (Op N Tid E × Answer Tid E)} (env : Env E)
    (h : Uses n tr) (op : Op N Tid E) : Uses (n.step ops tops op).node ((op, (n.step ops tops op).answer) :: tr) := by
  obtain ⟨h1, -, -, h4, h5⟩ := step_ports ops tops n op h.valid (tr ++ ownCalls env) (fun s => by rw [← inUse_publisher]; exact h.publishers s)
    (fun s => by rw [← inUse_client]; exact h.requesters s)
  exact ⟨h1, fun s => by rw [h4, inUse_publisher env]; rfl, fun s => by rw [h5, inUse_client env]; rfl⟩

theorem Uses.publish {ops : TidOps Tid} (tops : TrackerOps N Tid Trk) {n : CoreNode N Tid Trk} {tr : List (Op N Tid E × Answer Tid E)}
    (h : Uses n tr) (env : Env E) (s : SubjectId) (p : Payload) (l : Bool) : Uses (n.publish ops env s p l).node tr := by
  have g := h.step (ops := ops) (tops := tops) env (.publish env s p l)
  exact ⟨g.valid, fun t => by rw [← inUse_other (op := .publish env s p l) rfl]; exact g.publishers t,
    fun t => by rw [← inUse_other (op := .publish env s p l) rfl]; exact g.requesters t⟩

theorem perSecond_uses {ops : TidOps Tid} (tops : TrackerOps N Tid Trk) {n : BasicNode N Tid Trk} {tr : List (Op N Tid E × Answer Tid E)}
    (h : Uses n.node.node tr) (env env' : Env E) : Uses (n.perSecond ops env env').node.node.node tr := by
  unfold BasicNode.perSecond
  simp only
  split
  · split
    · exact (h.publish tops env _ _ _).publish tops env' _ _ _
    · exact h.publish tops env _ _ _
  · exact h.publish tops env _ _ _

theorem run_uses (ops : TidOps Tid) (tops : TrackerOps N Tid Trk) (env : Env E) (history : List (BasicOp N Tid E)) :
    ∀ (n : BasicNode N Tid Trk) (tr : List (Op N Tid E × Answer Tid E)), n.portList.Ok → Uses n.node.node tr →
      Uses (n.run ops tops history).2.node.node (traceOf ops tops tr n history) := by
  induction history with
  | nil => intro n tr _ h; exact h
  | cons op rest ih =>
    intro n tr hok h
    have e : (n.run ops tops (op :: rest)).2 = ((n.step ops tops op).node.run ops tops rest).2 := rfl
    rw [e]
    cases op with
    | perSecond env env' =>
      have hl : (n.step ops tops (.perSecond env env')).node.portList = n.portList := (perSecond_spec ops n env env').2.1
      exact ih _ tr (by rw [hl]; exact hok) (perSecond_uses tops h env env')
    | call op =>
      obtain ⟨x, g1, g2, g3⟩ := call_spec ops tops _ hok op
      simp only [BasicNode.step, traceOf, g1]
      exact ih _ _ g2 (h.step env op)
    | inside op => exact ih _ _ hok (h.step env op)
    | setMode v => exact ih _ tr hok h
    | setHealth v => exact ih _ tr hok h
    | setStatusCode v => exact ih _ tr hok h

theorem new_uses {ops : TidOps Tid} (tops : TrackerOps N Tid Trk) {env : Env E} {id : Option N} {p r : Nat} {info : Payload} {rx : List (RxCall N)}
    {n : BasicNode N Tid Trk} (h : BasicNode.new ops env (CoreNode.new id p r) info = (.ok, rx, some n)) :
    Uses n.node.node ([] : List (Op N Tid E × Answer Tid E)) := by
  obtain ⟨-, -, o₁, o₂, o₃, e₁, e₂, e₃, a₁, a₂, a₃, hn, -⟩ := new_spec tops h
  have v : (CoreNode.new id p r : CoreNode N Tid Trk).Valid := ⟨⟨by simp [CoreNode.new], by simp [CoreNode.new]⟩, ⟨by simp [CoreNode.new], by simp [CoreNode.new]⟩⟩
  have s₁ := step_ports ops tops (CoreNode.new id p r : CoreNode N Tid Trk) (.subscribeRequest env getInfoService 0 (milliseconds 1000)) v []
    (fun s => rfl) (fun s => rfl)
  rw [← e₁, a₁] at s₁
  have s₂ := step_ports ops tops o₁.node (.startPublishing env portListSubject (milliseconds 1000) optional) s₁.1 _ s₁.2.2.2.1 s₁.2.2.2.2
  rw [← e₂, a₂] at s₂
  have s₃ := step_ports ops tops o₂.node (.startPublishing env heartbeatSubject (milliseconds 500) nominal) s₂.1 _ s₂.2.2.2.1 s₂.2.2.2.2
  rw [← e₃, a₃] at s₃
  rw [hn]
  exact ⟨s₃.1, fun s => by rw [s₃.2.2.2.1, inUse_publisher env]; rfl, fun s => by rw [s₃.2.2.2.2, inUse_client env]; rfl⟩

/-! ### The period of the port list -/

/-- The counter after some heartbeats that were sent. -/
def counter (beats : Nat) : Nat := if beats = 0 then 0 else (beats - 1) % 10 + 1

theorem counter_succ (k : Nat) : counter (k + 1) = if counter k = 10 then 1 else counter k + 1 := by
  unfold counter
  by_cases h : k = 0
  · subst h; rfl
  · rw [if_neg h, if_neg (by omega)]
    by_cases h' : (k - 1) % 10 + 1 = 10
    · rw [if_pos h']; omega
    · rw [if_neg h']; omega

theorem counter_le (k : Nat) : counter k ≤ 10 := by
  unfold counter
  split <;> omega

theorem perSecond_seconds (ops : TidOps Tid) (n : BasicNode N Tid Trk) (env env' : Env E) {k : Nat} (h : n.seconds.toNat = counter k) :
    (n.perSecond ops env env').node.seconds.toNat = counter ((match (n.node.perSecond ops env).1 with | .ok => 1 | _ => 0) + k) := by
  unfold BasicNode.perSecond
  simp only
  cases ha : (n.node.perSecond ops env).1 with
  | ok =>
    simp only
    have := counter_le k
    rw [Nat.add_comm 1 k, counter_succ, ← h]
    by_cases hs : n.seconds = 10#8
    · rw [if_pos hs, hs]; rfl
    · have : n.seconds.toNat ≠ 10 := fun e => hs (BitVec.eq_of_toNat_eq e)
      rw [if_neg hs, if_neg this]
      simp only [BitVec.toNat_add, BitVec.toNat_ofNat]
      omega
  | _ => simp only [h, Nat.zero_add]

theorem run_seconds (ops : TidOps Tid) (tops : TrackerOps N Tid Trk) (history : List (BasicOp N Tid E)) :
    ∀ (n : BasicNode N Tid Trk) (k : Nat), n.portList.Ok → n.seconds.toNat = counter k →
      (n.run ops tops history).2.seconds.toNat = counter (k + beats ops tops n history) := by
  induction history with
  | nil => intro n k _ h; exact h
  | cons op rest ih =>
    intro n k hok h
    have e : (n.run ops tops (op :: rest)).2 = ((n.step ops tops op).node.run ops tops rest).2 := rfl
    have hb : beats ops tops n (op :: rest) = (match op with
      | .perSecond env _ => match (n.node.perSecond ops env).1 with | .ok => 1 | _ => 0
      | _ => 0) + beats ops tops (n.step ops tops op).node rest := by cases op <;> rfl
    rw [e, hb, ← Nat.add_assoc]
    cases op with
    | perSecond env env' =>
      have hl : (n.step ops tops (.perSecond env env')).node.portList = n.portList := (perSecond_spec ops n env env').2.1
      exact ih _ _ (by rw [hl]; exact hok) (by rw [Nat.add_comm k]; exact perSecond_seconds ops n env env' h)
    | call op =>
      obtain ⟨x, g1, g2, g3⟩ := call_spec ops tops _ hok op
      simp only [BasicNode.step, g1]
      exact ih _ _ g2 h
    | inside op => exact ih _ _ hok h
    | setMode v => exact ih _ _ hok h
    | setHealth v => exact ih _ _ hok h
    | setStatusCode v => exact ih _ _ hok h

end Verif.App
