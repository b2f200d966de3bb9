import Verif.Pnp.Runs
import Verif.App.Props

/-!
Properties of plug-and-play node ID allocation (`canadensis/src/service/pnp`, `canadensis_pnp_client`): C57, C58, C74 and C75.
-/

namespace Verif.Pnp

open Verif.Dsdl Verif.Enc Verif.Node Verif.App

variable {N Tid Trk E : Type}

/-! ### The two kinds of node IDs -/

theorem C58_can_ids : canIds.Lawful := canIds_lawful

theorem C58_header_ids : headerIds.Lawful := headerIds_lawful

/-- 7-bit node IDs: 127 is valid, 128 is not. 16-bit node IDs: 65534 is valid, 65535 is not. -/
example : canIds.tryFrom 127 = some 127 ∧ canIds.tryFrom 128 = none ∧ (headerIds.tryFrom 65534).isSome = true ∧ headerIds.tryFrom 65535 = none := by
  decide +kernel

/-! ### C58: what a client adopts -/

/-- Missing: the handler looks neither at the subject nor at the source of the message. -/
theorem C58_service_partial {ids : IdOps N} (hl : ids.Lawful) (v : Version) (u : UniqueId) (node : CoreNode N Tid Trk) (header : MessageHeader N Tid)
    (p : List Byte) :
    ∃ out, clientHandles ids v u node header p = some out ∧ out.sent = [] ∧
      ((∃ id, grants ids v p u id ∧ out.handled = true ∧
          out.node = { node with nodeId := some id, publishers := node.publishers.remove v.subject } ∧
          out.rx = [.setId id, .unsubscribeMessage v.subject]) ∨
        ((∀ id, ¬ grants ids v p u id) ∧ out.handled = false ∧ out.node = node ∧ out.rx = [])) := by
  have key : clientHandles ids v u node header p = some (match grantTo ids v p u with
      | some id => ⟨true, (), { node with nodeId := some id, publishers := node.publishers.remove v.subject }, [],
          [.setId id, .unsubscribeMessage v.subject]⟩
      | none => ⟨false, (), node, [], []⟩) := by
    cases v
    · exact client_spec (acts1 ids) u node header p
    · exact client_spec (acts2 ids) u node header p
  rw [key]
  cases hg : grantTo ids v p u with
  | some id => exact ⟨_, rfl, rfl, .inl ⟨id, (grantTo_iff hl v p u id).1 hg, rfl, rfl, rfl⟩⟩
  | none =>
    refine ⟨_, rfl, rfl, .inr ⟨fun id h => ?_, rfl, rfl, rfl⟩⟩
    rw [(grantTo_iff hl v p u id).2 h] at hg
    cases hg

/-- Missing: `receive` looks neither at the subject nor at the source of the message. -/
theorem C58_free_partial {ids : IdOps N} (hl : ids.Lawful) (v : Version) (c : PnpClient Tid) (r : Received N Tid E) :
    match r with
    | .transfer t => (∀ id, freeReceives ids v c (.transfer t) = (.id id : Got N E) ↔ grants ids v t.payload c.uniqueId id) ∧
        ((∀ id, ¬ grants ids v t.payload c.uniqueId id) → freeReceives ids v c (.transfer t) = (.nothing : Got N E))
    | .nothing => freeReceives ids v c r = .nothing
    | .error e => freeReceives ids v c r = .error e := by
  cases r with
  | nothing => cases v <;> rfl
  | error e => cases v <;> rfl
  | transfer t =>
    have key : (freeReceives ids v c (.transfer t) : Got N E) = match grantTo ids v t.payload c.uniqueId with
        | some id => .id id
        | none => .nothing := by
      cases v
      · exact receive_spec (acts1 ids) c t
      · exact receive_spec (acts2 ids) c t
    simp only [key]
    cases hg : grantTo ids v t.payload c.uniqueId with
    | some id =>
      have h := (grantTo_iff hl v t.payload c.uniqueId id).1 hg
      refine ⟨fun id' => ⟨fun e => ?_, fun h' => ?_⟩, fun h' => absurd h (h' id)⟩
      · injection e with e
        rw [← e]
        exact h
      · have := (grantTo_iff hl v t.payload c.uniqueId id').2 h'
        rw [hg] at this
        injection this with this
        rw [this]
    | none =>
      refine ⟨fun id => ⟨(fun e => by cases e), fun h => ?_⟩, fun _ => rfl⟩
      have := (grantTo_iff hl v t.payload c.uniqueId id).2 h
      rw [hg] at this
      cases this

/-- A client adopts the ID in a reply to its request. -/
theorem C58_reply (ids : IdOps N) (v : Version) (u : UniqueId) (id : N) : grants ids v (reply v (request v u) (ids.toU16 id).toNat) u id :=
  reply_grants v u id

/-! The demonstrations use a CAN node and these unique IDs. -/

/-- A unique ID. -/
def uidA : UniqueId := ⟨List.replicate 16 0xa5, rfl⟩

/-- Another unique ID. -/
def uidB : UniqueId := ⟨List.replicate 15 0x11 ++ [0x12], rfl⟩

/-- The header of a message from this node on this subject. -/
def demoHeader (source : Option (BitVec 7)) (subject : SubjectId) : MessageHeader (BitVec 7) (BitVec 5) := ⟨3, 9, 4, subject, source⟩

/-- What a client with version 1 and `uidA` does with three messages: one for it, one for another node, one with an ID that CAN does not have. -/
example :
    (match clientHandles canIds .one uidA demoCore (demoHeader (some 20) 8166) (reply .one (request .one uidA) 42) with
      | some out => decide (out.node.nodeId = some 42 ∧ out.rx = [.setId 42, .unsubscribeMessage 8166])
      | none => false) = true ∧
    (match clientHandles canIds .one uidA demoCore (demoHeader (some 20) 8166) (reply .one (request .one uidB) 42) with
      | some out => decide (out.node.nodeId = some 7 ∧ out.rx = [])
      | none => false) = true ∧
    (match clientHandles canIds .one uidA demoCore (demoHeader (some 20) 8166) (reply .one (request .one uidA) 128) with
      | some out => decide (out.node.nodeId = some 7 ∧ out.rx = [])
      | none => false) = true := by
  decide +kernel

/-- A client without a node. -/
def demoFree : PnpClient (BitVec 5) := ⟨uidA, AnonymousPublisher.new canTid 8165 nominal (milliseconds 1000)⟩

example :
    (freeReceives canIds .two demoFree (.transfer ⟨.message (demoHeader (some 20) 8165), false, reply .two (request .two uidA) 42⟩) : Got _ Unit) = .id 42 ∧
    (freeReceives canIds .two demoFree (.transfer ⟨.message (demoHeader (some 20) 8165), false, reply .two (request .two uidB) 42⟩) : Got _ Unit) =
      .nothing := by
  decide +kernel

/-- A client adopts an ID from a message on another subject. -/
theorem C58_counterexample_subject : ∃ out,
    clientHandles canIds .one uidA demoCore (demoHeader (some 20) 100) (reply .one (request .one uidA) 42) = some out ∧ out.node.nodeId = some 42 := by
  refine ⟨_, Option.eq_some_of_isSome (by decide +kernel), by decide +kernel⟩

/-- A client adopts an ID from an anonymous message. -/
theorem C58_counterexample_anonymous : ∃ out,
    clientHandles canIds .one uidA demoCore (demoHeader none 8166) (reply .one (request .one uidA) 42) = some out ∧ out.node.nodeId = some 42 := by
  refine ⟨_, Option.eq_some_of_isSome (by decide +kernel), by decide +kernel⟩

/-- A client with version 2 that receives the request of any client with its unique ID, for example its own, adopts the ID 0. -/
theorem C58_counterexample_request (u : UniqueId) : grants canIds .two (request .two u) u 0 :=
  ⟨rfl, request_isAbout .two u, rfl⟩

/-! ### C74: how a server reacts -/

/-- A message that is not an allocation message and not a heartbeat. -/
theorem C74_other_partial (ops : TidOps Tid) (ids : IdOps N) (s : Server) (node : CoreNode N Tid Trk) (env : Env E) (header : MessageHeader N Tid)
    (p : List Byte) (h1 : ∀ v : Version, header.subject = v.subject → wellFormed v p = false)
    (h2 : header.subject = heartbeatSubject → header.source = none) :
    s.handleMessage ops ids node env header p = some ⟨false, s, node, [], []⟩ := by
  rcases subject_cases header.subject p with ⟨v, hv, hw⟩ | ⟨v, hv, hw⟩ | hb | ⟨g1, g2⟩
  · rw [h1 v hv] at hw; cases hw
  · exact handle_malformed ops ids v s node env header p hv hw
  · rw [handle_heartbeat ops ids s node env header p hb, h2 hb]
  · exact handle_other ops ids s node env header p g1 g2

/-- A heartbeat reserves the ID of its source unless the ID is assigned, and does nothing else. The handler panics if the server has no such ID. -/
theorem C74_heartbeat_partial (ops : TidOps Tid) (ids : IdOps N) (s : Server) (node : CoreNode N Tid Trk) (env : Env E) (header : MessageHeader N Tid)
    (p : List Byte) (id : N) (h : header.subject = heartbeatSubject) (hid : header.source = some id) :
    if (ids.toU16 id).toNat < s.length then
      ∃ out, s.handleMessage ops ids node env header p = some out ∧ out.handled = false ∧ out.node = node ∧ out.sent = [] ∧ out.rx = [] ∧
        ∀ i, out.state[i]? = if i = (ids.toU16 id).toNat ∧ s[i]? = some .unassigned then some .reserved else s[i]?
    else s.handleMessage ops ids node env header p = none := by
  rw [handle_heartbeat ops ids s node env header p h, hid]
  split
  · rename_i hlt
    simp only [List.getElem?_eq_getElem hlt, Option.map_some]
    refine ⟨_, rfl, rfl, rfl, rfl, rfl, fun i => ?_⟩
    simp only
    by_cases hi : i = (ids.toU16 id).toNat
    · subst hi
      rw [List.getElem?_eq_getElem hlt]
      cases ha : s[(ids.toU16 id).toNat] with
      | unassigned => simp [Assignment.isAssigned, Assignment.isAssignedAnd, hlt]
      | reserved => simp [Assignment.isAssigned, Assignment.isAssignedAnd, hlt, ha]
      | assigned u => simp [Assignment.isAssigned, Assignment.isAssignedAnd, hlt, ha]
    · have hi' : (ids.toU16 id).toNat ≠ i := fun e => hi e.symm
      simp only [hi, false_and, if_false]
      split
      · rfl
      · exact List.getElem?_set_ne hi'
  · rename_i hlt
    simp only [List.getElem?_eq_none (show s.length ≤ (ids.toU16 id).toNat by omega), Option.map_none]

/-- An allocation message is answered with one message on its subject that repeats what it says about the unique ID and has the number of an entry of the
server; there is no answer if and only if every entry is assigned to other unique IDs. -/
theorem C74_allocation_partial {ids : IdOps N} (hl : ids.Lawful) (ops : TidOps Tid) (v : Version) (s : Server) (node : CoreNode N Tid Trk) (env : Env E)
    (header : MessageHeader N Tid) (p : List Byte) (hs : header.subject = v.subject) (hw : wellFormed v p = true)
    (hc : s.length ≤ (ids.toU16 ids.max).toNat + 1) (hp : Publishes node v.subject (milliseconds 1000) nominal) :
    ∃ out, s.handleMessage ops ids node env header p = some out ∧ out.handled = true ∧ out.rx = [] ∧ out.node.nodeId = node.nodeId ∧
      ((∀ a ∈ s, ∃ u, a = .assigned u ∧ isAbout v p u = false) → out.sent = [] ∧ out.state = s) ∧
      ((¬ ∀ a ∈ s, ∃ u, a = .assigned u ∧ isAbout v p u = false) → ∃ i tid, i < s.length ∧ (out.state = s ∨ out.state = s.set i .reserved) ∧
        out.sent = [⟨.message ⟨env.now.plus (milliseconds 1000), tid, nominal, v.subject, node.nodeId⟩, false, reply v p i⟩]) := by
  obtain ⟨out, h1, h2, h3, h4, h5, h6⟩ := handle_allocation hl ops v s node env header p hs hw hc
  refine ⟨out, h1, h2, h4, ?_, fun hall => ?_, fun hall => ?_⟩
  · cases ha : (s.allocate (isAbout v p)).1 with
    | none => rw [(h5 ha).1]
    | some i =>
      obtain ⟨payload, -, g, -⟩ := h6 i ha
      rw [g, publish_nodeId]
  · have ha := (allocate_none s (isAbout v p)).2 hall
    exact ⟨(h5 (by rw [ha])).2, by rw [h3, ha]⟩
  · cases ha : s.allocate (isAbout v p) with
    | mk r s' =>
      cases r with
      | none =>
        have e := allocate_none_state ha
        subst e
        exact absurd ((allocate_none s (isAbout v p)).1 ha) hall
      | some i =>
        obtain ⟨payload, hb, -, g⟩ := h6 i (by rw [ha])
        obtain ⟨tid, ht⟩ := (publish_bytes (ops := ops) hp env hb).2
        exact ⟨i, tid, (allocate_lt ha).1, by rw [h3, ha]; exact allocate_state ha, by rw [g, ht]⟩

/-- A server with four entries. -/
def demoTable : Server := [.assigned uidB, .unassigned, .assigned uidA, .unassigned]

/-- The CAN node of the server. -/
def demoNode : CoreNode (BitVec 7) (BitVec 5) Can.CanTransferIdTracker :=
  (Server.new canTid canIds 127 64 demoCore (demoEnv .ok) (demoEnv .ok)).2.1

example : Publishes demoNode Version.one.subject (milliseconds 1000) nominal ∧
    (match demoTable.handleMessage canTid canIds demoNode (demoEnv .ok) (demoHeader none 8166) (request .one uidA) with
      | some out => decide (out.sent.map (·.payload) = [reply .one (request .one uidA) 2] ∧ out.state = demoTable)
      | none => false) = true ∧
    (match demoTable.handleMessage canTid canIds demoNode (demoEnv .ok) (demoHeader (some 3) heartbeatSubject) [1, 2, 3] with
      | some out => decide (out.sent = [] ∧ out.state = [.assigned uidB, .unassigned, .assigned uidA, .reserved])
      | none => false) = true ∧
    (match demoTable.handleMessage canTid canIds demoNode (demoEnv .ok) (demoHeader none 8166) ((request .one uidA).take 6 ++ [2]) with
      | some out => decide (out.handled = false ∧ out.sent = [] ∧ out.state = demoTable)
      | none => false) = true := by
  refine ⟨⟨_, Option.eq_some_of_isSome (by decide +kernel), by decide +kernel, by decide +kernel⟩, ?_⟩
  decide +kernel

/-- A heartbeat from the node with the greatest ID is a panic of every new server. -/
theorem C74_counterexample_heartbeat {ids : IdOps N} (ops : TidOps Tid) (C mtu : Nat) (node node' : CoreNode N Tid Trk) (env₁ env₂ env : Env E)
    (rx : List (RxCall N)) (s : Server) (hn : Server.new ops ids C mtu node env₁ env₂ = (.ok, node', rx, some s)) (tops : TrackerOps N Tid Trk)
    (header : MessageHeader N Tid) (p : List Byte) (h : header.subject = heartbeatSubject) (hid : header.source = some ids.max) :
    s.handleMessage ops ids node' env header p = none := by
  obtain ⟨h1, h2, -⟩ := new_spec tops hn
  rw [handle_heartbeat ops ids s node' env header p h, hid]
  simp only
  rw [List.getElem?_eq_none (by rw [h2, List.length_replicate, h1]), Option.map_none]

/-- So is `assign` with the greatest ID. -/
theorem C74_counterexample_assign {ids : IdOps N} (ops : TidOps Tid) (C mtu : Nat) (node node' : CoreNode N Tid Trk) (env₁ env₂ : Env E)
    (rx : List (RxCall N)) (s : Server) (hn : Server.new ops ids C mtu node env₁ env₂ = (.ok, node', rx, some s)) (tops : TrackerOps N Tid Trk)
    (u : UniqueId) : s.assign ids ids.max u = none := by
  obtain ⟨h1, h2, -⟩ := new_spec tops hn
  unfold Server.assign
  simp only [List.getElem?_eq_none (show s.length ≤ (ids.toU16 ids.max).toNat by rw [h2, List.length_replicate, h1])]

/-- There are new servers. -/
example : (Server.new canTid canIds 127 64 demoCore (demoEnv .ok) (demoEnv .ok)).1 = .ok ∧
    (Server.new canTid canIds 127 64 demoCore (demoEnv .ok) (demoEnv .ok)).2.2.2.isSome = true := by
  decide +kernel

/-- A server answers the reply of another server: it sends the reply again if it chooses the same ID, and another ID otherwise. Two servers that hear each
other never stop. -/
theorem C74_counterexample_reply {ids : IdOps N} (hl : ids.Lawful) (ops : TidOps Tid) (v : Version) (s : Server) (node : CoreNode N Tid Trk) (env : Env E)
    (header : MessageHeader N Tid) (p : List Byte) (n : Nat) (hs : header.subject = v.subject)
    (hc : s.length ≤ (ids.toU16 ids.max).toNat + 1) (hp : Publishes node v.subject (milliseconds 1000) nominal) (hfree : .unassigned ∈ s) :
    ∃ out i, s.handleMessage ops ids node env header (reply v p n) = some out ∧ out.sent.map (·.payload) = [reply v p i] := by
  obtain ⟨out, h1, -, -, -, -, h⟩ := C74_allocation_partial hl ops v s node env header (reply v p n) hs (reply_wellFormed v p n) hc hp
  obtain ⟨i, tid, -, -, h⟩ := h fun hall => by
    obtain ⟨u, hu, -⟩ := hall _ hfree
    cases hu
  exact ⟨out, i, h1, by rw [h]; simp [reply_reply]⟩

/-- The allocation servers of a network never hear heartbeats: `new` does not subscribe to them. -/
theorem C74_subscriptions {ids : IdOps N} (ops : TidOps Tid) (C mtu : Nat) (node node' : CoreNode N Tid Trk) (env₁ env₂ : Env E)
    (rx : List (RxCall N)) (s : Server) (hn : Server.new ops ids C mtu node env₁ env₂ = (.ok, node', rx, some s)) (tops : TrackerOps N Tid Trk) :
    s = List.replicate C .unassigned ∧ C = (ids.toU16 ids.max).toNat ∧ Publishes node' Version.one.subject (milliseconds 1000) nominal ∧
      (18 ≤ mtu → Publishes node' Version.two.subject (milliseconds 1000) nominal) ∧
      rx = [.subscribeMessage Version.one.subject 9 (milliseconds 1000)] ++
        (if 18 ≤ mtu then [.subscribeMessage Version.two.subject 18 (milliseconds 1000)] else []) := by
  obtain ⟨h1, h2, h3, h4, h5⟩ := new_spec tops hn
  exact ⟨h2, h1, h3, h4, h5⟩

/-! ### C57: unique IDs -/

/-- Missing: the IDs that the server chooses itself. If every node ID comes from `assign`, the server answers a request with the lowest ID that was first
assigned to a matching unique ID. -/
theorem C57_static_partial {ids : IdOps N} (hl : ids.Lawful) (ops : TidOps Tid) (tops : TrackerOps N Tid Trk) (C mtu : Nat)
    (node₀ node : CoreNode N Tid Trk) (env₁ env₂ : Env E) (rx : List (RxCall N)) (s₀ : Server)
    (hn : Server.new ops ids C mtu node₀ env₁ env₂ = (.ok, node, rx, some s₀)) (history : List (ServerOp N Tid E)) (env : Env E)
    (header : MessageHeader N Tid) (p : List Byte) (ho : Orderly ids C (history ++ [.message env header p])) (v : Version) (hm : v = .one ∨ 18 ≤ mtu)
    (hs : header.subject = v.subject) (hw : wellFormed v p = true) :
    ∃ w w' i u tid, Server.run ops tops ids (s₀, node) history = some w ∧
      Server.step ops tops ids w (.message env header p) = some (w', [⟨.message ⟨env.now.plus (milliseconds 1000), tid, nominal, v.subject, w.2.nodeId⟩,
        false, reply v p i⟩]) ∧
      i < C ∧ owner ids history i = some u ∧ isAbout v p u = true ∧ ∀ j, j < i → ∀ x, owner ids history j = some x → isAbout v p x = false := by
  obtain ⟨hC, rfl, p1, p2, -⟩ := new_spec tops hn
  obtain ⟨ho1, ho2⟩ := ho.init
  obtain ⟨s, node', h1, h2, h3⟩ := static_run hl ops tops (by omega) node history ho1
  have hpub : Publishes node' v.subject (milliseconds 1000) nominal := h3 v _ _ (by
    rcases hm with rfl | hm
    · exact p1
    · cases v
      · exact p1
      · exact p2 hm)
  obtain ⟨k, x, hk, hx⟩ := ho2.1 v hs hw
  obtain ⟨i, u, ha, hi, hu, hmin⟩ := h2.find hk hx
  obtain ⟨out, g1, -, -, -, -, g6⟩ := handle_allocation hl ops v s node' env header p hs hw (by rw [h2.length]; omega)
  rw [ha] at g6
  obtain ⟨payload, hb, -, g⟩ := g6 i rfl
  obtain ⟨tid, ht⟩ := (publish_bytes (ops := ops) hpub env hb).2
  refine ⟨(s, node'), (out.state, out.node), i, u, tid, h1, ?_, h2.bound i u hi, hi, hu, hmin⟩
  unfold Server.step
  simp only [g1, Option.map_some, g, ht]

/-- Missing: the IDs that the server chooses itself. If every node ID comes from `assign`, then the answers to two requests that are about no common
unique ID have different IDs. -/
theorem C57_unique_partial {ids : IdOps N} (hl : ids.Lawful) (ops : TidOps Tid) (tops : TrackerOps N Tid Trk) (C mtu : Nat)
    (node₀ node : CoreNode N Tid Trk) (env₁ env₂ : Env E) (rx : List (RxCall N)) (s₀ : Server)
    (hn : Server.new ops ids C mtu node₀ env₁ env₂ = (.ok, node, rx, some s₀)) (before between : List (ServerOp N Tid E)) (e₁ e₂ : Env E)
    (header₁ header₂ : MessageHeader N Tid) (p₁ p₂ : List Byte)
    (ho : Orderly ids C (before ++ [.message e₁ header₁ p₁] ++ between ++ [.message e₂ header₂ p₂])) (v₁ v₂ : Version)
    (hm₁ : v₁ = .one ∨ 18 ≤ mtu) (hm₂ : v₂ = .one ∨ 18 ≤ mtu) (hs₁ : header₁.subject = v₁.subject) (hs₂ : header₂.subject = v₂.subject)
    (hw₁ : wellFormed v₁ p₁ = true) (hw₂ : wellFormed v₂ p₂ = true) (hne : ∀ u, ¬ (isAbout v₁ p₁ u = true ∧ isAbout v₂ p₂ u = true)) :
    ∃ r₁ r₂ i₁ i₂, answerTo ops tops ids (s₀, node) before (.message e₁ header₁ p₁) = some [r₁] ∧
      answerTo ops tops ids (s₀, node) (before ++ [.message e₁ header₁ p₁] ++ between) (.message e₂ header₂ p₂) = some [r₂] ∧
      granted v₁ r₁ = some i₁ ∧ granted v₂ r₂ = some i₂ ∧ i₁ ≠ i₂ := by
  have hmax := (ids.toU16 ids.max).isLt
  have hC := (new_spec tops hn).1
  have ho₁ : Orderly ids C (before ++ [.message e₁ header₁ p₁]) := Orderly.prefix (h' := between ++ [.message e₂ header₂ p₂]) (by simpa using ho)
  obtain ⟨w, w', i, u, tid, h1, h2, h3, h4, h5, -⟩ := C57_static_partial hl ops tops C mtu node₀ node env₁ env₂ rx s₀ hn before e₁ header₁ p₁ ho₁ v₁
    hm₁ hs₁ hw₁
  obtain ⟨x, x', j, u', tid', g1, g2, g3, g4, g5, -⟩ := C57_static_partial hl ops tops C mtu node₀ node env₁ env₂ rx s₀ hn _ e₂ header₂ p₂ ho v₂
    hm₂ hs₂ hw₂
  refine ⟨reply v₁ p₁ i, reply v₂ p₂ j, i, j, ?_, ?_, reply_granted v₁ p₁ i (by omega), reply_granted v₂ p₂ j (by omega), ?_⟩
  · unfold answerTo
    rw [h1, Option.bind_some, h2, Option.map_some]
    rfl
  · unfold answerTo
    rw [g1, Option.bind_some, g2, Option.map_some]
    rfl
  · rintro rfl
    have e := owner_append ids before ([.message e₁ header₁ p₁] ++ between) h4
    rw [← List.append_assoc, g4] at e
    injection e with e
    subst e
    exact hne u' ⟨h5, g5⟩

/-- Missing: the IDs that the server chooses itself. If every node ID comes from `assign` and only one ID belongs to the unique IDs that two requests are
about, then the answers to the two requests have the same ID. -/
theorem C57_same_partial {ids : IdOps N} (hl : ids.Lawful) (ops : TidOps Tid) (tops : TrackerOps N Tid Trk) (C mtu : Nat)
    (node₀ node : CoreNode N Tid Trk) (env₁ env₂ : Env E) (rx : List (RxCall N)) (s₀ : Server)
    (hn : Server.new ops ids C mtu node₀ env₁ env₂ = (.ok, node, rx, some s₀)) (before between : List (ServerOp N Tid E)) (e₁ e₂ : Env E)
    (header₁ header₂ : MessageHeader N Tid) (p₁ p₂ : List Byte)
    (ho : Orderly ids C (before ++ [.message e₁ header₁ p₁] ++ between ++ [.message e₂ header₂ p₂])) (v₁ v₂ : Version)
    (hm₁ : v₁ = .one ∨ 18 ≤ mtu) (hm₂ : v₂ = .one ∨ 18 ≤ mtu) (hs₁ : header₁.subject = v₁.subject) (hs₂ : header₂.subject = v₂.subject)
    (hw₁ : wellFormed v₁ p₁ = true) (hw₂ : wellFormed v₂ p₂ = true) (k : Nat)
    (hk : ∀ i u, owner ids (before ++ [.message e₁ header₁ p₁] ++ between) i = some u → isAbout v₁ p₁ u = true ∨ isAbout v₂ p₂ u = true → i = k) :
    ∃ r₁ r₂, answerTo ops tops ids (s₀, node) before (.message e₁ header₁ p₁) = some [r₁] ∧
      answerTo ops tops ids (s₀, node) (before ++ [.message e₁ header₁ p₁] ++ between) (.message e₂ header₂ p₂) = some [r₂] ∧
      granted v₁ r₁ = some k ∧ granted v₂ r₂ = some k := by
  have hmax := (ids.toU16 ids.max).isLt
  have hC := (new_spec tops hn).1
  have ho₁ : Orderly ids C (before ++ [.message e₁ header₁ p₁]) := Orderly.prefix (h' := between ++ [.message e₂ header₂ p₂]) (by simpa using ho)
  obtain ⟨w, w', i, u, tid, h1, h2, h3, h4, h5, -⟩ := C57_static_partial hl ops tops C mtu node₀ node env₁ env₂ rx s₀ hn before e₁ header₁ p₁ ho₁ v₁
    hm₁ hs₁ hw₁
  obtain ⟨x, x', j, u', tid', g1, g2, g3, g4, g5, -⟩ := C57_static_partial hl ops tops C mtu node₀ node env₁ env₂ rx s₀ hn _ e₂ header₂ p₂ ho v₂
    hm₂ hs₂ hw₂
  have e := owner_append ids before ([.message e₁ header₁ p₁] ++ between) h4
  rw [← List.append_assoc] at e
  have hi := hk i u e (.inl h5)
  have hj := hk j u' g4 (.inr g5)
  subst hi
  subst hj
  refine ⟨reply v₁ p₁ _, reply v₂ p₂ _, ?_, ?_, reply_granted v₁ p₁ _ (by omega), reply_granted v₂ p₂ _ (by omega)⟩
  · unfold answerTo
    rw [h1, Option.bind_some, h2, Option.map_some]
    rfl
  · unfold answerTo
    rw [g1, Option.bind_some, g2, Option.map_some]
    rfl

/-- A new CAN server and its node. -/
def demoStart : Server × CoreNode (BitVec 7) (BitVec 5) Can.CanTransferIdTracker := (List.replicate 127 .unassigned, demoNode)

/-- A request of the node with this unique ID. -/
def demoAsk (v : Version) (u : UniqueId) : ServerOp (BitVec 7) (BitVec 5) Unit := .message (demoEnv .ok) (demoHeader none v.subject) (request v u)

/-- A heartbeat of this node. -/
def demoBeat (id : BitVec 7) : ServerOp (BitVec 7) (BitVec 5) Unit := .message (demoEnv .ok) (demoHeader (some id) heartbeatSubject) [1, 0, 0, 0, 0, 0, 0]

/-- IDs for two nodes, a heartbeat, a request of each node. -/
def demoHistory : List (ServerOp (BitVec 7) (BitVec 5) Unit) := [.assign 20 uidA, .assign 3 uidB, demoBeat 20, demoAsk .one uidA, demoAsk .two uidB]

theorem demo_orderly : Orderly canIds 127 demoHistory := by
  have a1 : owner canIds ([.assign 20 uidA, .assign 3 uidB] : List (ServerOp (BitVec 7) (BitVec 5) Unit)) 20 = some uidA := by decide +kernel
  have a2 : owner canIds ([.assign 20 uidA, .assign 3 uidB, demoBeat 20] : List (ServerOp (BitVec 7) (BitVec 5) Unit)) 20 = some uidA := by decide +kernel
  have a3 : owner canIds ([.assign 20 uidA, .assign 3 uidB, demoBeat 20, demoAsk .one uidA] : List (ServerOp (BitVec 7) (BitVec 5) Unit)) 3 = some uidB := by
    decide +kernel
  have h0 := orderly_nil (Tid := BitVec 5) (E := Unit) canIds 127
  have h1 := h0.snoc (op := .assign 20 uidA) (show (20 : Nat) < 127 by omega)
  have h2 := h1.snoc (op := .assign 3 uidB) (show (3 : Nat) < 127 by omega)
  have h3 := h2.snoc (op := demoBeat 20) ⟨fun v hv => by cases v <;> exact absurd hv (by decide +kernel), fun _ id hid => by
    have : some (20 : BitVec 7) = some id := hid
    injection this with this
    subst this
    have e : (canIds.toU16 20).toNat = 20 := by decide +kernel
    rw [e]
    show (owner canIds [.assign 20 uidA, .assign 3 uidB] 20).isSome = true
    rw [a1]
    rfl⟩
  have h4 := h3.snoc (op := demoAsk .one uidA) ⟨fun v hv _ => by
    have e : v = .one := subject_inj hv.symm
    subst e
    exact ⟨20, uidA, a2, request_isAbout .one uidA⟩, fun h => absurd h (by decide +kernel)⟩
  exact h4.snoc (op := demoAsk .two uidB) ⟨fun v hv _ => by
    have e : v = .two := subject_inj hv.symm
    subst e
    exact ⟨3, uidB, a3, request_isAbout .two uidB⟩, fun h => absurd h (by decide +kernel)⟩

/-- The two nodes get their IDs. -/
example : Orderly canIds 127 demoHistory ∧
    answerTo canTid canTracker canIds demoStart (demoHistory.take 3) (demoAsk .one uidA) = some [reply .one (request .one uidA) 20] ∧
    answerTo canTid canTracker canIds demoStart (demoHistory.take 4) (demoAsk .two uidB) = some [reply .two (request .two uidB) 3] ∧
    (∀ u, ¬ (isAbout .one (request .one uidA) u = true ∧ isAbout .two (request .two uidB) u = true)) := by
  refine ⟨demo_orderly, by decide +kernel, by decide +kernel, fun u ⟨h1, h2⟩ => ?_⟩
  have e : u = uidB := by
    apply Subtype.ext
    have h3 := request_isAbout .two uidB
    rw [isAbout_two, decide_eq_true_eq] at h2 h3
    rw [← h2, h3]
  subst e
  revert h1
  decide +kernel

/-- A new server gives the same ID to two clients. -/
theorem C57_counterexample_unique :
    answerTo canTid canTracker canIds demoStart [] (demoAsk .one uidA) = some [reply .one (request .one uidA) 0] ∧
    answerTo canTid canTracker canIds demoStart [demoAsk .one uidA] (demoAsk .one uidB) = some [reply .one (request .one uidB) 0] ∧ uidA ≠ uidB := by
  refine ⟨by decide +kernel, by decide +kernel, by decide +kernel⟩

/-- Every request that a new server answers without `assign` and without heartbeats gets the ID 0, whichever client it is about. -/
theorem C57_counterexample_zero {ids : IdOps N} (hl : ids.Lawful) (ops : TidOps Tid) (tops : TrackerOps N Tid Trk) (C mtu : Nat)
    (node₀ node : CoreNode N Tid Trk) (env₁ env₂ : Env E) (rx : List (RxCall N)) (s₀ : Server) (hC : 0 < C)
    (hn : Server.new ops ids C mtu node₀ env₁ env₂ = (.ok, node, rx, some s₀)) (asked : List (Env E × MessageHeader N Tid × UniqueId)) (env : Env E)
    (header : MessageHeader N Tid) (u : UniqueId) (hh : ∀ a ∈ asked, a.2.1.subject = Version.one.subject) (hs : header.subject = Version.one.subject) :
    answerTo ops tops ids (s₀, node) (asked.map fun a => .message a.1 a.2.1 (request .one a.2.2)) (.message env header (request .one u)) =
      some [reply .one (request .one u) 0] := by
  obtain ⟨h1, rfl, p1, -, -⟩ := new_spec tops hn
  have step : ∀ (s : Server) (node : CoreNode N Tid Trk) env (header : MessageHeader N Tid) u, header.subject = Version.one.subject →
      s = List.replicate C .unassigned ∨ s = .reserved :: List.replicate (C - 1) .unassigned →
      Publishes node Version.one.subject (milliseconds 1000) nominal →
      ∃ node' t, Server.step (E := E) ops tops ids (s, node) (.message env header (request .one u)) =
        some ((.reserved :: List.replicate (C - 1) .unassigned, node'), [t]) ∧ t.payload = reply .one (request .one u) 0 ∧
        Publishes node' Version.one.subject (milliseconds 1000) nominal := by
    intro s node env header u hs hc hp
    have hlen : s.length = C := by
      rcases hc with rfl | rfl
      · simp
      · simp; omega
    obtain ⟨out, g1, -, g3, -, -, g6⟩ := handle_allocation hl ops .one s node env header (request .one u) hs (request_wellFormed .one u) (by omega)
    have ha : s.allocate (isAbout .one (request .one u)) = (some 0, .reserved :: List.replicate (C - 1) .unassigned) := by
      obtain ⟨D, rfl⟩ : ∃ D, C = D + 1 := ⟨C - 1, by omega⟩
      rcases hc with rfl | rfl
      · exact allocate_fresh D _
      · unfold Server.allocate
        simp [Assignment.isAssignedAnd, List.findIdx?_cons]
    rw [ha] at g3 g6
    obtain ⟨payload, hb, g7, g8⟩ := g6 0 rfl
    obtain ⟨tid, ht⟩ := (publish_bytes (ops := ops) hp env hb).2
    refine ⟨out.node, ⟨.message ⟨env.now.plus (milliseconds 1000), tid, nominal, Version.one.subject, node.nodeId⟩, false,
      reply .one (request .one u) 0⟩, ?_, ?_, ?_⟩
    · unfold Server.step
      simp only [g1, Option.map_some, g3, g8, ht]
    · rfl
    · rw [g7]
      exact Publishes.publish tops hp env _ payload false
  have runs : ∀ asked : List (Env E × MessageHeader N Tid × UniqueId), (∀ a ∈ asked, a.2.1.subject = Version.one.subject) →
      ∀ (s : Server) node, (s = List.replicate C .unassigned ∨ s = .reserved :: List.replicate (C - 1) .unassigned) →
      Publishes node Version.one.subject (milliseconds 1000) nominal →
      ∃ s' node', Server.run ops tops ids (s, node) (asked.map fun a => .message a.1 a.2.1 (request .one a.2.2)) = some (s', node') ∧
        (s' = List.replicate C .unassigned ∨ s' = .reserved :: List.replicate (C - 1) .unassigned) ∧
        Publishes node' Version.one.subject (milliseconds 1000) nominal := by
    intro asked
    induction asked with
    | nil => exact fun _ s node hc hp => ⟨s, node, rfl, hc, hp⟩
    | cons a asked ih =>
      intro hh s node hc hp
      obtain ⟨node', t, g1, -, g3⟩ := step s node a.1 a.2.1 a.2.2 (hh a (by simp)) hc hp
      obtain ⟨s'', node'', k1, k2, k3⟩ := ih (fun b hb => hh b (by simp [hb])) _ node' (.inr rfl) g3
      refine ⟨s'', node'', ?_, k2, k3⟩
      unfold Server.run at k1 ⊢
      rw [List.map_cons, List.foldlM_cons, g1]
      exact k1
  obtain ⟨s', node', k1, k2, k3⟩ := runs asked hh _ node (.inl rfl) p1
  obtain ⟨node'', t, g1, g2, -⟩ := step s' node' env header u hs k2 k3
  unfold answerTo
  rw [k1, Option.bind_some, g1, Option.map_some]
  simp [g2]

/-- A client gets an ID that is known to be in use. -/
theorem C57_counterexample_in_use :
    answerTo canTid canTracker canIds demoStart [demoBeat 5] (demoAsk .one uidA) = some [reply .one (request .one uidA) 5] := by
  decide +kernel

/-- A client that asks again gets another ID. -/
theorem C57_counterexample_same :
    answerTo canTid canTracker canIds demoStart [demoBeat 5] (demoAsk .one uidA) = some [reply .one (request .one uidA) 5] ∧
    answerTo canTid canTracker canIds demoStart [demoBeat 5, demoAsk .one uidA, demoBeat 3] (demoAsk .one uidA) =
      some [reply .one (request .one uidA) 3] := by
  refine ⟨by decide +kernel, by decide +kernel⟩

/-- A client gets an ID that was assigned to another one, and that one loses it. -/
theorem C57_counterexample_assigned :
    answerTo canTid canTracker canIds demoStart [.assign 0 uidA] (demoAsk .one uidB) = some [reply .one (request .one uidB) 0] ∧
    (Server.run canTid canTracker canIds demoStart [.assign 0 uidA, demoAsk .one uidB]).map (fun w => w.1[0]?) = some (some .reserved) := by
  refine ⟨by decide +kernel, by decide +kernel⟩

/-! ### C75: requests of clients -/

/-- The request of a client with a node is a message on the allocation subject with the timeout and priority that `new` set. -/
theorem C75_service (ops : TidOps Tid) (tops : TrackerOps N Tid Trk) (ids : IdOps N) (v : Version) (mtu : Nat) (node₀ node : CoreNode N Tid Trk)
    (env₀ : Env E) (rx : List (RxCall N)) (hn : clientNew ops ids v mtu node₀ env₀ = (.ok, node, rx)) (history : List (Op N Tid E))
    (hh : ∀ op ∈ history, ¬ op.stopsPublishing v.subject) (u : UniqueId) (env : Env E) :
    rx = [.subscribeMessage v.subject v.maxSize (milliseconds 1000)] ∧
    (clientSends ops ids v u (CoreNode.run ops tops node history).2 env).answer = env.push.answer ∧
      ∃ tid, (clientSends ops ids v u (CoreNode.run ops tops node history).2 env).sent =
        [⟨.message ⟨env.now.plus (milliseconds 1000), tid, nominal, v.subject, (CoreNode.run ops tops node history).2.nodeId⟩, false, request v u⟩] := by
  have hj : rx = [.subscribeMessage v.subject v.maxSize (milliseconds 1000)] ∧ Publishes node v.subject (milliseconds 1000) nominal := by
    cases v
    · have h : ClientService.new ops (version1 ids) mtu node₀ env₀ = (.ok, node, rx) := hn
      unfold ClientService.new at h
      split at h
      · obtain ⟨rfl, g2, rfl⟩ := join_ok h
        exact ⟨rfl, start_publishes g2⟩
      · injection h with h
        cases h
    · have h : ClientService.new ops (version2 ids) mtu node₀ env₀ = (.ok, node, rx) := hn
      unfold ClientService.new at h
      split at h
      · obtain ⟨rfl, g2, rfl⟩ := join_ok h
        exact ⟨rfl, start_publishes g2⟩
      · injection h with h
        cases h
  refine ⟨hj.1, ?_⟩
  have hp : Publishes (CoreNode.run ops tops node history).2 v.subject (milliseconds 1000) nominal := run_publishes hj.2 history hh
  cases v
  · exact publish_bytes hp env ((acts1 ids).request u env.alloc)
  · exact publish_bytes hp env ((acts2 ids).request u env.alloc)

/-- `clientNew` gives a client, also with version 1 on CAN FD. -/
example : (clientNew canTid canIds .one 63 demoCore (demoEnv .ok)).1 = .ok ∧
    ((clientSends canTid canIds .one uidA (clientNew canTid canIds .one 63 demoCore (demoEnv .ok)).2.1 (demoEnv .ok)).sent.map (·.payload)) =
      [request .one uidA] ∧ (request .one uidA).length = 7 := by
  decide +kernel

/-- Missing: a client without a node panics if the request cannot be sent. Otherwise it sends its request in one anonymous message. -/
theorem C75_free_partial (ops : TidOps Tid) (ids : IdOps N) (v : Version) (c : PnpClient Tid) (mtu : Nat) (env : Env E) :
    freeSends ops ids v c mtu env =
      match decide ((request v c.uniqueId).length ≤ mtu), env.push with
      | true, .ok => some (⟨c.uniqueId, { c.publisher with nextTransferId := ops.increment c.publisher.nextTransferId }⟩,
          [⟨.message ⟨env.now.plus c.publisher.timeout, c.publisher.nextTransferId, c.publisher.priority, c.publisher.subject, none⟩, false,
            request v c.uniqueId⟩])
      | _, _ => none := by
  cases v
  · exact free_sends (acts1 ids) ops c mtu env
  · exact free_sends (acts2 ids) ops c mtu env

/-- The subscription and the messages of a new client without a node. -/
theorem C75_free_new (ops : TidOps Tid) (ids : IdOps N) (v : Version) (u : UniqueId) (env : Env E) (c : PnpClient Tid) (rx : List (RxCall N))
    (h : freeNew ops ids v u env = (some c, rx)) :
    c.uniqueId = u ∧ c.publisher.subject = v.subject ∧ c.publisher.timeout = milliseconds 1000 ∧ c.publisher.priority = nominal ∧
      rx = [.subscribeMessage v.subject 9 (milliseconds 1000)] := by
  have key : ∀ {M : Type} (a : AllocationMessage N M), a.subject = v.subject → PnpClient.new ops a u env = (some c, rx) →
      c.uniqueId = u ∧ c.publisher.subject = v.subject ∧ c.publisher.timeout = milliseconds 1000 ∧ c.publisher.priority = nominal ∧
      rx = [.subscribeMessage v.subject 9 (milliseconds 1000)] := by
    intro M a ha h
    unfold PnpClient.new at h
    injection h with h1 h2
    split at h1
    · injection h1 with h1
      subst h1 h2
      rw [ha]
      exact ⟨rfl, rfl, rfl, rfl, rfl⟩
    · cases h1
  cases v
  · exact key (version1 ids) rfl h
  · exact key (version2 ids) rfl h

example : (freeNew canTid canIds .two uidA (demoEnv .ok)).1.isSome = true ∧
    (freeSends canTid canIds .two demoFree 63 (demoEnv .ok)).map (fun r => r.2.map (·.payload)) = some [request .two uidA] := by
  decide +kernel

/-- A client without a node panics when the transmitter is busy. -/
theorem C75_counterexample_busy (mtu : Nat) : freeSends canTid canIds .two demoFree mtu (demoEnv .wouldBlock) = none := by
  rw [C75_free_partial]
  cases decide ((request .two demoFree.uniqueId).length ≤ mtu) <;> rfl

/-- `PnpClientService::new` panics in a debug build with version 1 on Classic CAN, although the request fits into a frame. -/
theorem C75_counterexample_classic (u : UniqueId) :
    (clientNew canTid canIds .one 7 demoCore (demoEnv .ok)).1 = .panic ∧ (request .one u).length ≤ 7 := by
  refine ⟨by decide +kernel, ?_⟩
  rw [request_one, List.length_append, length_numberBytes]
  rfl

/-- A client with version 2 subscribes with an extent of 9 bytes, but the replies that it waits for have 18 bytes. -/
theorem C75_counterexample_extent (u : UniqueId) (id : Nat) :
    (freeNew canTid canIds .two u (demoEnv .ok)).2 = [.subscribeMessage 8165 9 (milliseconds 1000)] ∧ (reply .two (request .two u) id).length = 18 := by
  refine ⟨rfl, ?_⟩
  rw [reply_two, List.length_append, length_numberBytes, length_slice]

/-- So after the receiver has cut the reply off at the extent, the client recognizes it only if the rest of its unique ID is zeros. -/
theorem C75_counterexample_cut : (freeReceives canIds .two demoFree
    (.transfer ⟨.message (demoHeader (some 20) 8165), false, (reply .two (request .two uidA) 42).take 9⟩) : Got _ Unit) = .nothing := by
  decide +kernel

/-! ### A complete exchange -/

/-- A client whose unique ID has one node ID from `assign` asks the server for its node ID, and adopts it when the reply arrives. -/
theorem C57_exchange_partial {ids : IdOps N} (hl : ids.Lawful) (ops : TidOps Tid) (tops : TrackerOps N Tid Trk) (C mtu : Nat)
    (node₀ node : CoreNode N Tid Trk) (env₁ env₂ : Env E) (rx : List (RxCall N)) (s₀ : Server)
    (hn : Server.new ops ids C mtu node₀ env₁ env₂ = (.ok, node, rx, some s₀)) (history : List (ServerOp N Tid E)) (env : Env E)
    (header header' : MessageHeader N Tid) (v : Version) (u : UniqueId) (ho : Orderly ids C (history ++ [.message env header (request v u)]))
    (hm : v = .one ∨ 18 ≤ mtu) (hs : header.subject = v.subject) (id : N)
    (hid : ∀ i x, owner ids history i = some x → isAbout v (request v u) x = true → i = (ids.toU16 id).toNat) (client : CoreNode N Tid Trk) :
    ∃ r out, answerTo ops tops ids (s₀, node) history (.message env header (request v u)) = some [r] ∧
      clientHandles ids v u client header' r = some out ∧ out.node.nodeId = some id := by
  obtain ⟨w, w', i, x, tid, h1, h2, h3, h4, h5, -⟩ := C57_static_partial hl ops tops C mtu node₀ node env₁ env₂ rx s₀ hn history env header
    (request v u) ho v hm hs (request_wellFormed v u)
  have hi := hid i x h4 h5
  subst hi
  obtain ⟨out, g1, -, g⟩ := C58_service_partial hl v u client header' (reply v (request v u) (ids.toU16 id).toNat)
  have hg := C58_reply ids v u id
  refine ⟨_, out, ?_, g1, ?_⟩
  · unfold answerTo
    rw [h1, Option.bind_some, h2, Option.map_some]
    rfl
  · rcases g with ⟨id', k1, -, k2, -⟩ | ⟨k, -⟩
    · rw [k2]
      have e := k1.2.2
      rw [hg.2.2] at e
      injection e with e
      have e := BitVec.eq_of_toNat_eq e
      have t1 := (hl.tryFrom_iff _ id).2 rfl
      have t2 := (hl.tryFrom_iff _ id').2 e.symm
      rw [t1] at t2
      exact t2.symm
    · exact absurd hg (k id)

/-- The exchange in `demoHistory`. -/
example : (match (answerTo canTid canTracker canIds demoStart (demoHistory.take 3) (demoAsk .one uidA)).bind (·.head?) with
    | some r => (clientHandles canIds .one uidA demoCore (demoHeader (some 7) 8166) r).map (·.node.nodeId)
    | none => none) = some (some 20) := by
  decide +kernel

end Verif.Pnp
