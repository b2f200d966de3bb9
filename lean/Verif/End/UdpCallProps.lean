import Verif.End.SerialCallProps
import Verif.End.UdpProps

/-!
C127: from `send_request` at a client to `deserialize` at the server, and from `send_response` there to `deserialize` at the client, over a network that loses datagrams.
-/

namespace Verif.End

open Verif.Node Verif.Dsdl Verif.Enc Verif.Udp
open Verif.Hdr (NodeId16 Tid64)

/-- The payload of a value that can be sent is not longer than the extent. -/
theorem value_length {m : Message} {t : UdpTransfer} {v : Val} {extent : Nat} (hext : extent < 2 ^ 32) (hs : Sendable m extent v) (hc : CarriesValue m t v) : t.payload.length ≤ extent := by
  have := congrArg List.length (value_read hext hs hc []).1
  simp only [List.append_nil, List.take_nil, List.length_take] at this
  omega

theorem udp_reads {m : Message} {v : Val} {t out : UdpTransfer} {extent : Nat} (hext : extent < 2 ^ 32) (hs : Sendable m extent v) (hc : CarriesValue m t v)
    (hr : Udp.IsReceived t extent out) : (∃ now, out.header = t.header.setTimestamp now) ∧ ReadsAs m v out := by
  obtain ⟨now, rfl⟩ := hr
  obtain ⟨e1, w, c, e2, e3⟩ := value_read hext hs hc []
  refine ⟨⟨now, rfl⟩, w, c, ?_, e3⟩
  simp only [List.append_nil, List.take_nil] at e1 e2
  show m.deserialize (ReadCursor.new (t.payload.take extent)) = _
  rw [e1]
  exact e2

/-- A stream of transfers of one session that carry values, in order of their IDs. -/
theorem udp_session {σ E' α : Type} {m : Message} {env : Udp.Env σ E'} {mtu mtu' : Nat} (hm : 28 ≤ mtu) (hmtu : mtu ≤ mtu') {port : BitVec 16} {key : Key} {items : List Shipment} {values : List α}
    {value : α → Val} {sub : Subscription} (hext : sub.payloadSizeMax < 2 ^ 32) (hvalues : ∀ x ∈ values, Sendable m sub.payloadSizeMax (value x))
    (hcar : List.Forall₂ (fun (it : Shipment) x => keyOf? it.transfer.header = some key ∧ CarriesValue m it.transfer (value x)) items values)
    (hinc : Udp.Increasing items) (hships : ∀ it ∈ items, Ships env mtu port it) (hfit : ∀ it ∈ items, TailFits mtu it.transfer) (hno : ∀ it ∈ items, it.NoCollision)
    {r r' : Receiver} (hsub : r.subscriptions.find key.kind key.port = some sub) (hnew : sub.sessions key.source = none)
    {ps : List Packet} (hps : packetsIn mtu' key ps = items.flatMap (·.arrived)) {out : List UdpTransfer} (hrun : r.run mtu' ps = some (r', out)) :
    ∃ returned : List (Shipment × α), returned.Sublist (items.zip values) ∧ (∀ p ∈ returned, p.1.whole = true) ∧ (certain true items).Sublist (returned.map Prod.fst) ∧
      List.Forall₂ (fun p o => (∃ now, o.header = p.1.transfer.header.setTimestamp now) ∧ ReadsAs m (value p.2) o) returned (Udp.transfersOf key out) := by
  have hsound : ∀ it ∈ items, it.Sound mtu key := by
    intro it hit
    obtain ⟨x, hx, hk, hc⟩ := forall₂_mem hcar hit
    exact ships_sound hm (hships it hit) hk (by have := value_length hext (hvalues x hx) hc; omega) (hfit it hit)
  obtain ⟨returned, h1, h2, h3⟩ := C114_stream_partial hm hmtu hsub (Or.inl hnew) hps hsound hno hinc hrun
  obtain ⟨pairs, h4, rfl⟩ := zip_sublist (h2.trans List.filter_sublist) hcar.length_eq
  refine ⟨pairs, h4, fun p hp => (List.mem_filter.1 (h2.subset (List.mem_map_of_mem hp))).2, h1, ?_⟩
  have hp : ∀ p ∈ pairs, Sendable m sub.payloadSizeMax (value p.2) ∧ CarriesValue m p.1.transfer (value p.2) := fun p hp =>
    ⟨hvalues _ (List.of_mem_zip (h4.subset hp)).2, (forall₂_zip hcar p (h4.subset hp)).2⟩
  clear h1 h2 h4
  revert h3
  generalize Udp.transfersOf key out = l
  intro h3
  induction pairs generalizing l with
  | nil => cases h3; exact .nil
  | cons p pairs ih =>
    rw [List.map_cons] at h3
    cases h3 with
    | cons g gs =>
      obtain ⟨k1, k2⟩ := hp p List.mem_cons_self
      exact .cons (udp_reads hext k1 k2 g) (ih (fun x hx => hp x (List.mem_cons_of_mem _ hx)) _ gs)

/-- **C127 (partial).** A client with a node ID sends at most 2^64 requests with values of a type to a server, among other things that it does; each is sent in datagrams over a socket that may
fail, and any of the datagrams may be lost or be too late. The server, which is subscribed to the requests, answers some of those that it has received, each at most once and in the order of the
requests, among other things that it does; its answers are sent in the same way. To both anything else may be sent, but not requests of this client to other nodes or answers of this server to
other nodes (the receiver does not look at the destination, C35; they go to other multicast groups).

Then the server gets only requests of which all datagrams arrived, each once, in order, and reads equal values; at least those that are certain in the sense of C114. The client gets only answers
of which all datagrams arrived, each once, in order, with the transfer ID of its request, and reads equal values; at least those that are certain.

Missing from the full claim: all requests and answers of which all datagrams arrived (C114); the types and values that C67 and C68 exclude (`Sendable`); lengths at which the CRC is split
(`TailFits`, C34); answers in another order (`C127_order_counterexample`). -/
theorem C127_call_partial {Trk Trk' E σ E' σ' E'' : Type} {service : ServiceId} {client server : NodeId16} {q s : Message}
    -- the client sends requests
    {tops : TrackerOps NodeId16 Tid64 Trk} {view : Trk → (NodeId16 → Nat) → Prop} (hcounts : Counts tid64 tops view)
    (n : CoreNode NodeId16 Tid64 Trk) (hid : n.nodeId = some client) {env : Env E} {timeout : Duration} {extent : Nat} {priority : Priority}
    (hstart : (n.startSendingRequests tops env service timeout extent priority).answer = .token) {history : List (Node.Op NodeId16 Tid64 E)} {values : List Val}
    (hreq : Requests q service server history values) (hcount : values.length ≤ 2 ^ 64)
    -- the network carries them to the server
    (net : Udp.Env σ E') {mtu mtu' : Nat} (hm : 28 ≤ mtu) (hmtu : mtu ≤ mtu') {port : BitVec 16} {items : List Shipment}
    (hitems : items.map (·.transfer) = requestsTo service server (handedOver ((n.startSendingRequests tops env service timeout extent priority).node.run tid64 tops history).1))
    (hships : ∀ it ∈ items, Ships net mtu port it) (hfit : ∀ it ∈ items, TailFits mtu it.transfer) (hno : ∀ it ∈ items, it.NoCollision)
    -- the server receives
    {r r' : Receiver} {sub : Subscription} (hsub : r.subscriptions.find .request service.toNat = some sub) (hnew : sub.sessions client = none)
    (hext : sub.payloadSizeMax < 2 ^ 32) (hvalues : ∀ x ∈ values, Sendable q sub.payloadSizeMax x)
    {ps : List Packet} (hps : packetsIn mtu' ⟨.request, service.toNat, client⟩ ps = items.flatMap (·.arrived)) {out : List UdpTransfer} (hrun : r.run mtu' ps = some (r', out))
    -- the server answers
    (n' : CoreNode NodeId16 Tid64 Trk') (hid' : n'.nodeId = some server) (tops' : TrackerOps NodeId16 Tid64 Trk') {history' : List (Node.Op NodeId16 Tid64 E)}
    {replies : List (ResponseToken NodeId16 Tid64 × Val)} (hresp : Responds s service client history' replies)
    {answered : List UdpTransfer} (hanswered : answered.Sublist (Udp.transfersOf ⟨.request, service.toNat, client⟩ out)) (htok : List.Forall₂ (fun t p => TokenFor t p.1) answered replies)
    -- the network carries the answers to the client
    (net' : Udp.Env σ' E'') {mtu₁ mtu₁' : Nat} (hm₁ : 28 ≤ mtu₁) (hmtu₁ : mtu₁ ≤ mtu₁') {port' : BitVec 16} {items' : List Shipment}
    (hitems' : items'.map (·.transfer) = responsesTo service client (handedOver (n'.run tid64 tops' history').1))
    (hships' : ∀ it ∈ items', Ships net' mtu₁ port' it) (hfit' : ∀ it ∈ items', TailFits mtu₁ it.transfer) (hno' : ∀ it ∈ items', it.NoCollision)
    -- the client receives
    {k k' : Receiver} {sub' : Subscription} (hsub' : k.subscriptions.find .response service.toNat = some sub') (hnew' : sub'.sessions server = none)
    (hext' : sub'.payloadSizeMax < 2 ^ 32) (hvalues' : ∀ p ∈ replies, Sendable s sub'.payloadSizeMax p.2)
    {ps' : List Packet} (hps' : packetsIn mtu₁' ⟨.response, service.toNat, server⟩ ps' = items'.flatMap (·.arrived)) {out' : List UdpTransfer} (hrun' : k.run mtu₁' ps' = some (k', out')) :
    -- what the server gets
    (∃ accepted, List.Sublist accepted values ∧ items.length = accepted.length ∧
      ∃ returned : List (Shipment × Val), returned.Sublist (items.zip accepted) ∧ (∀ p ∈ returned, p.1.whole = true) ∧ (certain true items).Sublist (returned.map Prod.fst) ∧
        List.Forall₂ (fun p o => (∃ now, o.header = p.1.transfer.header.setTimestamp now) ∧ ReadsAs q p.2 o) returned (Udp.transfersOf ⟨.request, service.toNat, client⟩ out)) ∧
    -- what the client gets
    (items'.length = replies.length ∧
      ∃ returned : List (Shipment × (ResponseToken NodeId16 Tid64 × Val)), returned.Sublist (items'.zip replies) ∧ (∀ p ∈ returned, p.1.whole = true) ∧
        (certain true items').Sublist (returned.map Prod.fst) ∧
        List.Forall₂ (fun p o => (∃ now, o.header = .response ⟨now, p.2.1.transfer, p.2.1.priority, service, server, client⟩) ∧ ReadsAs s p.2.2 o) returned
          (Udp.transfersOf ⟨.response, service.toNat, server⟩ out')) := by
  -- requests
  have hnode : (n.startSendingRequests tops env service timeout extent priority).node.nodeId = some client := by
    rw [← hid]
    unfold CoreNode.startSendingRequests
    repeat' split
    all_goals simp_all
  obtain ⟨accepted, hall1, -, hcar⟩ := run_requests hcounts hext hreq hvalues _ _ _ (start_requester hstart) hcounts.start hnode
  obtain ⟨r1, c1, -, -, -, -, hids⟩ := run_requester hcounts service history _ _ _ (start_requester hstart) hcounts.start (requests_no_stop hreq)
  have hids := (hids server).1
  rw [requestsTo_ids] at hids
  rw [← hitems] at hids hcar
  have hlen := congrArg List.length hids
  have hlen' := hcar.length_eq
  simp only [List.length_map, List.length_range] at hlen hlen'
  have hle := hall1.length_le
  have hinc : Udp.Increasing items := by
    have := ids_increase (ts := items.map (·.transfer)) (k := c1 server - 0) (by omega) (by rw [hids]; simp)
    rw [List.pairwise_map] at this
    exact this
  rw [List.forall₂_map_left_iff] at hcar
  obtain ⟨returned, h1, h2, h3, h4⟩ := udp_session (value := id) (key := ⟨.request, service.toNat, client⟩) hm hmtu hext (fun x hx => hvalues x (hall1.subset hx))
    (hcar.imp fun it v h => by
      obtain ⟨⟨now, id, hh⟩, hc⟩ := h
      exact ⟨by rw [hh]; rfl, hc⟩) hinc hships hfit hno hsub hnew hps hrun
  refine ⟨⟨accepted, hall1, hcar.length_eq, returned, h1, h2, h3, h4⟩, ?_⟩
  -- responses
  have hrcar := run_responds (ops := tid64) (tops := tops') hext' hresp hvalues' n' hid'
  rw [← hitems', List.forall₂_map_left_iff] at hrcar
  have hreceived : (Udp.transfersOf ⟨.request, service.toNat, client⟩ out).Pairwise fun a b => a.header.transferId < b.header.transferId := by
    have g1 : (returned.map fun p => p.1.transfer.header.transferId).Pairwise (· < ·) := by
      have : ((items.zip accepted).map Prod.fst).Pairwise fun a b => a.transfer.header.transferId < b.transfer.header.transferId := by
        rw [List.map_fst_zip (by rw [hcar.length_eq])]
        exact hinc
      have := this.sublist (h1.map Prod.fst)
      rw [List.pairwise_map] at this ⊢
      exact this
    have e : (Udp.transfersOf ⟨.request, service.toNat, client⟩ out).map (fun t => t.header.transferId) = returned.map fun p => p.1.transfer.header.transferId := by
      clear g1 h1 h2 h3 hanswered
      revert h4
      generalize Udp.transfersOf ⟨.request, service.toNat, client⟩ out = l
      intro h4
      induction h4 with
      | nil => rfl
      | @cons p o ps os h _ ih =>
        obtain ⟨⟨now, hh⟩, -⟩ := h
        rw [List.map_cons, List.map_cons, ih, hh]
        congr 1
        cases p.1.transfer.header <;> rfl
    rw [← List.pairwise_map (f := fun t : UdpTransfer => t.header.transferId) (R := (· < ·)), e]
    exact g1
  have htids : replies.Pairwise fun a b => a.1.transfer < b.1.transfer := by
    have h1 := hreceived.sublist hanswered
    clear hrcar hvalues' hresp hanswered
    induction htok with
    | nil => exact .nil
    | @cons a p as ps h hrest ih =>
      obtain ⟨h2, h3⟩ := List.pairwise_cons.1 h1
      refine List.pairwise_cons.2 ⟨fun x hx => ?_, ih h3⟩
      obtain ⟨b, hb, ⟨y, hy1, hy2⟩⟩ := forall₂_mem' hrest hx
      obtain ⟨z, hz1, hz2⟩ := h
      have := h2 b hb
      rw [hz1, hy1] at this
      rw [hz2, hy2]
      exact this
  have hinc' : Udp.Increasing items' := by
    clear hitems' hships' hfit' hno' hps' hresp htok hvalues'
    induction hrcar with
    | nil => exact .nil
    | @cons a p as ps h hrest ih =>
      obtain ⟨h2, h3⟩ := List.pairwise_cons.1 htids
      refine List.pairwise_cons.2 ⟨fun x hx => ?_, ih h3⟩
      obtain ⟨b, hb, ⟨now, hh⟩, -⟩ := forall₂_mem hrest hx
      obtain ⟨⟨now', hh'⟩, -⟩ := h
      rw [hh, hh']
      exact h2 b hb
  obtain ⟨returned', g1, g2, g3, g4⟩ := udp_session (value := Prod.snd) (key := ⟨.response, service.toNat, server⟩) hm₁ hmtu₁ hext' hvalues'
    (hrcar.imp fun it p h => by
      obtain ⟨⟨now, hh⟩, hc⟩ := h
      exact ⟨by rw [hh]; rfl, hc⟩) hinc' hships' hfit' hno' hsub' hnew' hps' hrun'
  refine ⟨hrcar.length_eq, returned', g1, g2, g3, ?_⟩
  have hhead : ∀ p ∈ returned', ∃ now, p.1.transfer.header = .response ⟨now, p.2.1.transfer, p.2.1.priority, service, server, client⟩ := fun p hp => (forall₂_zip hrcar p (g1.subset hp)).1
  clear g1 g2 g3
  revert g4
  generalize Udp.transfersOf ⟨.response, service.toNat, server⟩ out' = l
  intro g4
  induction g4 with
  | nil => exact .nil
  | @cons p o ps os h _ ih =>
    refine .cons ?_ (ih fun x hx => hhead x (List.mem_cons_of_mem _ hx))
    obtain ⟨⟨now, hh⟩, hr⟩ := h
    obtain ⟨now', hh'⟩ := hhead p List.mem_cons_self
    exact ⟨⟨now, by rw [hh, hh']; rfl⟩, hr⟩

/-! ### A case: three requests in two datagrams each, of which the server answers the first and the third -/

/-- The requests of the client of C126 to node 5. -/
def udpCallItems (which : List (List Nat)) : List Shipment := List.zipWith udpShipment (requestsTo 430 (node 5#16) serialCallsHanded) which

/-- The receivers of the server and of the client. -/
def udpCallServer : Receiver := ((Receiver.new (some (node 5#16))).subscribeService false (fun _ => false) .request 430 30 2000000#32).1
def udpCallClient : Receiver := ((Receiver.new (some (node 9#16))).subscribeService false (fun _ => false) .response 430 30 2000000#32).1

/-- What the server receives. -/
def udpCallsReceived (which : List (List Nat)) : List UdpTransfer := ((udpCallServer.run 1500 ((udpCallItems which).flatMap (·.arrived))).map (·.2)).getD []

/-- The answers of the server of C126, all of which arrive. -/
def udpAnswerItems (ts : List UdpTransfer) : List Shipment := (responsesTo 430 (node 9#16) (serialAnswersHanded ts)).map fun t => udpShipment t [0, 1]

/-- What the client receives. -/
def udpAnswersReceived (ts : List UdpTransfer) : List UdpTransfer := ((udpCallClient.run 1500 ((udpAnswerItems ts).flatMap (·.arrived))).map (·.2)).getD []

theorem udpCallItems_ships (a b c : List Nat) : ∀ it ∈ udpCallItems [a, b, c], Ships udpSocket 48 9382 it ∧ TailFits 48 it.transfer := by
  have e : requestsTo 430 (node 5#16) serialCallsHanded = [(requestsTo 430 (node 5#16) serialCallsHanded)[0]'(by decide +kernel), (requestsTo 430 (node 5#16) serialCallsHanded)[1]'(by decide +kernel),
      (requestsTo 430 (node 5#16) serialCallsHanded)[2]'(by decide +kernel)] := by
    decide +kernel
  intro it hit
  unfold udpCallItems at hit
  rw [e] at hit
  simp only [List.zipWith_cons_cons, List.zipWith_nil_right, List.mem_cons, List.not_mem_nil, or_false] at hit
  rcases hit with rfl | rfl | rfl <;> exact ⟨udpShipment_ships (by decide +kernel), by unfold TailFits; simp only [udpShipment]; decide +kernel⟩

example : (udpCallItems [[0, 1], [0, 1], [0, 1]]).map (·.transfer) = requestsTo 430 (node 5#16) serialCallsHanded ∧
    (∀ it ∈ udpCallItems [[0, 1], [0, 1], [0, 1]], it.NoCollision) ∧
    (udpCallServer.subscriptions.find .request 430).map (fun sub => (sub.payloadSizeMax, (sub.sessions (node 9#16)).isSome)) = some (30, false) ∧
    packetsIn 1500 ⟨.request, 430, node 9#16⟩ ((udpCallItems [[0, 1], [0, 1], [0, 1]]).flatMap (·.arrived)) = (udpCallItems [[0, 1], [0, 1], [0, 1]]).flatMap (·.arrived) ∧
    (udpCallsReceived [[0, 1], [0, 1], [0, 1]]).map (fun t => (t.header.transferId, t.payload.length)) = [(0, 28), (1, 28), (2, 28)] ∧
    (udpCallsReceived [[0, 1], [], [0, 1]]).map (fun t => (t.header.transferId, t.payload.length)) = [(0, 28), (2, 28)] := by
  refine ⟨by decide +kernel, fun it hit => noCollision_of_test ?_, by decide +kernel, by decide +kernel, by decide +kernel, by decide +kernel⟩
  revert it
  decide +kernel

example : (udpAnswersReceived (udpCallsReceived [[0, 1], [], [0, 1]])).map (fun t => (t.header.transferId, t.payload.length)) = [(0, 28), (2, 28)] := by decide +kernel

/-- **C127, violated.** The server answers the last request first. All datagrams of all answers arrive, but the client gets only that answer. -/
theorem C127_order_counterexample : (udpCallsReceived [[0, 1], [0, 1], [0, 1]]).map (fun t => t.header.transferId) = [0, 1, 2] ∧
    (udpAnswerItems (udpCallsReceived [[0, 1], [0, 1], [0, 1]]).reverse).map (fun it => (it.transfer.header.transferId, it.whole)) = [(2, true), (1, true), (0, true)] ∧
    (udpAnswersReceived (udpCallsReceived [[0, 1], [0, 1], [0, 1]]).reverse).map (fun t => t.header.transferId) = [2] := by
  refine ⟨by decide +kernel, by decide +kernel, by decide +kernel⟩

end Verif.End
