import Verif.End.CallProps
import Verif.End.SerialProps

/-!
C126: from `send_request` at a client to `deserialize` at the server, and from `send_response` there to `deserialize` at the client, over a serial link.
-/

namespace Verif.End

open Verif.Node Verif.Dsdl Verif.Enc Verif.Serial
open Verif.Cobs (ZeroAfterFullRun)
open Verif.Hdr (NodeId16 Tid64)

/-- What the receiver returns of one session, if it accepts the `wanted` transfers of it and these have increasing IDs. -/
theorem session_over_link {σ E' : Type} (d : TxDriver σ E') {qops : List TxOp} {capacity : Nat} {state state' : σ} {queue : Queue} {pushed : List SerialTransfer} {sent : List Byte}
    (htx : txExec d qops (state, ⟨capacity, []⟩) = some ((state', queue), pushed, sent)) (hz : ∀ t ∈ pushed, ¬ ZeroAfterFullRun (frameData t))
    {r r' : Receiver} (hs : r.Between) {ops : List Serial.Op} (hquiet : Quiet ops) {underway : List Byte} (hops : bytesOf ops ++ underway = sent) {outs : List SerialTransfer}
    (he : r.exec ops = some (r', outs)) {kind : Kind} {port : Nat} {source : NodeId16} {sub : Subscription} (hsub : r.subscriptions.find kind port = some sub) (hnew : sub.sessions source = none)
    {wanted : SerialTransfer → Bool} (hkey : ∀ t ∈ pushesOf qops, wanted t = true → sessionOf t = (kind, port, some source))
    (hacc : ∀ t ∈ pushesOf qops, sessionOf t = (kind, port, some source) → r.accepts t.header = if wanted t then some sub.payloadSizeMax else none)
    (hinc : ((pushesOf qops).filter wanted).Pairwise fun a b => a.header.transferId < b.header.transferId) :
    ∃ k, List.Forall₂ (fun t out => IsReceived t sub.payloadSizeMax out) ((pushed.filter wanted).take k) (ofSessions (fun key => key == (kind, port, some source)) outs) ∧
      (underway = [] → queue.bytes = [] → (pushed.filter wanted).length ≤ k) := by
  have hsl := pushed_sublist d htx
  have haccepted : r.accepted (ofSessions (fun key => key == (kind, port, some source)) pushed) = (pushed.filter wanted).map fun t => (t, sub.payloadSizeMax) := by
    unfold Receiver.accepted ofSessions
    have : ∀ l : List SerialTransfer, (∀ t ∈ l, t ∈ pushesOf qops) → (l.filter fun t => sessionOf t == (kind, port, some source)).filterMap
        (fun t => (r.accepts t.header).map fun extent => (t, extent)) = (l.filter wanted).map fun t => (t, sub.payloadSizeMax) := by
      intro l hl
      induction l with
      | nil => rfl
      | cons t l ih =>
        have ih := ih fun x hx => hl x (List.mem_cons_of_mem _ hx)
        have ht := hl t List.mem_cons_self
        by_cases hk : sessionOf t = (kind, port, some source)
        · rw [List.filter_cons, if_pos (by simp [hk]), List.filterMap_cons, hacc t ht hk]
          cases hw : wanted t with
          | true => simpa [hw] using ih
          | false => simpa [hw] using ih
        · have hw : wanted t = false := by
            cases h : wanted t with
            | true => exact absurd (hkey t ht h) hk
            | false => rfl
          rw [List.filter_cons, if_neg (by simp [hk]), ih, List.filter_cons, if_neg (by simp [hw])]
    exact this pushed fun t ht => hsl.subset ht
  have hin : ∀ t ∈ ofSessions (fun key => key == (kind, port, some source)) pushed, t ∈ pushesOf qops ∧ sessionOf t = (kind, port, some source) := by
    intro t ht
    obtain ⟨h1, h2⟩ := List.mem_filter.1 ht
    exact ⟨hsl.subset h1, by simpa using h2⟩
  have hwanted : ∀ t ∈ ofSessions (fun key => key == (kind, port, some source)) pushed, r.accepts t.header ≠ none → wanted t = true := by
    intro t ht ha
    obtain ⟨h1, h2⟩ := hin t ht
    rw [hacc t h1 h2] at ha
    cases hw : wanted t with
    | true => rfl
    | false => rw [hw] at ha; exact absurd rfl ha
  have hinc' : r.Increasing (ofSessions (fun key => key == (kind, port, some source)) pushed) := by
    have h1 : (pushesOf qops).Pairwise fun a b => wanted a = true → wanted b = true → a.header.transferId < b.header.transferId := by
      rw [List.pairwise_filter] at hinc
      exact hinc.imp fun h ha hb => h ha hb
    have h2 := h1.sublist (List.Sublist.trans (List.filter_sublist (p := fun t => sessionOf t == (kind, port, some source))) hsl)
    exact h2.imp_of_mem fun ha hb h a b _ _ => h (hwanted _ ha a) (hwanted _ hb b)
  have hfresh : ∀ t ∈ ofSessions (fun key => key == (kind, port, some source)) pushed, r.accepts t.header ≠ none → Fresh r t := by
    intro t ht _ sub' src session h1 h2 h3
    obtain ⟨-, hk⟩ := hin t ht
    simp only [sessionOf, Prod.mk.injEq] at hk
    rw [hk.1, hk.2.1, hsub] at h1
    cases h1
    rw [hk.2.2] at h2
    cases h2
    rw [hnew] at h3
    cases h3
  obtain ⟨s1, q1, ts1, sent1, x1, -, x3⟩ := C32_stream_in_order d qops state ⟨capacity, []⟩ (Nat.zero_le _)
  rw [htx] at x1
  simp only [Option.some.injEq, Prod.mk.injEq] at x1
  obtain ⟨⟨rfl, rfl⟩, rfl, rfl⟩ := x1
  rw [List.nil_append, ← hops, List.append_assoc] at x3
  have fst : ∀ {k : Nat} {l : List SerialTransfer}, List.Forall₂ (fun p out => IsReceived p.1 p.2 out) (((pushed.filter wanted).map fun t => (t, sub.payloadSizeMax)).take k) l →
      List.Forall₂ (fun t out => IsReceived t sub.payloadSizeMax out) ((pushed.filter wanted).take k) l := by
    intro k l h
    rw [← List.map_take, List.forall₂_map_left_iff] at h
    exact h
  by_cases hall : underway ++ queue.bytes = []
  · rw [hall, List.append_nil] at x3
    obtain ⟨r2, outs2, -, e1, e2⟩ := C102_serial_stream_partial (fun key => key == (kind, port, some source)) hs hquiet x3 hz hinc' hfresh
    rw [he] at e1
    cases e1
    rw [haccepted] at e2
    refine ⟨(pushed.filter wanted).length, fst ?_, fun _ _ => Nat.le_refl _⟩
    rwa [List.take_of_length_le (by simp)]
  · obtain ⟨r2, outs2, k, e1, e2⟩ := C102_serial_prefix_partial (fun key => key == (kind, port, some source)) hs hquiet x3 hz hinc' hfresh
    rw [he] at e1
    cases e1
    rw [haccepted] at e2
    exact ⟨k, fst e2, fun h1 h2 => absurd (by rw [h1, h2]; rfl) hall⟩

/-- What is received can be read. -/
theorem received_reads {m : Message} {v : Val} {t out : SerialTransfer} {extent : Nat} (hext : extent < 2 ^ 32) (hs : Sendable m extent v) (hc : CarriesValue m t v)
    (hr : IsReceived t extent out) : (∃ now, out.header = t.header.setTimestamp now) ∧ ReadsAs m v out := by
  obtain ⟨now, rfl⟩ := hr
  obtain ⟨e1, w, c, e2, e3⟩ := value_read hext hs hc []
  refine ⟨⟨now, rfl⟩, w, c, ?_, e3⟩
  simp only [List.append_nil, List.take_nil] at e1 e2
  show m.deserialize (ReadCursor.new (t.payload.take extent)) = _
  rw [e1]
  exact e2

theorem forall₂_zip_take {α β γ : Type} {R : α → β → Prop} {S : α → γ → Prop} {T : α × β → γ → Prop} (h : ∀ a b c, R a b → S a c → b = b → T (a, b) c) :
    ∀ {as : List α} {bs : List β} {cs : List γ} (k : Nat), List.Forall₂ R as bs → List.Forall₂ S (as.take k) cs → List.Forall₂ T ((as.zip bs).take k) cs
  | _, _, _, 0, _, h2 => by rw [List.take_zero] at h2 ⊢; cases h2; exact .nil
  | _, _, _, k + 1, .nil, h2 => by cases h2; exact .nil
  | a :: as, b :: bs, _, k + 1, .cons h1 h1s, h2 => by
    rw [List.take_succ_cons] at h2
    cases h2 with
    | cons h2 h2s => exact .cons (h a b _ h1 h2 rfl) (forall₂_zip_take h k h1s h2s)

/-- The requests of the client to the server as the list filter of `requestsTo`. -/
def isRequestTo (service : ServiceId) (server : NodeId16) (t : SerialTransfer) : Bool :=
  match t.header with
  | .request h => decide (h.service = service ∧ h.destination = server)
  | _ => false

def isResponseTo (service : ServiceId) (client : NodeId16) (t : SerialTransfer) : Bool :=
  match t.header with
  | .response h => decide (h.service = service ∧ h.destination = client)
  | _ => false

theorem requestsTo_eq (service : ServiceId) (server : NodeId16) (ts : List SerialTransfer) : requestsTo service server ts = ts.filter (isRequestTo service server) := by
  unfold requestsTo
  refine List.filter_congr fun t _ => ?_
  unfold isRequestTo
  cases t.header <;> rfl

theorem responsesTo_eq (service : ServiceId) (client : NodeId16) (ts : List SerialTransfer) : responsesTo service client ts = ts.filter (isResponseTo service client) := by
  unfold responsesTo
  refine List.filter_congr fun t _ => ?_
  unfold isResponseTo
  cases t.header <;> rfl

/-- **C126 (partial).** A client with a node ID sends at most 2^64 requests with values of a type to a server, among other things that it does; what it sends goes through its transmit queue,
which has no room for some of it, and over a serial link to the server, which is subscribed to the requests. The server answers some of the requests that it has received, each at most once and
in the order of the requests, among other things that it does; its answers go through its own queue and link to the client.

Then the server gets exactly the requests that got into the queue of the client, as far as the bytes have arrived, in order and as equal values; and the client gets exactly the answers that
got into the queue of the server, as far as the bytes have arrived, in order, with the transfer ID of the request, and as equal values.

Missing from the full claim: the types and values that C67 and C68 exclude (`Sendable`), frame data with a zero after a full run of non-zero bytes (C28), and answers in another order
(`C126_order_counterexample`). -/
theorem C126_call_partial {Trk Trk' E σ E' σ' E'' : Type} {service : ServiceId} {client server : NodeId16} {q s : Message}
    -- the client sends requests
    {tops : TrackerOps NodeId16 Tid64 Trk} {view : Trk → (NodeId16 → Nat) → Prop} (hcounts : Counts tid64 tops view)
    (n : CoreNode NodeId16 Tid64 Trk) (hid : n.nodeId = some client) {env : Env E} {timeout : Duration} {extent : Nat} {priority : Priority}
    (hstart : (n.startSendingRequests tops env service timeout extent priority).answer = .token) {history : List (Node.Op NodeId16 Tid64 E)} {values : List Val}
    (hreq : Requests q service server history values) (hcount : values.length ≤ 2 ^ 64)
    -- its queue and the link to the server
    (d : TxDriver σ E') {qops : List TxOp} (hq : pushesOf qops = handedOver ((n.startSendingRequests tops env service timeout extent priority).node.run tid64 tops history).1)
    {capacity : Nat} {state state' : σ} {queue : Queue} {pushed : List SerialTransfer} {sent : List Byte}
    (htx : txExec d qops (state, ⟨capacity, []⟩) = some ((state', queue), pushed, sent)) (hz : ∀ t ∈ pushed, ¬ ZeroAfterFullRun (frameData t))
    -- the server receives
    {r r' : Receiver} (hs : r.Between) (hrid : r.nodeId = some server) {sub : Subscription} (hsub : r.subscriptions.find .request service.toNat = some sub)
    (hnew : sub.sessions client = none) (hext : sub.payloadSizeMax < 2 ^ 32) (hvalues : ∀ x ∈ values, Sendable q sub.payloadSizeMax x)
    {ops : List Serial.Op} (hquiet : Quiet ops) {underway : List Byte} (hops : bytesOf ops ++ underway = sent) {outs : List SerialTransfer} (he : r.exec ops = some (r', outs))
    -- the server answers
    (n' : CoreNode NodeId16 Tid64 Trk') (hid' : n'.nodeId = some server) (tops' : TrackerOps NodeId16 Tid64 Trk') {history' : List (Node.Op NodeId16 Tid64 E)}
    {replies : List (ResponseToken NodeId16 Tid64 × Val)} (hresp : Responds s service client history' replies)
    {answered : List SerialTransfer} (hanswered : answered.Sublist (ofSessions (fun key => key == (.request, service.toNat, some client)) outs))
    (htok : List.Forall₂ (fun t p => TokenFor t p.1) answered replies)
    -- its queue and the link to the client
    (d' : TxDriver σ' E'') {qops' : List TxOp} (hq' : pushesOf qops' = handedOver (n'.run tid64 tops' history').1)
    {capacity' : Nat} {state₁ state₁' : σ'} {queue' : Queue} {pushed' : List SerialTransfer} {sent' : List Byte}
    (htx' : txExec d' qops' (state₁, ⟨capacity', []⟩) = some ((state₁', queue'), pushed', sent')) (hz' : ∀ t ∈ pushed', ¬ ZeroAfterFullRun (frameData t))
    -- the client receives
    {k k' : Receiver} (hs' : k.Between) (hkid : k.nodeId = some client) {sub' : Subscription} (hsub' : k.subscriptions.find .response service.toNat = some sub')
    (hnew' : sub'.sessions server = none) (hext' : sub'.payloadSizeMax < 2 ^ 32) (hvalues' : ∀ p ∈ replies, Sendable s sub'.payloadSizeMax p.2)
    {ops' : List Serial.Op} (hquiet' : Quiet ops') {underway' : List Byte} (hops' : bytesOf ops' ++ underway' = sent') {outs' : List SerialTransfer} (he' : k.exec ops' = some (k', outs')) :
    -- what the server gets
    (∃ accepted i, List.Sublist accepted values ∧
      List.Forall₂ (fun t v => (∃ now id, t.header = .request ⟨now, id, priority, service, client, server⟩) ∧ CarriesValue q t v) (requestsTo service server pushed) accepted ∧
      List.Forall₂ (fun p out => (∃ now, out.header = p.1.header.setTimestamp now) ∧ ReadsAs q p.2 out) (((requestsTo service server pushed).zip accepted).take i)
        (ofSessions (fun key => key == (.request, service.toNat, some client)) outs) ∧
      (underway = [] → queue.bytes = [] → accepted.length ≤ i)) ∧
    -- what the client gets
    (∃ accepted i, List.Sublist accepted replies ∧
      List.Forall₂ (fun t p => (∃ now, t.header = .response ⟨now, p.1.transfer, p.1.priority, service, server, client⟩) ∧ CarriesValue s t p.2) (responsesTo service client pushed') accepted ∧
      List.Forall₂ (fun p out => (∃ now, out.header = .response ⟨now, p.1.transfer, p.1.priority, service, server, client⟩) ∧ ReadsAs s p.2 out) (accepted.take i)
        (ofSessions (fun key => key == (.response, service.toNat, some server)) outs') ∧
      (underway' = [] → queue'.bytes = [] → accepted.length ≤ i)) := by
  -- requests
  have hnode : (n.startSendingRequests tops env service timeout extent priority).node.nodeId = some client := by
    rw [← hid]
    unfold CoreNode.startSendingRequests
    repeat' split
    all_goals simp_all
  obtain ⟨all, hall1, -, hcar⟩ := run_requests hcounts hext hreq hvalues _ _ _ (start_requester hstart) hcounts.start hnode
  obtain ⟨r1, c1, -, -, -, -, hids⟩ := run_requester hcounts service history _ _ _ (start_requester hstart) hcounts.start (requests_no_stop hreq)
  have hids := (hids server).1
  rw [requestsTo_ids] at hids
  rw [← hq] at hids hcar
  have hlen := congrArg List.length hids
  rw [List.length_map, List.length_map, List.length_range, hcar.length_eq] at hlen
  have hle := hall1.length_le
  have hinc : ((pushesOf qops).filter (isRequestTo service server)).Pairwise fun a b => a.header.transferId < b.header.transferId :=
    ids_increase (k := c1 server - 0) (by omega) (by rw [← requestsTo_eq, hids]; simp)
  have hhead : ∀ t ∈ pushesOf qops, isRequestTo service server t = true → ∃ now id, t.header = .request ⟨now, id, priority, service, client, server⟩ := by
    intro t ht hw
    obtain ⟨v, ⟨h, -⟩⟩ := forall₂_left hcar t (by rw [requestsTo_eq]; exact List.mem_filter.2 ⟨ht, hw⟩)
    exact h
  have hsubl : (requestsTo service server pushed).Sublist (requestsTo service server (pushesOf qops)) := (pushed_sublist d htx).filter _
  obtain ⟨accepted, ha, hcar'⟩ := forall₂_sublist hsubl hcar
  obtain ⟨i, hi1, hi2⟩ := session_over_link d htx hz hs hquiet hops he hsub hnew (wanted := isRequestTo service server)
    (fun t ht hw => by
      obtain ⟨now, id, h⟩ := hhead t ht hw
      simp [sessionOf, h, Header.kind, Header.port, Header.source])
    (fun t ht hk => by
      simp only [sessionOf, Prod.mk.injEq] at hk
      unfold Receiver.accepts
      rw [hk.1, hk.2.1, hsub]
      unfold isRequestTo
      cases hh : t.header with
      | message h => rw [hh] at hk; cases hk.1
      | response h => rw [hh] at hk; cases hk.1
      | request h =>
        have hservice : h.service = service := by
          have := hk.2.1
          rw [hh] at this
          exact BitVec.eq_of_toNat_eq this
        simp only [Header.destination, hrid, hservice, true_and, Option.some.injEq, decide_eq_true_eq]
        by_cases hd : h.destination = server
        · simp [hd]
        · rw [if_neg hd, if_neg fun e => hd e.symm]) hinc
  have hav : ∀ v ∈ accepted, Sendable q sub.payloadSizeMax v := fun v hv => hvalues v (hall1.subset (ha.subset hv))
  refine ⟨⟨accepted, i, ha.trans hall1, hcar', ?_, fun h1 h2 => by rw [← hcar'.length_eq, requestsTo_eq]; exact hi2 h1 h2⟩, ?_⟩
  · rw [← requestsTo_eq] at hi1
    have hboth : List.Forall₂ (fun t v => CarriesValue q t v ∧ Sendable q sub.payloadSizeMax v) (requestsTo service server pushed) accepted := by
      clear hi1 hi2 ha hsubl
      revert hav hcar'
      generalize requestsTo service server pushed = l
      intro hcar' hav
      induction hcar' with
      | nil => exact .nil
      | cons h _ ih => exact .cons ⟨h.2, hav _ List.mem_cons_self⟩ (ih fun v hv => hav v (List.mem_cons_of_mem _ hv))
    exact forall₂_zip_take (fun t v out h1 h2 _ => received_reads hext h1.2 h1.1 h2) i hboth hi1
  -- responses
  have hrcar := run_responds (ops := tid64) (tops := tops') hext' hresp hvalues' n' hid'
  rw [← hq'] at hrcar
  have hreceived : (ofSessions (fun key => key == (.request, service.toNat, some client)) outs).Pairwise fun a b => a.header.transferId < b.header.transferId := by
    have h1 : ((pushed.filter (isRequestTo service server)).take i).Pairwise fun a b => a.header.transferId < b.header.transferId :=
      hinc.sublist (List.Sublist.trans (List.take_sublist _ _) ((pushed_sublist d htx).filter _))
    revert h1 hi1
    generalize (pushed.filter (isRequestTo service server)).take i = l
    generalize ofSessions (fun key => key == (.request, service.toNat, some client)) outs = l'
    intro hi1 h1
    have e : l.map (fun t => t.header.transferId) = l'.map fun t => t.header.transferId := by
      clear h1
      induction hi1 with
      | nil => rfl
      | @cons a _ _ _ h _ ih =>
        obtain ⟨now, rfl⟩ := h
        rw [List.map_cons, List.map_cons, ih]
        congr 1
        cases hh : a.header <;> rfl
    rw [← List.pairwise_map (f := fun t : SerialTransfer => t.header.transferId) (R := (· < ·))] at h1 ⊢
    rwa [← e]
  have htids : replies.Pairwise fun a b => a.1.transfer < b.1.transfer := by
    have h1 := hreceived.sublist hanswered
    clear hrcar hvalues' hresp hanswered
    induction htok with
    | nil => exact .nil
    | @cons a p as ps h hrest ih =>
      obtain ⟨h2, h3⟩ := List.pairwise_cons.1 h1
      refine List.pairwise_cons.2 ⟨fun x hx => ?_, ih h3⟩
      obtain ⟨b, hb, ⟨y, hy1, hy2⟩⟩ := forall₂_mem' hrest hx
      obtain ⟨z, hz1, hz2⟩ := h
      have := h2 b hb
      rw [hz1, hy1] at this
      rw [hz2, hy2]
      exact this
  have hinc' : ((pushesOf qops').filter (isResponseTo service client)).Pairwise fun a b => a.header.transferId < b.header.transferId := by
    rw [← responsesTo_eq]
    clear hresp htok hvalues'
    revert hrcar
    generalize responsesTo service client (pushesOf qops') = l
    intro hrcar
    induction hrcar with
    | nil => exact .nil
    | @cons a p as ps h hrest ih =>
      obtain ⟨h2, h3⟩ := List.pairwise_cons.1 htids
      refine List.pairwise_cons.2 ⟨fun x hx => ?_, ih h3⟩
      obtain ⟨b, hb, ⟨now, hh⟩, -⟩ := forall₂_mem hrest hx
      obtain ⟨⟨now', hh'⟩, -⟩ := h
      rw [hh, hh']
      exact h2 b hb
  have hsubl' : (responsesTo service client pushed').Sublist (responsesTo service client (pushesOf qops')) := (pushed_sublist d' htx').filter _
  obtain ⟨accepted', ha', hcar''⟩ := forall₂_sublist hsubl' hrcar
  obtain ⟨j, hj1, hj2⟩ := session_over_link d' htx' hz' hs' hquiet' hops' he' hsub' hnew' (wanted := isResponseTo service client)
    (fun t ht hw => by
      obtain ⟨p, ⟨⟨now, h⟩, -⟩⟩ := forall₂_left hrcar t (by rw [responsesTo_eq]; exact List.mem_filter.2 ⟨ht, hw⟩)
      simp [sessionOf, h, Header.kind, Header.port, Header.source])
    (fun t ht hk => by
      simp only [sessionOf, Prod.mk.injEq] at hk
      unfold Receiver.accepts
      rw [hk.1, hk.2.1, hsub']
      unfold isResponseTo
      cases hh : t.header with
      | message h => rw [hh] at hk; cases hk.1
      | request h => rw [hh] at hk; cases hk.1
      | response h =>
        have hservice : h.service = service := by
          have := hk.2.1
          rw [hh] at this
          exact BitVec.eq_of_toNat_eq this
        simp only [Header.destination, hkid, hservice, true_and, Option.some.injEq, decide_eq_true_eq]
        by_cases hd : h.destination = client
        · simp [hd]
        · rw [if_neg hd, if_neg fun e => hd e.symm]) hinc'
  refine ⟨accepted', j, ha', hcar'', ?_, fun h1 h2 => by rw [← hcar''.length_eq, responsesTo_eq]; exact hj2 h1 h2⟩
  rw [← responsesTo_eq] at hj1
  have hav' : ∀ p ∈ accepted', Sendable s sub'.payloadSizeMax p.2 := fun p hp => hvalues' p (ha'.subset hp)
  clear hj2 ha' hsubl' hinc'
  revert hj1 hcar'' hav'
  generalize responsesTo service client pushed' = l
  generalize ofSessions (fun key => key == (.response, service.toNat, some server)) outs' = l'
  intro hcar'' hj1 hav'
  induction hcar'' generalizing j l' with
  | nil => rw [List.take_nil] at hj1 ⊢; cases hj1; exact .nil
  | @cons t p ts ps h _ ih =>
    cases j with
    | zero => cases hj1; exact .nil
    | succ j =>
      rw [List.take_succ_cons] at hj1
      cases hj1 with
      | cons g gs =>
        refine .cons ?_ (ih j _ gs fun x hx => hav' x (List.mem_cons_of_mem _ hx))
        obtain ⟨⟨now, hnow⟩, hr⟩ := received_reads hext' (hav' p List.mem_cons_self) h.2 g
        obtain ⟨now', hh⟩ := h.1
        exact ⟨⟨now, by rw [hnow, hh]; rfl⟩, hr⟩

/-! ### A case: three requests to the server and one to another node; the server answers the first and the third one -/

/-- The client has the ID 9 and sends requests to the nodes 5 and 6. -/
def serialCalls : List (Node.Op NodeId16 Tid64 Unit) :=
  [.sendRequest (demoEnv .ok) 430 (.of mixed.writer aMixed) (node 5#16) false,
   .sendRequest (demoEnv .ok) 430 (.of mixed.writer aMixed) (node 6#16) false,
   .sendRequest (demoEnv .ok) 430 (.of mixed.writer aMixed) (node 5#16) true,
   .sendRequest (demoEnv .ok) 430 (.of mixed.writer aMixed) (node 5#16) false]

/-- What the client hands to its transmitter. -/
def serialCallsHanded : List SerialTransfer :=
  handedOver ((serialNode.startSendingRequests (fixedMapTracker tid64 2) (E := Unit) (demoEnv .ok) 430 1000#32 30 2).node.run tid64 (fixedMapTracker tid64 2) serialCalls).1

/-- Each transfer is pushed and sent. -/
def pushAll (ts : List SerialTransfer) : List TxOp := ts.flatMap fun t => [.push false t, .flush]

/-- The bytes on the link. -/
def linkBytes (ts : List SerialTransfer) : List Byte := ((txExec willing (pushAll ts) ((), ⟨100, []⟩)).map fun p => p.2.2).getD []

/-- The receivers of the server and of the client. -/
def serialCallServer : Receiver := ((Receiver.new (some (node 5#16))).subscribe false .request 430 30 2000000#32).1
def serialCallClient : Receiver := ((Receiver.new (some (node 9#16))).subscribe false .response 430 30 2000000#32).1

/-- What the server receives. -/
def serialCallsReceived : List SerialTransfer := ((serialCallServer.exec (arriving (linkBytes serialCallsHanded))).map (·.2)).getD []

/-- The answers to these requests. -/
def serialAnswers (ts : List SerialTransfer) : List (ResponseToken NodeId16 Tid64 × Val) := ts.map fun t => (⟨430, node 9#16, t.header.transferId, 2⟩, aMixed)

/-- What the server hands to its transmitter. -/
def serialAnswersHanded (ts : List SerialTransfer) : List SerialTransfer :=
  handedOver ((CoreNode.new (Trk := IMap NodeId16 Tid64) (some (node 5#16)) 2 1).run (E := Unit) tid64 (fixedMapTracker tid64 2)
    ((serialAnswers ts).map fun p => .sendResponse (demoEnv .ok) p.1 1000#32 (.of mixed.writer p.2))).1

/-- What the client receives. -/
def serialAnswersReceived (ts : List SerialTransfer) : List SerialTransfer :=
  ((serialCallClient.exec (arriving (linkBytes (serialAnswersHanded ts)))).map (·.2)).getD []

example : (serialNode.startSendingRequests (fixedMapTracker tid64 2) (E := Unit) (demoEnv .ok) 430 1000#32 30 2).answer = .token ∧
    Requests mixed 430 (node 5#16) serialCalls [aMixed, aMixed, aMixed] ∧ pushesOf (pushAll serialCallsHanded) = serialCallsHanded ∧
    serialCallsHanded.map (fun t => (t.header.destination, t.header.transferId)) = [(some (node 5#16), 0), (some (node 6#16), 0), (some (node 5#16), 1), (some (node 5#16), 2)] ∧
    serialCallsReceived.map (fun t => (t.header.transferId, t.payload.length)) = [(0, 28), (1, 28), (2, 28)] := by
  refine ⟨by decide +kernel, ?_, by decide +kernel, by decide +kernel, by decide +kernel⟩
  exact .value (fun _ => rfl) (.other (by simp [Node.Op.stopsRequests]) (by simp [node]) (by simp) (.value (fun _ => rfl) (.value (fun _ => rfl) .done)))

example : (serialAnswersReceived (serialCallsReceived.take 1 ++ serialCallsReceived.drop 2)).map (fun t => (t.header.transferId, t.payload.length)) = [(0, 28), (2, 28)] := by
  decide +kernel

/-- **C126, violated.** The server answers the last request first. All bytes of all answers arrive, but the client gets only that answer: the receiver takes the others for old transfers. -/
theorem C126_order_counterexample : serialCallsReceived.map (fun t => t.header.transferId) = [0, 1, 2] ∧
    (serialAnswersHanded serialCallsReceived.reverse).map (fun t => t.header.transferId) = [2, 1, 0] ∧
    linkBytes (serialAnswersHanded serialCallsReceived.reverse) = (serialAnswersHanded serialCallsReceived.reverse).flatMap wire ∧
    (serialAnswersReceived serialCallsReceived.reverse).map (fun t => t.header.transferId) = [2] := by
  refine ⟨by decide +kernel, by decide +kernel, by decide +kernel, by decide +kernel⟩

end Verif.End
