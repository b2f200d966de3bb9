import Verif.End.CallSpec
import Verif.End.Props

/-!
Lemmas for calls: what client and server hand to their transmitters, and which frames a receiver ignores.
-/

namespace Verif.End

open Verif.Node Verif.Dsdl Verif.Enc Verif.Can

/-! ### Frames for other nodes -/

theorem port_lt (h : CanHeader) : h.port < 8192 := by
  cases h with
  | message h => exact h.subject.isLt
  | request h => exact Nat.lt_trans h.service.isLt (by decide)
  | response h => exact Nat.lt_trans h.service.isLt (by decide)

theorem frame_id {checks oom : Bool} {r r' : Receiver} {f : Frame} {a : Accepted} (hv : f.id.toNat < 2 ^ 29) (h : r.acceptFrame checks oom f = some (r', a)) : r'.id = r.id :=
  (frame_view_other checks oom r f ⟨.message, 8192, 0⟩ (fun h _ _ hm => by have := port_lt h; have := hm.2.1; simp only at this; omega) hv h).1

theorem step_elsewhere {checks : Bool} {r : Receiver} {id : NodeId} {op : Can.Op} (hop : op.Valid) (hid : r.id = some id) (h : elsewhere id op = true) :
    r.step checks op = some (r, .nothing) := by
  cases op with
  | frame f oom =>
    simp only [elsewhere] at h
    cases hr : readFrame f with
    | none => rw [hr] at h; cases h
    | some p =>
      obtain ⟨hd, t⟩ := p
      rw [hr] at h
      have hs := sanityCheck_eq f hop
      rw [hr] at hs
      simp only [Receiver.step, Receiver.acceptFrame, hs]
      simp only [Bool.and_eq_true, Bool.not_eq_true'] at h
      cases hd with
      | message m => simp [Header.destination] at h
      | request s =>
        simp only [Header.destination, ne_eq, decide_not, Bool.not_eq_true', decide_eq_false_iff_not] at h
        have : (id == s.destination) = false := by simpa using fun e => h.2 e.symm
        simp [Receiver.canAcceptService, hid, h.1, this]
      | response s =>
        simp only [Header.destination, ne_eq, decide_not, Bool.not_eq_true', decide_eq_false_iff_not] at h
        have : (id == s.destination) = false := by simpa using fun e => h.2 e.symm
        simp [Receiver.canAcceptService, hid, h.1, this]
  | _ => simp [elsewhere] at h

theorem exec_elsewhere {checks : Bool} {id : NodeId} : ∀ (ops : List Can.Op) (r : Receiver), (∀ op ∈ ops, op.Valid) → r.id = some id →
    (∀ op ∈ ops, elsewhere id op = true ∨ ∃ f oom, op = .frame f oom) → r.exec checks ops = r.exec checks (ops.filter fun op => !elsewhere id op)
  | [], _, _, _, _ => rfl
  | op :: ops, r, hv, hid, hf => by
    have ih := exec_elsewhere (checks := checks) (id := id) ops
    have hv' := fun o ho => hv o (List.mem_cons_of_mem _ ho)
    have hf' := fun o ho => hf o (List.mem_cons_of_mem _ ho)
    cases he : elsewhere id op with
    | true =>
      rw [List.filter_cons, if_neg (by simp [he]), ← ih r hv' hid hf']
      rw [Receiver.exec, step_elsewhere (hv op List.mem_cons_self) hid he]
      dsimp only
      cases r.exec checks ops <;> rfl
    | false =>
      rw [List.filter_cons, if_pos (by simp [he])]
      rw [Receiver.exec, Receiver.exec]
      cases hs : r.step checks op with
      | none => rfl
      | some p =>
        obtain ⟨r1, a⟩ := p
        dsimp only
        rcases hf op List.mem_cons_self with h | ⟨f, oom, rfl⟩
        · rw [he] at h; cases h
        · rw [ih r1 hv' ((frame_id (hv _ List.mem_cons_self) hs).trans hid) hf']

/-- C100 for transfers to one node, among those to others. -/
theorem stream_addressed {checks : Bool} {cap mtu : Nat} {key : Key} {id : NodeId} (hm : 1 < mtu) (hl : LegalLength mtu) (hcap : mtu ≤ cap) {items : List Item}
    (hsound : ∀ it ∈ items, it.Sound cap mtu false) (hkey : ∀ it ∈ items, key.Matches it.transfer.header) (hc : Consecutive items) (hg : NotAllLost items)
    {r r' : Receiver} {v : View} (hview : r.view key = some v) (hfresh : v.state.session = none ∧ v.state.lastTransferTime = none) (hid : r.id = some id)
    (hdest : ∀ it ∈ items, ∀ d, it.transfer.header.destination = some d → d = id)
    {ops : List Can.Op} (hv : ∀ op ∈ ops, op.Valid)
    (hops : ops.filter (fun op => key.relevant op && !elsewhere id op) = items.flatMap fun it => it.arrived.map fun g => .frame g false)
    {ts : List CanTransfer} (he : r.exec checks ops = some (r', ts)) :
    ∃ outs, transfersOf key ts = outs.flatten ∧ List.Forall₂ (Outcome mtu false v.extent) items outs := by
  obtain ⟨r'', h1, -⟩ := C10_session_independence key hv he
  have hv1 : ∀ op ∈ ops.filter key.relevant, op.Valid := fun op h => hv op (List.mem_of_mem_filter h)
  have hfilter : (ops.filter key.relevant).filter (fun op => !elsewhere id op) = items.flatMap fun it => it.arrived.map fun g => .frame g false := by
    rw [← hops, List.filter_filter]
    congr 1
    funext op
    rw [Bool.and_comm]
  have hframes : ∀ op ∈ ops.filter key.relevant, elsewhere id op = true ∨ ∃ f oom, op = .frame f oom := by
    intro op hop
    cases h : elsewhere id op with
    | true => exact .inl rfl
    | false =>
      have : op ∈ (ops.filter key.relevant).filter (fun op => !elsewhere id op) := List.mem_filter.2 ⟨hop, by simp [h]⟩
      rw [hfilter, List.mem_flatMap] at this
      obtain ⟨it, -, h2⟩ := this
      obtain ⟨g, -, rfl⟩ := List.mem_map.1 h2
      exact .inr ⟨g, false, rfl⟩
  rw [exec_elsewhere _ r hv1 hid hframes, hfilter] at h1
  have hrel : (items.flatMap fun it => it.arrived.map fun g => Can.Op.frame g false).filter key.relevant = items.flatMap fun it => it.arrived.map fun g => .frame g false := by
    rw [← hfilter, List.filter_eq_self]
    intro op hop
    exact (List.mem_filter.1 (List.mem_of_mem_filter hop)).2
  obtain ⟨outs, h2, h3⟩ := C100_stream hm hl hcap hsound hkey hc hg hview hfresh (fun it hit d hd _ => by rw [hid, hdest it hit d hd])
    (fun op hop => by
      rw [← hfilter] at hop
      exact hv1 op (List.mem_of_mem_filter hop)) hrel h1
  refine ⟨outs, ?_, h3⟩
  rw [← h2, Can.transfersOf, Can.transfersOf, List.filter_filter]
  simp

/-! ### What the nodes send -/

/-- The payload is the bytes of the value. -/
def CarriesValue {N Tid : Type} (m : Message) (t : Transfer N Tid) (v : Val) : Prop :=
  ∃ c, m.serialize v (WriteCursor.new (List.replicate ((m.sizeBits v + 7) / 8) 0)) = some c ∧ t.payload = c.bytes

theorem value_read {N Tid : Type} {m : Message} {t : Transfer N Tid} {v : Val} {extent : Nat} (hext : extent < 2 ^ 32) (hs : Sendable m extent v) (hc : CarriesValue m t v) (extra : List Byte) :
    (t.payload ++ extra).take extent = t.payload ++ extra.take (extent - t.payload.length) ∧
    ∃ w c, m.deserialize (ReadCursor.new (t.payload ++ extra)) = some (.ok w, c) ∧ Same w v :=
  carries_read (t := (⟨.message ⟨0, 0, 0, 0, some 0⟩, false, t.payload⟩ : CanTransfer)) (s := 0) (priority := 0) (source := 0) hext hs ⟨⟨0, 0, rfl⟩, hc⟩ extra

theorem serialize_some {m : Message} {v : Val} {extent : Nat} (hext : extent < 2 ^ 32) (hsend : Sendable m extent v) :
    ∃ c, m.serialize v (WriteCursor.new (List.replicate ((m.sizeBits v + 7) / 8) 0)) = some c := by
  obtain ⟨c, hc, -⟩ := C67_wire_format_partial m v hsend.good hsend.has hsend.fits (by
    have h1 := C67_size_partial m v hsend.good hsend.has hsend.fits
    have h2 := hsend.size
    omega) (List.replicate ((m.sizeBits v + 7) / 8) 0) (by
    have h1 := C67_size_partial m v hsend.good hsend.has hsend.fits
    rw [List.length_replicate]
    omega)
  exact ⟨c, hc⟩

theorem no_memory {m : Message} {v : Val} {alloc : Bool} (hbig : 64 < (m.sizeBits v + 7) / 8) (halloc : alloc = false) : doSerialize (.of m.writer v) alloc = .outOfMemory := by
  unfold doSerialize
  show (if (m.sizeBits v + 7) / 8 > 64 then _ else _) = _
  rw [if_pos hbig, halloc]
  rfl

variable {N Tid Trk E : Type} [DecidableEq N]

theorem requestsTo_append (s : ServiceId) (d : N) (a b : List (Transfer N Tid)) : requestsTo s d (a ++ b) = requestsTo s d a ++ requestsTo s d b := by
  simp [requestsTo]

theorem responsesTo_append (s : ServiceId) (d : N) (a b : List (Transfer N Tid)) : responsesTo s d (a ++ b) = responsesTo s d a ++ responsesTo s d b := by
  simp [responsesTo]

theorem requestsTo_ids (s : ServiceId) (d : N) (ts : List (Transfer N Tid)) : requestIds s d ts = (requestsTo s d ts).map fun t => t.header.transferId := by
  induction ts with
  | nil => rfl
  | cons t ts ih =>
    obtain ⟨header, lb, payload⟩ := t
    cases header with
    | message h => simpa [requestIds, requestsTo] using ih
    | response h => simpa [requestIds, requestsTo] using ih
    | request h =>
      by_cases hs : h.service = s ∧ h.destination = d
      · simpa [requestIds, requestsTo, hs, Header.transferId] using ih
      · simpa [requestIds, requestsTo, hs] using ih

/-- A call that is not a request to the server hands none over. -/
theorem step_no_request {ops : TidOps Tid} {tops : TrackerOps N Tid Trk} (n : CoreNode N Tid Trk) (op : Node.Op N Tid E) (s : ServiceId) (d : N)
    (h1 : ∀ env payload loopback, op ≠ .sendRequest env s payload d loopback) (h2 : ∀ env id, op ≠ .setNodeId env id) :
    requestsTo s d (n.step ops tops op).sent = [] ∧ (n.step ops tops op).node.nodeId = n.nodeId := by
  cases op with
  | startPublishing env s' t pr => simp only [CoreNode.step, CoreNode.startPublishing]; split <;> [skip; split] <;> exact ⟨rfl, rfl⟩
  | stopPublishing env s' => exact ⟨rfl, rfl⟩
  | publish env s' pl l =>
    simp only [CoreNode.step, CoreNode.publish]
    split
    · exact ⟨rfl, rfl⟩
    · refine ⟨?_, rfl⟩
      simp only [Publisher.publish]
      split <;> rfl
  | startSendingRequests env s' t x pr => simp only [CoreNode.step, CoreNode.startSendingRequests]; repeat' split
                                          all_goals exact ⟨rfl, by simp_all⟩
  | stopSendingRequests env s' => exact ⟨rfl, rfl⟩
  | sendRequest env s' pl d' l =>
    have hs : ¬ (s' = s ∧ d' = d) := fun h => h1 env pl l (by rw [h.1, h.2])
    simp only [CoreNode.step, CoreNode.sendRequest]
    split
    · exact ⟨rfl, rfl⟩
    · split
      · exact ⟨rfl, rfl⟩
      · refine ⟨?_, rfl⟩
        simp only [Requester.send]
        split
        · rfl
        · rfl
        · split
          · rfl
          · simp [requestsTo, hs]
  | subscribeMessage env s' x t => exact ⟨rfl, rfl⟩
  | unsubscribeMessage env s' => exact ⟨rfl, rfl⟩
  | subscribeRequest env s' x t => exact ⟨rfl, rfl⟩
  | unsubscribeRequest env s' => exact ⟨rfl, rfl⟩
  | sendResponse env k t pl =>
    simp only [CoreNode.step, CoreNode.sendResponse]
    repeat' split
    all_goals exact ⟨rfl, rfl⟩
  | setNodeId env id => exact absurd rfl (h2 env id)

/-- A call that is not a response to the client hands none over. -/
theorem step_no_response {ops : TidOps Tid} {tops : TrackerOps N Tid Trk} (n : CoreNode N Tid Trk) (op : Node.Op N Tid E) (s : ServiceId) (d : N)
    (h1 : ∀ env token timeout payload, op = .sendResponse env token timeout payload → ¬ (token.service = s ∧ token.client = d)) (h2 : ∀ env id, op ≠ .setNodeId env id) :
    responsesTo s d (n.step ops tops op).sent = [] ∧ (n.step ops tops op).node.nodeId = n.nodeId := by
  cases op with
  | startPublishing env s' t pr => simp only [CoreNode.step, CoreNode.startPublishing]; split <;> [skip; split] <;> exact ⟨rfl, rfl⟩
  | stopPublishing env s' => exact ⟨rfl, rfl⟩
  | publish env s' pl l =>
    simp only [CoreNode.step, CoreNode.publish]
    split
    · exact ⟨rfl, rfl⟩
    · refine ⟨?_, rfl⟩
      simp only [Publisher.publish]
      split <;> rfl
  | startSendingRequests env s' t x pr => simp only [CoreNode.step, CoreNode.startSendingRequests]; repeat' split
                                          all_goals exact ⟨rfl, by simp_all⟩
  | stopSendingRequests env s' => exact ⟨rfl, rfl⟩
  | sendRequest env s' pl d' l =>
    simp only [CoreNode.step, CoreNode.sendRequest]
    split
    · exact ⟨rfl, rfl⟩
    · split
      · exact ⟨rfl, rfl⟩
      · refine ⟨?_, rfl⟩
        simp only [Requester.send]
        split
        · rfl
        · rfl
        · split <;> rfl
  | subscribeMessage env s' x t => exact ⟨rfl, rfl⟩
  | unsubscribeMessage env s' => exact ⟨rfl, rfl⟩
  | subscribeRequest env s' x t => exact ⟨rfl, rfl⟩
  | unsubscribeRequest env s' => exact ⟨rfl, rfl⟩
  | sendResponse env k t pl =>
    have hs := h1 env k t pl rfl
    simp only [CoreNode.step, CoreNode.sendResponse]
    split
    · exact ⟨rfl, rfl⟩
    · exact ⟨rfl, rfl⟩
    · split
      · exact ⟨rfl, rfl⟩
      · exact ⟨by simp [responsesTo, hs], rfl⟩
  | setNodeId env id => exact absurd rfl (h2 env id)

/-- What the client hands over: the values that could be serialized and got a transfer ID, in order. -/
theorem run_requests {ops : TidOps Tid} {tops : TrackerOps N Tid Trk} {view : Trk → (N → Nat) → Prop} (hcounts : Counts ops tops view) {m : Message} {s : ServiceId} {client server : N}
    {extent : Nat} (hext : extent < 2 ^ 32) {history : List (Node.Op N Tid E)} {vs : List Val} (hp : Requests m s server history vs) : (∀ v ∈ vs, Sendable m extent v) →
    ∀ (n : CoreNode N Tid Trk) (r : Requester Trk) (c : N → Nat), n.requesters.get? s = some r → view r.transferIds c → n.nodeId = some client →
      ∃ accepted, List.Sublist accepted vs ∧ ((∀ t c d, view t c → (tops.next t d).1 ≠ none) → accepted = vs) ∧
        List.Forall₂ (fun t v => (∃ now id, t.header = .request ⟨now, id, r.priority, s, client, server⟩) ∧ CarriesValue m t v)
          (requestsTo s server (handedOver (n.run ops tops history).1)) accepted := by
  induction hp with
  | done => intro _ n r c _ _ _; exact ⟨[], List.Sublist.refl _, fun _ => rfl, .nil⟩
  | @value env v loopback rest vs halloc _ ih =>
    intro hv n r c hr hc hid
    have hsend := hv v List.mem_cons_self
    obtain ⟨k, hk⟩ := serialize_some hext hsend
    have hser := doSerialize_eq halloc
    rw [hk] at hser
    obtain ⟨r', c', h1, h2, h3, -⟩ := step_requester hcounts n (.sendRequest env s (.of m.writer v) server loopback) s r c hr hc (by simp [Node.Op.stopsRequests])
    have hnode : (n.step ops tops (.sendRequest env s (.of m.writer v) server loopback)).node.nodeId = some client := by
      simp only [CoreNode.step, CoreNode.sendRequest, hr, hid]
    obtain ⟨accepted, ha1, ha2, hrest⟩ := ih (fun x hx => hv x (List.mem_cons_of_mem _ hx)) _ _ _ h1 h2 hnode
    rw [h3] at hrest
    have hrun : requestsTo s server (handedOver (n.run ops tops (.sendRequest env s (.of m.writer v) server loopback :: rest)).1) =
        requestsTo s server (n.step ops tops (.sendRequest env s (.of m.writer v) server loopback)).sent ++
          requestsTo s server (handedOver ((n.step ops tops (.sendRequest env s (.of m.writer v) server loopback)).node.run ops tops rest).1) := by
      show requestsTo s server (handedOver (n.step ops tops _ :: ((n.step ops tops _).node.run ops tops rest).1)) = _
      rw [handedOver_cons, requestsTo_append]
    rw [hrun]
    cases hn : (tops.next r.transferIds server).1 with
    | none =>
      have htr : tops.next r.transferIds server = (none, (tops.next r.transferIds server).2) := by rw [← hn]
      have hsent : (n.step ops tops (.sendRequest env s (.of m.writer v) server loopback)).sent = [] := by
        simp only [CoreNode.step, CoreNode.sendRequest, hr, hid, Requester.send, hser]
        rw [htr]
      rw [hsent]
      exact ⟨accepted, ha1.cons v, fun h => absurd hn (h _ _ _ hc), hrest⟩
    | some id =>
      have htr : tops.next r.transferIds server = (some id, (tops.next r.transferIds server).2) := by rw [← hn]
      have hsent : (n.step ops tops (.sendRequest env s (.of m.writer v) server loopback)).sent =
          [⟨.request ⟨env.now.plus r.timeout, id, r.priority, s, client, server⟩, loopback, k.bytes⟩] := by
        simp only [CoreNode.step, CoreNode.sendRequest, hr, hid, Requester.send, hser]
        rw [htr]
      have e : requestsTo s server (n.step ops tops (.sendRequest env s (.of m.writer v) server loopback)).sent =
          [⟨.request ⟨env.now.plus r.timeout, id, r.priority, s, client, server⟩, loopback, k.bytes⟩] := by
        rw [hsent]
        simp [requestsTo]
      rw [e]
      exact ⟨v :: accepted, ha1.cons_cons v, fun h => by rw [ha2 h], .cons ⟨⟨_, _, rfl⟩, k, hk, rfl⟩ hrest⟩
  | @noMemory env v loopback rest vs hbig halloc _ ih =>
    intro hv n r c hr hc hid
    obtain ⟨r', c', h1, h2, h3, -⟩ := step_requester hcounts n (.sendRequest env s (.of m.writer v) server loopback) s r c hr hc (by simp [Node.Op.stopsRequests])
    have hsent : (n.step ops tops (.sendRequest env s (.of m.writer v) server loopback)).sent = [] := by
      simp only [CoreNode.step, CoreNode.sendRequest, hr, hid, Requester.send, no_memory hbig halloc]
    have hnode : (n.step ops tops (.sendRequest env s (.of m.writer v) server loopback)).node.nodeId = some client := by
      simp only [CoreNode.step, CoreNode.sendRequest, hr, hid]
    obtain ⟨accepted, ha1, ha2, hrest⟩ := ih hv _ _ _ h1 h2 hnode
    rw [h3] at hrest
    refine ⟨accepted, ha1, ha2, ?_⟩
    show List.Forall₂ _ (requestsTo s server (handedOver (n.step ops tops _ :: ((n.step ops tops _).node.run ops tops rest).1))) _
    rw [handedOver_cons, requestsTo_append, hsent]
    exact hrest
  | @other op rest vs h1 h2 h3 _ ih =>
    intro hv n r c hr hc hid
    obtain ⟨e1, e2⟩ := step_no_request (ops := ops) (tops := tops) n op s server h2 h3
    obtain ⟨r', c', g1, g2, g3, -⟩ := step_requester hcounts n op s r c hr hc h1
    obtain ⟨accepted, ha1, ha2, hrest⟩ := ih hv _ _ _ g1 g2 (by rw [e2]; exact hid)
    rw [g3] at hrest
    refine ⟨accepted, ha1, ha2, ?_⟩
    show List.Forall₂ _ (requestsTo s server (handedOver (n.step ops tops op :: ((n.step ops tops op).node.run ops tops rest).1))) _
    rw [handedOver_cons, requestsTo_append, e1]
    exact hrest

/-- What the server hands over: the responses that could be serialized, in order. -/
theorem run_responds {ops : TidOps Tid} {tops : TrackerOps N Tid Trk} {m : Message} {s : ServiceId} {client server : N} {extent : Nat} (hext : extent < 2 ^ 32)
    {history : List (Node.Op N Tid E)} {vs : List (ResponseToken N Tid × Val)} (hp : Responds m s client history vs) : (∀ p ∈ vs, Sendable m extent p.2) →
    ∀ (n : CoreNode N Tid Trk), n.nodeId = some server →
      List.Forall₂ (fun t p => (∃ now, t.header = .response ⟨now, p.1.transfer, p.1.priority, s, server, client⟩) ∧ CarriesValue m t p.2)
        (responsesTo s client (handedOver (n.run ops tops history).1)) vs := by
  induction hp with
  | done => intro _ n _; exact .nil
  | @value env token timeout v rest vs hs hcl halloc _ ih =>
    intro hv n hid
    obtain ⟨k, hk⟩ := serialize_some hext (hv (token, v) List.mem_cons_self)
    have hser := doSerialize_eq halloc
    rw [hk] at hser
    have hstep : n.step ops tops (.sendResponse env token timeout (.of m.writer v)) =
        ⟨env.push.answer, n, [⟨.response ⟨env.now.plus timeout, token.transfer, token.priority, s, server, client⟩, false, k.bytes⟩], []⟩ := by
      simp only [CoreNode.step, CoreNode.sendResponse, hser, hid, hs, hcl]
    have hrest := ih (fun x hx => hv x (List.mem_cons_of_mem _ hx)) n hid
    show List.Forall₂ _ (responsesTo s client (handedOver (n.step ops tops _ :: ((n.step ops tops _).node.run ops tops rest).1))) _
    rw [handedOver_cons, responsesTo_append, hstep]
    have e : responsesTo s client [⟨.response ⟨env.now.plus timeout, token.transfer, token.priority, s, server, client⟩, false, k.bytes⟩] =
        [⟨.response ⟨env.now.plus timeout, token.transfer, token.priority, s, server, client⟩, false, k.bytes⟩] := by
      simp [responsesTo]
    dsimp only
    rw [e]
    exact .cons ⟨⟨_, rfl⟩, k, hk, rfl⟩ hrest
  | @noMemory env token timeout v rest vs hbig halloc _ ih =>
    intro hv n hid
    have hstep : n.step ops tops (.sendResponse env token timeout (.of m.writer v)) = ⟨.transport env.oom, n, [], []⟩ := by
      simp only [CoreNode.step, CoreNode.sendResponse, no_memory hbig halloc]
    show List.Forall₂ _ (responsesTo s client (handedOver (n.step ops tops _ :: ((n.step ops tops _).node.run ops tops rest).1))) _
    rw [handedOver_cons, responsesTo_append, hstep]
    exact ih hv n hid
  | @other op rest vs h1 h2 _ ih =>
    intro hv n hid
    obtain ⟨e1, e2⟩ := step_no_response (ops := ops) (tops := tops) n op s client h1 h2
    show List.Forall₂ _ (responsesTo s client (handedOver (n.step ops tops op :: ((n.step ops tops op).node.run ops tops rest).1))) _
    rw [handedOver_cons, responsesTo_append, e1]
    exact ih hv _ (by rw [e2]; exact hid)

end Verif.End
