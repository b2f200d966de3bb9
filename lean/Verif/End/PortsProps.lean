import Verif.End.PortsModel
import Verif.Can.TxProps

/-!
C140: a node over CAN receives on the ports it uses.
-/

namespace Verif.End

open Verif.Node Verif.Can

variable {Trk E : Type}

/-! ### Lemmas -/

theorem subscribe_isSome (full : Bool) (r : Receiver) (k : Kind) (p e : Nat) (t : Duration) (k' : Kind) (p' : Nat) :
    ((r.subscribe full k p e t).1.find k' p').isSome = ((decide (k' = k ∧ p' = p) && (r.subscribe full k p e t).2) || (r.find k' p').isSome) := by
  obtain ⟨-, h2, h3⟩ := subscribe_find full r k p e t
  rw [h3, h2]
  by_cases hm : k' = k ∧ p' = p
  · obtain ⟨rfl, rfl⟩ := hm
    cases full <;> cases (r.find k' p').isSome <;> simp
  · simp [hm]

theorem subscribeMessage_isSome (full : Bool) (oom : E) (r : Receiver) (s : SubjectId) (x : Nat) (t : Duration) (k : Kind) (p : Nat) :
    ((rxCall full oom r (.subscribeMessage s x t)).1.find k p).isSome =
      ((decide (k = .message ∧ p = s.toNat) && decide ((r.subscribeMessage full s x t).2.1 = .ok)) || (r.find k p).isSome) ∧
    (rxCall full oom r (.subscribeMessage s x t)).1.id = r.id := by
  have h := subscribe_isSome full r .message s.toNat x t k p
  have hid := (subscribe_find full r .message s.toNat x t).1
  have hb : (r.subscribeMessage full s x t).2.1 = if (r.subscribe full .message s.toNat x t).2 then .ok else .memory := by
    unfold Receiver.subscribeMessage
    split <;> simp_all
  simp only [rxCall, subscribeMessage_fst, hb]
  refine ⟨?_, hid⟩
  rw [h]
  cases (r.subscribe full .message s.toNat x t).2 <;> simp

theorem subscribeService_isSome (full : Bool) (r : Receiver) (k' : Kind) (s : ServiceId) (x : Nat) (t : Duration) (k : Kind) (p : Nat) :
    ((r.subscribeService full k' s x t).1.find k p).isSome =
      ((decide (k = k' ∧ p = s.toNat) && decide ((r.subscribeService full k' s x t).2.1 = .ok)) || (r.find k p).isSome) ∧
    (r.subscribeService full k' s x t).1.id = r.id := by
  have h := subscribe_isSome full r k' s.toNat x t k p
  have hid := (subscribe_find full r k' s.toNat x t).1
  simp only [Receiver.subscribeService]
  split
  · cases hq : r.subscribe full k' s.toNat x t with
    | mk r' b => rw [hq] at h hid; cases b <;> simp_all
  · simp

theorem rxCall_step (checks full : Bool) (oom : E) (r : Receiver) (c : RxCall NodeId) :
    ∃ op a, op.Valid ∧ r.step checks op = some ((rxCall full oom r c).1, a) := by
  cases c with
  | subscribeMessage s x t => exact ⟨.subscribeMessage full s x t, .nothing, trivial, rfl⟩
  | unsubscribeMessage s => exact ⟨.unsubscribeMessage s, .nothing, trivial, rfl⟩
  | subscribeRequest s x t => exact ⟨.subscribeRequest full s x t, .nothing, trivial, rfl⟩
  | unsubscribeRequest s => exact ⟨.unsubscribeRequest s, .nothing, trivial, rfl⟩
  | subscribeResponse s x t => exact ⟨.subscribeResponse full s x t, .nothing, trivial, rfl⟩
  | setId id => exact ⟨.setId (some id), .nothing, trivial, rfl⟩

theorem rxCalls_history (checks full : Bool) (oom : E) (id : Option NodeId) (cs : List (RxCall NodeId)) : ∀ (q : Receiver × Subscribed E),
    (∃ ops, Can.History checks id ops q.1) → ∃ ops, Can.History checks id ops (cs.foldl (fun q c => rxCall full oom q.1 c) q).1 := by
  induction cs with
  | nil => intro q h; exact h
  | cons c cs ih =>
    rintro q ⟨ops, h⟩
    obtain ⟨op, a, hv, hs⟩ := rxCall_step checks full oom q.1 c
    exact ih _ ⟨_, h.call hv hs⟩

/-- What holds after every history. -/
structure PortsInv (checks : Bool) (id : Option NodeId) (trace : List (Node.Op NodeId Can.Tid E × Answer Can.Tid E)) (n : CanNode Trk) : Prop where
  hist : ∃ ops, Can.History checks id ops n.rx
  msg : ∀ s : SubjectId, (n.rx.find .message s.toNat).isSome = listening s trace
  req : ∀ s : ServiceId, (n.rx.find .request s.toNat).isSome = serving s trace
  resp : ∀ s : ServiceId, (n.rx.find .response s.toNat).isSome = started s trace
  valid : n.core.Valid
  pubs : ∀ s, (n.core.publishers.get? s).isSome = publishing s trace
  reqs : ∀ s, (n.core.requesters.get? s).isSome = requesting s trace
  id : n.core.nodeId = n.rx.id

theorem toNat_inj {n : Nat} {a b : BitVec n} : (a.toNat = b.toNat) ↔ a = b := ⟨BitVec.eq_of_toNat_eq, fun h => h ▸ rfl⟩

theorem call_inv {checks : Bool} {id : Option NodeId} {tops : TrackerOps NodeId Can.Tid Trk} {trace : List (Node.Op NodeId Can.Tid E × Answer Can.Tid E)} {n : CanNode Trk}
    (h : PortsInv checks id trace n) (full : Bool) (oom : E) (op : Node.Op NodeId Can.Tid E) :
    PortsInv checks id ((n.call tops full oom op).2 :: trace) (n.call tops full oom op).1 := by
  have hhist := rxCalls_history checks full oom id (n.core.step canTid tops op).rx (n.rx, .ok) h.hist
  obtain ⟨g1, -, -, g2, g3⟩ := step_ports canTid tops n.core (n.call tops full oom op).2.1 h.valid trace h.pubs h.reqs
  suffices hs : (∀ s : SubjectId, ((n.call tops full oom op).1.rx.find .message s.toNat).isSome = listening s ((n.call tops full oom op).2 :: trace)) ∧
      (∀ s : ServiceId, ((n.call tops full oom op).1.rx.find .request s.toNat).isSome = serving s ((n.call tops full oom op).2 :: trace)) ∧
      (∀ s : ServiceId, ((n.call tops full oom op).1.rx.find .response s.toNat).isSome = started s ((n.call tops full oom op).2 :: trace)) ∧
      (n.call tops full oom op).1.core.nodeId = (n.call tops full oom op).1.rx.id from
    ⟨hhist, hs.1, hs.2.1, hs.2.2.1, g1, g2, g3, hs.2.2.2⟩
  clear hhist g1 g2 g3
  have hid := h.id
  cases op with
  | startPublishing env s t p =>
    simp only [CanNode.call, withSubscribed, CoreNode.step, CoreNode.startPublishing]
    (repeat' split) <;> exact ⟨h.msg, h.req, h.resp, hid⟩
  | stopPublishing env s => exact ⟨h.msg, h.req, h.resp, hid⟩
  | publish env s p l =>
    simp only [CanNode.call, withSubscribed, CoreNode.step, CoreNode.publish]
    (repeat' split) <;> exact ⟨h.msg, h.req, h.resp, hid⟩
  | stopSendingRequests env s => exact ⟨h.msg, h.req, h.resp, hid⟩
  | sendRequest env s p d l =>
    simp only [CanNode.call, withSubscribed, CoreNode.step, CoreNode.sendRequest]
    (repeat' split) <;> exact ⟨h.msg, h.req, h.resp, hid⟩
  | sendResponse env k t p =>
    simp only [CanNode.call, withSubscribed, CoreNode.step, CoreNode.sendResponse]
    (repeat' split) <;> exact ⟨h.msg, h.req, h.resp, hid⟩
  | setNodeId env i =>
    refine ⟨fun s => ?_, fun s => ?_, fun s => ?_, rfl⟩
    · exact h.msg s
    · exact h.req s
    · exact h.resp s
  | unsubscribeMessage env s =>
    refine ⟨fun s' => ?_, fun s' => ?_, fun s' => ?_, ?_⟩
    · show (((n.rx.unsubscribe .message s.toNat)).find .message s'.toNat).isSome = _
      rw [unsubscribe_find]
      show _ = (!decide (s = s') && listening s' trace)
      rw [← h.msg s']
      by_cases e : s = s'
      · subst e; simp
      · have : ¬ s'.toNat = s.toNat := fun h => e (toNat_inj.1 h).symm
        simp [e, this]
    · show (((n.rx.unsubscribe .message s.toNat)).find .request s'.toNat).isSome = _
      rw [unsubscribe_find]
      exact h.req s'
    · show (((n.rx.unsubscribe .message s.toNat)).find .response s'.toNat).isSome = _
      rw [unsubscribe_find]
      exact h.resp s'
    · exact hid
  | unsubscribeRequest env s =>
    refine ⟨fun s' => ?_, fun s' => ?_, fun s' => ?_, ?_⟩
    · show (((n.rx.unsubscribe .request s.toNat)).find .message s'.toNat).isSome = _
      rw [unsubscribe_find]
      exact h.msg s'
    · show (((n.rx.unsubscribe .request s.toNat)).find .request s'.toNat).isSome = _
      rw [unsubscribe_find]
      show _ = (!decide (s = s') && serving s' trace)
      rw [← h.req s']
      by_cases e : s = s'
      · subst e; simp
      · have : ¬ s'.toNat = s.toNat := fun h => e (toNat_inj.1 h).symm
        simp [e, this]
    · show (((n.rx.unsubscribe .request s.toNat)).find .response s'.toNat).isSome = _
      rw [unsubscribe_find]
      exact h.resp s'
    · exact hid
  | subscribeMessage env s x t =>
    have hf := fun k p => subscribeMessage_isSome full oom n.rx s x t k p
    simp only [CanNode.call, withSubscribed, CoreNode.step, CoreNode.subscribeMessage, List.foldl_cons, List.foldl_nil]
    refine ⟨fun s' => ?_, fun s' => ?_, fun s' => ?_, ?_⟩
    · rw [(hf _ _).1, h.msg s']
      simp only [rxCall]
      cases (n.rx.subscribeMessage full s x t).2.1 <;> simp [asSubscribed, listening, toNat_inj, eq_comm]
    · rw [(hf _ _).1, h.req s']
      simp [serving]
    · rw [(hf _ _).1, h.resp s']
      simp [started]
    · rw [(hf .message 0).2]; exact hid
  | subscribeRequest env s x t =>
    have hf := fun k p => subscribeService_isSome full n.rx .request s x t k p
    simp only [CanNode.call, withSubscribed, CoreNode.step, CoreNode.subscribeRequest, List.foldl_cons, List.foldl_nil]
    simp only [rxCall]
    refine ⟨fun s' => ?_, fun s' => ?_, fun s' => ?_, ?_⟩
    · rw [(hf _ _).1, h.msg s']
      simp [listening]
    · rw [(hf _ _).1, h.req s']
      cases (n.rx.subscribeService full .request s x t).2.1 <;> simp [asSubscribed, serving, toNat_inj, eq_comm]
    · rw [(hf _ _).1, h.resp s']
      simp [started]
    · rw [(hf .message 0).2]; exact hid
  | startSendingRequests env s t x p =>
    have hf := fun k p => subscribeService_isSome full n.rx .response s x t k p
    cases hn : n.core.nodeId with
    | none =>
      simp only [CanNode.call, withSubscribed, CoreNode.step, CoreNode.startSendingRequests, hn]
      refine ⟨h.msg, h.req, h.resp, ?_⟩
      exact hn.symm.trans hid
    | some i =>
      cases hc : n.core.requesters.contains s with
      | true =>
        simp only [CanNode.call, withSubscribed, CoreNode.step, CoreNode.startSendingRequests, hn, hc, if_true]
        exact ⟨h.msg, h.req, h.resp, hn.symm.trans hid⟩
      | false =>
        cases hm : n.core.requesters.insert n.core.reqCap s (Requester.new tops t p) with
        | none =>
          simp only [CanNode.call, withSubscribed, CoreNode.step, CoreNode.startSendingRequests, hn, hc, hm, Bool.false_eq_true, if_false]
          exact ⟨h.msg, h.req, h.resp, hn.symm.trans hid⟩
        | some m =>
          have hrx : (n.core.startSendingRequests tops env s t x p).rx = [.subscribeResponse s x t] := by
            simp only [CoreNode.startSendingRequests, hn, hc, hm, Bool.false_eq_true, if_false]
            split <;> rfl
          have hcall : n.call tops full oom (.startSendingRequests env s t x p) =
              (⟨(n.core.startSendingRequests tops { env with subscribed := asSubscribed oom (n.rx.subscribeService full .response s x t).2.1 } s t x p).node,
                (n.rx.subscribeService full .response s x t).1⟩,
                .startSendingRequests { env with subscribed := asSubscribed oom (n.rx.subscribeService full .response s x t).2.1 } s t x p,
                (n.core.startSendingRequests tops { env with subscribed := asSubscribed oom (n.rx.subscribeService full .response s x t).2.1 } s t x p).answer) := by
            unfold CanNode.call
            simp only [CoreNode.step, hrx]
            rfl
          rw [hcall]
          have hok : ∀ s' : ServiceId, ((n.rx.subscribeService full .response s x t).1.find .response s'.toNat).isSome =
              ((decide (s = s') && decide ((n.rx.subscribeService full .response s x t).2.1 = .ok)) || started s' trace) := by
            intro s'
            rw [(hf _ _).1, h.resp s']
            simp [toNat_inj, eq_comm]
          have hm' : ∀ s' : SubjectId, ((n.rx.subscribeService full .response s x t).1.find .message s'.toNat).isSome = listening s' trace := by
            intro s'
            rw [(hf _ _).1, h.msg s']
            simp
          have hr' : ∀ s' : ServiceId, ((n.rx.subscribeService full .response s x t).1.find .request s'.toNat).isSome = serving s' trace := by
            intro s'
            rw [(hf _ _).1, h.req s']
            simp
          have hi' : n.core.nodeId = (n.rx.subscribeService full .response s x t).1.id := by rw [(hf .message 0).2]; exact hid
          cases hres : (n.rx.subscribeService full .response s x t).2.1 <;> rw [hres] at hok <;>
            simp only [CoreNode.startSendingRequests, hn, hc, hm, asSubscribed, Bool.false_eq_true, if_false] <;>
            refine ⟨hm', hr', fun s' => ?_, hn.symm.trans hi'⟩ <;> rw [hok s'] <;> simp [started]

theorem history_inv {checks : Bool} {id : Option NodeId} {P R : Nat} {tops : TrackerOps NodeId Can.Tid Trk} {trace : List (Node.Op NodeId Can.Tid E × Answer Can.Tid E)} {n : CanNode Trk}
    (h : NodeHistory checks tops id P R trace n) : PortsInv checks id trace n := by
  induction h with
  | new =>
    exact ⟨⟨[], .new⟩, fun _ => rfl, fun _ => rfl, fun _ => rfl, ⟨⟨List.nodup_nil, Nat.zero_le _⟩, ⟨List.nodup_nil, Nat.zero_le _⟩⟩, fun _ => rfl, fun _ => rfl, rfl⟩
  | call full oom op _ ih => exact call_inv ih full oom op
  | @frame trace n f full r a _ hv hs ih =>
    obtain ⟨ops, hh⟩ := ih.hist
    have ha := agrees_step (history_agrees hh) (op := .frame f full) hv hs
    have hb := history_agrees hh
    have hf : ∀ k p, (r.find k p).isSome = (n.rx.find k p).isSome := by
      intro k p
      have h1 := ha.find k p
      have h2 := hb.find k p
      have := congrArg Option.isSome (h1.trans h2.symm)
      simpa using this
    refine ⟨⟨_, hh.call (op := .frame f full) hv hs⟩, fun s => (hf _ _).trans (ih.msg s), fun s => (hf _ _).trans (ih.req s), fun s => (hf _ _).trans (ih.resp s),
      ih.valid, ih.pubs, ih.reqs, ?_⟩
    rw [ih.id]
    exact hb.id.trans ha.id.symm

theorem requesting_started (s : ServiceId) (trace : List (Node.Op NodeId Can.Tid E × Answer Can.Tid E)) (h : requesting s trace = true) : started s trace = true := by
  induction trace with
  | nil => cases h
  | cons x trace ih =>
    obtain ⟨op, a⟩ := x
    cases op with
    | startSendingRequests env s' t x p =>
      by_cases e : s' = s
      · cases a <;> simp_all [requesting, started]
      · cases a <;> simp_all [requesting, started]
    | stopSendingRequests env s' =>
      by_cases e : s' = s
      · simp [requesting, e] at h
      · simp only [requesting, e, if_false] at h
        exact ih h
    | _ => exact ih h

/-! ### C140 -/

/-- **C140.** After every history of calls and frames, `subscribers()`, `servers()` and `clients()` of a node over CAN list exactly what was subscribed or started successfully and
not unsubscribed or stopped since, whichever calls failed for lack of memory; the receiver has a subscription to the responses for every client that is listed; and the receiver has
the node's ID. -/
theorem C140_ports {checks : Bool} {id : Option NodeId} {P R : Nat} {tops : TrackerOps NodeId Can.Tid Trk} {trace : List (Node.Op NodeId Can.Tid E × Answer Can.Tid E)} {n : CanNode Trk}
    (h : NodeHistory checks tops id P R trace n) :
    (∃ l, n.rx.subscribers = some l ∧ l.Nodup ∧ ∀ s, s ∈ l ↔ listening s trace = true) ∧
    (∃ l, n.rx.servers = some l ∧ l.Nodup ∧ ∀ s, s ∈ l ↔ serving s trace = true) ∧
    (∀ s, s ∈ n.core.requesters.map Prod.fst ↔ requesting s trace = true) ∧
    (∀ s : ServiceId, requesting s trace = true → (n.rx.find .response s.toNat).isSome) ∧
    n.core.nodeId = n.rx.id := by
  have hi := history_inv h
  obtain ⟨ops, hh⟩ := hi.hist
  obtain ⟨h1, -, -, ⟨l, hl, hn, hm⟩, ⟨l', hl', hn', hm'⟩⟩ := C15_subscription_table hh
  have hs : ∀ k p, ((Config.after id ops).table k p).isSome = (n.rx.find k p).isSome := by
    intro k p
    rw [← h1 k p, Option.isSome_map]
  refine ⟨⟨l, hl, hn, fun s => ?_⟩, ⟨l', hl', hn', fun s => ?_⟩, fun s => ?_, fun s hr => ?_, hi.id⟩
  · rw [hm s, hs, hi.msg s]
  · rw [hm' s, hs, hi.req s]
  · rw [IMap.mem_keys, hi.reqs s]
  · rw [hi.resp s]
    exact requesting_started s trace hr

/-- **C140** (part: for responses only that the node once sent requests for the service; the property says that it still does). What a handler of a node over CAN is given is a
message on a subject to which the node is subscribed, a request for a service to which it is subscribed, or a response of a service for which it started to send requests; and what
is addressed to one node is addressed to this one, but for loopback. -/
theorem C140_delivered_partial {checks full : Bool} {id : Option NodeId} {P R : Nat} {tops : TrackerOps NodeId Can.Tid Trk}
    {trace : List (Node.Op NodeId Can.Tid E × Answer Can.Tid E)} {n : CanNode Trk} (h : NodeHistory checks tops id P R trace n) {f : Frame} (hv : f.id.toNat < 2 ^ 29) {r : Receiver}
    {t : CanTransfer} (hs : n.rx.step checks (.frame f full) = some (r, .transfer t)) :
    (∀ m, t.header = .message m → listening m.subject trace = true) ∧ (∀ q, t.header = .request q → serving q.service trace = true) ∧
    (∀ q, t.header = .response q → started q.service trace = true) ∧
    (∀ d, t.header.destination = some d → t.loopback = false → n.core.nodeId = some d) := by
  have hi := history_inv h
  obtain ⟨ops, hh⟩ := hi.hist
  obtain ⟨h1, h2, -⟩ := C11_only_subscribed_and_addressed hh hv hs
  have ha := history_agrees hh
  rw [← ha.find, Option.isSome_map] at h1
  refine ⟨fun m e => ?_, fun q e => ?_, fun q e => ?_, fun d hd hl => ?_⟩
  · rw [← hi.msg, ← h1, e]; rfl
  · rw [← hi.req, ← h1, e]; rfl
  · rw [← hi.resp, ← h1, e]; rfl
  · rw [hi.id, ha.id]; exact h2 d hd hl

/-! ### A case -/

/-- What the environment does: there is memory, and the transmitter takes everything. -/
def quietEnv : Env Unit := { now := 0#32, alloc := true, push := .ok, subscribed := .ok, oom := () }

/-- A node with ID 5. -/
def node0 : CanNode Can.CanTransferIdTracker := CanNode.new (some 5#7) 4 4

/-- It subscribes to subject 100 and to requests for service 8, and unsubscribes from subject 100. -/
def node1 : CanNode Can.CanTransferIdTracker := (node0.call canTracker false () (.subscribeMessage quietEnv 100#13 7 1000#32)).1

/-- The second call. -/
def node2 : CanNode Can.CanTransferIdTracker := (node1.call canTracker false () (.subscribeRequest quietEnv 8#9 7 1000#32)).1

/-- The third call. -/
def node3 : CanNode Can.CanTransferIdTracker := (node2.call canTracker false () (.unsubscribeMessage quietEnv 100#13)).1

/-- It starts to send requests for service 7. -/
def node4 : CanNode Can.CanTransferIdTracker := (node3.call canTracker false () (.startSendingRequests quietEnv 7#9 1000#32 7 4#3)).1

/-- It stops sending requests for service 7. -/
def node5 : CanNode Can.CanTransferIdTracker := (node4.call canTracker false () (.stopSendingRequests quietEnv 7#9)).1

/-- A response for service 7 from node 9. -/
def lateResponse : CanTransfer :=
  { header := .response { timestamp := 0#32, transferId := 0#5, priority := 4#3, service := 7#9, source := 9#7, destination := 5#7 }
    loopback := false
    payload := [1#8, 2#8] }

/-- Its frame. -/
def lateFrame : Frame :=
  ((pushInner recorder 8 8 lateResponse ([], 0)).bind fun p => p.1.1.head?).getD { timestamp := 0#32, id := 0#32, loopback := false, data := [] }

/-- The calls so far, the latest first. -/
def trace5 : List (Node.Op NodeId Can.Tid Unit × Answer Can.Tid Unit) :=
  [(.stopSendingRequests quietEnv 7#9, .ok), (.startSendingRequests quietEnv 7#9 1000#32 7 4#3, .token), (.unsubscribeMessage quietEnv 100#13, .ok),
    (.subscribeRequest quietEnv 8#9 7 1000#32, .ok), (.subscribeMessage quietEnv 100#13 7 1000#32, .ok)]

theorem node5_history : NodeHistory true canTracker (some 5#7) 4 4 trace5 node5 :=
  .call (n := node4) false () (.stopSendingRequests quietEnv 7#9) (.call (n := node3) false () (.startSendingRequests quietEnv 7#9 1000#32 7 4#3)
    (.call (n := node2) false () (.unsubscribeMessage quietEnv 100#13) (.call (n := node1) false () (.subscribeRequest quietEnv 8#9 7 1000#32)
      (.call (n := node0) false () (.subscribeMessage quietEnv 100#13 7 1000#32) .new))))

example : NodeHistory true canTracker (some 5#7) 4 4 trace5 node5 ∧ listening 100#13 trace5 = false ∧ serving 8#9 trace5 = true ∧ requesting 7#9 trace5 = false ∧
    requesting 7#9 trace5.tail = true ∧ listening 100#13 (trace5.drop 3) = true ∧ node5.rx.servers = some [8#9] :=
  ⟨node5_history, by decide +kernel, by decide +kernel, by decide +kernel, by decide +kernel, by decide +kernel, by decide +kernel⟩

/-- **C140.** A node that stopped sending requests still receives responses: `stop_sending_requests` leaves the subscription of the receiver. -/
theorem C140_stop_counterexample : ∃ (trace : List (Node.Op NodeId Can.Tid Unit × Answer Can.Tid Unit)) (n : CanNode Can.CanTransferIdTracker) (f : Frame) (r : Receiver)
    (t : CanTransfer) (q : ServiceHeader NodeId Can.Tid), NodeHistory true canTracker (some 5#7) 4 4 trace n ∧ f.id.toNat < 2 ^ 29 ∧
    n.rx.step true (.frame f false) = some (r, .transfer t) ∧ t.header = .response q ∧ requesting q.service trace = false ∧ n.core.requesters = [] := by
  have h : (match node5.rx.step true (.frame lateFrame false) with
      | some (_, .transfer t) => (match t.header with | .response q => decide (q.service = 7#9) | _ => false)
      | _ => false) = true := by decide +kernel
  cases hs : node5.rx.step true (.frame lateFrame false) with
  | none => rw [hs] at h; cases h
  | some x =>
    obtain ⟨r, a⟩ := x
    rw [hs] at h
    cases a with
    | transfer t =>
      cases ht : t.header with
      | response q =>
        simp only [ht, decide_eq_true_eq] at h
        exact ⟨trace5, node5, lateFrame, r, t, q, node5_history, by decide +kernel, hs, ht, by rw [h]; decide +kernel, rfl⟩
      | _ => simp [ht] at h
    | _ => cases h

end Verif.End
