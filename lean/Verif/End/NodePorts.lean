import Verif.End.PortsModel

/-!
A node together with any receiver: the part of C141 that does not depend on the transport.
-/

namespace Verif.End

open Verif.Node

variable {N Tid Trk R X E : Type}

/-- `CoreNode` with its receiver (`canadensis/src/node/core.rs` L31-50); the clock, the transmitter and the driver are environment. -/
structure RxNode (N Tid Trk R : Type) where
  core : CoreNode N Tid Trk
  rx : R

/-- A call of a function of the node (`canadensis/src/node/core.rs` L184-481): what it asks of the receiver is done (`rxCall`), and the node goes on with the answer. The results
are the node afterwards and the call with what the receiver answered and with what it returned. -/
def RxNode.call (ops : TidOps Tid) (tops : TrackerOps N Tid Trk) (rxCall : R → RxCall N → R × Subscribed E) (n : RxNode N Tid Trk R) (op : Node.Op N Tid E) :
    RxNode N Tid Trk R × Node.Op N Tid E × Answer Tid E :=
  let q := (n.core.step ops tops op).rx.foldl (fun q c => rxCall q.1 c) (n.rx, .ok)
  let op' := withSubscribed q.2 op
  let o := n.core.step ops tops op'
  (⟨o.node, q.1⟩, op', o.answer)

/-- Histories of a node that starts as `start`: calls of its functions with an environment `x` of the receiver, and what the receiver does in `receive`
(`canadensis/src/node/core.rs` L197-209), which is `arrives`. The list has the calls with what they returned, the latest first. -/
inductive RxHistory (ops : TidOps Tid) (tops : TrackerOps N Tid Trk) (rxCall : X → R → RxCall N → R × Subscribed E) (arrives : R → R → Prop) (start : RxNode N Tid Trk R) :
    List (Node.Op N Tid E × Answer Tid E) → RxNode N Tid Trk R → Prop where
  | new : RxHistory ops tops rxCall arrives start [] start
  | call {trace n} (x : X) (op : Node.Op N Tid E) : RxHistory ops tops rxCall arrives start trace n →
      RxHistory ops tops rxCall arrives start ((n.call ops tops (rxCall x) op).2 :: trace) (n.call ops tops (rxCall x) op).1
  | arrive {trace n r} : RxHistory ops tops rxCall arrives start trace n → arrives n.rx r → RxHistory ops tops rxCall arrives start trace { n with rx := r }

/-! ### Receivers that keep their subscriptions -/

/-- The answer is a success. -/
def Subscribed.isOk : Subscribed E → Bool
  | .ok => true
  | _ => false

/-- Whether there is a subscription for a kind and port after a call, from whether there was one before it. -/
def after (c : RxCall N) (k : Kind) (p : Nat) (ok before : Bool) : Bool :=
  match c with
  | .subscribeMessage s _ _ => (decide (k = .message ∧ p = s.toNat) && ok) || before
  | .unsubscribeMessage s => !decide (k = .message ∧ p = s.toNat) && before
  | .subscribeRequest s _ _ => (decide (k = .request ∧ p = s.toNat) && ok) || before
  | .unsubscribeRequest s => !decide (k = .request ∧ p = s.toNat) && before
  | .subscribeResponse s _ _ => (decide (k = .response ∧ p = s.toNat) && ok) || before
  | .setId _ => before

/-- The node ID after a call. -/
def idAfter (c : RxCall N) (before : Option N) : Option N :=
  match c with
  | .setId id => some id
  | _ => before

/-- The receiver keeps a subscription from a successful call to an unsubscription; calls that fail and what arrives change no subscription. -/
structure Lawful (rxCall : X → R → RxCall N → R × Subscribed E) (arrives : R → R → Prop) (good : R → Prop) (has : R → Kind → Nat → Bool) (id : R → Option N) : Prop where
  good_call : ∀ x r c, good r → good (rxCall x r c).1
  has_call : ∀ x r c k p, good r → has (rxCall x r c).1 k p = after c k p (Subscribed.isOk (rxCall x r c).2) (has r k p)
  id_call : ∀ x r c, good r → id (rxCall x r c).1 = idAfter c (id r)
  arrive : ∀ r r', good r → arrives r r' → good r' ∧ (∀ k p, has r' k p = has r k p) ∧ id r' = id r

/-- The number of ports of a kind (`SubjectId` and `ServiceId`, `canadensis_core/src/lib.rs` L32-45, L96-109). -/
def portCount : Kind → Nat
  | .message => 2 ^ 13
  | _ => 2 ^ 9

/-- What holds after every history. -/
structure UsesInv (good : R → Prop) (has : R → Kind → Nat → Bool) (id : R → Option N) (trace : List (Node.Op N Tid E × Answer Tid E)) (n : RxNode N Tid Trk R) : Prop where
  good : good n.rx
  msg : ∀ s : SubjectId, has n.rx .message s.toNat = listening s trace
  req : ∀ s : ServiceId, has n.rx .request s.toNat = serving s trace
  resp : ∀ s : ServiceId, has n.rx .response s.toNat = started s trace
  bound : ∀ k p, has n.rx k p = true → p < portCount k
  valid : n.core.Valid
  pubs : ∀ s, (n.core.publishers.get? s).isSome = publishing s trace
  reqs : ∀ s, (n.core.requesters.get? s).isSome = requesting s trace
  id : n.core.nodeId = id n.rx

theorem toNat_eq {n : Nat} {a b : BitVec n} : (a.toNat = b.toNat) ↔ a = b := ⟨BitVec.eq_of_toNat_eq, fun h => h ▸ rfl⟩

theorem after_bound (c : RxCall N) (k : Kind) (p : Nat) (ok before : Bool) (h : after c k p ok before = true) :
    before = true ∨ p < portCount k := by
  cases c with
  | subscribeMessage s y t =>
    simp only [after, Bool.or_eq_true, Bool.and_eq_true, decide_eq_true_eq] at h
    rcases h with ⟨⟨rfl, rfl⟩, -⟩ | h
    · exact .inr s.isLt
    · exact .inl h
  | subscribeRequest s y t =>
    simp only [after, Bool.or_eq_true, Bool.and_eq_true, decide_eq_true_eq] at h
    rcases h with ⟨⟨rfl, rfl⟩, -⟩ | h
    · exact .inr s.isLt
    · exact .inl h
  | subscribeResponse s y t =>
    simp only [after, Bool.or_eq_true, Bool.and_eq_true, decide_eq_true_eq] at h
    rcases h with ⟨⟨rfl, rfl⟩, -⟩ | h
    · exact .inr s.isLt
    · exact .inl h
  | unsubscribeMessage s => simp only [after, Bool.and_eq_true] at h; exact .inl h.2
  | unsubscribeRequest s => simp only [after, Bool.and_eq_true] at h; exact .inl h.2
  | setId i => exact .inl h

section
variable {rxCall : X → R → RxCall N → R × Subscribed E} {arrives : R → R → Prop} {good : R → Prop} {has : R → Kind → Nat → Bool} {id : R → Option N}

theorem calls_inv (hl : Lawful rxCall arrives good has id) (x : X) (cs : List (RxCall N)) : ∀ (q : R × Subscribed E), good q.1 →
    (∀ k p, has q.1 k p = true → p < portCount k) →
    good (cs.foldl (fun q c => rxCall x q.1 c) q).1 ∧
    (∀ k p, has (cs.foldl (fun q c => rxCall x q.1 c) q).1 k p = true → p < portCount k) := by
  induction cs with
  | nil => intro q h1 h2; exact ⟨h1, h2⟩
  | cons c cs ih =>
    intro q h1 h2
    refine ih _ (hl.good_call x q.1 c h1) fun k p h => ?_
    rw [hl.has_call x q.1 c k p h1] at h
    rcases after_bound c k p _ _ h with h | h
    · exact h2 k p h
    · exact h

theorem uses_call (hl : Lawful rxCall arrives good has id) {ops : TidOps Tid} {tops : TrackerOps N Tid Trk} {trace : List (Node.Op N Tid E × Answer Tid E)}
    {n : RxNode N Tid Trk R} (h : UsesInv good has id trace n) (x : X) (op : Node.Op N Tid E) :
    UsesInv good has id ((n.call ops tops (rxCall x) op).2 :: trace) (n.call ops tops (rxCall x) op).1 := by
  have hc := calls_inv hl x (n.core.step ops tops op).rx (n.rx, .ok) h.good h.bound
  obtain ⟨g1, -, -, g2, g3⟩ := step_ports ops tops n.core (n.call ops tops (rxCall x) op).2.1 h.valid trace h.pubs h.reqs
  suffices hs : (∀ s : SubjectId, has (n.call ops tops (rxCall x) op).1.rx .message s.toNat = listening s ((n.call ops tops (rxCall x) op).2 :: trace)) ∧
      (∀ s : ServiceId, has (n.call ops tops (rxCall x) op).1.rx .request s.toNat = serving s ((n.call ops tops (rxCall x) op).2 :: trace)) ∧
      (∀ s : ServiceId, has (n.call ops tops (rxCall x) op).1.rx .response s.toNat = started s ((n.call ops tops (rxCall x) op).2 :: trace)) ∧
      (n.call ops tops (rxCall x) op).1.core.nodeId = id (n.call ops tops (rxCall x) op).1.rx from
    ⟨hc.1, hs.1, hs.2.1, hs.2.2.1, hc.2, g1, g2, g3, hs.2.2.2⟩
  clear hc g1 g2 g3
  have hid := h.id
  have hf := fun c k p => hl.has_call x n.rx c k p h.good
  have hi := fun c => hl.id_call x n.rx c h.good
  cases op with
  | startPublishing env s t p =>
    simp only [RxNode.call, withSubscribed, CoreNode.step, CoreNode.startPublishing]
    (repeat' split) <;> exact ⟨h.msg, h.req, h.resp, hid⟩
  | stopPublishing env s => exact ⟨h.msg, h.req, h.resp, hid⟩
  | publish env s p l =>
    simp only [RxNode.call, withSubscribed, CoreNode.step, CoreNode.publish]
    (repeat' split) <;> exact ⟨h.msg, h.req, h.resp, hid⟩
  | stopSendingRequests env s => exact ⟨h.msg, h.req, h.resp, hid⟩
  | sendRequest env s p d l =>
    simp only [RxNode.call, withSubscribed, CoreNode.step, CoreNode.sendRequest]
    (repeat' split) <;> exact ⟨h.msg, h.req, h.resp, hid⟩
  | sendResponse env k t p =>
    simp only [RxNode.call, withSubscribed, CoreNode.step, CoreNode.sendResponse]
    (repeat' split) <;> exact ⟨h.msg, h.req, h.resp, hid⟩
  | setNodeId env i =>
    exact ⟨fun s => (hf (.setId i) _ _).trans (h.msg s), fun s => (hf (.setId i) _ _).trans (h.req s), fun s => (hf (.setId i) _ _).trans (h.resp s), (hi (.setId i)).symm⟩
  | unsubscribeMessage env s =>
    refine ⟨fun s' => ?_, fun s' => ?_, fun s' => ?_, ?_⟩
    · refine (hf (.unsubscribeMessage s) _ _).trans ?_
      rw [h.msg s']
      simp [after, RxNode.call, withSubscribed, listening, toNat_eq, eq_comm]
    · refine (hf (.unsubscribeMessage s) _ _).trans ?_
      rw [h.req s']
      simp [after, RxNode.call, withSubscribed, serving]
    · refine (hf (.unsubscribeMessage s) _ _).trans ?_
      rw [h.resp s']
      simp [after, RxNode.call, withSubscribed, started]
    · exact hid.trans (hi (.unsubscribeMessage s)).symm
  | unsubscribeRequest env s =>
    refine ⟨fun s' => ?_, fun s' => ?_, fun s' => ?_, ?_⟩
    · refine (hf (.unsubscribeRequest s) _ _).trans ?_
      rw [h.msg s']
      simp [after, RxNode.call, withSubscribed, listening]
    · refine (hf (.unsubscribeRequest s) _ _).trans ?_
      rw [h.req s']
      simp [after, RxNode.call, withSubscribed, serving, toNat_eq, eq_comm]
    · refine (hf (.unsubscribeRequest s) _ _).trans ?_
      rw [h.resp s']
      simp [after, RxNode.call, withSubscribed, started]
    · exact hid.trans (hi (.unsubscribeRequest s)).symm
  | subscribeMessage env s y t =>
    simp only [RxNode.call, withSubscribed, CoreNode.step, CoreNode.subscribeMessage, List.foldl_cons, List.foldl_nil]
    refine ⟨fun s' => ?_, fun s' => ?_, fun s' => ?_, ?_⟩
    · rw [hf, h.msg s']
      cases (rxCall x n.rx (.subscribeMessage s y t)).2 <;> simp [after, Subscribed.isOk, listening, toNat_eq, eq_comm]
    · rw [hf, h.req s']
      simp [after, serving]
    · rw [hf, h.resp s']
      simp [after, started]
    · rw [hi]; exact hid
  | subscribeRequest env s y t =>
    simp only [RxNode.call, withSubscribed, CoreNode.step, CoreNode.subscribeRequest, List.foldl_cons, List.foldl_nil]
    refine ⟨fun s' => ?_, fun s' => ?_, fun s' => ?_, ?_⟩
    · rw [hf, h.msg s']
      simp [after, listening]
    · rw [hf, h.req s']
      cases (rxCall x n.rx (.subscribeRequest s y t)).2 <;> simp [after, Subscribed.isOk, serving, toNat_eq, eq_comm]
    · rw [hf, h.resp s']
      simp [after, started]
    · rw [hi]; exact hid
  | startSendingRequests env s t y p =>
    cases hn : n.core.nodeId with
    | none =>
      simp only [RxNode.call, withSubscribed, CoreNode.step, CoreNode.startSendingRequests, hn]
      exact ⟨h.msg, h.req, h.resp, hn.symm.trans hid⟩
    | some i =>
      cases hc : n.core.requesters.contains s with
      | true =>
        simp only [RxNode.call, withSubscribed, CoreNode.step, CoreNode.startSendingRequests, hn, hc, if_true]
        exact ⟨h.msg, h.req, h.resp, hn.symm.trans hid⟩
      | false =>
        cases hm : n.core.requesters.insert n.core.reqCap s (Requester.new tops t p) with
        | none =>
          simp only [RxNode.call, withSubscribed, CoreNode.step, CoreNode.startSendingRequests, hn, hc, hm, Bool.false_eq_true, if_false]
          exact ⟨h.msg, h.req, h.resp, hn.symm.trans hid⟩
        | some m =>
          have hrx : (n.core.startSendingRequests tops env s t y p).rx = [.subscribeResponse s y t] := by
            simp only [CoreNode.startSendingRequests, hn, hc, hm, Bool.false_eq_true, if_false]
            split <;> rfl
          have hcall : n.call ops tops (rxCall x) (.startSendingRequests env s t y p) =
              (⟨(n.core.startSendingRequests tops { env with subscribed := (rxCall x n.rx (.subscribeResponse s y t)).2 } s t y p).node,
                (rxCall x n.rx (.subscribeResponse s y t)).1⟩,
                .startSendingRequests { env with subscribed := (rxCall x n.rx (.subscribeResponse s y t)).2 } s t y p,
                (n.core.startSendingRequests tops { env with subscribed := (rxCall x n.rx (.subscribeResponse s y t)).2 } s t y p).answer) := by
            unfold RxNode.call
            simp only [CoreNode.step, hrx]
            rfl
          rw [hcall]
          have hok : ∀ s' : ServiceId, has (rxCall x n.rx (.subscribeResponse s y t)).1 .response s'.toNat =
              ((decide (s = s') && Subscribed.isOk (rxCall x n.rx (.subscribeResponse s y t)).2) || started s' trace) := by
            intro s'
            rw [hf, h.resp s']
            simp [after, toNat_eq, eq_comm]
          have hm' : ∀ s' : SubjectId, has (rxCall x n.rx (.subscribeResponse s y t)).1 .message s'.toNat = listening s' trace := by
            intro s'
            rw [hf, h.msg s']
            simp [after]
          have hr' : ∀ s' : ServiceId, has (rxCall x n.rx (.subscribeResponse s y t)).1 .request s'.toNat = serving s' trace := by
            intro s'
            rw [hf, h.req s']
            simp [after]
          have hi' : n.core.nodeId = id (rxCall x n.rx (.subscribeResponse s y t)).1 := by rw [hi]; exact hid
          cases hres : (rxCall x n.rx (.subscribeResponse s y t)).2 <;> rw [hres] at hok <;>
            simp only [CoreNode.startSendingRequests, hn, hc, hm, Bool.false_eq_true, if_false] <;>
            refine ⟨hm', hr', fun s' => ?_, hn.symm.trans hi'⟩ <;> rw [hok s'] <;> simp [started, Subscribed.isOk]

theorem uses_history (hl : Lawful rxCall arrives good has id) {ops : TidOps Tid} {tops : TrackerOps N Tid Trk} {start n : RxNode N Tid Trk R}
    {trace : List (Node.Op N Tid E × Answer Tid E)} (h0 : UsesInv good has id ([] : List (Node.Op N Tid E × Answer Tid E)) start)
    (h : RxHistory ops tops rxCall arrives start trace n) : UsesInv good has id trace n := by
  induction h with
  | new => exact h0
  | call x op _ ih => exact uses_call hl ih x op
  | arrive _ ha ih =>
    obtain ⟨h1, h2, h3⟩ := hl.arrive _ _ ih.good ha
    exact ⟨h1, fun s => (h2 _ _).trans (ih.msg s), fun s => (h2 _ _).trans (ih.req s), fun s => (h2 _ _).trans (ih.resp s), fun k p hp => ih.bound k p ((h2 k p).symm.trans hp),
      ih.valid, ih.pubs, ih.reqs, ih.id.trans h3.symm⟩

end

/-- What is sent requests for now was once started. -/
theorem started_of_requesting (s : ServiceId) (trace : List (Node.Op N Tid E × Answer Tid E)) (h : requesting s trace = true) : started s trace = true := by
  induction trace with
  | nil => cases h
  | cons x trace ih =>
    obtain ⟨op, a⟩ := x
    cases op with
    | startSendingRequests env s' t x p =>
      by_cases e : s' = s
      · cases a <;> simp_all [requesting, started]
      · cases a <;> simp_all [requesting, started]
    | stopSendingRequests env s' =>
      by_cases e : s' = s
      · simp [requesting, e] at h
      · simp only [requesting, if_neg e] at h
        exact ih h
    | _ => exact ih h

end Verif.End
