import Verif.End.TransportPorts

/-!
C142: the multicast groups of a node over UDP.
-/

namespace Verif.End

open Verif.Node
open Verif.Hdr (NodeId16 Tid64)
open Verif.Udp (Address)

variable {Trk E : Type}

/-! ### Specification -/

/-- Histories of a node over UDP whose socket operations succeed (`UdpSocket`, `canadensis_udp/src/driver.rs` L12-49). -/
def GoodSocketHistory (mtu : Nat) (tops : TrackerOps NodeId16 Tid64 Trk) (err : E) (id : Option NodeId16) (P R : Nat) :
    List (Node.Op NodeId16 Tid64 E × Answer Tid64 E) → RxNode NodeId16 Tid64 Trk Udp.World → Prop :=
  RxHistory tid64 tops (fun (_ : Unit) => udpCall (false, err)) (UdpArrives mtu) ⟨CoreNode.new id P R, Udp.World.new id⟩

/-- The node has an ID: it started with one or got one. -/
def identified (id : Option NodeId16) : List (Node.Op NodeId16 Tid64 E × Answer Tid64 E) → Bool
  | [] => id.isSome
  | (.setNodeId _ _, _) :: _ => true
  | _ :: earlier => identified id earlier

/-- An ID is set only while the node has none. -/
def IdKept (id : Option NodeId16) : List (Node.Op NodeId16 Tid64 E × Answer Tid64 E) → Prop
  | [] => True
  | (.setNodeId _ _, _) :: earlier => identified id earlier = false ∧ IdKept id earlier
  | _ :: earlier => IdKept id earlier

/-! ### Lemmas -/

/-- The socket is in the groups of what the receiver is subscribed to, and a receiver without ID is subscribed to no service. -/
structure InGroups (w : Udp.World) : Prop where
  groups : ∀ ip, w.groups ip = true ↔ (∃ s : SubjectId, udpHas w .message s.toNat = true ∧ ip = (Address.multicast s).toIp) ∨
    (∃ d, w.receiver.nodeId = some d ∧ ip = (Address.node d).toIp ∧ w.receiver.subscriptions.anyService = true)
  anonymous : w.receiver.nodeId = none → w.receiver.subscriptions.anyService = false

theorem service_any (s : Udp.Subscriptions) {k : Kind} (hk : k ≠ .message) (p : Nat) (sub : Udp.Subscription) : (s.subscribe k p sub).anyService = true := by
  rw [Udp.anyService_iff]
  refine ⟨p, ?_⟩
  cases k with
  | message => exact absurd rfl hk
  | request => left; simp [Udp.find_subscribe]
  | response => right; simp [Udp.find_subscribe]

theorem inGroups_subscribeService {w : Udp.World} (h : InGroups w) {k : Kind} (hk : k ≠ .message) (s : ServiceId) (y : Nat) (t : Duration) :
    InGroups ⟨(w.receiver.subscribeService false w.groups k s y t).1, (w.receiver.subscribeService false w.groups k s y t).2.1⟩ := by
  have hm : ∀ p sub q, ((w.receiver.subscriptions.subscribe k p sub).find .message q).isSome = udpHas w .message q := by
    intro p sub q
    rw [Udp.find_subscribe, if_neg (fun e => hk e.1.symm)]
    rfl
  cases hid : w.receiver.nodeId with
  | none =>
    have he : w.receiver.subscribeService false w.groups k s y t = (w.receiver, w.groups, .anonymous) := by
      unfold Udp.Receiver.subscribeService Udp.Receiver.serviceSubscribeCheck
      simp [hid]
    rw [he]
    exact h
  | some d =>
    have he : w.receiver.subscribeService false w.groups k s y t =
        ({ w.receiver with subscriptions := w.receiver.subscriptions.subscribe k s.toNat (Udp.Subscription.new y t) },
          if w.receiver.subscriptions.anyService then w.groups else Udp.Groups.join w.groups (Address.node d).toIp, .ok) := by
      unfold Udp.Receiver.subscribeService Udp.Receiver.serviceSubscribeCheck
      cases ha : w.receiver.subscriptions.anyService <;> simp [hid]
    rw [he]
    refine ⟨fun ip => ?_, fun hn => by simp [hid] at hn⟩
    simp only [udpHas, hm, service_any _ hk, hid, Option.some.injEq, and_true]
    have hg := h.groups ip
    simp only [hid, Option.some.injEq] at hg
    cases ha : w.receiver.subscriptions.anyService with
    | true => simpa [ha, udpHas] using hg
    | false =>
      simp only [ha, Bool.false_eq_true, and_false, exists_false, or_false, if_false] at hg ⊢
      unfold Udp.Groups.join
      by_cases hi : ip = (Address.node d).toIp
      · simp [hi]
      · rw [if_neg hi, hg]
        constructor
        · exact .inl
        · rintro (h | ⟨_, rfl, h⟩)
          · exact h
          · exact absurd h hi

theorem inGroups_unsubscribeService {w : Udp.World} (h : InGroups w) {k : Kind} (hk : k ≠ .message) (s : ServiceId) :
    InGroups ⟨(w.receiver.unsubscribeService false w.groups k s).1, (w.receiver.unsubscribeService false w.groups k s).2⟩ := by
  have hm : ∀ p q, ((w.receiver.subscriptions.unsubscribe k p).find .message q).isSome = udpHas w .message q := by
    intro p q
    rw [Udp.find_unsubscribe, if_neg (fun e => hk e.1.symm)]
    rfl
  have hmono : (w.receiver.subscriptions.unsubscribe k s.toNat).anyService = true → w.receiver.subscriptions.anyService = true := by
    simp only [Udp.anyService_iff, Udp.find_unsubscribe]
    rintro ⟨p, hp⟩
    refine ⟨p, ?_⟩
    rcases hp with hp | hp
    · left; split at hp
      · simp at hp
      · exact hp
    · right; split at hp
      · simp at hp
      · exact hp
  refine ⟨fun ip => ?_, fun hn => ?_⟩
  · have hg := h.groups ip
    simp only [Udp.Receiver.unsubscribeService, Udp.Receiver.serviceUnsubscribeCheck, udpHas, hm]
    cases hid : w.receiver.nodeId with
    | none => simpa [hid, udpHas] using hg
    | some d =>
      simp only [hid, Option.some.injEq] at hg
      cases ha : (w.receiver.subscriptions.unsubscribe k s.toNat).anyService with
      | true =>
        rw [hmono ha] at hg
        simpa [udpHas] using hg
      | false =>
        simp only [Bool.not_false, if_true, Bool.false_eq_true, if_false, Udp.Groups.leave, and_false, exists_false, or_false]
        by_cases hi : ip = (Address.node d).toIp
        · rw [if_pos hi]
          simp only [Bool.false_eq_true, false_iff]
          rintro ⟨s', -, h'⟩
          have := Udp.C39_injective _ _ (hi.symm.trans h')
          cases this
        · rw [if_neg hi, hg]
          constructor
          · rintro (h | ⟨_, rfl, h, -⟩)
            · exact h
            · exact absurd h hi
          · exact .inl
  · have hb := h.anonymous hn
    cases ha : (w.receiver.subscriptions.unsubscribe k s.toNat).anyService with
    | true => rw [hmono ha] at hb; cases hb
    | false => exact ha

/-- A call of the receiver, other than one that changes an ID. -/
theorem inGroups_call {w : Udp.World} (h : InGroups w) (err : E) (c : RxCall NodeId16) (hc : ∀ i, c = .setId i → w.receiver.nodeId = none) : InGroups (udpCall (false, err) w c).1 := by
  cases c with
  | subscribeMessage s y t =>
    refine ⟨fun ip => ?_, h.anonymous⟩
    have hg := h.groups ip
    simp only [udpCall, Udp.Receiver.subscribeMessage, udpHas, Udp.find_subscribe, Bool.false_eq_true, if_false, Udp.Groups.join, true_and,
      show (w.receiver.subscriptions.subscribe .message s.toNat (Udp.Subscription.new y t)).anyService = w.receiver.subscriptions.anyService from rfl]
    by_cases hi : ip = (Address.multicast s).toIp
    · rw [if_pos hi]
      exact iff_of_true rfl (.inl ⟨s, by simp, hi⟩)
    · rw [if_neg hi, hg]
      refine or_congr (exists_congr fun s' => ?_) Iff.rfl
      by_cases hs : s'.toNat = s.toNat
      · have := BitVec.eq_of_toNat_eq hs
        subst this
        simp [hi]
      · simp [hs, udpHas]
  | unsubscribeMessage s =>
    refine ⟨fun ip => ?_, h.anonymous⟩
    have hg := h.groups ip
    simp only [udpCall, Udp.Receiver.unsubscribeMessage, udpHas, Udp.find_unsubscribe, Bool.false_eq_true, if_false, Udp.Groups.leave, true_and,
      show (w.receiver.subscriptions.unsubscribe .message s.toNat).anyService = w.receiver.subscriptions.anyService from rfl]
    by_cases hi : ip = (Address.multicast s).toIp
    · rw [if_pos hi]
      simp only [Bool.false_eq_true, false_iff]
      rintro (⟨s', h1, h2⟩ | ⟨d, -, h2, -⟩)
      · have := Udp.C39_injective _ _ (hi.symm.trans h2)
        cases this
        simp at h1
      · have := Udp.C39_injective _ _ (hi.symm.trans h2)
        cases this
    · rw [if_neg hi, hg]
      refine or_congr (exists_congr fun s' => ?_) Iff.rfl
      by_cases hs : s'.toNat = s.toNat
      · have := BitVec.eq_of_toNat_eq hs
        subst this
        simp [hi]
      · simp [hs, udpHas]
  | subscribeRequest s y t => exact inGroups_subscribeService h (by decide) s y t
  | unsubscribeRequest s => exact inGroups_unsubscribeService h (by decide) s
  | subscribeResponse s y t => exact inGroups_subscribeService h (by decide) s y t
  | setId i =>
    have hn := hc i rfl
    have ha := h.anonymous hn
    refine ⟨fun ip => ?_, fun h => by cases h⟩
    have hg := h.groups ip
    simp only [hn, ha] at hg
    simp only [udpCall, Udp.Receiver.setId, udpHas, ha]
    simpa [udpHas] using hg

theorem inGroups_calls {err : E} (cs : List (RxCall NodeId16)) : ∀ (q : Udp.World × Subscribed E), InGroups q.1 →
    (∀ c ∈ cs, ∀ i, c ≠ .setId i) → InGroups (cs.foldl (fun q c => udpCall (false, err) q.1 c) q).1 := by
  induction cs with
  | nil => exact fun q h _ => h
  | cons c cs ih =>
    intro q h hc
    exact ih _ (inGroups_call h err c (fun i e => absurd e (hc c List.mem_cons_self i))) fun c' hm => hc c' (List.mem_cons_of_mem _ hm)

theorem inGroups_new (id : Option NodeId16) : InGroups (Udp.World.new id) := by
  refine ⟨fun ip => ?_, fun _ => rfl⟩
  simp [Udp.World.new, udpHas, Udp.Receiver.new, Udp.Subscriptions.new, Udp.Subscriptions.find, Udp.Subscriptions.get, Udp.Subscriptions.anyService]

theorem anyService_has (w w' : Udp.World) (h : ∀ k p, udpHas w' k p = udpHas w k p) : w'.receiver.subscriptions.anyService = w.receiver.subscriptions.anyService := by
  rw [Bool.eq_iff_iff, Udp.anyService_iff, Udp.anyService_iff]
  refine exists_congr fun p => or_congr ?_ ?_
  · exact Eq.to_iff (congrArg (· = true) (h .request p))
  · exact Eq.to_iff (congrArg (· = true) (h .response p))

/-- The calls of the receiver that a function of the node makes: only `set_node_id` sets the ID. -/
theorem step_setId (tops : TrackerOps NodeId16 Tid64 Trk) (n : CoreNode NodeId16 Tid64 Trk) (op : Node.Op NodeId16 Tid64 E) (h : ∀ env i, op ≠ .setNodeId env i) :
    ∀ c ∈ (n.step tid64 tops op).rx, ∀ i, c ≠ .setId i := by
  cases op with
  | setNodeId env i => exact absurd rfl (h env i)
  | startPublishing env s t p =>
    simp only [CoreNode.step, CoreNode.startPublishing]
    (repeat' split) <;> simp
  | stopPublishing env s => simp [CoreNode.step, CoreNode.stopPublishing]
  | publish env s p l =>
    simp only [CoreNode.step, CoreNode.publish]
    (repeat' split) <;> simp
  | startSendingRequests env s t y p =>
    simp only [CoreNode.step, CoreNode.startSendingRequests]
    (repeat' split) <;> simp
  | stopSendingRequests env s => simp [CoreNode.step, CoreNode.stopSendingRequests]
  | sendRequest env s p d l =>
    simp only [CoreNode.step, CoreNode.sendRequest]
    (repeat' split) <;> simp
  | subscribeMessage env s y t => simp [CoreNode.step, CoreNode.subscribeMessage]
  | unsubscribeMessage env s => simp [CoreNode.step, CoreNode.unsubscribeMessage]
  | subscribeRequest env s y t => simp [CoreNode.step, CoreNode.subscribeRequest]
  | unsubscribeRequest env s => simp [CoreNode.step, CoreNode.unsubscribeRequest]
  | sendResponse env k t p =>
    simp only [CoreNode.step, CoreNode.sendResponse]
    (repeat' split) <;> simp

theorem good_lawful (mtu : Nat) (err : E) : Lawful (fun (_ : Unit) => udpCall (false, err)) (UdpArrives mtu) (UdpGood mtu) udpHas (fun w => w.receiver.nodeId) where
  good_call _ := (udp_lawful mtu).good_call (false, err)
  has_call _ := (udp_lawful mtu).has_call (false, err)
  id_call _ := (udp_lawful mtu).id_call (false, err)
  arrive := (udp_lawful (E := E) mtu).arrive

theorem arrives_groups {mtu : Nat} {w w' : Udp.World} (h : UdpArrives mtu w w') : w'.groups = w.groups := by
  obtain ⟨p, ts, h⟩ := h
  simp only [Udp.World.step, Option.map_eq_some_iff, Prod.mk.injEq] at h
  obtain ⟨q, -, rfl, -⟩ := h
  rfl

theorem inGroups_arrive {mtu : Nat} {w w' : Udp.World} (hg : UdpGood mtu w) (h : InGroups w) (ha : UdpArrives mtu w w') : InGroups w' := by
  obtain ⟨-, hh, hi⟩ := (udp_lawful (E := Unit) mtu).arrive w w' hg ha
  have hs := anyService_has w w' hh
  refine ⟨fun ip => ?_, fun hn => ?_⟩
  · rw [arrives_groups ha, h.groups ip, hs, hi]
    simp only [hh]
  · rw [hs]; exact h.anonymous (hi ▸ hn)

/-- Calls that set no ID keep the ID. -/
theorem calls_id {mtu : Nat} {err : E} (cs : List (RxCall NodeId16)) : ∀ (q : Udp.World × Subscribed E), UdpGood mtu q.1 → (∀ c ∈ cs, ∀ i, c ≠ .setId i) →
    (cs.foldl (fun q c => udpCall (false, err) q.1 c) q).1.receiver.nodeId = q.1.receiver.nodeId := by
  induction cs with
  | nil => exact fun q _ _ => rfl
  | cons c cs ih =>
    intro q hg hc
    refine (ih _ ((good_lawful mtu err).good_call () _ c hg) fun c' hm => hc c' (List.mem_cons_of_mem _ hm)).trans ?_
    refine ((good_lawful mtu err).id_call () _ c hg).trans ?_
    cases c with
    | setId i => exact absurd rfl (hc _ List.mem_cons_self i)
    | _ => rfl

theorem good_uses {mtu : Nat} {tops : TrackerOps NodeId16 Tid64 Trk} {err : E} {id : Option NodeId16} {P R : Nat}
    {trace : List (Node.Op NodeId16 Tid64 E × Answer Tid64 E)} {n : RxNode NodeId16 Tid64 Trk Udp.World} (h : GoodSocketHistory mtu tops err id P R trace n) :
    UsesInv (UdpGood mtu) udpHas (fun w => w.receiver.nodeId) trace n :=
  uses_history (good_lawful mtu err) (uses_start ⟨⟨id, [], [], rfl⟩, fun k => by cases k <;> exact List.nodup_nil⟩ (fun k p => by cases k <;> rfl) rfl) h

/-- Calls other than `set_node_id`. -/
theorem keeps_head (id : Option NodeId16) (q : Subscribed E) (op : Node.Op NodeId16 Tid64 E) (a : Answer Tid64 E) (earlier : List (Node.Op NodeId16 Tid64 E × Answer Tid64 E))
    (h : ∀ env i, op ≠ .setNodeId env i) :
    identified id ((withSubscribed q op, a) :: earlier) = identified id earlier ∧ (IdKept id ((withSubscribed q op, a) :: earlier) ↔ IdKept id earlier) := by
  cases op with
  | setNodeId env i => exact absurd rfl (h env i)
  | _ => exact ⟨rfl, Iff.rfl⟩

theorem good_groups {mtu : Nat} {tops : TrackerOps NodeId16 Tid64 Trk} {err : E} {id : Option NodeId16} {P R : Nat}
    {trace : List (Node.Op NodeId16 Tid64 E × Answer Tid64 E)} {n : RxNode NodeId16 Tid64 Trk Udp.World} (h : GoodSocketHistory mtu tops err id P R trace n) :
    n.rx.receiver.nodeId.isSome = identified id trace ∧ (IdKept id trace → InGroups n.rx) := by
  induction h with
  | new => exact ⟨rfl, fun _ => inGroups_new id⟩
  | @call trace n x op h ih =>
    have hg := (good_uses h).good
    by_cases hop : ∃ env i, op = .setNodeId env i
    · obtain ⟨env, i, rfl⟩ := hop
      refine ⟨rfl, fun hk => ?_⟩
      obtain ⟨h1, h2⟩ : identified id trace = false ∧ IdKept id trace := hk
      rw [← ih.1] at h1
      exact inGroups_call (ih.2 h2) err (.setId i) fun _ _ => by simpa using h1
    · have hop' : ∀ env i, op ≠ .setNodeId env i := fun env i e => hop ⟨env, i, e⟩
      have hs := step_setId tops n.core op hop'
      obtain ⟨k1, k2⟩ := keeps_head id (((n.core.step tid64 tops op).rx.foldl (fun q c => udpCall (false, err) q.1 c) (n.rx, .ok)).2) op
        (n.call tid64 tops (udpCall (false, err)) op).2.2 trace hop'
      refine ⟨?_, fun hk => inGroups_calls _ (n.rx, .ok) (ih.2 (k2.mp hk)) hs⟩
      refine Eq.trans ?_ (ih.1.trans k1.symm)
      exact congrArg Option.isSome (calls_id _ (n.rx, .ok) hg hs)
  | @arrive trace n r h ha ih =>
    have hg := (good_uses h).good
    refine ⟨?_, fun hk => inGroups_arrive hg (ih.2 hk) ha⟩
    rw [← ih.1, ((udp_lawful (E := E) mtu).arrive _ _ hg ha).2.2]

/-! ### The property -/

/-- **C142** (part: for responses only that the node once sent requests for a service; the property says that it still does; and IDs that are set while the node has one are
excluded). While the operations of the socket succeed, the socket of a node is a member of exactly these groups: those of the subjects to which the node is subscribed, and that of
its own ID if it is subscribed to a service or started to send requests for one. -/
theorem C142_groups_partial {mtu : Nat} {tops : TrackerOps NodeId16 Tid64 Trk} {err : E} {id : Option NodeId16} {P R : Nat}
    {trace : List (Node.Op NodeId16 Tid64 E × Answer Tid64 E)} {n : RxNode NodeId16 Tid64 Trk Udp.World} (h : GoodSocketHistory mtu tops err id P R trace n)
    (hk : IdKept id trace) (ip : BitVec 32) :
    n.rx.groups ip = true ↔ (∃ s : SubjectId, listening s trace = true ∧ ip = (Address.multicast s).toIp) ∨
      (∃ d, n.core.nodeId = some d ∧ ip = (Address.node d).toIp ∧ ∃ s : ServiceId, serving s trace = true ∨ started s trace = true) := by
  have hu := good_uses h
  have hany : n.rx.receiver.subscriptions.anyService = true ↔ ∃ s : ServiceId, serving s trace = true ∨ started s trace = true := by
    rw [Udp.anyService_iff]
    constructor
    · rintro ⟨p, hp⟩
      have hb : p < 2 ^ 9 := by rcases hp with hp | hp
                                · exact hu.bound .request p hp
                                · exact hu.bound .response p hp
      have he : (BitVec.ofNat 9 p).toNat = p := by rw [BitVec.toNat_ofNat, Nat.mod_eq_of_lt hb]
      refine ⟨BitVec.ofNat 9 p, ?_⟩
      rw [← hu.req, ← hu.resp, he]
      exact hp
    · rintro ⟨s, hs⟩
      rw [← hu.req, ← hu.resp] at hs
      exact ⟨s.toNat, hs⟩
  rw [((good_groups h).2 hk).groups ip, hany, hu.id]
  simp only [hu.msg]

/-! ### Cases -/

/-- The node and the trace after calls. -/
def goodCalls (n : RxNode NodeId16 Tid64 (IMap NodeId16 Tid64) Udp.World) : List (Node.Op NodeId16 Tid64 Unit) → List (Node.Op NodeId16 Tid64 Unit × Answer Tid64 Unit) →
    List (Node.Op NodeId16 Tid64 Unit × Answer Tid64 Unit) × RxNode NodeId16 Tid64 (IMap NodeId16 Tid64) Udp.World
  | [], trace => (trace, n)
  | op :: rest, trace => goodCalls (n.call tid64 fourTracker (udpCall (false, ())) op).1 rest ((n.call tid64 fourTracker (udpCall (false, ())) op).2 :: trace)

theorem goodCalls_history {id : Option NodeId16} (calls : List (Node.Op NodeId16 Tid64 Unit)) : ∀ {n trace}, GoodSocketHistory 1500 fourTracker () id 4 4 trace n →
    GoodSocketHistory 1500 fourTracker () id 4 4 (goodCalls n calls trace).1 (goodCalls n calls trace).2 := by
  induction calls with
  | nil => exact fun h => h
  | cons c calls ih => exact fun h => ih (.call () c h)

/-- A node without ID subscribes to subjects 100 and 101 and fails to subscribe to service 8; it gets the ID 7, subscribes to service 8, starts to send requests for service 7, and
unsubscribes from subject 101. -/
def groupCalls : List (Node.Op NodeId16 Tid64 Unit) :=
  [.subscribeMessage calm 100#13 7 1000#32, .subscribeMessage calm 101#13 7 1000#32, .subscribeRequest calm 8#9 7 1000#32, .setNodeId calm (Udp.node 7#16),
    .subscribeRequest calm 8#9 7 1000#32, .startSendingRequests calm 7#9 1000#32 7 4#3, .unsubscribeMessage calm 101#13]

/-- The node without ID. -/
def quietNode : RxNode NodeId16 Tid64 (IMap NodeId16 Tid64) Udp.World := ⟨CoreNode.new none 4 4, Udp.World.new none⟩

/-- The calls meet the hypotheses, and the socket is in two groups of the four. -/
example : GoodSocketHistory 1500 fourTracker () none 4 4 (goodCalls quietNode groupCalls []).1 (goodCalls quietNode groupCalls []).2 ∧ IdKept none (goodCalls quietNode groupCalls []).1 ∧
    (goodCalls quietNode groupCalls []).2.rx.groups (Address.multicast 100#13).toIp = true ∧ (goodCalls quietNode groupCalls []).2.rx.groups (Address.multicast 101#13).toIp = false ∧
    (goodCalls quietNode groupCalls []).2.rx.groups (Address.node (Udp.node 7#16)).toIp = true ∧ (goodCalls quietNode groupCalls []).2.rx.groups (Address.node (Udp.node 8#16)).toIp = false :=
  ⟨goodCalls_history _ .new, ⟨rfl, trivial⟩, by decide +kernel, by decide +kernel, by decide +kernel, by decide +kernel⟩

/-- The node then unsubscribes from the service and stops sending requests. -/
def stopCalls : List (Node.Op NodeId16 Tid64 Unit) := groupCalls ++ [.unsubscribeRequest calm 8#9, .stopSendingRequests calm 7#9]

/-- The node then gets another ID. -/
def otherIdCalls : List (Node.Op NodeId16 Tid64 Unit) := groupCalls ++ [.setNodeId calm (Udp.node 9#16)]

/-- **C142**, the negation: a node that unsubscribed from every service and stopped sending requests is still a member of the group of its ID. -/
theorem C142_stop_counterexample : ∃ (trace : List (Node.Op NodeId16 Tid64 Unit × Answer Tid64 Unit)) (n : RxNode NodeId16 Tid64 (IMap NodeId16 Tid64) Udp.World),
    GoodSocketHistory 1500 fourTracker () none 4 4 trace n ∧ IdKept none trace ∧ (∀ s, serving s trace = false) ∧ (∀ s, requesting s trace = false) ∧
    n.core.nodeId = some (Udp.node 7#16) ∧ n.rx.groups (Address.node (Udp.node 7#16)).toIp = true :=
  ⟨(goodCalls quietNode stopCalls []).1,
    (goodCalls quietNode stopCalls []).2, goodCalls_history _ .new, ⟨rfl, trivial⟩,
    by decide +kernel, by decide +kernel, by decide +kernel, by decide +kernel⟩

/-- **C142**, the negation: a node that serves requests and gets another ID is not a member of the group of its ID, and is still a member of that of its former ID. -/
theorem C142_set_id_counterexample : ∃ (trace : List (Node.Op NodeId16 Tid64 Unit × Answer Tid64 Unit)) (n : RxNode NodeId16 Tid64 (IMap NodeId16 Tid64) Udp.World),
    GoodSocketHistory 1500 fourTracker () none 4 4 trace n ∧ serving 8#9 trace = true ∧ n.core.nodeId = some (Udp.node 9#16) ∧
    n.rx.groups (Address.node (Udp.node 9#16)).toIp = false ∧ n.rx.groups (Address.node (Udp.node 7#16)).toIp = true :=
  ⟨(goodCalls quietNode otherIdCalls []).1, (goodCalls quietNode otherIdCalls []).2,
    goodCalls_history _ .new, by decide +kernel, by decide +kernel, by decide +kernel, by decide +kernel⟩

end Verif.End
