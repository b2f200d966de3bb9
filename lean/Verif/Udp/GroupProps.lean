import Verif.Udp.RxProps
import Verif.Udp.AddrProps

/-! Multicast groups and destinations (C35, C40). -/

namespace Verif.Udp

open Verif.Hdr (NodeId16 Tid64 TransportHeader)

/-! ### Specification -/

/-- The socket operations of the event succeed, and it does not change the node ID. -/
def Op.Normal : Op → Prop
  | .packet _ => True
  | .subscribeMessage fails _ _ _ => fails = false
  | .unsubscribeMessage fails _ => fails = false
  | .subscribeRequest fails _ _ _ => fails = false
  | .unsubscribeRequest fails _ => fails = false
  | .subscribeResponse fails _ _ _ => fails = false
  | .unsubscribeResponse fails _ => fails = false
  | .setId _ => False

/-- Whether a port is subscribed after one more event. A node without an ID cannot subscribe to services. -/
def subscribedNext (id : Option NodeId16) (before : Kind → Nat → Bool) : Op → Kind → Nat → Bool
  | .subscribeMessage _ subject _ _, k, port => if k = .message ∧ port = subject.toNat then true else before k port
  | .unsubscribeMessage _ subject, k, port => if k = .message ∧ port = subject.toNat then false else before k port
  | .subscribeRequest _ service _ _, k, port => if id.isSome ∧ k = .request ∧ port = service.toNat then true else before k port
  | .unsubscribeRequest _ service, k, port => if k = .request ∧ port = service.toNat then false else before k port
  | .subscribeResponse _ service _ _, k, port => if id.isSome ∧ k = .response ∧ port = service.toNat then true else before k port
  | .unsubscribeResponse _ service, k, port => if k = .response ∧ port = service.toNat then false else before k port
  | .packet _, k, port => before k port
  | .setId _, k, port => before k port

/-- Whether a port is subscribed after a history. -/
def subscribed (id : Option NodeId16) (ops : List Op) : Kind → Nat → Bool := ops.foldl (subscribedNext id) (fun _ _ => false)

/-- The address is that of a subscribed subject, or that of this node while some service is subscribed. -/
def WantedGroup (id : Option NodeId16) (ops : List Op) (ip : BitVec 32) : Prop :=
  (∃ subject : SubjectId, subscribed id ops .message subject.toNat = true ∧ ip = (Address.multicast subject).toIp) ∨
  ∃ self, id = some self ∧ ip = (Address.node self).toIp ∧ ∃ port, subscribed id ops .request port = true ∨ subscribed id ops .response port = true

/-! ### Proofs -/

theorem find_isSome_iff (s : Subscriptions) (k : Kind) (port : Nat) : (s.find k port).isSome = true ↔ port ∈ (s.get k).map (·.1) := by
  unfold Subscriptions.find
  rw [Option.isSome_map, List.find?_isSome]
  simp

theorem anyService_iff (s : Subscriptions) : s.anyService = true ↔ ∃ port, (s.find .request port).isSome = true ∨ (s.find .response port).isSome = true := by
  simp only [find_isSome_iff]
  unfold Subscriptions.anyService Subscriptions.get
  cases hr : s.request with
  | cons e l => simp; exact ⟨e.1, Or.inl (Or.inl rfl)⟩
  | nil =>
    cases hs : s.response with
    | cons e l => simp
    | nil => simp

/-- The table and the groups agree with the history. -/
structure Agrees (id : Option NodeId16) (ops : List Op) (w : World) : Prop where
  nodeId : w.receiver.nodeId = id
  table : ∀ k port, (w.receiver.subscriptions.find k port).isSome = subscribed id ops k port
  groups : ∀ ip, w.groups ip = true ↔ WantedGroup id ops ip

theorem subscribed_snoc (id : Option NodeId16) (ops : List Op) (op : Op) : subscribed id (ops ++ [op]) = subscribedNext id (subscribed id ops) op := by
  unfold subscribed
  rw [List.foldl_append]
  rfl

/-- The last event changes at most whether one subject is subscribed. -/
theorem wanted_message {id : Option NodeId16} {ops : List Op} {op : Op} {subject : SubjectId} {b : Bool}
    (h : ∀ k port, subscribed id (ops ++ [op]) k port = if k = .message ∧ port = subject.toNat then b else subscribed id ops k port) (ip : BitVec 32) :
    WantedGroup id (ops ++ [op]) ip ↔ if ip = (Address.multicast subject).toIp then b = true else WantedGroup id ops ip := by
  have hreq : ∀ port, subscribed id (ops ++ [op]) .request port = subscribed id ops .request port := fun port => by rw [h]; simp
  have hres : ∀ port, subscribed id (ops ++ [op]) .response port = subscribed id ops .response port := fun port => by rw [h]; simp
  unfold WantedGroup
  simp only [hreq, hres, h, true_and]
  by_cases hip : ip = (Address.multicast subject).toIp
  · rw [if_pos hip]
    constructor
    · rintro (⟨s, hs, he⟩ | ⟨self, _, he, _⟩)
      · have := C39_injective _ _ (hip.symm.trans he)
        cases this
        simpa using hs
      · have := C39_injective _ _ (hip.symm.trans he)
        cases this
    · intro hb
      exact Or.inl ⟨subject, by simpa using hb, hip⟩
  · rw [if_neg hip]
    have : ∀ s : SubjectId, ip = (Address.multicast s).toIp → ¬ s.toNat = subject.toNat := by
      intro s hs he
      have : s = subject := BitVec.eq_of_toNat_eq he
      subst this
      exact hip hs
    constructor
    · rintro (⟨s, hs, he⟩ | h)
      · rw [if_neg (this s he)] at hs
        exact Or.inl ⟨s, hs, he⟩
      · exact Or.inr h
    · rintro (⟨s, hs, he⟩ | h)
      · exact Or.inl ⟨s, by rw [if_neg (this s he)]; exact hs, he⟩
      · exact Or.inr h

/-- The last event changes at most whether services are subscribed. -/
theorem wanted_service {id : Option NodeId16} {ops : List Op} {op : Op} {self : NodeId16} (hid : id = some self)
    (h : ∀ port, subscribed id (ops ++ [op]) .message port = subscribed id ops .message port) (ip : BitVec 32) :
    WantedGroup id (ops ++ [op]) ip ↔ if ip = (Address.node self).toIp then
      ∃ port, subscribed id (ops ++ [op]) .request port = true ∨ subscribed id (ops ++ [op]) .response port = true else WantedGroup id ops ip := by
  unfold WantedGroup
  simp only [h]
  by_cases hip : ip = (Address.node self).toIp
  · rw [if_pos hip]
    constructor
    · rintro (⟨s, hs, he⟩ | ⟨s, _, _, hs⟩)
      · have := C39_injective _ _ (hip.symm.trans he)
        cases this
      · exact hs
    · intro hs
      exact Or.inr ⟨self, hid, hip, hs⟩
  · rw [if_neg hip]
    have : ∀ s, id = some s → ¬ ip = (Address.node s).toIp := by
      intro s hs
      rw [hid] at hs
      cases hs
      exact hip
    constructor
    · rintro (h | ⟨s, hs, he, _⟩)
      · exact Or.inl h
      · exact absurd he (this s hs)
    · rintro (h | ⟨s, hs, he, _⟩)
      · exact Or.inl h
      · exact absurd he (this s hs)

theorem wanted_same {id : Option NodeId16} {ops : List Op} {op : Op} (h : subscribed id (ops ++ [op]) = subscribed id ops) (ip : BitVec 32) :
    WantedGroup id (ops ++ [op]) ip ↔ WantedGroup id ops ip := by
  unfold WantedGroup
  rw [h]

theorem agrees_subscribeService {id : Option NodeId16} {ops : List Op} {w : World} {op : Op} (hw : Agrees id ops w) (k : Kind) (hk : k ≠ .message)
    (service : ServiceId) (extent : Nat) (timeout : Duration)
    (hop : subscribed id (ops ++ [op]) = fun k' port => if id.isSome ∧ k' = k ∧ port = service.toNat then true else subscribed id ops k' port) :
    Agrees id (ops ++ [op]) ⟨(w.receiver.subscribeService false w.groups k service extent timeout).1,
      (w.receiver.subscribeService false w.groups k service extent timeout).2.1⟩ := by
  have hmsg : ∀ port, subscribed id (ops ++ [op]) .message port = subscribed id ops .message port := by
    intro port
    rw [hop]
    simp only [ite_eq_right_iff]
    rintro ⟨_, h, _⟩
    exact absurd h.symm hk
  cases hid : id with
  | none =>
    have hn : w.receiver.nodeId = none := by rw [hw.nodeId, hid]
    have hsame : subscribed id (ops ++ [op]) = subscribed id ops := by
      rw [hop]; funext k' port; simp [hid]
    rw [← hid]
    unfold Receiver.subscribeService Receiver.serviceSubscribeCheck
    simp only [hn, Option.isSome_none]
    exact ⟨hw.nodeId, fun k' port => by rw [hsame]; exact hw.table k' port, fun ip => by rw [wanted_same hsame]; exact hw.groups ip⟩
  | some self =>
    have hn : w.receiver.nodeId = some self := by rw [hw.nodeId, hid]
    rw [← hid]
    have htable : ∀ k' port, ((w.receiver.subscriptions.subscribe k service.toNat (Subscription.new extent timeout)).find k' port).isSome =
        subscribed id (ops ++ [op]) k' port := by
      intro k' port
      rw [find_subscribe, hop]
      simp only [hid, Option.isSome_some, true_and]
      split
      · rfl
      · rw [← hid]; exact hw.table k' port
    have hany : ∃ port, subscribed id (ops ++ [op]) .request port = true ∨ subscribed id (ops ++ [op]) .response port = true := by
      refine ⟨service.toNat, ?_⟩
      rw [hop]
      cases k with
      | message => exact absurd rfl hk
      | request => left; simp [hid]
      | response => right; simp [hid]
    unfold Receiver.subscribeService Receiver.serviceSubscribeCheck
    simp only [hn]
    cases ha : w.receiver.subscriptions.anyService with
    | false =>
      refine ⟨hid.symm, htable, ?_⟩
      intro ip
      rw [wanted_service hid hmsg]
      simp only [Bool.not_false, if_true, Bool.false_eq_true, if_false, Option.isSome_some, Groups.join]
      split
      · simpa using hany
      · exact hw.groups ip
    | true =>
      refine ⟨hid.symm, htable, ?_⟩
      intro ip
      rw [wanted_service hid hmsg]
      simp only [Bool.not_true, Bool.false_eq_true, if_false, Option.isSome_some, if_true]
      split
      · rename_i hip
        simp only [hany, iff_true]
        rw [hw.groups]
        refine Or.inr ⟨self, hid, hip, ?_⟩
        obtain ⟨port, hp⟩ := (anyService_iff _).mp ha
        exact ⟨port, by rw [← hw.table, ← hw.table]; exact hp⟩
      · exact hw.groups ip

theorem agrees_unsubscribeService {id : Option NodeId16} {ops : List Op} {w : World} {op : Op} (hw : Agrees id ops w) (k : Kind) (hk : k ≠ .message)
    (service : ServiceId)
    (hop : subscribed id (ops ++ [op]) = fun k' port => if k' = k ∧ port = service.toNat then false else subscribed id ops k' port)
    (hnone : id = none → subscribed id ops k service.toNat = false) :
    Agrees id (ops ++ [op]) ⟨(w.receiver.unsubscribeService false w.groups k service).1, (w.receiver.unsubscribeService false w.groups k service).2⟩ := by
  have hmsg : ∀ port, subscribed id (ops ++ [op]) .message port = subscribed id ops .message port := by
    intro port
    rw [hop]
    simp only [Bool.if_false_left, Bool.and_eq_right_iff_imp, Bool.not_eq_true', decide_eq_false_iff_not, not_and]
    intro _ h
    exact absurd h.symm hk
  have htable : ∀ k' port, ((w.receiver.subscriptions.unsubscribe k service.toNat).find k' port).isSome = subscribed id (ops ++ [op]) k' port := by
    intro k' port
    rw [find_unsubscribe, hop]
    dsimp only
    split
    · rfl
    · exact hw.table k' port
  cases hid : id with
  | none =>
    have hn : w.receiver.nodeId = none := by rw [hw.nodeId, hid]
    have hsame : subscribed id (ops ++ [op]) = subscribed id ops := by
      rw [hop]; funext k' port
      split
      · rename_i h; rw [h.1, h.2, hnone hid]
      · rfl
    rw [← hid]
    unfold Receiver.unsubscribeService Receiver.serviceUnsubscribeCheck
    simp only [hn]
    exact ⟨hid.symm, htable, fun ip => by rw [wanted_same hsame]; exact hw.groups ip⟩
  | some self =>
    have hn : w.receiver.nodeId = some self := by rw [hw.nodeId, hid]
    rw [← hid]
    have hiff := anyService_iff (w.receiver.subscriptions.unsubscribe k service.toNat)
    simp only [htable] at hiff
    unfold Receiver.unsubscribeService Receiver.serviceUnsubscribeCheck
    simp only [hn]
    cases ha : (w.receiver.subscriptions.unsubscribe k service.toNat).anyService with
    | false =>
      refine ⟨hid.symm, htable, ?_⟩
      intro ip
      rw [wanted_service hid hmsg, ← hiff, ha]
      simp only [Bool.not_false, if_true, Bool.false_eq_true, if_false, Groups.leave]
      split
      · simp
      · exact hw.groups ip
    | true =>
      refine ⟨hid.symm, htable, ?_⟩
      intro ip
      rw [wanted_service hid hmsg, ← hiff, ha]
      simp only [Bool.not_true, Bool.false_eq_true, if_false]
      split
      · rename_i hip
        simp only [iff_true]
        rw [hw.groups]
        refine Or.inr ⟨self, hid, hip, ?_⟩
        obtain ⟨port, hp⟩ := hiff.mp ha
        refine ⟨port, ?_⟩
        rw [hop] at hp
        rcases hp with hp | hp
        · left; dsimp only at hp; split at hp
          · cases hp
          · exact hp
        · right; dsimp only at hp; split at hp
          · cases hp
          · exact hp
      · exact hw.groups ip

theorem subscribed_anonymous (ops : List Op) : ∀ k port, k ≠ .message → subscribed none ops k port = false := by
  induction ops using snoc_induction with
  | nil => intro k port _; rfl
  | snoc ops op ih =>
    intro k port hk
    rw [subscribed_snoc]
    have := ih k port hk
    cases op <;> simp [subscribedNext, this, hk]

theorem agrees_exec {mtu : Nat} {id : Option NodeId16} (ops : List Op) : ∀ {w : World} {out : List UdpTransfer}, (∀ op ∈ ops, op.Normal) →
    (World.new id).exec mtu ops = some (w, out) → Agrees id ops w := by
  induction ops using snoc_induction with
  | nil =>
    intro w out _ h
    cases h
    refine ⟨rfl, fun k port => by cases k <;> rfl, ?_⟩
    intro ip
    constructor
    · intro h; cases h
    · rintro (⟨_, h, _⟩ | ⟨_, _, _, port, h | h⟩) <;> cases h
  | snoc ops op ih =>
    intro w out hn h
    obtain ⟨w1, out1, out2, h1, h2, -⟩ := exec_snoc h
    have hw := ih (fun op hop => hn op (by simp [hop])) h1
    have hop := hn op (by simp)
    have hnext := subscribed_snoc id ops op
    cases op with
    | packet p =>
      simp only [World.step] at h2
      rw [acceptInner_eq] at h2
      cases hp : p.frame mtu with
      | none => rw [hp] at h2; cases h2; exact ⟨hw.nodeId, fun k port => by rw [hnext]; exact hw.table k port, fun ip => by rw [wanted_same hnext]; exact hw.groups ip⟩
      | some f =>
        rw [hp] at h2
        dsimp only at h2
        cases ha : w1.receiver.acceptFrame f with
        | none => rw [ha] at h2; cases h2
        | some q =>
          obtain ⟨r', o⟩ := q
          rw [ha] at h2
          cases h2
          have hsame : r'.nodeId = w1.receiver.nodeId ∧ ∀ k port, (r'.subscriptions.find k port).isSome = (w1.receiver.subscriptions.find k port).isSome := by
            cases acceptFrame_step ha with
            | unsubscribed hu => exact ⟨rfl, fun _ _ => rfl⟩
            | anonymous sub r' hu hk hid hlen hfind => exact ⟨hid, fun k port => by rw [hfind]⟩
            | session key sub s o r' hk hu hs hid hlen hfind =>
              refine ⟨hid, fun k port => ?_⟩
              rw [hfind]
              split
              · rename_i h; rw [h.1, h.2, hu]; rfl
              · rfl
          exact ⟨hsame.1.trans hw.nodeId, fun k port => by rw [hnext]; exact (hsame.2 k port).trans (hw.table k port),
            fun ip => by rw [wanted_same hnext]; exact hw.groups ip⟩
    | subscribeMessage fails subject extent timeout =>
      have : fails = false := hop
      subst this
      cases h2
      refine ⟨hw.nodeId, ?_, ?_⟩
      · intro k port
        rw [hnext]
        simp only [Receiver.subscribeMessage, Bool.false_eq_true, if_false, find_subscribe, subscribedNext]
        split
        · rfl
        · exact hw.table k port
      · intro ip
        rw [wanted_message (subject := subject) (b := true) (fun k port => by rw [hnext]; rfl)]
        simp only [Receiver.subscribeMessage, Bool.false_eq_true, if_false, Groups.join]
        split
        · simp
        · exact hw.groups ip
    | unsubscribeMessage fails subject =>
      have : fails = false := hop
      subst this
      cases h2
      refine ⟨hw.nodeId, ?_, ?_⟩
      · intro k port
        rw [hnext]
        simp only [Receiver.unsubscribeMessage, find_unsubscribe, subscribedNext]
        split
        · rfl
        · exact hw.table k port
      · intro ip
        rw [wanted_message (subject := subject) (b := false) (fun k port => by rw [hnext]; rfl)]
        simp only [Receiver.unsubscribeMessage, Bool.false_eq_true, if_false, Groups.leave]
        split
        · simp
        · exact hw.groups ip
    | subscribeRequest fails service extent timeout =>
      have : fails = false := hop
      subst this
      cases h2
      exact agrees_subscribeService hw .request (by decide) service extent timeout hnext
    | unsubscribeRequest fails service =>
      have : fails = false := hop
      subst this
      cases h2
      exact agrees_unsubscribeService hw .request (by decide) service hnext (fun h => by rw [h]; exact subscribed_anonymous ops _ _ (by decide))
    | subscribeResponse fails service extent timeout =>
      have : fails = false := hop
      subst this
      cases h2
      exact agrees_subscribeService hw .response (by decide) service extent timeout hnext
    | unsubscribeResponse fails service =>
      have : fails = false := hop
      subst this
      cases h2
      exact agrees_unsubscribeService hw .response (by decide) service hnext (fun h => by rw [h]; exact subscribed_anonymous ops _ _ (by decide))
    | setId id => exact absurd hop (by simp [Op.Normal])

/-- **C40.** While the socket operations succeed and the node ID is not changed, after any history the socket is a member of exactly
the groups of the subscribed subjects and, if and only if some service is subscribed, the group of this node. -/
theorem C40_groups_follow_subscriptions {mtu : Nat} {id : Option NodeId16} {ops : List Op} {w : World} {out : List UdpTransfer}
    (hn : ∀ op ∈ ops, op.Normal) (h : (World.new id).exec mtu ops = some (w, out)) (ip : BitVec 32) : w.groups ip = true ↔ WantedGroup id ops ip :=
  (agrees_exec ops hn h).groups ip

/-- The destination in a header. -/
def destinationOf : Verif.Hdr.DataSpecifier → Option NodeId16
  | .subject _ _ => none
  | .request _ to _ => some to
  | .response _ to _ => some to

/-- **C35** (partial: for a socket that gets only the datagrams sent to its groups; see `C35_counterexample`). While the socket operations
succeed and the node ID is not changed, a service transfer that is returned on a datagram which was sent to a group of the socket has
this node as its destination. -/
theorem C35_destination_partial {mtu : Nat} {id : Option NodeId16} {ops : List Op} {w w' : World} {out ts : List UdpTransfer} {p : Packet}
    {t : UdpTransfer} {d : NodeId16} (hn : ∀ op ∈ ops, op.Normal) (h : (World.new id).exec mtu ops = some (w, out))
    (hgroup : ∀ f d, p.frame mtu = some f → destinationOf f.header.dataSpecifier = some d → w.groups (Address.node d).toIp = true)
    (hstep : w.step mtu (.packet p) = some (w', ts)) (ht : t ∈ ts) (hd : t.header.destination = some d) : id = some d := by
  obtain ⟨p', f, sub, run, start, body, time, h1, h2, h3, h4, h5, h6, h7, h8, h9⟩ := C38_integrity_partial h hstep ht
  cases h1
  have hdest : destinationOf f.header.dataSpecifier = some d := by
    rw [← hd, h9]
    unfold convertResult destinationOf
    cases f.header.dataSpecifier <;> rfl
  rcases (C40_groups_follow_subscriptions hn h _).mp (hgroup f d h2 hdest) with ⟨s, _, he⟩ | ⟨self, hid, he, _⟩
  · cases C39_injective _ _ he
  · cases C39_injective _ _ he
    exact hid

/-- A request from node 42 to `d` on service 430. -/
def requestTo (d : NodeId16) : Packet :=
  { data := Verif.Hdr.encode { frameHeader (demo 0).header 0 true with dataSpecifier := .request (node 42#16) d 430#9 } ++
      [1#8, 2#8] ++ Verif.Crc.le32 (Verif.Crc.crc32c [1#8, 2#8])
    now := 500#32, oomSession := false, oom := false }

/-- A history in which node 7 subscribes to and unsubscribes from services and subjects. -/
def groupHistory : List Op :=
  [.subscribeRequest false 430#9 9 2000000#32, .subscribeResponse false 431#9 9 2000000#32, .subscribeMessage false 7509#13 9 2000000#32,
    .unsubscribeRequest false 430#9, .subscribeMessage false 5#13 9 2000000#32, .unsubscribeMessage false 7509#13]

example : (∀ op ∈ groupHistory, op.Normal) ∧ ((World.new (some (node 7#16))).exec 1500 groupHistory).map (fun p =>
    [p.1.groups (Address.node (node 7#16)).toIp, p.1.groups (Address.multicast 5#13).toIp, p.1.groups (Address.multicast 7509#13).toIp]) =
    some [true, true, false] := by
  refine ⟨?_, by decide +kernel⟩
  intro op hop
  simp only [groupHistory, List.mem_cons, List.not_mem_nil, or_false] at hop
  rcases hop with rfl | rfl | rfl | rfl | rfl | rfl <;> rfl

/-- The hypotheses of `C35_destination_partial` are met by a request to node 7, and it is returned. -/
example : ((World.new (some (node 7#16))).exec 1500 [.subscribeRequest false 430#9 9 2000000#32]).map (fun p =>
      p.1.groups (Address.node (node 7#16)).toIp) = some true ∧
    ((requestTo (node 7#16)).frame 1500).map (fun f => destinationOf f.header.dataSpecifier) = some (some (node 7#16)) ∧
    ((World.new (some (node 7#16))).exec 1500 [.subscribeRequest false 430#9 9 2000000#32, .packet (requestTo (node 7#16))]).map (fun p =>
      p.2.map (·.header.destination)) = some [some (node 7#16)] := by decide +kernel

/-- **C35**, the negation: node 7 returns a request for node 8. The receiver does not look at the destination; that it does not
see such requests is left to the socket, and a socket may get datagrams for groups that other programs have joined. -/
theorem C35_counterexample :
    ((World.new (some (node 7#16))).exec 1500 [.subscribeRequest false 430#9 9 2000000#32, .packet (requestTo (node 8#16))]).map (fun p =>
      p.2.map (·.header.destination)) = some [some (node 8#16)] := by decide +kernel

/-- **C40**, what happens when the node ID changes: node 7 becomes node 8 while a service is subscribed. The socket stays in the group of node 7
and is not in the group of node 8. -/
theorem C40_set_id_counterexample :
    ((World.new (some (node 7#16))).exec 1500 [.subscribeRequest false 430#9 9 2000000#32, .setId (some (node 8#16))]).map (fun p =>
      (p.1.receiver.nodeId, p.1.groups (Address.node (node 7#16)).toIp, p.1.groups (Address.node (node 8#16)).toIp)) =
    some (some (node 8#16), true, false) := by decide +kernel

end Verif.Udp
