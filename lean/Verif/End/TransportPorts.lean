import Verif.End.NodePorts
import Verif.Serial.Props
import Verif.Udp.GroupProps

/-!
C141: a node over a serial line or over UDP receives on the ports it uses. The node and its histories are in `Verif.End.NodePorts`.
-/

namespace Verif.End

open Verif.Node
open Verif.Hdr (NodeId16 Tid64)

variable {Trk E : Type}

/-! ### A node with a serial receiver -/

/-- A call of the serial receiver by the node: the receiver afterwards and its answer (`canadensis_serial/src/rx.rs` L233-291). `x` is whether the allocator fails during the call,
and the error that is made of an `OutOfMemoryError`. -/
def serialCall (x : Bool × E) (r : Serial.Receiver) : RxCall NodeId16 → Serial.Receiver × Subscribed E
  | .subscribeMessage s y t => ((r.subscribe x.1 .message s.toNat y t).1, if (r.subscribe x.1 .message s.toNat y t).2 then .ok else .error x.2)
  | .unsubscribeMessage s => (r.unsubscribe .message s.toNat, .ok)
  | .subscribeRequest s y t => ((r.subscribe x.1 .request s.toNat y t).1,
      if r.nodeId = none then .anonymous else if (r.subscribe x.1 .request s.toNat y t).2 then .ok else .error x.2)
  | .unsubscribeRequest s => (r.unsubscribe .request s.toNat, .ok)
  | .subscribeResponse s y t => ((r.subscribe x.1 .response s.toNat y t).1,
      if r.nodeId = none then .anonymous else if (r.subscribe x.1 .response s.toNat y t).2 then .ok else .error x.2)
  | .setId id => (r.setId (some id), .ok)

/-- What `receive` does to the receiver: it removes expired sessions and handles bytes (`canadensis_serial/src/rx.rs` L214-231). -/
inductive SerialArrives (r : Serial.Receiver) : Serial.Receiver → Prop where
  | clean (now : Instant) : SerialArrives r (r.cleanExpired now)
  | byte {b now oom r' ts} : r.step (.byte b now oom) = some (r', ts) → SerialArrives r r'

/-- Histories of a node over a serial line that starts with ID `id` (`CoreNode::new`, `canadensis/src/node/core.rs` L61-104; `SerialReceiver::new`,
`canadensis_serial/src/rx.rs` L36-53). -/
def SerialNodeHistory (tops : TrackerOps NodeId16 Tid64 Trk) (id : Option NodeId16) (P R : Nat) :
    List (Node.Op NodeId16 Tid64 E × Answer Tid64 E) → RxNode NodeId16 Tid64 Trk Serial.Receiver → Prop :=
  RxHistory tid64 tops serialCall SerialArrives ⟨CoreNode.new id P R, Serial.Receiver.new id⟩

/-! ### A node with a UDP receiver -/

/-- A call of the UDP receiver by the node: the receiver with the groups of its socket afterwards and its answer (`canadensis_udp/src/rx.rs` L182-250). `x` is whether the
operation of the socket fails during the call, and its error. -/
def udpCall (x : Bool × E) (w : Udp.World) : RxCall NodeId16 → Udp.World × Subscribed E
  | .subscribeMessage s y t =>
    let q := w.receiver.subscribeMessage x.1 w.groups s y t
    (⟨q.1, q.2.1⟩, match q.2.2 with | .ok => .ok | .socketError => .error x.2 | .anonymous => .anonymous)
  | .unsubscribeMessage s => let q := w.receiver.unsubscribeMessage x.1 w.groups s; (⟨q.1, q.2⟩, .ok)
  | .subscribeRequest s y t =>
    let q := w.receiver.subscribeService x.1 w.groups .request s y t
    (⟨q.1, q.2.1⟩, match q.2.2 with | .ok => .ok | .socketError => .error x.2 | .anonymous => .anonymous)
  | .unsubscribeRequest s => let q := w.receiver.unsubscribeService x.1 w.groups .request s; (⟨q.1, q.2⟩, .ok)
  | .subscribeResponse s y t =>
    let q := w.receiver.subscribeService x.1 w.groups .response s y t
    (⟨q.1, q.2.1⟩, match q.2.2 with | .ok => .ok | .socketError => .error x.2 | .anonymous => .anonymous)
  | .setId id => ({ w with receiver := w.receiver.setId (some id) }, .ok)

/-- What `receive` does to the receiver: it handles datagrams (`canadensis_udp/src/rx.rs` L162-180). -/
def UdpArrives (mtu : Nat) (w w' : Udp.World) : Prop := ∃ p ts, w.step mtu (.packet p) = some (w', ts)

/-- Histories of a node over UDP that starts with ID `id` (`CoreNode::new`, `canadensis/src/node/core.rs` L61-104; `UdpReceiver::new`, `canadensis_udp/src/rx.rs` L44-53). -/
def UdpNodeHistory (mtu : Nat) (tops : TrackerOps NodeId16 Tid64 Trk) (id : Option NodeId16) (P R : Nat) :
    List (Node.Op NodeId16 Tid64 E × Answer Tid64 E) → RxNode NodeId16 Tid64 Trk Udp.World → Prop :=
  RxHistory tid64 tops udpCall (UdpArrives mtu) ⟨CoreNode.new id P R, Udp.World.new id⟩

/-- `subscribers` and `servers` of the UDP receiver (`canadensis_udp/src/rx.rs` L252-258, `canadensis_udp/src/rx/subscriptions.rs` L76-82): the keys of the maps. -/
def udpPorts (w : Udp.World) (k : Kind) : List Nat := (w.receiver.subscriptions.get k).map (·.1)

/-! ### Lemmas -/

/-- There is a subscription. -/
def serialHas (r : Serial.Receiver) (k : Kind) (p : Nat) : Bool := (r.subscriptions.find k p).isSome

theorem serial_subscribe_has {r : Serial.Receiver} (hg : Serial.Inv r) (full : Bool) (k k' : Kind) (p p' y : Nat) (t : Duration) :
    serialHas (r.subscribe full k p y t).1 k' p' = ((decide (k' = k ∧ p' = p) && (r.subscribe full k p y t).2) || serialHas r k' p') := by
  unfold serialHas Serial.Receiver.subscribe
  split
  · simp
  · dsimp only
    rw [SubManager.find_subscribe hg.distinct, SubManager.subscribe_snd]
    by_cases h : k' = k ∧ p' = p
    · obtain ⟨rfl, rfl⟩ := h
      cases full <;> cases (r.subscriptions.find k' p').isSome <;> simp
    · simp [h]

theorem serial_subscribe_id (r : Serial.Receiver) (full : Bool) (k : Kind) (p y : Nat) (t : Duration) : (r.subscribe full k p y t).1.nodeId = r.nodeId := by
  unfold Serial.Receiver.subscribe
  split <;> rfl

theorem serial_subscribe_snd {r : Serial.Receiver} {full : Bool} {k : Kind} {p y : Nat} {t : Duration} (hk : k ≠ .message) (hn : r.nodeId = none) :
    (r.subscribe full k p y t).2 = false := by
  unfold Serial.Receiver.subscribe
  rw [if_pos ⟨hk, hn⟩]

theorem serial_unsubscribe_has {r : Serial.Receiver} (hg : Serial.Inv r) (k k' : Kind) (p p' : Nat) :
    serialHas (r.unsubscribe k p) k' p' = (!decide (k' = k ∧ p' = p) && serialHas r k' p') := by
  unfold serialHas Serial.Receiver.unsubscribe
  dsimp only
  rw [SubManager.find_unsubscribe hg.distinct]
  by_cases h : k' = k ∧ p' = p <;> simp [h]

theorem serial_step_inv {r r' : Serial.Receiver} (hg : Serial.Inv r) {op : Serial.Op} {ts : List Serial.SerialTransfer} (h : r.step op = some (r', ts)) : Serial.Inv r' := by
  obtain ⟨r1, ts1, h1, h2⟩ := Serial.step_total hg op
  rw [h1] at h
  cases h
  exact h2

theorem serial_byte_has {r r' : Serial.Receiver} (hg : Serial.Inv r) {b : Byte} {now : Instant} {oom : Bool} {ts : List Serial.SerialTransfer}
    (h : r.step (.byte b now oom) = some (r', ts)) : (∀ k p, serialHas r' k p = serialHas r k p) ∧ r'.nodeId = r.nodeId := by
  obtain ⟨r1, o, h1, h2⟩ := Serial.byteStep hg b now oom
  simp only [Serial.Receiver.step, h1, Option.map_some, Option.some.injEq, Prod.mk.injEq] at h
  obtain ⟨rfl, -⟩ := h
  cases h2 with
  | deliver u h crc p cap sub =>
    refine ⟨fun k q => ?_, rfl⟩
    unfold serialHas Serial.recorded
    dsimp only
    split
    · split
      · rfl
      · rw [SubManager.find_update]
        split <;> simp
    · rfl
  | _ => exact ⟨fun _ _ => rfl, rfl⟩

theorem serial_lawful : Lawful (E := E) serialCall SerialArrives Serial.Inv serialHas Serial.Receiver.nodeId where
  good_call x r c hg := by
    cases c with
    | subscribeMessage s y t => exact serial_step_inv hg (op := .subscribe x.1 .message s.toNat y t) rfl
    | unsubscribeMessage s => exact serial_step_inv hg (op := .unsubscribe .message s.toNat) rfl
    | subscribeRequest s y t => exact serial_step_inv hg (op := .subscribe x.1 .request s.toNat y t) rfl
    | unsubscribeRequest s => exact serial_step_inv hg (op := .unsubscribe .request s.toNat) rfl
    | subscribeResponse s y t => exact serial_step_inv hg (op := .subscribe x.1 .response s.toNat y t) rfl
    | setId i => exact serial_step_inv hg (op := .setId (some i)) rfl
  has_call x r c k p hg := by
    cases c with
    | subscribeMessage s y t =>
      simp only [serialCall, after, serial_subscribe_has hg]
      cases (r.subscribe x.1 .message s.toNat y t).2 <;> simp [Subscribed.isOk]
    | unsubscribeMessage s => exact serial_unsubscribe_has hg _ _ _ _
    | subscribeRequest s y t =>
      simp only [serialCall, after, serial_subscribe_has hg]
      by_cases hn : r.nodeId = none
      · rw [serial_subscribe_snd (by decide) hn]; simp [hn, Subscribed.isOk]
      · rw [if_neg hn]; cases (r.subscribe x.1 .request s.toNat y t).2 <;> simp [Subscribed.isOk]
    | unsubscribeRequest s => exact serial_unsubscribe_has hg _ _ _ _
    | subscribeResponse s y t =>
      simp only [serialCall, after, serial_subscribe_has hg]
      by_cases hn : r.nodeId = none
      · rw [serial_subscribe_snd (by decide) hn]; simp [hn, Subscribed.isOk]
      · rw [if_neg hn]; cases (r.subscribe x.1 .response s.toNat y t).2 <;> simp [Subscribed.isOk]
    | setId i => rfl
  id_call x r c hg := by
    cases c with
    | subscribeMessage s y t => exact serial_subscribe_id ..
    | subscribeRequest s y t => exact serial_subscribe_id ..
    | subscribeResponse s y t => exact serial_subscribe_id ..
    | _ => rfl
  arrive r r' hg h := by
    cases h with
    | clean now =>
      refine ⟨serial_step_inv hg (op := .clean now) rfl, fun k p => ?_, rfl⟩
      unfold serialHas Serial.Receiver.cleanExpired
      dsimp only
      rw [SubManager.find_mapAll, Option.isSome_map]
    | byte h => exact ⟨serial_step_inv hg h, serial_byte_has hg h⟩

/-- There is a subscription. -/
def udpHas (w : Udp.World) (k : Kind) (p : Nat) : Bool := (w.receiver.subscriptions.find k p).isSome

/-- The state after some events, with no port twice. -/
def UdpGood (mtu : Nat) (w : Udp.World) : Prop := (∃ id ops out, (Udp.World.new id).exec mtu ops = some (w, out)) ∧ ∀ k, (udpPorts w k).Nodup

theorem udp_reach {mtu : Nat} {w w' : Udp.World} {op : Udp.Op} {ts : List Udp.UdpTransfer} (h : ∃ id ops out, (Udp.World.new id).exec mtu ops = some (w, out))
    (hs : w.step mtu op = some (w', ts)) : ∃ id ops out, (Udp.World.new id).exec mtu ops = some (w', out) := by
  obtain ⟨id, ops, out, h⟩ := h
  refine ⟨id, ops ++ [op], out ++ ts, ?_⟩
  rw [Udp.exec_append, h]
  simp [Udp.World.exec, hs]

theorem udp_subscribe_nodup {s : Udp.Subscriptions} (h : ∀ k, ((s.get k).map (·.1)).Nodup) (k : Kind) (port : Nat) (sub : Udp.Subscription) (k' : Kind) :
    (((s.subscribe k port sub).get k').map (·.1)).Nodup := by
  unfold Udp.Subscriptions.subscribe
  rw [Udp.get_set]
  split
  · simp only [List.map_cons, List.nodup_cons]
    refine ⟨?_, (List.filter_sublist.map _).nodup (h k)⟩
    simp
  · exact h k'

theorem udp_unsubscribe_nodup {s : Udp.Subscriptions} (h : ∀ k, ((s.get k).map (·.1)).Nodup) (k : Kind) (port : Nat) (k' : Kind) :
    (((s.unsubscribe k port).get k').map (·.1)).Nodup := by
  unfold Udp.Subscriptions.unsubscribe
  rw [Udp.get_set]
  split
  · exact (List.filter_sublist.map _).nodup (h k)
  · exact h k'

theorem udp_store_ports (s : Udp.Subscriptions) (k : Kind) (port : Nat) (sub : Udp.Subscription) (k' : Kind) :
    ((s.store k port sub).get k').map (·.1) = (s.get k').map (·.1) := by
  unfold Udp.Subscriptions.store
  rw [Udp.get_set]
  split
  · rename_i hk
    subst hk
    rw [List.map_map]
    refine List.map_congr_left fun e _ => ?_
    simp only [Function.comp]
    split
    · rename_i he; exact (by simpa using he : e.1 = port).symm
    · rfl
  · rfl

theorem udp_service (fails : Bool) (w : Udp.World) (k : Kind) (s : ServiceId) (y : Nat) (t : Duration) :
    ((w.receiver.subscribeService fails w.groups k s y t).2.2 = .ok ∧
      (w.receiver.subscribeService fails w.groups k s y t).1 =
        { w.receiver with subscriptions := w.receiver.subscriptions.subscribe k s.toNat (Udp.Subscription.new y t) }) ∨
    ((w.receiver.subscribeService fails w.groups k s y t).2.2 ≠ .ok ∧ (w.receiver.subscribeService fails w.groups k s y t).1 = w.receiver) := by
  unfold Udp.Receiver.subscribeService
  split
  · exact .inr ⟨by simp, rfl⟩
  · split
    · exact .inl ⟨rfl, rfl⟩
    · exact .inr ⟨by simp, rfl⟩

theorem udp_lawful (mtu : Nat) : Lawful (E := E) udpCall (UdpArrives mtu) (UdpGood mtu) udpHas (fun w => w.receiver.nodeId) where
  good_call x w c hg := by
    obtain ⟨hr, hn⟩ := hg
    have hserv : ∀ k s y t, ∀ k', ((((w.receiver.subscribeService x.1 w.groups k s y t).1).subscriptions.get k').map (·.1)).Nodup := by
      intro k s y t k'
      rcases udp_service x.1 w k s y t with ⟨-, h⟩ | ⟨-, h⟩ <;> rw [h]
      · exact udp_subscribe_nodup hn _ _ _ _
      · exact hn k'
    cases c with
    | subscribeMessage s y t =>
      refine ⟨udp_reach hr (op := .subscribeMessage x.1 s y t) rfl, fun k => ?_⟩
      simp only [udpCall, udpPorts, Udp.Receiver.subscribeMessage]
      split
      · exact hn k
      · exact udp_subscribe_nodup hn _ _ _ _
    | unsubscribeMessage s => exact ⟨udp_reach hr (op := .unsubscribeMessage x.1 s) rfl, fun k => udp_unsubscribe_nodup hn _ _ _⟩
    | subscribeRequest s y t => exact ⟨udp_reach hr (op := .subscribeRequest x.1 s y t) rfl, hserv _ _ _ _⟩
    | unsubscribeRequest s => exact ⟨udp_reach hr (op := .unsubscribeRequest x.1 s) rfl, fun k => udp_unsubscribe_nodup hn _ _ _⟩
    | subscribeResponse s y t => exact ⟨udp_reach hr (op := .subscribeResponse x.1 s y t) rfl, hserv _ _ _ _⟩
    | setId i => exact ⟨udp_reach hr (op := .setId (some i)) rfl, hn⟩
  has_call x w c k p hg := by
    have hserv : ∀ k' s y t, ((w.receiver.subscribeService x.1 w.groups k' s y t).1.subscriptions.find k p).isSome =
        ((decide (k = k' ∧ p = s.toNat) && decide ((w.receiver.subscribeService x.1 w.groups k' s y t).2.2 = .ok)) || udpHas w k p) := by
      intro k' s y t
      rcases udp_service x.1 w k' s y t with ⟨h1, h2⟩ | ⟨h1, h2⟩ <;> rw [h2]
      · simp only [Udp.find_subscribe, h1, udpHas]
        by_cases h : k = k' ∧ p = s.toNat <;> simp [h]
      · simp [h1, udpHas]
    cases c with
    | subscribeMessage s y t =>
      simp only [udpCall, udpHas, Udp.Receiver.subscribeMessage, after]
      by_cases hx : x.1 = true
      · simp [hx, Subscribed.isOk]
      · simp only [hx, Bool.false_eq_true, if_false, Udp.find_subscribe, Subscribed.isOk]
        by_cases h : k = .message ∧ p = s.toNat <;> simp [h]
    | unsubscribeMessage s =>
      simp only [udpCall, udpHas, Udp.Receiver.unsubscribeMessage, after, Udp.find_unsubscribe]
      by_cases h : k = .message ∧ p = s.toNat <;> simp [h]
    | subscribeRequest s y t =>
      simp only [udpCall, after]
      refine (hserv .request s y t).trans ?_
      cases (w.receiver.subscribeService x.1 w.groups .request s y t).2.2 <;> simp [Subscribed.isOk]
    | unsubscribeRequest s =>
      simp only [udpCall, udpHas, Udp.Receiver.unsubscribeService, after, Udp.find_unsubscribe]
      by_cases h : k = .request ∧ p = s.toNat <;> simp [h]
    | subscribeResponse s y t =>
      simp only [udpCall, after]
      refine (hserv .response s y t).trans ?_
      cases (w.receiver.subscribeService x.1 w.groups .response s y t).2.2 <;> simp [Subscribed.isOk]
    | setId i => rfl
  id_call x w c hg := by
    have hserv : ∀ k s y t, (w.receiver.subscribeService x.1 w.groups k s y t).1.nodeId = w.receiver.nodeId := by
      intro k s y t
      rcases udp_service x.1 w k s y t with ⟨-, h⟩ | ⟨-, h⟩ <;> rw [h]
    cases c with
    | subscribeMessage s y t => simp only [udpCall, Udp.Receiver.subscribeMessage]; split <;> rfl
    | subscribeRequest s y t => exact hserv _ _ _ _
    | subscribeResponse s y t => exact hserv _ _ _ _
    | _ => rfl
  arrive w w' hg h := by
    obtain ⟨p, ts, h⟩ := h
    have hr := udp_reach hg.1 h
    simp only [Udp.World.step, Option.map_eq_some_iff, Prod.mk.injEq] at h
    obtain ⟨q, hq, rfl, -⟩ := h
    unfold Udp.Receiver.acceptInner at hq
    dsimp only at hq
    split at hq
    · cases hq; exact ⟨⟨hr, hg.2⟩, fun _ _ => rfl, rfl⟩
    · split at hq
      · cases hq; exact ⟨⟨hr, hg.2⟩, fun _ _ => rfl, rfl⟩
      · split at hq
        · cases hq; exact ⟨⟨hr, hg.2⟩, fun _ _ => rfl, rfl⟩
        · rename_i header _ _ sub hf
          split at hq
          · cases hq
          · cases hq
            refine ⟨⟨hr, fun k => ?_⟩, fun k p => ?_, rfl⟩
            · show (List.map _ _).Nodup
              rw [udp_store_ports]
              exact hg.2 k
            · simp only [udpHas, Udp.find_store]
              split
              · rename_i he; obtain ⟨rfl, rfl⟩ := he; simp
              · rfl

/-! ### The properties -/

/-- The start of a history. -/
theorem uses_start {N R : Type} {good : R → Prop} {has : R → Kind → Nat → Bool} {rid : R → Option N} {id : Option N} {P Q : Nat} {r : R} (hg : good r) (hh : ∀ k p, has r k p = false)
    (hi : id = rid r) : UsesInv good has rid ([] : List (Node.Op N Tid64 E × Answer Tid64 E)) ⟨(CoreNode.new id P Q : CoreNode N Tid64 Trk), r⟩ :=
  ⟨hg, fun _ => hh _ _, fun _ => hh _ _, fun _ => hh _ _, fun k p h => (by rw [hh] at h; cases h),
    ⟨⟨List.nodup_nil, Nat.zero_le _⟩, ⟨List.nodup_nil, Nat.zero_le _⟩⟩, fun _ => rfl, fun _ => rfl, hi⟩

theorem serial_uses {tops : TrackerOps NodeId16 Tid64 Trk} {id : Option NodeId16} {P R : Nat} {trace : List (Node.Op NodeId16 Tid64 E × Answer Tid64 E)}
    {n : RxNode NodeId16 Tid64 Trk Serial.Receiver} (h : SerialNodeHistory tops id P R trace n) : UsesInv Serial.Inv serialHas Serial.Receiver.nodeId trace n :=
  uses_history serial_lawful (uses_start (Serial.inv_new id) (fun k p => by cases k <;> rfl) rfl) h

theorem udp_uses {mtu : Nat} {tops : TrackerOps NodeId16 Tid64 Trk} {id : Option NodeId16} {P R : Nat} {trace : List (Node.Op NodeId16 Tid64 E × Answer Tid64 E)}
    {n : RxNode NodeId16 Tid64 Trk Udp.World} (h : UdpNodeHistory mtu tops id P R trace n) :
    UsesInv (UdpGood mtu) udpHas (fun w => w.receiver.nodeId) trace n :=
  uses_history (udp_lawful mtu) (uses_start ⟨⟨id, [], [], rfl⟩, fun k => by cases k <;> exact List.nodup_nil⟩ (fun k p => by cases k <;> rfl) rfl) h

/-- **C141**, serial. After any history of calls and received bytes, also of calls that fail for lack of memory, the iterators `subscribers()` and `servers()` list, without repetition,
exactly the subjects and services to which the node is subscribed, `clients()` those for which it sends requests; the receiver is subscribed to their responses, and its node ID is
that of the node. -/
theorem C141_serial_ports {tops : TrackerOps NodeId16 Tid64 Trk} {id : Option NodeId16} {P R : Nat} {trace : List (Node.Op NodeId16 Tid64 E × Answer Tid64 E)}
    {n : RxNode NodeId16 Tid64 Trk Serial.Receiver} (h : SerialNodeHistory tops id P R trace n) :
    (n.rx.subscriptions.ports .message).Nodup ∧ (∀ p, p ∈ n.rx.subscriptions.ports .message ↔ ∃ s : SubjectId, s.toNat = p ∧ listening s trace = true) ∧
    (n.rx.subscriptions.ports .request).Nodup ∧ (∀ p, p ∈ n.rx.subscriptions.ports .request ↔ ∃ s : ServiceId, s.toNat = p ∧ serving s trace = true) ∧
    (∀ s, s ∈ n.core.requesters.map Prod.fst ↔ requesting s trace = true) ∧
    (∀ s : ServiceId, requesting s trace = true → (n.rx.subscriptions.find .response s.toNat).isSome) ∧
    n.core.nodeId = n.rx.nodeId := by
  have hu := serial_uses h
  have hm : ∀ k p, p ∈ n.rx.subscriptions.ports k ↔ serialHas n.rx k p = true := by
    intro k p
    simp only [SubManager.ports, serialHas, SubManager.find, Option.isSome_map, List.find?_isSome, List.mem_map, beq_iff_eq]
  refine ⟨hu.good.distinct _, fun p => ?_, hu.good.distinct _, fun p => ?_, fun s => ?_, fun s hr => ?_, hu.id⟩
  · rw [hm]
    refine ⟨fun hp => ?_, ?_⟩
    · have hb : p < 2 ^ 13 := hu.bound .message p hp
      have he : (BitVec.ofNat 13 p).toNat = p := by rw [BitVec.toNat_ofNat, Nat.mod_eq_of_lt hb]
      exact ⟨BitVec.ofNat 13 p, he, by rw [← hu.msg, he]; exact hp⟩
    · rintro ⟨s, rfl, hs⟩
      rw [hu.msg]; exact hs
  · rw [hm]
    refine ⟨fun hp => ?_, ?_⟩
    · have hb : p < 2 ^ 9 := hu.bound .request p hp
      have he : (BitVec.ofNat 9 p).toNat = p := by rw [BitVec.toNat_ofNat, Nat.mod_eq_of_lt hb]
      exact ⟨BitVec.ofNat 9 p, he, by rw [← hu.req, he]; exact hp⟩
    · rintro ⟨s, rfl, hs⟩
      rw [hu.req]; exact hs
  · rw [IMap.mem_keys, hu.reqs s]
  · exact (hu.resp s).trans (started_of_requesting s trace hr)

/-- **C141**, UDP. The same for a node over UDP, also with calls that fail because of the socket. -/
theorem C141_udp_ports {mtu : Nat} {tops : TrackerOps NodeId16 Tid64 Trk} {id : Option NodeId16} {P R : Nat} {trace : List (Node.Op NodeId16 Tid64 E × Answer Tid64 E)}
    {n : RxNode NodeId16 Tid64 Trk Udp.World} (h : UdpNodeHistory mtu tops id P R trace n) :
    (udpPorts n.rx .message).Nodup ∧ (∀ p, p ∈ udpPorts n.rx .message ↔ ∃ s : SubjectId, s.toNat = p ∧ listening s trace = true) ∧
    (udpPorts n.rx .request).Nodup ∧ (∀ p, p ∈ udpPorts n.rx .request ↔ ∃ s : ServiceId, s.toNat = p ∧ serving s trace = true) ∧
    (∀ s, s ∈ n.core.requesters.map Prod.fst ↔ requesting s trace = true) ∧
    (∀ s : ServiceId, requesting s trace = true → (n.rx.receiver.subscriptions.find .response s.toNat).isSome) ∧
    n.core.nodeId = n.rx.receiver.nodeId := by
  have hu := udp_uses h
  have hm : ∀ k p, p ∈ udpPorts n.rx k ↔ udpHas n.rx k p = true := fun k p => (Udp.find_isSome_iff _ k p).symm
  refine ⟨hu.good.2 _, fun p => ?_, hu.good.2 _, fun p => ?_, fun s => ?_, fun s hr => ?_, hu.id⟩
  · rw [hm]
    refine ⟨fun hp => ?_, ?_⟩
    · have hb : p < 2 ^ 13 := hu.bound .message p hp
      have he : (BitVec.ofNat 13 p).toNat = p := by rw [BitVec.toNat_ofNat, Nat.mod_eq_of_lt hb]
      exact ⟨BitVec.ofNat 13 p, he, by rw [← hu.msg, he]; exact hp⟩
    · rintro ⟨s, rfl, hs⟩
      rw [hu.msg]; exact hs
  · rw [hm]
    refine ⟨fun hp => ?_, ?_⟩
    · have hb : p < 2 ^ 9 := hu.bound .request p hp
      have he : (BitVec.ofNat 9 p).toNat = p := by rw [BitVec.toNat_ofNat, Nat.mod_eq_of_lt hb]
      exact ⟨BitVec.ofNat 9 p, he, by rw [← hu.req, he]; exact hp⟩
    · rintro ⟨s, rfl, hs⟩
      rw [hu.req]; exact hs
  · rw [IMap.mem_keys, hu.reqs s]
  · exact (hu.resp s).trans (started_of_requesting s trace hr)

/-- **C141**, serial (part: for responses only that the node once sent requests for the service; the property says that it still does). What a handler of a node over a serial line is
given is a message on a subject to which the node is subscribed, a request for a service to which it is subscribed, or a response of a service for which it started to send
requests; and what is addressed to one node is addressed to this one. -/
theorem C141_serial_delivered_partial {tops : TrackerOps NodeId16 Tid64 Trk} {id : Option NodeId16} {P R : Nat} {trace : List (Node.Op NodeId16 Tid64 E × Answer Tid64 E)}
    {n : RxNode NodeId16 Tid64 Trk Serial.Receiver} (h : SerialNodeHistory tops id P R trace n) {b : Byte} {now : Instant} {oom : Bool} {r : Serial.Receiver}
    {ts : List Serial.SerialTransfer} (hs : n.rx.step (.byte b now oom) = some (r, ts)) {t : Serial.SerialTransfer} (ht : t ∈ ts) :
    (∀ m, t.header = .message m → listening m.subject trace = true) ∧ (∀ q, t.header = .request q → serving q.service trace = true) ∧
    (∀ q, t.header = .response q → started q.service trace = true) ∧ (∀ d, t.header.destination = some d → n.core.nodeId = some d) := by
  have hu := serial_uses h
  obtain ⟨r1, o, h1, h2⟩ := Serial.byteStep hu.good b now oom
  simp only [Serial.Receiver.step, h1, Option.map_some, Option.some.injEq, Prod.mk.injEq] at hs
  obtain ⟨-, rfl⟩ := hs
  cases h2 with
  | deliver u hd crc p cap sub _ _ _ hf hdest =>
    simp only [Serial.Output.transfers, List.mem_singleton] at ht
    subst ht
    have hh : serialHas n.rx hd.kind hd.port = true := by unfold serialHas; rw [hf]; rfl
    refine ⟨fun m e => ?_, fun q e => ?_, fun q e => ?_, fun d e => hu.id.trans (hdest d e)⟩
    · rw [← hu.msg, ← hh, show hd = .message m from e]; rfl
    · rw [← hu.req, ← hh, show hd = .request q from e]; rfl
    · rw [← hu.resp, ← hh, show hd = .response q from e]; rfl
  | reject out _ _ _ ho => rw [ho] at ht; cases ht
  | _ => cases ht

/-- **C141**, UDP (part: for responses only that the node once sent requests for the service; the property says that it still does. Of the destination nothing is said, see C35). -/
theorem C141_udp_delivered_partial {mtu : Nat} {tops : TrackerOps NodeId16 Tid64 Trk} {id : Option NodeId16} {P R : Nat} {trace : List (Node.Op NodeId16 Tid64 E × Answer Tid64 E)}
    {n : RxNode NodeId16 Tid64 Trk Udp.World} (h : UdpNodeHistory mtu tops id P R trace n) {p : Udp.Packet} {w : Udp.World} {ts : List Udp.UdpTransfer}
    (hs : n.rx.step mtu (.packet p) = some (w, ts)) {t : Udp.UdpTransfer} (ht : t ∈ ts) :
    (∀ m, t.header = .message m → listening m.subject trace = true) ∧ (∀ q, t.header = .request q → serving q.service trace = true) ∧
    (∀ q, t.header = .response q → started q.service trace = true) := by
  have hu := udp_uses h
  obtain ⟨i, ops, out, hx⟩ := hu.good.1
  obtain ⟨_, _, sub, _, _, _, _, _, _, hf, _⟩ := Udp.C38_integrity_partial hx hs ht
  have hh : udpHas n.rx t.header.kind t.header.port = true := by unfold udpHas; rw [hf]; rfl
  refine ⟨fun m e => ?_, fun q e => ?_, fun q e => ?_⟩
  · rw [← hu.msg, ← hh, e]; rfl
  · rw [← hu.req, ← hh, e]; rfl
  · rw [← hu.resp, ← hh, e]; rfl

/-! ### A case -/

/-- What the environment does: there is memory, and the transmitter takes everything. -/
def calm : Env Unit := { now := 0#32, alloc := true, push := .ok, subscribed := .ok, oom := () }

/-- A tracker for four destinations (`TransferIdFixedMap`, `canadensis/src/requester.rs` L137-175). -/
def fourTracker : TrackerOps NodeId16 Tid64 (IMap NodeId16 Tid64) := fixedMapTracker tid64 4

/-- A node subscribes to subject 100 and to requests for service 8, tries to subscribe to subject 100 again and to subject 101 when there is no memory, and
starts to send requests for service 7 and stops it. The Booleans are whether the allocator, or the socket, fails. -/
def portCalls : List (Bool × Node.Op NodeId16 Tid64 Unit) :=
  [(false, .subscribeMessage calm 100#13 7 1000#32), (false, .subscribeRequest calm 8#9 7 1000#32), (true, .subscribeMessage calm 100#13 9 1000#32),
    (true, .subscribeMessage calm 101#13 7 1000#32), (false, .startSendingRequests calm 7#9 1000#32 7 4#3), (false, .stopSendingRequests calm 7#9)]

/-- The node and the trace after calls. -/
def afterCalls {R : Type} (rxCall : Bool × Unit → R → RxCall NodeId16 → R × Subscribed Unit) (n : RxNode NodeId16 Tid64 (IMap NodeId16 Tid64) R) :
    List (Bool × Node.Op NodeId16 Tid64 Unit) → List (Node.Op NodeId16 Tid64 Unit × Answer Tid64 Unit) →
      List (Node.Op NodeId16 Tid64 Unit × Answer Tid64 Unit) × RxNode NodeId16 Tid64 (IMap NodeId16 Tid64) R
  | [], trace => (trace, n)
  | (x, op) :: rest, trace => afterCalls rxCall (n.call tid64 fourTracker (rxCall (x, ())) op).1 rest ((n.call tid64 fourTracker (rxCall (x, ())) op).2 :: trace)

theorem afterCalls_history {R : Type} {rxCall : Bool × Unit → R → RxCall NodeId16 → R × Subscribed Unit} {arrives : R → R → Prop}
    {start : RxNode NodeId16 Tid64 (IMap NodeId16 Tid64) R} (calls : List (Bool × Node.Op NodeId16 Tid64 Unit)) : ∀ {n trace},
    RxHistory tid64 fourTracker rxCall arrives start trace n →
      RxHistory tid64 fourTracker rxCall arrives start (afterCalls rxCall n calls trace).1 (afterCalls rxCall n calls trace).2 := by
  induction calls with
  | nil => exact fun h => h
  | cons c calls ih => exact fun h => ih (.call (c.1, ()) c.2 h)

/-- The node with ID 7 over a serial line. -/
def portNodeSerial : List (Node.Op NodeId16 Tid64 Unit × Answer Tid64 Unit) × RxNode NodeId16 Tid64 (IMap NodeId16 Tid64) Serial.Receiver :=
  afterCalls serialCall ⟨CoreNode.new (some (Udp.node 7#16)) 4 4, Serial.Receiver.new (some (Udp.node 7#16))⟩ portCalls []

/-- The node with ID 7 over UDP. -/
def portNodeUdp : List (Node.Op NodeId16 Tid64 Unit × Answer Tid64 Unit) × RxNode NodeId16 Tid64 (IMap NodeId16 Tid64) Udp.World :=
  afterCalls udpCall ⟨CoreNode.new (some (Udp.node 7#16)) 4 4, Udp.World.new (some (Udp.node 7#16))⟩ portCalls []

theorem portNodeSerial_history : SerialNodeHistory fourTracker (some (Udp.node 7#16)) 4 4 portNodeSerial.1 portNodeSerial.2 := afterCalls_history portCalls .new

theorem portNodeUdp_history : UdpNodeHistory 1500 fourTracker (some (Udp.node 7#16)) 4 4 portNodeUdp.1 portNodeUdp.2 := afterCalls_history portCalls .new

/-- In this case the second subscription to subject 100 succeeds on the serial line without memory, because there is the place of the first; that to subject 101 does not. -/
example : SerialNodeHistory fourTracker (some (Udp.node 7#16)) 4 4 portNodeSerial.1 portNodeSerial.2 ∧ portNodeSerial.2.rx.subscriptions.ports .message = [100] ∧
    portNodeSerial.2.rx.subscriptions.ports .request = [8] ∧ listening 100#13 portNodeSerial.1 = true ∧ listening 101#13 portNodeSerial.1 = false ∧ serving 8#9 portNodeSerial.1 = true ∧
    requesting 7#9 portNodeSerial.1 = false ∧ requesting 7#9 portNodeSerial.1.tail = true :=
  ⟨portNodeSerial_history, by decide +kernel, by decide +kernel, by decide +kernel, by decide +kernel, by decide +kernel, by decide +kernel, by decide +kernel⟩

example : UdpNodeHistory 1500 fourTracker (some (Udp.node 7#16)) 4 4 portNodeUdp.1 portNodeUdp.2 ∧ udpPorts portNodeUdp.2.rx .message = [100] ∧ udpPorts portNodeUdp.2.rx .request = [8] ∧
    listening 100#13 portNodeUdp.1 = true ∧ listening 101#13 portNodeUdp.1 = false ∧ serving 8#9 portNodeUdp.1 = true ∧ requesting 7#9 portNodeUdp.1 = false :=
  ⟨portNodeUdp_history, by decide +kernel, by decide +kernel, by decide +kernel, by decide +kernel, by decide +kernel, by decide +kernel⟩

/-- A response for service 7 from node 42 to node 7, as a datagram. -/
def lateDatagram : Udp.Packet :=
  { data := Verif.Hdr.encode { Udp.frameHeader (Udp.demo 0).header 0 true with dataSpecifier := .response (Udp.node 42#16) (Udp.node 7#16) 7#9 } ++
      [1#8, 2#8] ++ Verif.Crc.le32 (Verif.Crc.crc32c [1#8, 2#8])
    now := 500#32, oomSession := false, oom := false }

/-- **C141**, UDP, the negation: a node that stopped sending requests still receives responses: `stop_sending_requests` leaves the subscription of the receiver. -/
theorem C141_udp_stop_counterexample : ∃ (trace : List (Node.Op NodeId16 Tid64 Unit × Answer Tid64 Unit)) (n : RxNode NodeId16 Tid64 (IMap NodeId16 Tid64) Udp.World) (p : Udp.Packet)
    (w : Udp.World) (ts : List Udp.UdpTransfer) (t : Udp.UdpTransfer) (q : ServiceHeader NodeId16 Tid64),
    UdpNodeHistory 1500 fourTracker (some (Udp.node 7#16)) 4 4 trace n ∧ n.rx.step 1500 (.packet p) = some (w, ts) ∧ t ∈ ts ∧ t.header = .response q ∧
    requesting q.service trace = false ∧ n.core.requesters = [] := by
  have h : ((portNodeUdp.2.rx.step 1500 (.packet lateDatagram)).map fun p => p.2.map fun t => match t.header with | .response q => decide (q.service = 7#9) | _ => false) = some [true] := by
    decide +kernel
  cases hs : portNodeUdp.2.rx.step 1500 (.packet lateDatagram) with
  | none => rw [hs] at h; cases h
  | some x =>
    obtain ⟨w, ts⟩ := x
    rw [hs] at h
    cases ts with
    | nil => simp at h
    | cons t ts =>
      cases ht : t.header with
      | response q =>
        simp only [Option.map_some, List.map_cons, ht, Option.some.injEq, List.cons.injEq, decide_eq_true_eq] at h
        exact ⟨portNodeUdp.1, portNodeUdp.2, lateDatagram, w, t :: ts, t, q, portNodeUdp_history, hs, List.mem_cons_self, ht, by rw [h.1]; decide +kernel, by decide +kernel⟩
      | _ => simp [ht] at h

/-- The response for service 7 as bytes on the line. -/
def lateBytes : List Byte := Serial.wire
  { header := .response { timestamp := 77#32, transferId := 12#64, priority := 4#3, service := 7#9, source := Udp.node 42#16, destination := Udp.node 7#16 }
    loopback := true, payload := [1#8, 2#8] }

/-- Bytes that arrive. -/
theorem arriving_history {tops : TrackerOps NodeId16 Tid64 Trk} {id : Option NodeId16} {P R : Nat} {trace : List (Node.Op NodeId16 Tid64 E × Answer Tid64 E)} (bs : List Byte) :
    ∀ {n : RxNode NodeId16 Tid64 Trk Serial.Receiver} {r : Serial.Receiver} {ts : List Serial.SerialTransfer}, SerialNodeHistory tops id P R trace n →
    n.rx.exec (bs.map fun b => .byte b 1000#32 false) = some (r, ts) → SerialNodeHistory tops id P R trace { n with rx := r } := by
  induction bs with
  | nil =>
    intro n r ts h hx
    cases hx
    exact h
  | cons b bs ih =>
    intro n r ts h hx
    simp only [List.map_cons, Serial.Receiver.exec, Option.bind_eq_some_iff, Option.map_eq_some_iff] at hx
    obtain ⟨⟨r1, ts1⟩, h1, ⟨r2, ts2⟩, h2, h3⟩ := hx
    cases h3
    exact ih (n := { n with rx := r1 }) (.arrive h (.byte h1)) h2

/-- **C141**, serial, the negation: as for UDP. -/
theorem C141_serial_stop_counterexample : ∃ (trace : List (Node.Op NodeId16 Tid64 Unit × Answer Tid64 Unit)) (n : RxNode NodeId16 Tid64 (IMap NodeId16 Tid64) Serial.Receiver)
    (b : Byte) (r : Serial.Receiver) (ts : List Serial.SerialTransfer) (t : Serial.SerialTransfer) (q : ServiceHeader NodeId16 Tid64),
    SerialNodeHistory fourTracker (some (Udp.node 7#16)) 4 4 trace n ∧ n.rx.step (.byte b 1000#32 false) = some (r, ts) ∧ t ∈ ts ∧ t.header = .response q ∧
    requesting q.service trace = false ∧ n.core.requesters = [] := by
  have h : ((portNodeSerial.2.rx.exec (lateBytes.dropLast.map fun b => .byte b 1000#32 false)).bind fun p => (p.1.step (.byte 0#8 1000#32 false)).map fun p => p.2.map fun t =>
      match t.header with | .response q => decide (q.service = 7#9) | _ => false) = some [true] := by decide +kernel
  cases hx : portNodeSerial.2.rx.exec (lateBytes.dropLast.map fun b => .byte b 1000#32 false) with
  | none => rw [hx] at h; cases h
  | some y =>
    obtain ⟨r0, ts0⟩ := y
    rw [hx] at h
    cases hs : r0.step (.byte 0#8 1000#32 false) with
    | none => simp [hs] at h
    | some x =>
      obtain ⟨r, ts⟩ := x
      simp only [Option.bind_some, hs] at h
      cases ts with
      | nil => simp at h
      | cons t ts =>
        cases ht : t.header with
        | response q =>
          simp only [Option.map_some, List.map_cons, ht, Option.some.injEq, List.cons.injEq, decide_eq_true_eq] at h
          exact ⟨portNodeSerial.1, { portNodeSerial.2 with rx := r0 }, 0#8, r, t :: ts, t, q, arriving_history _ portNodeSerial_history hx, hs, List.mem_cons_self, ht,
            by rw [h.1]; decide +kernel, (by decide +kernel : portNodeSerial.2.core.requesters = [])⟩
        | _ => simp [ht] at h

end Verif.End
