import Verif.Drv.PnpModel
import Verif.Can.RoundTripProps
import Verif.Drv.Props
import Verif.Can.TxProps
import Verif.Can.RxReassemblyProps
import Verif.Pnp.Props

/-!
C113: the plug-and-play client for a bxCAN peripheral.
-/

namespace Verif.Drv

open Verif.Can Verif.Node Verif.Pnp Verif.App

/-! ### What the statements are about -/

/-- The call is `publish_request`. -/
def PnpOp.isPublish : PnpOp → Bool
  | .publish _ => true
  | _ => false

/-- What the controller receives. -/
def pnpArrivals : List PnpOp → List RxItem
  | .arrive x :: ops => x :: pnpArrivals ops
  | _ :: ops => pnpArrivals ops
  | [] => []

/-- The ID and the data of an extended frame. -/
def Worth.frame? : Worth → Option (BitVec 32 × List Byte)
  | .frame id data => some (id, data)
  | .overrun => none

/-- The extended frames with data among what was received, in their order. -/
def extendedFrames (xs : List RxItem) : List (BitVec 32 × List Byte) := (xs.filterMap RxItem.worth).filterMap Worth.frame?

/-! ### Steps -/

theorem request_length (u : UniqueId) : (request .one u).length = 7 := by
  rw [request_one, List.length_append, length_numberBytes]
  rfl

/-- What `send_request` does, with a transmitter for frames of 8 bytes. -/
theorem free_one (c : PnpClient Can.Tid) (now : Instant) (push : Push (PushResult Empty)) :
    c.sendRequest canTid (version1 canIds) 7 (pnpEnv now push) =
      match push with
      | .ok => some (⟨c.uniqueId, { c.publisher with nextTransferId := canTid.increment c.publisher.nextTransferId }⟩,
          [⟨.message ⟨now.plus c.publisher.timeout, c.publisher.nextTransferId, c.publisher.priority, c.publisher.subject, none⟩, false, request .one c.uniqueId⟩])
      | _ => none := by
  have h := C75_free_partial (Tid := Can.Tid) (N := BitVec 7) canTid canIds .one c 7 (pnpEnv now push)
  rw [request_length] at h
  exact h.trans (by cases push <;> rfl)

theorem handed_one (c : PnpClient Can.Tid) (now : Instant) :
    (c.publisher.send (N := NodeId) canTid 7 (pnpEnv now .ok) ((version1 canIds).payload ((version1 canIds).withUniqueId c.uniqueId)) false).2.2 =
      [⟨.message ⟨now.plus c.publisher.timeout, c.publisher.nextTransferId, c.publisher.priority, c.publisher.subject, none⟩, false, request .one c.uniqueId⟩] := by
  have h := free_one c now .ok
  unfold PnpClient.sendRequest at h
  dsimp only at h
  split at h
  · injection h with h
    exact (Prod.mk.inj h).2
  · cases h

/-- The transfer of a request. -/
def requestTransfer (c : PnpClient Can.Tid) (now : Instant) : CanTransfer :=
  ⟨.message ⟨now.plus c.publisher.timeout, c.publisher.nextTransferId, c.publisher.priority, c.publisher.subject, none⟩, false, request .one c.uniqueId⟩

theorem publish_spec {cap : Nat} (hcap : 8 ≤ cap) (p : BxPnp) (hm : p.transmitter.mtu = 8) (now : Instant) :
    (∀ g, p.queue.frame = some g → p.publishRequest cap now = none) ∧
    (p.queue.frame = none → ∃ f p', p.publishRequest cap now = some p' ∧ p'.queue.frame = some f ∧ p'.can = p.can ∧ p'.receiver = p.receiver ∧ p'.transmitter.mtu = 8 ∧
      p'.client.uniqueId = p.client.uniqueId ∧ ∃ id padding, makeCanId (requestTransfer p.client now).header (requestTransfer p.client now).payload = some id ∧
        Segmentation 8 (requestTransfer p.client now) id padding [f]) := by
  obtain ⟨id, padding, fs, hid, hseg, hpush⟩ := C05_segmentation cap 8 (requestTransfer p.client now) (by omega) (by decide) hcap
  have hone : fs.length = 1 := hseg.single.2 (by
    show (request .one p.client.uniqueId).length + 1 ≤ 8
    rw [request_length])
  obtain ⟨f, rfl⟩ := List.length_eq_one_iff.1 hone
  have hp : ∀ q, pushInner (singleQueueDriver Empty singleFrameQueueImpl) cap 8 (requestTransfer p.client now) q =
      match q.frame with
      | some _ => some (q, .memory)
      | none => some (⟨some f⟩, .ok) := by
    intro q
    rw [hpush]
    obtain ⟨_ | g⟩ := q <;> rfl
  unfold BxPnp.publishRequest
  rw [hm]
  dsimp only
  rw [handed_one]
  dsimp only
  constructor
  · intro g hg
    have e := hp p.queue
    rw [hg] at e
    unfold Transmitter.push
    rw [hm, show (⟨.message ⟨now.plus p.client.publisher.timeout, p.client.publisher.nextTransferId, p.client.publisher.priority, p.client.publisher.subject, none⟩, false,
      request .one p.client.uniqueId⟩ : CanTransfer) = requestTransfer p.client now from rfl, e]
    dsimp only
    rw [free_one]
    rfl
  · intro hg
    have e := hp p.queue
    rw [hg] at e
    unfold Transmitter.push
    rw [hm, show (⟨.message ⟨now.plus p.client.publisher.timeout, p.client.publisher.nextTransferId, p.client.publisher.priority, p.client.publisher.subject, none⟩, false,
      request .one p.client.uniqueId⟩ : CanTransfer) = requestTransfer p.client now from rfl, e]
    dsimp only
    rw [free_one]
    exact ⟨f, _, rfl, rfl, rfl, rfl, rfl, rfl, id, padding, hid, hseg⟩

/-- What the driver returns if there are no copies of own frames. -/
theorem receive_plain {d d' : BxCan} {now : Instant} {r : RxResult} (hl : d.loopback = []) (h : d.receive now = (d', r)) :
    d'.loopback = [] ∧ d'.boxes = d.boxes ∧
    match (generalizing := false) r with
    | .wouldBlock => d.received.filterMap RxItem.worth = [] ∧ d'.received = []
    | .overrun => d.received.filterMap RxItem.worth = .overrun :: d'.received.filterMap RxItem.worth
    | .frame f => d.received.filterMap RxItem.worth = .frame f.id f.data :: d'.received.filterMap RxItem.worth := by
  have h1 := receiveFromBus_does now d.received
  unfold BxCan.receive at h
  split at h
  · rename_i rest hr
    rw [hr] at h1
    rw [hl] at h
    cases h
    exact ⟨rfl, rfl, h1⟩
  · rename_i rest r' hn hr
    rw [hr] at h1
    cases h
    cases r with
    | frame f => exact ⟨hl, rfl, h1⟩
    | wouldBlock => exact (hn rfl).elim
    | overrun => exact ⟨hl, rfl, h1⟩

theorem receive_id {d d' : BxCan} {now : Instant} {f : Frame} (hl : d.loopback = []) (h : d.receive now = (d', .frame f)) : f.id.toNat < 2 ^ 29 := by
  have key : ∀ xs rest, receiveFromBus now xs = (rest, .frame f) → f.id.toNat < 2 ^ 29 := by
    intro xs
    induction xs with
    | nil => intro rest h; cases h
    | cons x xs ih =>
      intro rest h
      cases x with
      | overrun => cases h
      | frame b =>
        unfold receiveFromBus at h
        cases hb : fromBx b now with
        | none => rw [hb] at h; exact ih rest h
        | some g =>
          rw [hb] at h
          cases h
          unfold fromBx at hb
          obtain ⟨id, data⟩ := b
          cases id with
          | standard id => cases hb
          | extended id =>
            cases data with
            | none => cases hb
            | some data =>
              cases hb
              show (id.setWidth 32).toNat < 2 ^ 29
              rw [BitVec.toNat_setWidth]
              have := id.isLt
              omega
  unfold BxCan.receive at h
  split at h
  · rw [hl] at h
    cases h
  · rename_i rest r' hn hr
    cases h
    exact key _ _ hr

/-- The ID and data of the frame that is given to the receiver. -/
def rxContent : Can.Op → BitVec 32 × List Byte
  | .frame f _ => (f.id, f.data)
  | _ => (0, [])

theorem bxReceive_does {checks : Bool} {env : Nat → Instant × Bool} : ∀ {n : Nat} {r r' : Receiver} {d d' : BxCan} {result : ReceiveResult}, d.loopback = [] →
    bxReceive checks env n r d = some (r', d', result) →
    d'.loopback = [] ∧ d'.boxes = d.boxes ∧ ∃ given, (∀ op ∈ given, ∃ f oom, op = .frame f oom) ∧
      r.exec checks given = some (r', match result with | .transfer t => [t] | _ => []) ∧ given.map rxContent ++ extendedFrames d'.received = extendedFrames d.received
  | 0, r, r', d, d', result, hl, h => by
    cases h
    exact ⟨hl, rfl, [], by simp, rfl, rfl⟩
  | n + 1, r, r', d, d', result, hl, h => by
    unfold bxReceive at h
    split at h
    · rename_i d1 hr
      obtain ⟨h1, h2, h3, h4⟩ := receive_plain hl hr
      cases h
      exact ⟨h1, h2, [], by simp, rfl, by simp [extendedFrames, h3, h4]⟩
    · rename_i d1 hr
      obtain ⟨h1, h2, h3⟩ := receive_plain hl hr
      dsimp only at h3
      cases h
      exact ⟨h1, h2, [], by simp, rfl, by
        show [] ++ extendedFrames d'.received = _
        unfold extendedFrames
        rw [h3]
        rfl⟩
    · rename_i d1 f hr
      obtain ⟨h1, h2, h3⟩ := receive_plain hl hr
      dsimp only at h3
      have e : ∀ ops, (Can.Op.frame f (env n).2 :: ops).map rxContent ++ extendedFrames d'.received = (f.id, f.data) :: (ops.map rxContent ++ extendedFrames d'.received) := fun _ => rfl
      have e' : extendedFrames d.received = (f.id, f.data) :: extendedFrames d1.received := by simp [extendedFrames, h3, Worth.frame?]
      cases ha : r.acceptFrame checks (env n).2 f with
      | none => rw [ha] at h; cases h
      | some q =>
        obtain ⟨r1, a⟩ := q
        rw [ha] at h
        cases a with
        | transfer t =>
          cases h
          exact ⟨h1, h2, [.frame f (env n).2], fun op hop => ⟨f, _, List.mem_singleton.1 hop⟩, by simp [Receiver.exec, Receiver.step, ha], by rw [e, e']; simp⟩
        | outOfMemory =>
          cases h
          exact ⟨h1, h2, [.frame f (env n).2], fun op hop => ⟨f, _, List.mem_singleton.1 hop⟩, by simp [Receiver.exec, Receiver.step, ha], by rw [e, e']; simp⟩
        | nothing =>
          obtain ⟨k1, k2, given, k3, k4, k5⟩ := bxReceive_does h1 h
          refine ⟨k1, k2.trans h2, .frame f (env n).2 :: given, ?_, ?_, ?_⟩
          · exact fun op hop => (List.mem_cons.1 hop).elim (fun e => ⟨f, _, e⟩) (k3 op)
          · simp [Receiver.exec, Receiver.step, ha, k4]
          · rw [e, e', k5]

theorem bxReceive_release {env : Nat → Instant × Bool} : ∀ (n : Nat) (r : Receiver) (d : BxCan), d.loopback = [] → bxReceive false env n r d ≠ none
  | 0, r, d, hl => by simp [bxReceive]
  | n + 1, r, d, hl => by
    unfold bxReceive
    split
    · simp
    · simp
    · rename_i d1 f hr
      obtain ⟨h1, -, -⟩ := receive_plain hl hr
      cases ha : r.acceptFrame false (env n).2 f with
      | none => exact (C08_release_never_panics r f (receive_id hl hr) ha).elim
      | some q =>
        obtain ⟨r1, a⟩ := q
        cases a with
        | transfer t => simp
        | outOfMemory => simp
        | nothing => exact bxReceive_release n r1 d1 h1

/-- After a call that found no transfer, nothing is left in the controller: there were enough iterations. -/
theorem bxReceive_all {checks : Bool} {env : Nat → Instant × Bool} : ∀ {n : Nat} {r r' : Receiver} {d d' : BxCan}, d.loopback = [] → d.received.length < n →
    bxReceive checks env n r d = some (r', d', .none) → d'.received.filterMap RxItem.worth = []
  | n + 1, r, r', d, d', hl, hn, h => by
    unfold bxReceive at h
    split at h
    · rename_i d1 hr
      obtain ⟨-, -, -, h4⟩ := receive_plain hl hr
      cases h
      rw [h4]
      rfl
    · cases h
    · rename_i d1 f hr
      obtain ⟨h1, -, h3⟩ := receive_plain hl hr
      have hlen : d1.received.length < d.received.length := by
        have key : ∀ xs rest g, receiveFromBus (env n).1 xs = (rest, .frame g) → rest.length < xs.length := by
          intro xs
          induction xs with
          | nil => intro rest g h; cases h
          | cons x xs ih =>
            intro rest g h
            cases x with
            | overrun => cases h
            | frame b =>
              unfold receiveFromBus at h
              cases hb : fromBx b (env n).1 with
              | none =>
                rw [hb] at h
                have := ih rest g h
                simp only [List.length_cons]
                omega
              | some g => rw [hb] at h; cases h; simp
        unfold BxCan.receive at hr
        split at hr
        · rw [hl] at hr; cases hr
        · rename_i rest r' hn hr'
          cases hr
          exact key _ _ _ hr'
      cases ha : r.acceptFrame checks (env n).2 f with
      | none => rw [ha] at h; cases h
      | some q =>
        obtain ⟨r1, a⟩ := q
        rw [ha] at h
        cases a with
        | transfer t => cases h
        | outOfMemory => cases h
        | nothing => exact bxReceive_all h1 (by omega) h

theorem mem_one {α : Type} {a : α} {P : α → Prop} : (∃ t ∈ [a], P t) ↔ P a := by simp

/-- What holds for a client at any time: nothing is in the mailboxes, and nothing was. -/
structure BxPnp.Idle (p : BxPnp) (u : UniqueId) : Prop where
  boxes : ∀ i, p.can.boxes i = none
  copies : p.can.loopback = []
  mtu : p.transmitter.mtu = 8
  uid : p.client.uniqueId = u

theorem handle_spec {checks : Bool} {p p' : BxPnp} {u : UniqueId} {env : Nat → Instant × Bool} {id : Option NodeId} (hp : p.Idle u) (h : p.handleIncoming checks env = some (p', id)) :
    p'.Idle u ∧ p'.queue = p.queue ∧ ∃ given ts, (∀ op ∈ given, ∃ f oom, op = .frame f oom) ∧ p.receiver.exec checks given = some (p'.receiver, ts) ∧
      given.map rxContent ++ extendedFrames p'.can.received = extendedFrames p.can.received ∧
      (∀ n, id = some n ↔ ∃ t ∈ ts, grants canIds .one t.payload u n) ∧ ts.length ≤ 1 := by
  unfold BxPnp.handleIncoming at h
  split at h
  · cases h
  · rename_i receiver can result hr
    obtain ⟨h1, h2, given, h3, h4, h5⟩ := bxReceive_does hp.copies hr
    have hfree := fun t => C58_free_partial (E := Unit) (Tid := Can.Tid) C58_can_ids .one p.client (.transfer t)
    have hidle : ∀ q : BxPnp, q = { p with receiver, can } → q.Idle u := by
      rintro q rfl
      exact ⟨fun i => by rw [show ({ p with receiver, can } : BxPnp).can = can from rfl, h2]; exact hp.boxes i, h1, hp.mtu, hp.uid⟩
    have hnone : ∀ ts : List CanTransfer, ts = [] → ∀ n, (none : Option NodeId) = some n ↔ ∃ t ∈ ts, grants canIds .one t.payload u n := by
      rintro ts rfl n
      simp
    cases result with
    | transfer t =>
      have hf := hfree t
      dsimp only at hf h
      rw [hp.uid] at hf
      cases hg : p.client.receive (E := Unit) (version1 canIds) (.transfer t) with
      | id n =>
        rw [hg] at h
        cases h
        refine ⟨hidle _ rfl, rfl, given, [t], h3, h4, h5, fun m => ?_, by simp⟩
        have := hf.1 m
        rw [show freeReceives canIds .one p.client (.transfer t) = (.id n : Got NodeId Unit) from hg] at this
        rw [mem_one, ← this]
        simp
      | nothing =>
        rw [hg] at h
        cases h
        refine ⟨hidle _ rfl, rfl, given, [t], h3, h4, h5, fun m => ?_, by simp⟩
        have := hf.1 m
        rw [show freeReceives canIds .one p.client (.transfer t) = (.nothing : Got NodeId Unit) from hg] at this
        rw [mem_one, ← this]
        simp
      | error e =>
        rw [hg] at h
        cases h
        refine ⟨hidle _ rfl, rfl, given, [t], h3, h4, h5, fun m => ?_, by simp⟩
        have := hf.1 m
        rw [show freeReceives canIds .one p.client (.transfer t) = (.error e : Got NodeId Unit) from hg] at this
        rw [mem_one, ← this]
        simp
      | panic => rw [hg] at h; cases h
    | none => cases h; exact ⟨hidle _ rfl, rfl, given, [], h3, h4, h5, hnone _ rfl, by simp⟩
    | memory => cases h; exact ⟨hidle _ rfl, rfl, given, [], h3, h4, h5, hnone _ rfl, by simp⟩
    | driver => cases h; exact ⟨hidle _ rfl, rfl, given, [], h3, h4, h5, hnone _ rfl, by simp⟩

theorem handle_release {p : BxPnp} {u : UniqueId} {env : Nat → Instant × Bool} (hp : p.Idle u) : p.handleIncoming false env ≠ none := by
  unfold BxPnp.handleIncoming
  split
  · rename_i h
    exact (bxReceive_release _ _ _ hp.copies h).elim
  · rename_i receiver can result hr
    dsimp only
    cases result with
    | none => simp [PnpClient.receive]
    | memory => simp [PnpClient.receive]
    | driver => simp [PnpClient.receive]
    | transfer t =>
      have hf := C58_free_partial (E := Unit) (Tid := Can.Tid) C58_can_ids .one p.client (.transfer t)
      dsimp only at hf ⊢
      split
      · simp
      · simp
      · simp
      · rename_i hg
        have hg' : freeReceives canIds .one p.client (.transfer t) = (.panic : Got NodeId Unit) := hg
        rw [hg'] at hf
        exact absurd (hf.2 fun id hid => by have := (hf.1 id).2 hid; cases this) (by simp)

theorem step_idle {cap : Nat} {checks : Bool} (hcap : 8 ≤ cap) {p p' : BxPnp} {u : UniqueId} {op : PnpOp} {id : Option NodeId} {es : List BusEvent} (hp : p.Idle u)
    (h : p.step cap checks op = some (p', id, es)) :
    p'.Idle u ∧ es = [] ∧ (if op.isPublish then p.queue.frame = none ∧ p'.queue.frame ≠ none else p'.queue = p.queue) := by
  cases op with
  | publish now =>
    obtain ⟨q, h1, h2⟩ := Option.map_eq_some_iff.1 h
    cases h2
    obtain ⟨k1, k2⟩ := publish_spec hcap p hp.mtu now
    cases hf : p.queue.frame with
    | some g => rw [k1 g hf] at h1; cases h1
    | none =>
      obtain ⟨f, p2, e1, e2, e3, -, e5, e6, -⟩ := k2 hf
      rw [h1] at e1
      cases e1
      exact ⟨⟨fun i => by rw [e3]; exact hp.boxes i, by rw [e3]; exact hp.copies, e5, e6.trans hp.uid⟩, rfl, rfl, by rw [e2]; simp⟩
  | handle env =>
    obtain ⟨q, h1, h2⟩ := Option.map_eq_some_iff.1 h
    cases h2
    obtain ⟨k1, k2, -⟩ := handle_spec (p' := q.1) (id := q.2) hp h1
    exact ⟨k1, rfl, k2⟩
  | bus i now =>
    obtain ⟨q, h1, h2⟩ := Option.map_eq_some_iff.1 h
    cases h2
    simp only [BxCan.step, hp.boxes i] at h1
    cases h1
    exact ⟨hp, rfl, rfl⟩
  | arrive x =>
    cases h
    exact ⟨⟨hp.boxes, hp.copies, hp.mtu, hp.uid⟩, rfl, rfl⟩

theorem pnp_run_cons {cap : Nat} {checks : Bool} {p p' : BxPnp} {op : PnpOp} {ops : List PnpOp} {ids : List NodeId} {es : List BusEvent} (h : p.run cap checks (op :: ops) = some (p', ids, es)) :
    ∃ p1 id es1 ids2 es2, p.step cap checks op = some (p1, id, es1) ∧ p1.run cap checks ops = some (p', ids2, es2) ∧ ids = id.toList ++ ids2 ∧ es = es1 ++ es2 := by
  unfold BxPnp.run at h
  split at h
  · cases h
  · rename_i p1 id es1 h1
    obtain ⟨⟨p2, ids2, es2⟩, h2, h3⟩ := Option.map_eq_some_iff.1 h
    cases h3
    exact ⟨p1, id, es1, ids2, es2, h1, h2, rfl, rfl⟩

theorem run_idle {cap : Nat} {checks : Bool} (hcap : 8 ≤ cap) {u : UniqueId} : ∀ {ops : List PnpOp} {p p' : BxPnp} {ids : List NodeId} {es : List BusEvent}, p.Idle u →
    p.run cap checks ops = some (p', ids, es) →
    p'.Idle u ∧ es = [] ∧ ops.countP PnpOp.isPublish ≤ (if p.queue.frame = none then 1 else 0) ∧ (ops.countP PnpOp.isPublish = 0 → p'.queue = p.queue)
  | [], p, p', ids, es, hp, h => by cases h; exact ⟨hp, rfl, by simp, fun _ => rfl⟩
  | op :: ops, p, p', ids, es, hp, h => by
    obtain ⟨p1, id, es1, ids2, es2, h1, h2, rfl, rfl⟩ := pnp_run_cons h
    obtain ⟨k1, k2, k3⟩ := step_idle hcap hp h1
    obtain ⟨m1, m2, m3, m4⟩ := run_idle hcap k1 h2
    refine ⟨m1, by rw [k2, m2]; rfl, ?_, ?_⟩
    · rw [List.countP_cons]
      split at k3
      · rename_i ho
        rw [if_neg k3.2] at m3
        rw [if_pos k3.1, if_pos ho]
        omega
      · rename_i ho
        rw [k3] at m3
        rw [if_neg ho]
        omega
    · intro hc
      rw [List.countP_cons] at hc
      split at k3
      · rename_i ho
        rw [if_pos ho] at hc
        omega
      · rw [m4 (by omega), k3]

theorem new_idle {u : UniqueId} {oom : Bool} {p : BxPnp} (h : BxPnp.new u oom BxCan.new = some p) :
    p.Idle u ∧ p.queue.frame = none ∧ p.receiver = ((Receiver.new none).subscribeMessage false 8166#13 9 (milliseconds 1000)).1 ∧ p.can = BxCan.new ∧
      p.client = ⟨u, AnonymousPublisher.new canTid 8166#13 nominal (milliseconds 1000)⟩ := by
  cases oom with
  | true => cases h
  | false =>
    cases h
    exact ⟨⟨fun _ => rfl, rfl, rfl, rfl⟩, rfl, rfl, rfl, rfl⟩

/-! ### C113 -/

/-- **C113, violated.** `publish_request` is documented to send a request onto the CAN bus. Whatever is done with a client, it never gives a frame to the controller: nothing happens at the bus, and
no mailbox ever has a frame in it. The request stays in the queue of the client, which nothing empties. -/
theorem C113_never_sent_counterexample {cap : Nat} {checks oom : Bool} (hcap : 8 ≤ cap) {u : UniqueId} {p p' : BxPnp} (hnew : BxPnp.new u oom BxCan.new = some p)
    {ops : List PnpOp} {ids : List NodeId} {es : List BusEvent} (h : p.run cap checks ops = some (p', ids, es)) : es = [] ∧ ∀ i, p'.can.boxes i = none :=
  let r := run_idle hcap (new_idle hnew).1 h
  ⟨r.2.1, r.1.boxes⟩

/-- **C113, violated.** The second call of `publish_request` panics, whatever is done before, between and after the two calls. -/
theorem C113_second_panics_counterexample {cap : Nat} {checks oom : Bool} (hcap : 8 ≤ cap) {u : UniqueId} {p : BxPnp} (hnew : BxPnp.new u oom BxCan.new = some p)
    {ops : List PnpOp} (htwo : 2 ≤ ops.countP PnpOp.isPublish) : p.run cap checks ops = none := by
  cases h : p.run cap checks ops with
  | none => rfl
  | some q =>
    obtain ⟨p', ids, es⟩ := q
    obtain ⟨h1, h2, -⟩ := new_idle hnew
    have := (run_idle hcap h1 h).2.2.1
    rw [if_pos h2] at this
    omega

/-- **C113 (partial).** The first call does not panic, and prepares the right frame: a whole transfer, a message from an anonymous node on the subject 8166 with nominal priority, whose deadline is a
second later and whose content is the request with the unique ID of the client. -/
theorem C113_first_partial {cap : Nat} {checks oom : Bool} (hcap : 8 ≤ cap) {u : UniqueId} {p p' : BxPnp} (hnew : BxPnp.new u oom BxCan.new = some p)
    {ops : List PnpOp} {ids : List NodeId} {es : List BusEvent} (hrun : p.run cap checks ops = some (p', ids, es)) (hnone : ops.countP PnpOp.isPublish = 0) (now : Instant) :
    ∃ p2 f id tid padding, p'.publishRequest cap now = some p2 ∧ p2.queue.frame = some f ∧
      makeCanId (.message ⟨now.plus (milliseconds 1000), tid, nominal, 8166#13, none⟩) (request .one u) = some id ∧
      Segmentation 8 ⟨.message ⟨now.plus (milliseconds 1000), tid, nominal, 8166#13, none⟩, false, request .one u⟩ id padding [f] := by
  obtain ⟨h1, h2, -, -, hc⟩ := new_idle hnew
  obtain ⟨k1, -, -, k4⟩ := run_idle hcap h1 hrun
  have hsame : ∀ {ops : List PnpOp} {p p' : BxPnp} {ids es}, ops.countP PnpOp.isPublish = 0 → p.run cap checks ops = some (p', ids, es) → p'.client = p.client := by
    intro ops
    induction ops with
    | nil => intro p p' ids es _ h; cases h; rfl
    | cons op ops ih =>
      intro p p' ids es hn h
      obtain ⟨p1, id, es1, ids2, es2, h1, h2, -, -⟩ := pnp_run_cons h
      rw [List.countP_cons] at hn
      rw [ih (by omega) h2]
      cases op with
      | publish now => simp [PnpOp.isPublish] at hn
      | handle env =>
        obtain ⟨q, e1, e2⟩ := Option.map_eq_some_iff.1 h1
        cases e2
        unfold BxPnp.handleIncoming at e1
        split at e1
        · cases e1
        · dsimp only at e1
          split at e1 <;> cases e1 <;> rfl
      | bus i now => obtain ⟨q, e1, e2⟩ := Option.map_eq_some_iff.1 h1; cases e2; rfl
      | arrive x => cases h1; rfl
  have hcl := (hsame hnone hrun).trans hc
  obtain ⟨f, p2, e1, e2, -, -, -, -, id, padding, e7, e8⟩ := (publish_spec hcap p' k1.mtu now).2 (by rw [k4 hnone]; exact h2)
  rw [hcl] at e7 e8
  exact ⟨p2, f, id, _, padding, e1, e2, e7, e8⟩

/-- **C113 (partial).** A build without overflow checks panics only in the second `publish_request`. -/
theorem C113_no_panic_partial {cap : Nat} {oom : Bool} (hcap : 8 ≤ cap) {u : UniqueId} {p : BxPnp} (hnew : BxPnp.new u oom BxCan.new = some p) {ops : List PnpOp}
    (hone : ops.countP PnpOp.isPublish ≤ 1) : p.run cap false ops ≠ none := by
  obtain ⟨h1, h2, -⟩ := new_idle hnew
  have key : ∀ (ops : List PnpOp) (p : BxPnp), p.Idle u → ops.countP PnpOp.isPublish ≤ (if p.queue.frame = none then 1 else 0) → p.run cap false ops ≠ none := by
    intro ops
    induction ops with
    | nil => intro p _ _; simp [BxPnp.run]
    | cons op ops ih =>
      intro p hp hn
      have hstep : p.step cap false op ≠ none := by
        cases op with
        | publish now =>
          have : p.queue.frame = none := by
            by_contra hne
            rw [if_neg hne, List.countP_cons] at hn
            simp [PnpOp.isPublish] at hn
          obtain ⟨f, p2, e1, -⟩ := (publish_spec hcap p hp.mtu now).2 this
          simp [BxPnp.step, e1]
        | handle env => simpa [BxPnp.step] using handle_release hp
        | bus i now => simp [BxPnp.step, BxCan.step, hp.boxes i]
        | arrive x => simp [BxPnp.step, BxCan.step]
      cases hs : p.step cap false op with
      | none => exact (hstep hs).elim
      | some q =>
        obtain ⟨p1, id, es⟩ := q
        obtain ⟨k1, -, k3⟩ := step_idle hcap hp hs
        have := ih p1 k1 (by
          rw [List.countP_cons] at hn
          split at k3
          · rename_i ho
            rw [if_neg k3.2]
            rw [if_pos k3.1, if_pos ho] at hn
            omega
          · rename_i ho
            rw [if_neg ho] at hn
            rw [k3]
            omega)
        simpa [BxPnp.run, hs] using this
  exact key ops p h1 (by rw [if_pos h2]; exact hone)

/-- **C113 (partial).** `handle_incoming_frames` returns exactly the node IDs that are granted to the unique ID of the client by the transfers on the subject 8166 that the receiver makes of the
extended frames that the controller receives, in their order. What is not read yet waits in the controller. -/
theorem C113_received_partial {cap : Nat} {checks oom : Bool} (hcap : 8 ≤ cap) {u : UniqueId} {p p' : BxPnp} (hnew : BxPnp.new u oom BxCan.new = some p)
    {ops : List PnpOp} {ids : List NodeId} {es : List BusEvent} (h : p.run cap checks ops = some (p', ids, es)) :
    ∃ given ts g, (∀ op ∈ given, ∃ f oom, op = .frame f oom) ∧
      Receiver.exec checks ((Receiver.new none).subscribeMessage false 8166#13 9 (milliseconds 1000)).1 given = some (p'.receiver, ts) ∧
      given.map rxContent ++ extendedFrames p'.can.received = extendedFrames (pnpArrivals ops) ∧
      (∀ (t : CanTransfer) id, g t = some id ↔ grants canIds .one t.payload u id) ∧ ids = ts.filterMap g := by
  classical
  obtain ⟨h1, -, h3, h4, -⟩ := new_idle hnew
  obtain ⟨g, hg⟩ : ∃ g : CanTransfer → Option NodeId, ∀ t id, g t = some id ↔ grants canIds .one t.payload u id := by
    refine ⟨fun t => if hx : ∃ id, grants canIds .one t.payload u id then some hx.choose else none, fun t id => ?_⟩
    have huniq : ∀ a b, grants canIds .one t.payload u a → grants canIds .one t.payload u b → a = b := by
      intro a b ha hb
      have e := Option.some.inj (ha.2.2.symm.trans hb.2.2)
      have e2 : canIds.toU16 a = canIds.toU16 b := BitVec.eq_of_toNat_eq e
      exact Option.some.inj (((C58_can_ids.tryFrom_iff (canIds.toU16 a) a).2 rfl).symm.trans ((C58_can_ids.tryFrom_iff (canIds.toU16 a) b).2 e2.symm))
    dsimp only
    constructor
    · intro he
      split at he
      · rename_i hx
        cases he
        exact hx.choose_spec
      · cases he
    · intro hid
      rw [dif_pos ⟨id, hid⟩]
      exact congrArg some (huniq _ _ (Exists.choose_spec ⟨id, hid⟩) hid)
  have key : ∀ (ops : List PnpOp) (p p' : BxPnp) (ids : List NodeId) (es : List BusEvent), p.Idle u → p.run cap checks ops = some (p', ids, es) →
      ∃ given ts, (∀ op ∈ given, ∃ f oom, op = .frame f oom) ∧ p.receiver.exec checks given = some (p'.receiver, ts) ∧
      given.map rxContent ++ extendedFrames p'.can.received = extendedFrames p.can.received ++ extendedFrames (pnpArrivals ops) ∧ ids = ts.filterMap g := by
    intro ops
    induction ops with
    | nil => intro p p' ids es hp h; cases h; exact ⟨[], [], by simp, rfl, by simp [pnpArrivals, extendedFrames], rfl⟩
    | cons op ops ih =>
      intro p p' ids es hp h
      obtain ⟨p1, id, es1, ids2, es2, k1, k2, rfl, -⟩ := pnp_run_cons h
      obtain ⟨m1, -, -⟩ := step_idle hcap hp k1
      obtain ⟨given, ts, i1, i2, i3, i4⟩ := ih p1 p' ids2 es2 m1 k2
      cases op with
      | publish now =>
        obtain ⟨q, e1, e2⟩ := Option.map_eq_some_iff.1 k1
        cases e2
        obtain ⟨a1, a2⟩ := publish_spec hcap p hp.mtu now
        cases hf : p.queue.frame with
        | some gg => rw [a1 gg hf] at e1; cases e1
        | none =>
          obtain ⟨f, p2, b1, -, b3, b4, -⟩ := a2 hf
          rw [e1] at b1
          cases b1
          exact ⟨given, ts, i1, by rw [← b4]; exact i2, by rw [i3, b3]; rfl, i4⟩
      | handle env =>
        obtain ⟨q, e1, e2⟩ := Option.map_eq_some_iff.1 k1
        cases e2
        obtain ⟨-, -, given0, ts0, a3, a4, a5, a6, a7⟩ := handle_spec (p' := q.1) (id := q.2) hp e1
        refine ⟨given0 ++ given, ts0 ++ ts, ?_, by rw [exec_append, a4]; simp only [Option.bind_some, i2, Option.map_some], ?_, ?_⟩
        · exact fun op hop => (List.mem_append.1 hop).elim (a3 op) (i1 op)
        · rw [List.map_append, List.append_assoc, i3, ← List.append_assoc, a5]; rfl
        · rw [List.filterMap_append, ← i4]
          congr 1
          match ts0, a6, a7 with
          | [], a6, _ =>
            cases hq : q.2 with
            | none => rfl
            | some n => have := (a6 n).1 hq; simp at this
          | [t], a6, _ =>
            have : q.2 = g t := by
              apply Option.ext
              intro n
              rw [a6 n, hg, mem_one]
            rw [this]
            cases hgt : g t <;> simp [hgt]
          | _ :: _ :: _, _, a7 => simp at a7
      | bus i now =>
        obtain ⟨q, e1, e2⟩ := Option.map_eq_some_iff.1 k1
        cases e2
        simp only [BxCan.step, hp.boxes i] at e1
        cases e1
        exact ⟨given, ts, i1, i2, i3, i4⟩
      | arrive x =>
        cases k1
        refine ⟨given, ts, i1, i2, i3.trans ?_, i4⟩
        show extendedFrames (p.can.received ++ [x]) ++ _ = extendedFrames p.can.received ++ extendedFrames (x :: pnpArrivals ops)
        cases hx : x.worth with
        | none => simp [extendedFrames, hx]
        | some w => cases hw : w.frame? <;> simp [extendedFrames, hx, hw, List.filterMap_append]
  obtain ⟨given, ts, i1, i2, i3, i4⟩ := key ops p p' ids es h1 h
  rw [h3] at i2
  rw [h4] at i3
  exact ⟨given, ts, g, i1, i2, i3, hg, i4⟩

/-! #### A case: two replies, of which the second is for this client -/

/-- The frames of a reply of node 20. -/
def replyFrames (u : UniqueId) (tid : BitVec 5) (id : Nat) : List RxItem :=
  let d : TxDriver (List Frame) Empty := ⟨fun q _ => some (q, true), fun q f => some (q ++ [f], .ok none)⟩
  match (Transmitter.mk 8 0 0).push d 8 ⟨.message ⟨9000000#32, tid, nominal, 8166#13, some 20⟩, false, reply .one (request .one u) id⟩ [] with
  | some (_, q, _) => (q.filterMap toBx).map .frame
  | none => []

def pnpDemo : Option BxPnp := BxPnp.new uidA false BxCan.new

/-- A request, a reply for another node, an overrun, and the reply for this node, of which the last frame is read in a later call. -/
def pnpOps : List PnpOp :=
  [.publish 1000#32, .bus 0 1010#32] ++ (replyFrames uidB 3 41).map .arrive ++ [.arrive .overrun, .handle fun _ => (2000#32, false), .handle fun _ => (2100#32, false)] ++
    ((replyFrames uidA 4 42).take 1).map .arrive ++ [.handle fun _ => (2200#32, false)] ++ ((replyFrames uidA 4 42).drop 1).map .arrive ++
    [.bus 1 2300#32, .handle fun _ => (2400#32, false)]

example : (replyFrames uidA 4 42).length = 2 ∧ pnpOps.countP PnpOp.isPublish = 1 ∧ (extendedFrames (pnpArrivals pnpOps)).length = 4 ∧
    (pnpDemo.bind fun p => (p.run 8 true pnpOps).map fun q => (q.2.1, q.2.2, q.1.queue.frame.isSome)) = some ([42], [], true) ∧
    (pnpDemo.bind fun p => (p.run 8 true (pnpOps ++ [.publish 5000000#32])).map fun q => q.2.1) = none := by decide +kernel

/-- The frame that stays in the queue: ID, data with the tail byte, and deadline. -/
example : (pnpDemo.bind fun p => (p.publishRequest 8 1000#32).bind fun q => q.queue.frame.map fun f => (f.id.extractLsb' 24 5, f.id.extractLsb' 8 13, f.data.length, f.data.getLast?, f.timestamp)) =
    some (0x11, 8166, 8, some 0xe0, 1001000#32) := by decide +kernel

end Verif.Drv
