import Verif.Serial.Invariants

/-! Properties C29 to C32, C62 and C63: the serial transport. -/

namespace Verif.Serial

open Verif.Cobs (Unescaper ZeroAfterFullRun)
open Verif.Crc (Tracker le32 crc32c)
open Verif.Hdr (NodeId16 Tid64 RawHeader TransportHeader)

/-! ### A concrete receiver and transfer for the examples -/

def node (v : BitVec 16) (h : v ≠ 0xffff#16 := by decide) : NodeId16 := ⟨v, h⟩

/-- A node with ID 40, subscribed to requests on service 430 and to messages on subject 7509. -/
def demoReceiver : Receiver :=
  ((((Receiver.new (some (node 40#16))).subscribe false .request 430 3 2000000#32).1).subscribe false .message 7509 64 2000000#32).1

/-- A request from node 9 to node 40 with five bytes. -/
def demoTransfer : SerialTransfer :=
  { header := .request { timestamp := 77#32, transferId := 12#64, priority := 4#3, service := 430#9, source := node 9#16, destination := node 40#16 }
    loopback := true, payload := [5#8, 0#8, 0#8, 6#8, 7#8] }

theorem demo_wants : Wants demoReceiver demoTransfer.header (Subscription.new 3 2000000#32) :=
  ⟨rfl, by intro d h; cases h; rfl, by intro s se _ h; cases h⟩

/-- Bytes arriving one after another, with a call of `receive` for each. -/
def arriving (bs : List Byte) : List Op := bs.flatMap (fun b => [.clean 1000#32, .byte b 1000#32 false])

theorem arriving_quiet (bs : List Byte) : Quiet (arriving bs) := by
  induction bs with
  | nil => intro op h; cases h
  | cons b bs ih =>
    intro op h
    simp only [arriving, List.flatMap_cons, List.cons_append, List.nil_append, List.mem_cons] at h
    rcases h with rfl | rfl | h
    · exact Or.inl ⟨_, rfl⟩
    · exact Or.inr ⟨_, _, rfl⟩
    · exact ih op h

theorem arriving_bytes (bs : List Byte) : bytesOf (arriving bs) = bs := by
  induction bs with
  | nil => rfl
  | cons b bs ih => simpa [arriving, bytesOf] using ih

/-! ### Events and calls of `receive` -/

/-- The events of a call of `receive` on these inputs, up to the point where it returns. -/
def receiveOps {E : Type} (r : Receiver) : List (Input E) → List Op
  | .byte b now oom :: rest => .byte b now oom :: (match r.handleByte oom b now with
      | some (r, .nothing) => receiveOps r rest
      | _ => [])
  | _ => []

/-- The transfer in the result of `receive`. -/
def Received.transfers {E : Type} : Received E → List SerialTransfer
  | .transfer t => [t]
  | _ => []

/-- A call of `receive` is a sequence of events: a cleanup and the bytes it takes from the driver. So what is said below about
sequences of events holds for sequences of calls. -/
theorem receive_eq_exec {E : Type} (r : Receiver) (now : Instant) (inputs : List (Input E)) :
    (r.receive now inputs).map (fun p => (p.1, p.2.1.transfers)) =
      r.exec (.clean now :: receiveOps (r.cleanExpired now) inputs) := by
  rw [exec_cons_clean, Receiver.receive]
  generalize r.cleanExpired now = r
  induction inputs generalizing r with
  | nil => rfl
  | cons i rest ih =>
    cases i with
    | wouldBlock => rfl
    | error e => rfl
    | byte b now oom =>
      simp only [Receiver.receiveLoop, receiveOps, Receiver.exec, Receiver.step]
      cases h : r.handleByte oom b now with
      | none => rfl
      | some p =>
        obtain ⟨r', o⟩ := p
        cases o with
        | nothing =>
          simp only [ih, Option.map_some, Option.bind_some, Output.transfers, List.nil_append]
          cases r'.exec (receiveOps r' rest) <;> rfl
        | transfer t => rfl
        | outOfMemory => rfl

/-! ### C29 -/

theorem wire_eq (t : SerialTransfer) : wire t = 0#8 :: (Verif.Cobs.enc [] (frameData t) ++ [0#8]) := by
  simp [wire, Verif.Cobs.escaped_eq]

theorem decoded_wire {t : SerialTransfer} (h : ¬ ZeroAfterFullRun (frameData t)) :
    Verif.Cobs.decoded (Verif.Cobs.enc [] (frameData t)) = some (frameData t) := by
  have := (Verif.Cobs.C28_cobs_roundtrip_iff_partial _).mpr h
  rwa [Verif.Cobs.escaped_eq, Option.bind_some] at this

/-- After a delimiter the receiver waits for a frame, unless it was in the header of one. -/
theorem step_zero_between {r : Receiver} (hs : r.Between) (now : Instant) (oom : Bool) :
    r.handleByte oom 0#8 now = some ({ r with state := .betweenTransfers }, .nothing) := by
  unfold Receiver.handleByte
  rcases hs with hs | hs <;> rw [hs] <;> simp

/-- **C29 (partial).** When a receiver is between frames and wants a transfer, and the bytes sent for the transfer arrive in
any number of calls of `receive`, at any times, it returns exactly that transfer once, with the time of arrival, and with the
payload cut to the extent of the subscription.

Missing from the full claim: frame data with a zero after a full run of non-zero bytes, which the unescaper damages
(`C29_roundtrip_counterexample`), and receivers which are in the middle of something (C31). -/
theorem C29_serial_roundtrip_partial {ops : List Op} {r : Receiver} {t : SerialTransfer} {sub : Subscription}
    (hs : r.Between) (hq : Quiet ops) (hb : bytesOf ops = wire t) (hz : ¬ ZeroAfterFullRun (frameData t))
    (hw : Wants r t.header sub) :
    ∃ r' b now, .byte b now false ∈ ops ∧ r'.Between ∧
      r.exec ops = some (r',
        [{ header := t.header.setTimestamp now, loopback := false, payload := t.payload.take sub.payloadSizeMax }]) := by
  rw [wire_eq] at hb
  obtain ⟨ops1, now1, ops2, rfl, h1, h2, q1, q2⟩ := quiet_split (e1 := []) hq hb
  obtain ⟨r1, k1, k2, k3⟩ := feed_nothing (r := r) q1 h1
  have hs1 : r1.Between := by unfold Receiver.Between; rw [k2]; exact hs
  have hstep := step_zero_between hs1 now1 false
  obtain ⟨sub1, w1, e1⟩ := k3.wants hw
  have w2 : Wants { r1 with state := .betweenTransfers } t.header sub1 := ⟨w1.subscribed, w1.addressed, w1.newer⟩
  obtain ⟨r2, b, now, m1, m2, m3⟩ := frame_received (r := { r1 with state := .betweenTransfers }) rfl q2 h2 (decoded_wire hz) w2
  refine ⟨r2, b, now, by simp [m1], Or.inr m2, ?_⟩
  rw [exec_append, k1]
  simp [exec_cons_byte hstep, m3, e1, Output.transfers]

/-- **C29 (partial).** No condition on the content when the payload has at most 226 bytes. -/
theorem C29_serial_roundtrip_short_partial {ops : List Op} {r : Receiver} {t : SerialTransfer} {sub : Subscription}
    (hs : r.Between) (hq : Quiet ops) (hb : bytesOf ops = wire t) (hz : t.payload.length ≤ 226)
    (hw : Wants r t.header sub) :
    ∃ r' b now, .byte b now false ∈ ops ∧ r'.Between ∧
      r.exec ops = some (r',
        [{ header := t.header.setTimestamp now, loopback := false, payload := t.payload.take sub.payloadSizeMax }]) := by
  refine C29_serial_roundtrip_partial hs hq hb ?_ hw
  rw [← Verif.Cobs.C28_cobs_roundtrip_iff_partial]
  apply Verif.Cobs.C28_cobs_roundtrip_short_partial
  simp only [frameData, List.length_append, (Verif.Hdr.C25_checksum_valid _).1, le32, List.length_cons, List.length_nil]
  omega

example : demoReceiver.Between ∧ Quiet (arriving (wire demoTransfer)) ∧ bytesOf (arriving (wire demoTransfer)) = wire demoTransfer ∧
    demoTransfer.payload.length ≤ 226 := ⟨Or.inl rfl, arriving_quiet _, arriving_bytes _, by decide⟩

example : (demoReceiver.exec (arriving (wire demoTransfer))).map (·.2) =
    some [{ demoTransfer with header := demoTransfer.header.setTimestamp 1000#32, loopback := false, payload := [5#8, 0#8, 0#8] }] := by
  decide +kernel

/-- A message with 256 bytes, of which the last is zero. -/
def longTransfer : SerialTransfer :=
  { header := .message { timestamp := 0#32, transferId := 3#64, priority := 4#3, subject := 7509#13, source := some (node 9#16) }
    loopback := false, payload := List.replicate 252 1#8 ++ [0#8, 7#8] }

set_option maxRecDepth 20000 in
/-- **C29** is false for some payloads: this transfer is sent but never received, although everything is in order. -/
theorem C29_roundtrip_counterexample :
    ¬ ∀ (r : Receiver) (t : SerialTransfer) (sub : Subscription) (ops : List Op), r.Between → Quiet ops → bytesOf ops = wire t →
      Wants r t.header sub → (r.exec ops).map (·.2.length) = some 1 := by
  intro h
  have hw : Wants demoReceiver longTransfer.header (Subscription.new 64 2000000#32) :=
    ⟨rfl, (by intro d h; cases h), (by intro s se _ h; cases h)⟩
  have := h demoReceiver longTransfer _ (arriving (wire longTransfer)) (Or.inl rfl) (arriving_quiet _) (arriving_bytes _) hw
  revert this
  decide +kernel

/-! ### C62 -/

/-- A state which a new receiver can get to. -/
def Reachable (r : Receiver) : Prop := ∃ id pre ts, (Receiver.new id).exec pre = some (r, ts)

theorem Reachable.inv {r : Receiver} (h : Reachable r) : Inv r := by
  obtain ⟨id, pre, ts, h⟩ := h
  exact exec_inv (inv_new id) h

/-- **C62.** The receiver does not panic, whatever bytes arrive, whenever the allocator fails, and however it is used. -/
theorem C62_serial_receiver_never_panics (id : Option NodeId16) (ops : List Op) : (Receiver.new id).exec ops ≠ none := by
  obtain ⟨r', ts, h, -⟩ := exec_total (inv_new id) ops
  rw [h]
  exact fun h => by cases h

/-- **C62**, for a call of `receive`. -/
theorem C62_serial_receive_never_panics {E : Type} {r : Receiver} (hr : Reachable r) (now : Instant) (inputs : List (Input E)) :
    r.receive now inputs ≠ none := by
  obtain ⟨r', ts, h, -⟩ := exec_total hr.inv (.clean now :: receiveOps (r.cleanExpired now) inputs)
  rw [← receive_eq_exec] at h
  intro hn
  rw [hn] at h
  cases h

theorem demo_reachable : Reachable demoReceiver :=
  ⟨some (node 40#16), [.subscribe false .request 430 3 2000000#32, .subscribe false .message 7509 64 2000000#32], [], rfl⟩

example : ((Receiver.new none).exec ([.subscribe true .message 3 4 5#32, .setId (some (node 1#16))] ++
    arriving [0#8, 255#8, 254#8, 0#8, 0#8, 9#8])).map (·.2) = some [] := by decide +kernel

/-! ### C63 -/

theorem exec_tracks {ops : List Op} {id : Option NodeId16} {r : Receiver} {ts : List SerialTransfer}
    (h : (Receiver.new id).exec ops = some (r, ts)) :
    Tracks (bytesOf ops) (fun hd cap => ∃ ops1 ops2 r1 ts1 sub, ops = ops1 ++ ops2 ∧ (Receiver.new id).exec ops1 = some (r1, ts1) ∧
      r1.subscriptions.find hd.kind hd.port = some sub ∧ sub.payloadSizeMax = cap) r.state := by
  obtain ⟨n, hn⟩ : ∃ n, ops.length = n := ⟨_, rfl⟩
  induction n generalizing ops r ts with
  | zero =>
    have := List.length_eq_zero_iff.mp hn
    subst this
    cases h
    trivial
  | succ n ih =>
    obtain ⟨ops', op, rfl⟩ : ∃ ops' op, ops = ops' ++ [op] := by
      refine ⟨ops.dropLast, ops.getLast (by intro h0; simp [h0] at hn), (List.dropLast_concat_getLast _).symm⟩
    obtain ⟨r1, ts1, ts2, h1, h2, rfl⟩ := exec_snoc h
    have iht := ih h1 (by simpa using hn)
    have hinv := exec_inv (inv_new id) h1
    have iht2 : Tracks (bytesOf ops') (fun hd cap => ∃ o1 o2 r1 ts1 sub, ops' ++ [op] = o1 ++ o2 ∧
        (Receiver.new id).exec o1 = some (r1, ts1) ∧ r1.subscriptions.find hd.kind hd.port = some sub ∧ sub.payloadSizeMax = cap)
        r1.state := by
      refine iht.mono ?_
      rintro hd cap ⟨o1, o2, r1, ts1, sub, e1, e2, e3, e4⟩
      exact ⟨o1, o2 ++ [op], r1, ts1, sub, by rw [e1, List.append_assoc], e2, e3, e4⟩
    have same : bytesOf [op] = [] → r.state = r1.state → Tracks (bytesOf (ops' ++ [op])) (fun hd cap => ∃ o1 o2 r1 ts1 sub, ops' ++ [op] = o1 ++ o2 ∧
        (Receiver.new id).exec o1 = some (r1, ts1) ∧ r1.subscriptions.find hd.kind hd.port = some sub ∧ sub.payloadSizeMax = cap)
        r.state := by
      intro hb hs
      rw [bytesOf_append, hb, List.append_nil, hs]
      exact iht2
    cases op with
    | clean now => cases h2; exact same rfl rfl
    | subscribe oom k port extent timeout =>
      cases h2
      refine same rfl ?_
      unfold Receiver.subscribe
      split <;> rfl
    | unsubscribe k port => cases h2; exact same rfl rfl
    | setId id => cases h2; exact same rfl rfl
    | byte b now oom =>
      obtain ⟨r', o, g1, g2⟩ := byteStep hinv b now oom
      simp only [Receiver.step, g1, Option.map_some, Option.some.injEq, Prod.mk.injEq] at h2
      obtain ⟨rfl, rfl⟩ := h2
      rw [bytesOf_append]
      refine g2.tracks iht2 ?_
      intro hd sub hf
      exact ⟨ops', [.byte b now oom], r1, ts1, sub, rfl, h1, hf, rfl⟩

/-- **C63.** Nothing but complete, correct frames gives a transfer. When an event makes the receiver return a transfer, the
event is the arrival of a delimiter, and the bytes before it are a delimiter followed by a string without delimiters that
unescapes to a header (with a correct header CRC), a payload, and the correct CRC of the payload. The transfer has this header,
with its destination being this node if it has one, and the payload cut to the extent which a subscription of this
node to its port had. The port is subscribed when the transfer is returned. -/
theorem C63_serial_integrity {id : Option NodeId16} {ops : List Op} {op : Op} {r r' : Receiver} {ts ts' : List SerialTransfer}
    {t : SerialTransfer} (h : (Receiver.new id).exec ops = some (r, ts)) (hstep : r.step op = some (r', ts')) (ht : t ∈ ts') :
    (∃ now oom, op = .byte 0#8 now oom) ∧
    (∃ pre e hb payload th now, bytesOf ops = pre ++ 0#8 :: e ∧
      Verif.Cobs.decoded e = some (hb ++ payload ++ le32 (crc32c payload)) ∧
      Verif.Hdr.decode hb = some th ∧ t.header = th.asCoreHeader now ∧
      ∃ ops1 ops2 r1 ts1 sub, ops = ops1 ++ ops2 ∧ (Receiver.new id).exec ops1 = some (r1, ts1) ∧
        r1.subscriptions.find t.header.kind t.header.port = some sub ∧ t.payload = payload.take sub.payloadSizeMax) ∧
    t.loopback = false ∧
    r.subscriptions.find t.header.kind t.header.port ≠ none ∧ (∀ d, t.header.destination = some d → r.nodeId = some d) := by
  have htr := exec_tracks h
  have hinv := exec_inv (inv_new id) h
  cases op with
  | clean now => cases hstep; cases ht
  | subscribe => cases hstep; cases ht
  | unsubscribe => cases hstep; cases ht
  | setId => cases hstep; cases ht
  | byte b now oom =>
    obtain ⟨r2, o, g1, g2⟩ := byteStep hinv b now oom
    simp only [Receiver.step, g1, Option.map_some, Option.some.injEq, Prod.mk.injEq] at hstep
    obtain ⟨rfl, rfl⟩ := hstep
    cases g2 with
    | skip => cases ht
    | between => cases ht
    | start => cases ht
    | header => cases ht
    | reject out u h hs ho => rw [ho] at ht; cases ht
    | accept => cases ht
    | payload => cases ht
    | drop => cases ht
    | deliver u hd crc p cap sub hs hb hc hf hdst =>
      simp only [Output.transfers, List.mem_singleton] at ht
      subst ht
      rw [hs] at htr
      obtain ⟨pre, e, hbytes, body, th, now', e1, e2, e3, e4, e5, e6, e7, ops1, ops2, r1, ts1, sub1, x1, x2, x3, x4⟩ := htr
      refine ⟨⟨now, oom, by rw [hb]⟩, ?_, rfl, by rw [hf]; simp, hdst⟩
      obtain ⟨c1, c2⟩ := Verif.Crc.C02_tracker_correct_iff body
      rw [e6] at hc
      obtain ⟨payload, hpl⟩ := c1.mp hc
      refine ⟨pre, e, hbytes, payload, th, now', e1, ?_, e4, e5, ops1, ops2, r1, ts1, sub1, x1, x2, x3, ?_⟩
      · simp [Verif.Cobs.decoded, e2, hpl]
      · rw [x4]
        show p = _
        rw [e7, c2, hpl]
        congr 1
        simp [le32]

example : ∃ r ts r' t, demoReceiver.exec (arriving (wire demoTransfer).dropLast) = some (r, ts) ∧
    r.step (.byte 0#8 5#32 false) = some (r', [t]) := by
  have h : ((demoReceiver.exec (arriving (wire demoTransfer).dropLast)).bind (fun p => p.1.step (.byte 0#8 5#32 false))).map (·.2.length) = some 1 := by
    decide +kernel
  cases h1 : demoReceiver.exec (arriving (wire demoTransfer).dropLast) with
  | none => rw [h1] at h; cases h
  | some p =>
    rw [h1] at h
    simp only [Option.bind_some] at h
    cases h2 : p.1.step (.byte 0#8 5#32 false) with
    | none => rw [h2] at h; cases h
    | some q =>
      rw [h2] at h
      simp only [Option.map_some, Option.some.injEq] at h
      obtain ⟨t, ht⟩ := List.length_eq_one_iff.mp h
      exact ⟨p.1, p.2, q.1, t, rfl, by rw [h2, ← ht]⟩

/-! ### C30 -/

/-- The event leaves the subscription alone, and the allocator does not fail. -/
def Op.Leaves (k : Kind) (port : Nat) : Op → Prop
  | .subscribe _ k' port' _ _ => ¬ (k = k' ∧ port = port')
  | .unsubscribe k' port' => ¬ (k = k' ∧ port = port')
  | .byte _ _ oom => oom = false
  | _ => True

theorem exec_increasing {ops : List Op} {r r' : Receiver} {ts : List SerialTransfer} {k : Kind} {port : Nat} {source : NodeId16}
    {timeout : Duration} {last : Option SerialHeader} (hi : Inv r) (hk : Keeps k port source timeout last r)
    (hleaves : ∀ op ∈ ops, op.Leaves k port)
    (hclean : ∀ pre now post r1 ts1 a, ops = pre ++ .clean now :: post → r.exec pre = some (r1, ts1) →
      (last.toList ++ (ofSession k port source ts1).map (·.header)).getLast? = some a →
      Instant.before (Instant.plus a.timestamp timeout) now = false)
    (hexec : r.exec ops = some (r', ts)) :
    (last.toList ++ (ofSession k port source ts).map (·.header)).Pairwise (fun a b => a.transferId < b.transferId) := by
  induction ops generalizing r last ts with
  | nil => cases hexec; cases last <;> simp [ofSession]
  | cons op ops ih =>
    obtain ⟨r1, ts1, h1, i1⟩ := step_total hi op
    simp only [Receiver.exec, h1, Option.bind_some] at hexec
    cases h2 : r1.exec ops with
    | none => rw [h2] at hexec; cases hexec
    | some q =>
      obtain ⟨r2, ts2⟩ := q
      rw [h2] at hexec
      simp only [Option.map_some, Option.some.injEq, Prod.mk.injEq] at hexec
      obtain ⟨rfl, rfl⟩ := hexec
      have hl := hleaves op (List.mem_cons_self ..)
      have hls : ∀ op ∈ ops, op.Leaves k port := fun o ho => hleaves o (List.mem_cons_of_mem _ ho)
      have quiet : ofSession k port source ts1 = [] → Keeps k port source timeout last r1 →
          (last.toList ++ (ofSession k port source (ts1 ++ ts2)).map (·.header)).Pairwise (fun a b => a.transferId < b.transferId) := by
        intro hnil hk1
        have := ih i1 hk1 hls (by
          intro pre now post r3 ts3 a e1 e2 e3
          refine hclean (op :: pre) now post r3 (ts1 ++ ts3) a (by rw [e1]; rfl) (by simp [Receiver.exec, h1, e2]) ?_
          rw [ofSession, List.filter_append, ← ofSession, ← ofSession, hnil, List.nil_append]
          exact e3) h2
        rwa [ofSession, List.filter_append, ← ofSession, ← ofSession, hnil, List.nil_append]
      cases op with
      | clean now =>
        cases h1
        refine quiet rfl ⟨?_, hk.newer⟩
        obtain ⟨sub, f1, f2, f3⟩ := hk.sub
        refine ⟨sub.cleanExpired now, by simp [Receiver.cleanExpired, SubManager.find_mapAll, f1], f2, ?_⟩
        intro a ha
        refine cleanExpired_sessions.mpr ⟨f3 a ha, ?_⟩
        exact hclean [] now ops r [] a rfl rfl (by rw [ha]; rfl)
      | subscribe oom k' port' extent timeout' =>
        cases h1
        refine quiet rfl ?_
        unfold Receiver.subscribe
        split
        · exact hk
        · refine ⟨?_, hk.newer⟩
          obtain ⟨sub, f1, f2, f3⟩ := hk.sub
          refine ⟨sub, ?_, f2, f3⟩
          dsimp only
          rw [SubManager.find_subscribe hi.distinct, if_neg hl, f1]
      | unsubscribe k' port' =>
        cases h1
        refine quiet rfl ⟨?_, hk.newer⟩
        obtain ⟨sub, f1, f2, f3⟩ := hk.sub
        refine ⟨sub, ?_, f2, f3⟩
        dsimp only [Receiver.unsubscribe]
        rw [SubManager.find_unsubscribe hi.distinct, if_neg hl, f1]
      | setId id => cases h1; exact quiet rfl ⟨hk.sub, hk.newer⟩
      | byte b now oom =>
        have hl' : oom = false := hl
        subst hl'
        obtain ⟨r1', o, g1, g2⟩ := byteStep hi b now false
        simp only [Receiver.step, g1, Option.map_some, Option.some.injEq, Prod.mk.injEq] at h1
        obtain ⟨rfl, rfl⟩ := h1
        rcases g2.keeps hk with ⟨hnil, hk1⟩ | ⟨t, ht, hk1, hlt⟩
        · exact quiet hnil hk1
        · have := ih i1 hk1 hls (by
            intro pre now' post r3 ts3 a e1 e2 e3
            refine hclean (.byte b now false :: pre) now' post r3 (o.transfers ++ ts3) a (by rw [e1]; rfl)
              (by simp [Receiver.exec, Receiver.step, g1, e2]) ?_
            rw [ofSession, List.filter_append, ← ofSession, ← ofSession, ht, List.map_append, ← List.append_assoc, List.append_assoc,
              List.getLast?_append]
            simp only [List.map_cons, List.map_nil]
            simp only [Option.toList_some] at e3
            rw [e3]
            rfl) h2
          rw [ofSession, List.filter_append, ← ofSession, ← ofSession, ht, List.map_append]
          simp only [Option.toList_some, List.map_cons, List.map_nil] at this ⊢
          rw [List.pairwise_append]
          refine ⟨by cases last <;> simp, this, ?_⟩
          intro a ha b hb
          have hlast := hlt a (by simpa using ha)
          rcases List.mem_cons.mp hb with rfl | hb
          · exact hlast
          · have h3 := (List.pairwise_cons.mp this).1 b hb
            exact BitVec.lt_trans hlast h3

/-- **C30.** While a node keeps a subscription, and no cleanup comes later than the timeout of the subscription after the last
transfer of a session, the transfer IDs returned for this session are strictly increasing: there are no duplicates and no old
transfers. `ops` is any sequence of events, including other subscriptions, changes of the node ID and garbage. -/
theorem C30_serial_ids_increase {ops : List Op} {r r' : Receiver} {ts : List SerialTransfer} {k : Kind} {port : Nat}
    {source : NodeId16} {sub : Subscription} (hr : Reachable r) (hsub : r.subscriptions.find k port = some sub)
    (hleaves : ∀ op ∈ ops, op.Leaves k port)
    (hclean : ∀ pre now post r1 ts1 t, ops = pre ++ .clean now :: post → r.exec pre = some (r1, ts1) →
      (ofSession k port source ts1).getLast? = some t →
      Instant.before (Instant.plus t.header.timestamp sub.timeout) now = false)
    (hexec : r.exec ops = some (r', ts)) :
    (ofSession k port source ts).Pairwise (fun a b => a.header.transferId < b.header.transferId) := by
  have := exec_increasing (last := none) (source := source) (timeout := sub.timeout) hr.inv
    ⟨⟨sub, hsub, rfl, by intro a h; cases h⟩, by intro a h; cases h⟩ hleaves (by
      intro pre now post r1 ts1 a e1 e2 e3
      simp only [Option.toList_none, List.nil_append, List.getLast?_map, Option.map_eq_some_iff] at e3
      obtain ⟨t, ht, rfl⟩ := e3
      exact hclean pre now post r1 ts1 t e1 e2 ht) hexec
  simpa [List.pairwise_map] using this

/-- The same frame twice, then a newer one: the second copy is not returned. -/
example : (demoReceiver.exec (arriving (wire demoTransfer ++ wire demoTransfer ++
    wire { demoTransfer with header := .request { timestamp := 0#32, transferId := 13#64, priority := 4#3, service := 430#9, source := node 9#16, destination := node 40#16 } }))).map
      (fun p => (ofSession .request 430 (node 9#16) p.2).map (·.header.transferId)) = some [12#64, 13#64] := by
  decide +kernel

/-- Without the condition on cleanups the claim is false: after the timeout the same transfer is returned again. -/
example : (demoReceiver.exec (arriving (wire demoTransfer) ++ [.clean 2001001#32] ++ arriving (wire demoTransfer))).map
      (fun p => (ofSession .request 430 (node 9#16) p.2).map (·.header.transferId)) = some [12#64, 12#64] := by
  decide +kernel

/-! ### C31 -/

/-- The transfer being received, if any, does not make `h` an old transfer. -/
def NotOvertaken (r : Receiver) (h : SerialHeader) : Prop :=
  ∀ u hd crc p cap, r.state = .payload u hd crc p cap → hd.kind = h.kind → hd.port = h.port → hd.source = h.source →
    hd.transferId < h.transferId

/-- **C31 (partial).** A frame is received from every state except inside a header: also when garbage was taken for the header
of a transfer, or when the end of the last frame was lost. What was being received can be returned before it.

Missing from the full claim: a receiver that is inside of a header (`C31_lost_frame_counterexample`). -/
theorem C31_serial_resync_partial {ops : List Op} {r : Receiver} {t : SerialTransfer} {sub : Subscription} (hr : Reachable r)
    (hs : ∀ u h, r.state ≠ .header u h) (hov : NotOvertaken r t.header) (hq : Quiet ops) (hb : bytesOf ops = wire t)
    (hz : ¬ ZeroAfterFullRun (frameData t)) (hw : Wants r t.header sub) :
    ∃ r' b now before, .byte b now false ∈ ops ∧ r'.Between ∧
      r.exec ops = some (r', before ++
        [{ header := t.header.setTimestamp now, loopback := false, payload := t.payload.take sub.payloadSizeMax }]) := by
  by_cases hbt : r.Between
  · obtain ⟨r', b, now, h1, h2, h3⟩ := C29_serial_roundtrip_partial hbt hq hb hz hw
    exact ⟨r', b, now, [], h1, h2, h3⟩
  · rw [wire_eq] at hb
    obtain ⟨ops1, now1, ops2, rfl, h1, h2, q1, q2⟩ := quiet_split (e1 := []) hq hb
    obtain ⟨r1, k1, k2, k3⟩ := feed_nothing (r := r) q1 h1
    have hinv := exec_inv hr.inv k1
    obtain ⟨sub1, w1, e1⟩ := k3.wants hw
    obtain ⟨r2, o, g1, g2⟩ := byteStep hinv 0#8 now1 false
    have main : r2.state = .betweenTransfers → Wants r2 t.header sub1 ∨ (∃ sub2, Wants r2 t.header sub2 ∧ sub2.payloadSizeMax = sub1.payloadSizeMax) →
        ∃ r' b now before, .byte b now false ∈ (ops1 ++ .byte 0#8 now1 false :: ops2) ∧ r'.Between ∧
          r.exec (ops1 ++ .byte 0#8 now1 false :: ops2) = some (r', before ++
            [{ header := t.header.setTimestamp now, loopback := false, payload := t.payload.take sub.payloadSizeMax }]) := by
      intro hst hwn
      obtain ⟨sub2, w2, e2⟩ : ∃ sub2, Wants r2 t.header sub2 ∧ sub2.payloadSizeMax = sub1.payloadSizeMax := by
        rcases hwn with h | h
        · exact ⟨sub1, h, rfl⟩
        · exact h
      obtain ⟨r3, b, now, m1, m2, m3⟩ := frame_received hst q2 h2 (decoded_wire hz) w2
      refine ⟨r3, b, now, o.transfers, by simp [m1], Or.inr m2, ?_⟩
      rw [exec_append, k1]
      simp [exec_cons_byte g1, m3, e1, e2]
    rw [← k2] at hs
    cases g2 with
    | skip hs1 hb1 => exact absurd rfl hb1
    | between hs1 hb1 => rw [k2] at hs1; exact absurd hs1 hbt
    | start o u hs1 => rw [k2] at hs1; exact absurd (Or.inr hs1) hbt
    | header o u u' h hs1 => exact absurd hs1 (hs u h)
    | reject out u h hs1 => exact absurd hs1 (hs u h)
    | accept x u u' h th sub hs1 => exact absurd hs1 (hs u h)
    | payload o u u' h crc p cap hs1 ha => rw [accept_zero] at ha; cases ha
    | drop u h crc p cap hs1 hb1 => exact main rfl (Or.inl ⟨w1.subscribed, w1.addressed, w1.newer⟩)
    | deliver u h crc p cap subd hs1 hb1 hc hf hd =>
      refine main rfl (Or.inr ?_)
      cases hsrc : h.source with
      | none =>
        refine ⟨sub1, ⟨?_, w1.addressed, w1.newer⟩, rfl⟩
        simp only [recorded, hsrc]; exact w1.subscribed
      | some s =>
        by_cases hkp : t.header.kind = h.kind ∧ t.header.port = h.port
        · refine ⟨sub1.record s h, ⟨?_, w1.addressed, ?_⟩, rfl⟩
          · simp only [recorded, hsrc, Bool.false_eq_true, if_false, SubManager.find_update, if_pos hkp, w1.subscribed, Option.map_some]
          · intro s' se hs' hse
            simp only [Subscription.record] at hse
            split at hse
            · rename_i heq
              cases hse
              exact hov u h crc p cap (k2 ▸ hs1) hkp.1.symm hkp.2.symm (by rw [hsrc, hs', heq])
            · exact w1.newer s' se hs' hse
        · refine ⟨sub1, ⟨?_, w1.addressed, w1.newer⟩, rfl⟩
          simp only [recorded, hsrc, Bool.false_eq_true, if_false, SubManager.find_update, if_neg hkp, w1.subscribed]

/-- **C31 (partial).** After any bytes whatsoever and one delimiter, the receiver is ready for a frame: so garbage costs at
most the frames it overlaps and the next one, because every frame ends with a delimiter. -/
theorem C31_ready_after_delimiter {ops1 : List Op} {r r1 : Receiver} {ts1 : List SerialTransfer} {now : Instant} {oom : Bool}
    (hr : Reachable r) (hexec : r.exec (ops1 ++ [.byte 0#8 now oom]) = some (r1, ts1)) : r1.Between := by
  obtain ⟨r0, ts0, ts2, h1, h2, -⟩ := exec_snoc hexec
  have hinv := exec_inv hr.inv h1
  obtain ⟨r2, o, g1, g2⟩ := byteStep hinv 0#8 now oom
  simp only [Receiver.step, g1, Option.map_some, Option.some.injEq, Prod.mk.injEq] at h2
  obtain ⟨rfl, -⟩ := h2
  cases g2 with
  | skip hs hb => exact absurd rfl hb
  | between => exact Or.inr rfl
  | start o u hs ha => rw [accept_zero] at ha; cases ha
  | header o u u' h hs ha => rw [accept_zero] at ha; cases ha
  | reject => exact Or.inl rfl
  | accept x u u' h th sub hs ha => rw [accept_zero] at ha; cases ha
  | payload o u u' h crc p cap hs ha => rw [accept_zero] at ha; cases ha
  | drop => exact Or.inr rfl
  | deliver => exact Or.inr rfl

/-- **C31 (partial).** From any state whatsoever: after any bytes ending with a delimiter (for instance another frame), a
wanted frame is received. -/
theorem C31_second_frame_received_partial {ops1 ops2 : List Op} {r r1 : Receiver} {ts1 : List SerialTransfer} {t : SerialTransfer}
    {sub : Subscription} {now1 : Instant} {oom : Bool} (hr : Reachable r)
    (hexec : r.exec (ops1 ++ [.byte 0#8 now1 oom]) = some (r1, ts1)) (hq : Quiet ops2) (hb : bytesOf ops2 = wire t)
    (hz : ¬ ZeroAfterFullRun (frameData t)) (hw : Wants r1 t.header sub) :
    ∃ r' b now, .byte b now false ∈ ops2 ∧ r'.Between ∧
      r.exec (ops1 ++ [.byte 0#8 now1 oom] ++ ops2) = some (r', ts1 ++
        [{ header := t.header.setTimestamp now, loopback := false, payload := t.payload.take sub.payloadSizeMax }]) := by
  obtain ⟨r', b, now, h1, h2, h3⟩ := C29_serial_roundtrip_partial (C31_ready_after_delimiter hr hexec) hq hb hz hw
  refine ⟨r', b, now, h1, h2, ?_⟩
  rw [exec_append, hexec]
  simp [h3]

/-- Garbage in front: three bytes, and a delimiter. -/
example : (demoReceiver.exec (arriving ([0#8, 5#8, 77#8, 0#8] ++ wire demoTransfer))).map (·.2.length) = some 1 := by
  decide +kernel

/-- The receiver after a delimiter and the first byte of a frame. -/
def inHeader : Receiver := { demoReceiver with state := .header ⟨4#8, true⟩ [] }

/-- **C31** is false in full: two bytes of garbage (a delimiter and the beginning of a frame), and the complete frame after
them is lost. Its leading delimiter ends the header, and the receiver then waits for another delimiter. -/
theorem C31_lost_frame_counterexample :
    ¬ ∀ (r : Receiver) (t : SerialTransfer) (sub : Subscription) (ops : List Op), Reachable r → NotOvertaken r t.header → Quiet ops →
      bytesOf ops = wire t → ¬ ZeroAfterFullRun (frameData t) → Wants r t.header sub →
      ∃ r' ts, r.exec ops = some (r', ts) ∧ ts ≠ [] := by
  intro h
  have hz : ¬ ZeroAfterFullRun (frameData demoTransfer) := by
    rw [← Verif.Cobs.C28_cobs_roundtrip_iff_partial]
    exact Verif.Cobs.C28_cobs_roundtrip_short_partial _ (by decide +kernel)
  have hr : Reachable inHeader := by
    obtain ⟨id, pre, ts, hr⟩ := demo_reachable
    refine ⟨id, pre ++ [.byte 0#8 1#32 false, .byte 5#8 1#32 false], ts ++ [], ?_⟩
    rw [exec_append, hr]
    rfl
  have hw : Wants inHeader demoTransfer.header (Subscription.new 3 2000000#32) :=
    ⟨demo_wants.subscribed, demo_wants.addressed, demo_wants.newer⟩
  obtain ⟨r', ts, h1, h2⟩ := h inHeader demoTransfer _ (arriving (wire demoTransfer)) hr (by intro u hd crc p cap hs; cases hs)
    (arriving_quiet _) (arriving_bytes _) hz hw
  have h3 : (inHeader.exec (arriving (wire demoTransfer))).map (·.2) = some [] := by decide +kernel
  rw [h1] at h3
  simp only [Option.map_some, Option.some.injEq] at h3
  exact h2 h3

/-! ### C32 -/

theorem pushAll_some {q : Queue} {bs : List Byte} (h : q.bytes.length + bs.length ≤ q.capacity) :
    q.pushAll bs = some { q with bytes := q.bytes ++ bs } := by
  induction bs generalizing q with
  | nil => simp [Queue.pushAll]
  | cons b bs ih =>
    simp only [List.length_cons] at h
    have h1 : q.pushBack b = some { q with bytes := q.bytes ++ [b] } := by
      unfold Queue.pushBack; rw [if_pos (by omega)]
    rw [Queue.pushAll, h1]
    have := ih (q := { q with bytes := q.bytes ++ [b] }) (by simp; omega)
    simpa using this

/-- **C32.** Pushing a transfer never panics; it either appends exactly the bytes of the frame, or changes nothing and
reports that there is no memory. It succeeds when there is memory and the bound on the size of the escaped frame fits. -/
theorem C32_push_all_or_nothing (oom : Bool) (q : Queue) (t : SerialTransfer) (hq : q.bytes.length ≤ q.capacity) :
    (q.push oom t = some ({ q with bytes := q.bytes ++ wire t }, true) ∧ (q.bytes ++ wire t).length ≤ q.capacity) ∨
    (q.push oom t = some (q, false) ∧
      (oom = true ∨ q.capacity < q.bytes.length + Verif.Cobs.escapedSize (frameData t).length + 2)) := by
  have hlen : (frameData t).length = t.payload.length + (Verif.Hdr.size + 4) := by
    simp only [frameData, List.length_append, (Verif.Hdr.C25_checksum_valid _).1, le32, List.length_cons, List.length_nil, Verif.Hdr.size]
    omega
  unfold Queue.push
  by_cases h1 : Verif.Cobs.escapedSize (t.payload.length + (Verif.Hdr.size + 4)) + 2 > q.capacity - q.bytes.length
  · right
    simp only [if_pos h1, true_and]
    right; rw [hlen]; omega
  · simp only [if_neg h1]
    cases oom with
    | true => right; simp
    | false =>
      left
      have hspec := Verif.Cobs.escapeFromIter_spec (frameData t)
        (List.replicate (Verif.Cobs.escapedSize (t.payload.length + (Verif.Hdr.size + 4))) 0#8)
      have hfit := Verif.Cobs.enc_fits (frameData t)
      rw [if_pos (by rw [List.length_replicate, ← hlen]; exact hfit)] at hspec
      have hdata : (RawHeader.ofHeader (TransportHeader.ofCore t.header)).asBytes ++ t.payload ++ payloadCrc t.payload = frameData t := by
        rw [payloadCrc_eq]; rfl
      rw [hdata]
      cases he : Verif.Cobs.escapeFromIter (frameData t)
          (List.replicate (Verif.Cobs.escapedSize (t.payload.length + (Verif.Hdr.size + 4))) 0#8) with
      | none => rw [he] at hspec; cases hspec
      | some p =>
        obtain ⟨n, buffer⟩ := p
        rw [he] at hspec
        simp only [Option.map_some, Option.some.injEq, Prod.mk.injEq] at hspec
        obtain ⟨hn, hbuf⟩ := hspec
        rw [hlen] at hfit
        have hbl : (buffer.take n).length = n := by rw [hbuf]; exact hn.symm
        have hw : (wire t).length = n + 2 := by rw [wire_eq]; simp [hn]
        have hb1 : q.pushBack 0#8 = some { q with bytes := q.bytes ++ [0#8] } := by
          unfold Queue.pushBack; rw [if_pos (by omega)]
        have hb2 : ({ q with bytes := q.bytes ++ [0#8] } : Queue).pushAll (buffer.take n) =
            some { q with bytes := q.bytes ++ [0#8] ++ buffer.take n } :=
          pushAll_some (by simp only [List.length_append, List.length_cons, List.length_nil, hbl]; omega)
        have hb3 : ({ q with bytes := q.bytes ++ [0#8] ++ buffer.take n } : Queue).pushBack 0#8 =
            some { q with bytes := q.bytes ++ [0#8] ++ buffer.take n ++ [0#8] } := by
          unfold Queue.pushBack
          rw [if_pos (by simp only [List.length_append, List.length_cons, List.length_nil, hbl]; omega)]
        simp only [Bool.false_eq_true, if_false, if_neg (show ¬ (n + 2 > q.capacity - q.bytes.length) by omega), hb1, hb2, hb3]
        refine ⟨?_, by rw [List.length_append, hw]; omega⟩
        rw [wire_eq, hbuf]
        simp

/-- A driver that accepts `ok` bytes and keeps them. -/
def recorder (s : List Byte × Nat) (b : Byte) : (List Byte × Nat) × Sent Unit :=
  if s.2 = 0 then (s, .wouldBlock) else ((s.1 ++ [b], s.2 - 1), .ok)

/-- The bytes which the driver accepts in a flush. -/
def acceptedBytes {σ E : Type} (d : TxDriver σ E) (s : σ) : List Byte → List Byte
  | [] => []
  | b :: bs => match (d s b).2 with
    | .ok => b :: acceptedBytes d (d s b).1 bs
    | _ => []

/-- **C32.** Flushing gives the bytes to the driver in order; what the driver accepts and what stays in the queue are the
queue before, whatever the driver does. When it succeeds, the queue is empty. -/
theorem C32_flush_in_order {σ E : Type} (d : TxDriver σ E) (s : σ) (q : Queue) :
    acceptedBytes d s q.bytes ++ (q.flush d s).2.1.bytes = q.bytes ∧
    ((q.flush d s).2.2 = .ok → (q.flush d s).2.1.bytes = []) ∧ (q.flush d s).2.1.capacity = q.capacity := by
  unfold Queue.flush
  simp only [and_true]
  generalize q.bytes = bs
  induction bs generalizing s with
  | nil => simp [acceptedBytes, flushBytes]
  | cons b bs ih =>
    unfold acceptedBytes flushBytes
    cases hd : (d s b).2 with
    | ok =>
      have := ih (d s b).1
      simp only [hd]
      exact ⟨by rw [List.cons_append, this.1], this.2⟩
    | wouldBlock => simp [hd]
    | other e => simp [hd]

/-- What is done with a transmit queue. -/
inductive TxOp where
  | push (oom : Bool) (t : SerialTransfer)
  | flush

/-- A sequence of operations: the driver, the queue, the transfers that were pushed successfully, and the bytes accepted by the
driver; `none` is a panic. -/
def txExec {σ E : Type} (d : TxDriver σ E) : List TxOp → σ × Queue → Option ((σ × Queue) × List SerialTransfer × List Byte)
  | [], s => some (s, [], [])
  | .push oom t :: ops, s =>
    match s.2.push oom t with
    | none => none
    | some (q, ok) => (txExec d ops (s.1, q)).map (fun p => (p.1, (if ok then [t] else []) ++ p.2.1, p.2.2))
  | .flush :: ops, s =>
    (txExec d ops ((s.2.flush d s.1).1, (s.2.flush d s.1).2.1)).map
      (fun p => (p.1, p.2.1, acceptedBytes d s.1 s.2.bytes ++ p.2.2))

/-- **C32.** In every sequence of pushes and flushes, with any driver: no panic, and the bytes accepted by the driver followed
by those still in the queue are exactly the frames of the successfully pushed transfers, in order (after what was in the queue
before). -/
theorem C32_stream_in_order {σ E : Type} (d : TxDriver σ E) (ops : List TxOp) (s : σ) (q : Queue) (hq : q.bytes.length ≤ q.capacity) :
    ∃ s' q' ts sent, txExec d ops (s, q) = some ((s', q'), ts, sent) ∧ q'.bytes.length ≤ q'.capacity ∧
      sent ++ q'.bytes = q.bytes ++ ts.flatMap wire := by
  induction ops generalizing s q with
  | nil => exact ⟨s, q, [], [], rfl, hq, by simp⟩
  | cons op ops ih =>
    cases op with
    | push oom t =>
      rcases C32_push_all_or_nothing oom q t hq with ⟨h, hl⟩ | ⟨h, -⟩
      · obtain ⟨s', q', ts, sent, h1, h2, h3⟩ := ih s { q with bytes := q.bytes ++ wire t } hl
        exact ⟨s', q', t :: ts, sent, by simp [txExec, h, h1], h2, by rw [h3]; simp⟩
      · obtain ⟨s', q', ts, sent, h1, h2, h3⟩ := ih s q hq
        exact ⟨s', q', ts, sent, by simp [txExec, h, h1], h2, h3⟩
    | flush =>
      obtain ⟨f1, f2, f3⟩ := C32_flush_in_order d s q
      have hl : (q.flush d s).2.1.bytes.length ≤ (q.flush d s).2.1.capacity := by
        rw [f3]
        have := congrArg List.length f1
        rw [List.length_append] at this
        omega
      obtain ⟨s', q', ts, sent, h1, h2, h3⟩ := ih (q.flush d s).1 (q.flush d s).2.1 hl
      refine ⟨s', q', ts, acceptedBytes d s q.bytes ++ sent, by simp [txExec, h1], h2, ?_⟩
      rw [List.append_assoc, h3, ← List.append_assoc, f1]

example : (txExec recorder [.push false demoTransfer, .flush, .push true demoTransfer, .push false demoTransfer, .push false demoTransfer, .flush]
    (([], 50), { capacity := 60, bytes := [] })).map (fun p => (p.2.1.length, p.2.2.length, p.1.2.bytes.length)) = some (2, 50, 22) := by
  decide +kernel

/-- **C29 (partial).** End to end: the transfer is pushed into an empty queue, a driver accepts the bytes, and a receiver that
wants the transfer gets the accepted bytes in any number of calls. -/
theorem C29_push_flush_receive_partial {σ E : Type} {d : TxDriver σ E} {s : σ} {q q1 : Queue} {t : SerialTransfer} {ops : List Op}
    {r : Receiver} {sub : Subscription} (hq : q.bytes = []) (hpush : q.push false t = some (q1, true))
    (hflush : (q1.flush d s).2.2 = .ok) (hs : r.Between) (hquiet : Quiet ops)
    (hb : bytesOf ops = acceptedBytes d s q1.bytes) (hz : ¬ ZeroAfterFullRun (frameData t)) (hw : Wants r t.header sub) :
    ∃ r' b now, .byte b now false ∈ ops ∧ r'.Between ∧
      r.exec ops = some (r',
        [{ header := t.header.setTimestamp now, loopback := false, payload := t.payload.take sub.payloadSizeMax }]) := by
  obtain ⟨f1, f2, -⟩ := C32_flush_in_order d s q1
  rw [f2 hflush, List.append_nil] at f1
  rcases C32_push_all_or_nothing false q t (by simp [hq]) with ⟨h, -⟩ | ⟨h, -⟩
  · rw [hpush] at h
    have h1 := (Prod.mk.inj (Option.some.inj h)).1
    refine C29_serial_roundtrip_partial hs hquiet ?_ hz hw
    rw [hb, f1, h1]
    simp [hq]
  · rw [hpush] at h
    cases h

example : ∃ q1, (⟨64, []⟩ : Queue).push false demoTransfer = some (q1, true) ∧ (q1.flush recorder ([], 64)).2.2 = .ok :=
  ⟨⟨64, wire demoTransfer⟩, by decide +kernel, by decide +kernel⟩

end Verif.Serial
