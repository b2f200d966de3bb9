import Verif.End.SerialProps
import Verif.End.UdpSpec
import Verif.Udp.TxProps
import Verif.Udp.StreamProps

/-!
C115: from `publish` at one node to `deserialize` at another, over a network that loses datagrams.
-/

namespace Verif.End

open Verif.Node Verif.Dsdl Verif.Enc Verif.Udp
open Verif.Hdr (NodeId16 Tid64)

theorem cut_unique {n : Nat} (hn : 0 < n) : ∀ {a b : List (List Byte)}, a.flatten = b.flatten → (∀ c ∈ a, c ≠ []) → (∀ c ∈ b, c ≠ []) → (∀ c ∈ a, c.length ≤ n) → (∀ c ∈ b, c.length ≤ n) →
    (∀ c ∈ a.dropLast, c.length = n) → (∀ c ∈ b.dropLast, c.length = n) → a = b
  | [], [], _, _, _, _, _, _, _ => rfl
  | [], y :: b, h, _, h2, _, _, _, _ => by
    have := h2 y List.mem_cons_self
    simp at h
    exact absurd h.1 this
  | x :: a, [], h, h1, _, _, _, _, _ => by
    have := h1 x List.mem_cons_self
    simp at h
    exact absurd h.1 this
  | x :: a, y :: b, h, h1, h2, h3, h4, h5, h6 => by
    have e : x.length = y.length := by
      have hl := congrArg List.length h
      have x1 := h3 x List.mem_cons_self
      have y1 := h4 y List.mem_cons_self
      cases a with
      | nil =>
        cases b with
        | nil => simpa using hl
        | cons y' b =>
          have := h6 y (by simp [List.dropLast])
          simp at hl
          have := List.length_pos_of_ne_nil (h2 y' (by simp))
          omega
      | cons x' a =>
        have hx := h5 x (by simp [List.dropLast])
        cases b with
        | nil =>
          simp at hl
          have := List.length_pos_of_ne_nil (h1 x' (by simp))
          omega
        | cons y' b =>
          have := h6 y (by simp [List.dropLast])
          omega
    rw [List.flatten_cons, List.flatten_cons] at h
    obtain ⟨e1, e2⟩ := List.append_inj h e
    have sub : ∀ {z : List Byte} {l : List (List Byte)}, ∀ c ∈ l.dropLast, c ∈ (z :: l).dropLast := by
      intro z l c hc
      cases l with
      | nil => cases hc
      | cons w l => exact List.mem_cons_of_mem _ hc
    rw [e1, cut_unique hn e2 (fun c hc => h1 c (List.mem_cons_of_mem _ hc)) (fun c hc => h2 c (List.mem_cons_of_mem _ hc)) (fun c hc => h3 c (List.mem_cons_of_mem _ hc))
      (fun c hc => h4 c (List.mem_cons_of_mem _ hc)) (fun c hc => h5 c (sub c hc)) (fun c hc => h6 c (sub c hc))]

theorem pieces_unique {mtu : Nat} (hm : 24 < mtu) {t : UdpTransfer} {a b : List (List Byte)} (ha : Pieces mtu t a) (hb : Pieces mtu t b) : a = b := by
  refine cut_unique (n := mtu - 24) (by omega) (ha.whole.trans hb.whole.symm) ha.nonempty hb.nonempty ?_ ?_ ?_ ?_
  · intro c hc; have := ha.fits c hc; omega
  · intro c hc; have := hb.fits c hc; omega
  · intro c hc; have := ha.full c hc; omega
  · intro c hc; have := hb.full c hc; omega

/-- The datagrams that the socket is given are some of those that the transfer is cut into, in order. -/
theorem sendAll_recorded {σ E : Type} (env : Env σ E) (deadline : Instant) (ip : BitVec 32) (port : BitVec 16) : ∀ (ds : List (List Byte)) (s : σ) (before : List (List Byte)),
    ∃ sent, (sendAll (recorded env) deadline ip port ds (s, before)).1.2 = before ++ sent ∧ sent.Sublist ds
  | [], s, before => ⟨[], by simp [sendAll], List.Sublist.refl _⟩
  | d :: ds, s, before => by
    show ∃ sent, (if deadline.after (env.now s).2 = true then
        match (env.sendTo (env.now s).1 d ip port).2 with
        | some e => (((env.sendTo (env.now s).1 d ip port).1, before ++ [d]), some e)
        | none => sendAll (recorded env) deadline ip port ds ((env.sendTo (env.now s).1 d ip port).1, before ++ [d])
      else sendAll (recorded env) deadline ip port ds ((env.now s).1, before)).1.2 = before ++ sent ∧ sent.Sublist (d :: ds)
    by_cases hd : deadline.after (env.now s).2 = true
    · rw [if_pos hd]
      cases he : (env.sendTo (env.now s).1 d ip port).2 with
      | some e => exact ⟨[d], rfl, (List.nil_sublist _).cons_cons d⟩
      | none =>
        obtain ⟨sent, h1, h2⟩ := sendAll_recorded env deadline ip port ds (env.sendTo (env.now s).1 d ip port).1 (before ++ [d])
        exact ⟨d :: sent, by rw [h1, List.append_assoc]; rfl, h2.cons_cons d⟩
    · rw [if_neg hd]
      obtain ⟨sent, h1, h2⟩ := sendAll_recorded env deadline ip port ds (env.now s).1 before
      exact ⟨sent, h1, h2.cons d⟩

theorem flatten_length {n : Nat} : ∀ {a : List (List Byte)}, (∀ c ∈ a, n ≤ c.length) → n * a.length ≤ a.flatten.length
  | [], _ => by simp
  | x :: a, h => by
    have := flatten_length (fun c hc => h c (List.mem_cons_of_mem _ hc)) (n := n) (a := a)
    have := h x List.mem_cons_self
    rw [List.flatten_cons, List.length_append, List.length_cons, Nat.mul_add]
    omega

theorem ships_sound {σ E : Type} {env : Env σ E} {mtu : Nat} (hm : 28 ≤ mtu) {port : BitVec 16} {it : Shipment} (h : Ships env mtu port it) {key : Key} (hkey : keyOf? it.transfer.header = some key)
    (hlen : it.transfer.payload.length < 2 ^ 32) (hfit : TailFits mtu it.transfer) : it.Sound mtu key := by
  have hsize : (it.transfer.payload.length + 4) / (mtu - 24) < 2 ^ 31 := by
    have : (it.transfer.payload.length + 4) / (mtu - 24) ≤ (it.transfer.payload.length + 4) / 4 := Nat.div_le_div_left (by omega) (by omega)
    omega
  obtain ⟨chunks, hp, hpush⟩ := C33_segmentation mtu (by omega) it.transfer hsize
  obtain rfl := pieces_unique (by omega) h.pieces hp
  obtain ⟨s, s', sent, result, h1, h2⟩ := h.pushed
  rw [hpush] at h1
  obtain ⟨sent', h3, h4⟩ := sendAll_recorded env it.transfer.header.timestamp (BitVec.ofNat 32 (destinationIp it.transfer.header)) port (datagrams it.transfer.header it.chunks) s []
  rw [Option.some.inj h1] at h3
  rw [List.nil_append] at h3
  subst h3
  refine ⟨hkey, hp, ?_, hfit, h2.trans h4, h.memory⟩
  have h5 := flatten_length (n := 4) fun c hc => (pieces_ge hp hm hfit c hc).1
  rw [hp.whole, List.length_append] at h5
  have : (Verif.Crc.le32 (Verif.Crc.crc32c it.transfer.payload)).length = 4 := rfl
  omega

/-- To some of the items belong the same values. -/
theorem zip_sublist {α β : Type} : ∀ {l l' : List α} {vs : List β}, l'.Sublist l → l.length = vs.length → ∃ ps : List (α × β), ps.Sublist (l.zip vs) ∧ ps.map Prod.fst = l' := by
  intro l l' vs h
  induction h generalizing vs with
  | slnil => intro _; exact ⟨[], List.nil_sublist _, rfl⟩
  | cons a _ ih =>
    intro hl
    cases vs with
    | nil => simp at hl
    | cons v vs =>
      obtain ⟨ps, h1, h2⟩ := ih (by simpa using hl)
      exact ⟨ps, h1.cons _, h2⟩
  | cons_cons a _ ih =>
    intro hl
    cases vs with
    | nil => simp at hl
    | cons v vs =>
      obtain ⟨ps, h1, h2⟩ := ih (by simpa using hl)
      exact ⟨(a, v) :: ps, h1.cons_cons _, by rw [List.map_cons, h2]⟩

theorem forall₂_zip {α β : Type} {R : α → β → Prop} : ∀ {l : List α} {vs : List β}, List.Forall₂ R l vs → ∀ p ∈ l.zip vs, R p.1 p.2
  | _, _, .nil, p, hp => by cases hp
  | _, _, .cons h hs, p, hp => by
    rw [List.zip_cons_cons] at hp
    rcases List.mem_cons.1 hp with rfl | hp
    · exact h
    · exact forall₂_zip hs p hp

/-- The values that belong to what is returned are read. -/
theorem read_pairs {m : Message} {s : SubjectId} {priority : Priority} {source : NodeId16} {extent : Nat} (hext : extent < 2 ^ 32) :
    ∀ {ps : List (Shipment × Val)} {outs : List UdpTransfer}, (∀ p ∈ ps, Sendable m extent p.2 ∧ Carries m s priority source p.1.transfer p.2) →
      List.Forall₂ (fun it o => Udp.IsReceived it.transfer extent o) (ps.map Prod.fst) outs → List.Forall₂ (ReadsAs m) (ps.map Prod.snd) outs
  | [], _, _, h => by cases h; exact .nil
  | p :: ps, _, hv, h => by
    rw [List.map_cons] at h
    cases h with
    | @cons _ out _ outs ho h =>
      refine .cons ?_ (read_pairs hext (fun x hx => hv x (List.mem_cons_of_mem _ hx)) h)
      obtain ⟨now, rfl⟩ := ho
      obtain ⟨hs, hc⟩ := hv p List.mem_cons_self
      obtain ⟨e1, w, c, e2, e3⟩ := carries_read hext hs hc []
      refine ⟨w, c, ?_, e3⟩
      simp only [List.append_nil, List.take_nil] at e1 e2
      rw [e1]
      exact e2

/-- What the node sends on the subject is a stream of the session. -/
theorem udp_stream {Trk E σ E' : Type} (tops : TrackerOps NodeId16 Tid64 Trk) {n : CoreNode NodeId16 Tid64 Trk} {source : NodeId16} (hid : n.nodeId = some source) {s : SubjectId} {timeout : Duration}
    {priority : Priority} (hstart : (n.startPublishing (E := E) tid64 s timeout priority).answer = .ok) {m : Message} {history : List (Node.Op NodeId16 Tid64 E)} {values : List Val}
    (hpub : Publishes m s history values) (hcount : values.length ≤ 2 ^ 64) {env : Udp.Env σ E'} {mtu : Nat} (hm : 28 ≤ mtu) {port : BitVec 16} {items : List Shipment}
    (hitems : items.map (·.transfer) = messagesOn s (handedOver ((n.startPublishing (E := E) tid64 s timeout priority).node.run tid64 tops history).1))
    (hships : ∀ it ∈ items, Ships env mtu port it) (hfit : ∀ it ∈ items, TailFits mtu it.transfer) {extent : Nat} (hext : extent < 2 ^ 32) (hvalues : ∀ x ∈ values, Sendable m extent x) :
    items.length = values.length ∧ (∀ p ∈ items.zip values, Carries m s priority source p.1.transfer p.2) ∧ (∀ it ∈ items, it.Sound mtu ⟨.message, s.toNat, source⟩) ∧ Udp.Increasing items := by
  have hp := start_publisher hstart
  have hid' : (n.startPublishing (E := E) tid64 s timeout priority).node.nodeId = some source := by
    rw [← hid]
    unfold CoreNode.startPublishing
    split
    · rfl
    · split <;> rfl
  have hcar := run_carries tid64 tops hext hpub hvalues _ _ hp hid'
  obtain ⟨k, hk, -⟩ := run_publisher tid64 tops s history _ _ hp (publishes_no_stop hpub)
  rw [messagesOn_ids] at hk
  rw [← hitems] at hcar hk
  have hlen : items.length = values.length := by simpa using hcar.length_eq
  have hkl : k ≤ 2 ^ 64 := by
    have := congrArg List.length hk
    simp only [List.length_map, List.length_range] at this
    omega
  have hcar' : List.Forall₂ (fun (it : Shipment) v => Carries m s priority source it.transfer v) items values := by rwa [List.forall₂_map_left_iff] at hcar
  refine ⟨hlen, forall₂_zip hcar', ?_, ?_⟩
  rotate_left
  · have := ids_increase hkl hk
    rw [List.pairwise_map] at this
    exact this
  intro it hit
  obtain ⟨v, hv, ⟨timestamp, transferId, hh⟩, hser⟩ : ∃ v ∈ values, Carries m s priority source it.transfer v := by
    obtain ⟨i, hi, rfl⟩ := List.mem_iff_getElem.1 hit
    exact ⟨values[i], List.getElem_mem _, (List.forall₂_iff_get.1 hcar').2 i hi (by omega)⟩
  refine ships_sound hm (hships it hit) (by rw [hh]; rfl) ?_ (hfit it hit)
  have hs := hvalues v hv
  have := congrArg List.length (carries_read hext hs ⟨⟨timestamp, transferId, hh⟩, hser⟩ []).1
  simp only [List.append_nil, List.take_nil, List.length_take] at this
  omega

/-- **C115 (partial).** A node with an ID publishes values of a type on a subject, at most 2^64 of them, among other things that it does. Each message is sent in datagrams over a socket that may fail, and any of
the datagrams may be lost or be too late. A receiver that is subscribed to the subject with an extent that the values do not exceed, and to which anything else may be sent, returns for some of the published values,
of which all datagrams arrived, one transfer each, in the order of the calls, and `deserialize` makes equal values of them. These are at least those that are certain in the sense of C114.

Missing from the full claim: all values of which all datagrams arrived (see C114); the types and values that C67 and C68 exclude (`Sendable`); lengths at which the CRC is split (`TailFits`, see C34). -/
theorem C115_udp_partial {Trk E σ E' : Type} (tops : TrackerOps NodeId16 Tid64 Trk)
    -- the node that publishes
    (n : CoreNode NodeId16 Tid64 Trk) {source : NodeId16} (hid : n.nodeId = some source) {s : SubjectId} {timeout : Duration} {priority : Priority}
    (hstart : (n.startPublishing (E := E) tid64 s timeout priority).answer = .ok) {m : Message} {history : List (Node.Op NodeId16 Tid64 E)} {values : List Val}
    (hpub : Publishes m s history values) (hcount : values.length ≤ 2 ^ 64)
    -- the network
    (env : Udp.Env σ E') {mtu mtu' : Nat} (hm : 28 ≤ mtu) (hmtu : mtu ≤ mtu') {port : BitVec 16} {items : List Shipment}
    (hitems : items.map (·.transfer) = messagesOn s (handedOver ((n.startPublishing (E := E) tid64 s timeout priority).node.run tid64 tops history).1))
    (hships : ∀ it ∈ items, Ships env mtu port it) (hfit : ∀ it ∈ items, TailFits mtu it.transfer) (hno : ∀ it ∈ items, it.NoCollision)
    -- the receiver
    {r r' : Receiver} {sub : Subscription} (hsub : r.subscriptions.find .message s.toNat = some sub) (hnew : sub.sessions source = none)
    (hext : sub.payloadSizeMax < 2 ^ 32) (hvalues : ∀ x ∈ values, Sendable m sub.payloadSizeMax x)
    {ps : List Packet} (hps : packetsIn mtu' ⟨.message, s.toNat, source⟩ ps = items.flatMap (·.arrived)) {out : List UdpTransfer} (hrun : r.run mtu' ps = some (r', out)) :
    items.length = values.length ∧
    ∃ returned : List (Shipment × Val), returned.Sublist (items.zip values) ∧ (∀ p ∈ returned, p.1.whole = true) ∧ (certain true items).Sublist (returned.map Prod.fst) ∧
      List.Forall₂ (ReadsAs m) (returned.map Prod.snd) (Udp.transfersOf ⟨.message, s.toNat, source⟩ out) := by
  obtain ⟨hlen, hcar, hsound, hinc⟩ := udp_stream tops hid hstart hpub hcount hm hitems hships hfit hext hvalues
  obtain ⟨returned, h1, h2, h3⟩ := C114_stream_partial hm hmtu hsub (Or.inl hnew) hps hsound hno hinc hrun
  obtain ⟨pairs, h4, rfl⟩ := zip_sublist (h2.trans List.filter_sublist) hlen
  refine ⟨hlen, pairs, h4, fun p hp => ?_, h1, read_pairs (s := s) (priority := priority) (source := source) hext (fun p hp => ?_) h3⟩
  · exact (List.mem_filter.1 (h2.subset (List.mem_map_of_mem hp))).2
  · exact ⟨hvalues _ (List.of_mem_zip (h4.subset hp)).2, hcar p (h4.subset hp)⟩

/-- **C115 (partial).** If each message arrives as a whole or not at all, as it is the case if they all fit into one datagram, the receiver returns exactly those that arrive, and `deserialize` makes values of them that are equal
to the published ones.

Missing from the full claim: as above. -/
theorem C115_udp_whole_partial {Trk E σ E' : Type} (tops : TrackerOps NodeId16 Tid64 Trk)
    (n : CoreNode NodeId16 Tid64 Trk) {source : NodeId16} (hid : n.nodeId = some source) {s : SubjectId} {timeout : Duration} {priority : Priority}
    (hstart : (n.startPublishing (E := E) tid64 s timeout priority).answer = .ok) {m : Message} {history : List (Node.Op NodeId16 Tid64 E)} {values : List Val}
    (hpub : Publishes m s history values) (hcount : values.length ≤ 2 ^ 64)
    (env : Udp.Env σ E') {mtu mtu' : Nat} (hm : 28 ≤ mtu) (hmtu : mtu ≤ mtu') {port : BitVec 16} {items : List Shipment}
    (hitems : items.map (·.transfer) = messagesOn s (handedOver ((n.startPublishing (E := E) tid64 s timeout priority).node.run tid64 tops history).1))
    (hships : ∀ it ∈ items, Ships env mtu port it) (hfit : ∀ it ∈ items, TailFits mtu it.transfer) (hall : ∀ it ∈ items, it.arrived = [] ∨ it.whole = true)
    {r r' : Receiver} {sub : Subscription} (hsub : r.subscriptions.find .message s.toNat = some sub) (hnew : sub.sessions source = none)
    (hext : sub.payloadSizeMax < 2 ^ 32) (hvalues : ∀ x ∈ values, Sendable m sub.payloadSizeMax x)
    {ps : List Packet} (hps : packetsIn mtu' ⟨.message, s.toNat, source⟩ ps = items.flatMap (·.arrived)) {out : List UdpTransfer} (hrun : r.run mtu' ps = some (r', out)) :
    items.length = values.length ∧
      List.Forall₂ (ReadsAs m) (((items.zip values).filter fun p => p.1.whole).map Prod.snd) (Udp.transfersOf ⟨.message, s.toNat, source⟩ out) := by
  obtain ⟨hlen, hcar, hsound, hinc⟩ := udp_stream tops hid hstart hpub hcount hm hitems hships hfit hext hvalues
  have h3 := C114_whole_partial hm hmtu hsub (Or.inl hnew) hps hsound hall hinc hrun
  refine ⟨hlen, read_pairs (s := s) (priority := priority) (source := source) hext (fun p hp => ?_) ?_⟩
  · have := (List.mem_filter.1 hp).1
    exact ⟨hvalues _ (List.of_mem_zip this).2, hcar p this⟩
  · have e : ((items.zip values).filter fun p => p.1.whole).map Prod.fst = items.filter (·.whole) := by
      rw [show (fun p : Shipment × Val => p.1.whole) = (fun it : Shipment => it.whole) ∘ Prod.fst from rfl, ← List.filter_map, List.map_fst_zip (by omega)]
    rwa [e]

/-! ### A case: a value is published three times, in two datagrams each -/

/-- A socket that accepts everything. -/
def udpSocket : Udp.Env Unit Unit := { now := fun s => (s, 0#32), sendTo := fun s _ _ _ => (s, none) }

/-- The datagrams of a message of which those arrive whose index is in `which`. -/
def udpShipment (t : UdpTransfer) (which : List Nat) : Shipment :=
  { transfer := t, chunks := pieces 24 [] (addCrc Verif.Crc.crc32Init t.payload)
    arrived := (((datagrams t.header (pieces 24 [] (addCrc Verif.Crc.crc32Init t.payload))).zipIdx).filter fun p => which.contains p.2).map fun p =>
      { data := p.1, now := 7#32, oom := false, oomSession := false } }

/-- The three messages of the node (`serialHistory`). -/
def udpItems (which : List (List Nat)) : List Shipment := List.zipWith udpShipment (messagesOn 100 serialHanded) which

/-- The receiver is subscribed to both subjects. -/
def udpReceiver : Receiver := ((((Receiver.new none).subscribeMessage false (fun _ => false) 100 30 2000000#32).1).subscribeMessage false (fun _ => false) 101 30 2000000#32).1

theorem udpShipment_ships {t : UdpTransfer} {which : List Nat}
    (h : ((pieces 24 [] (addCrc Verif.Crc.crc32Init t.payload)).flatten = t.payload ++ Verif.Crc.le32 (Verif.Crc.crc32c t.payload) ∧
      (∀ c ∈ pieces 24 [] (addCrc Verif.Crc.crc32Init t.payload), c ≠ []) ∧ (∀ c ∈ pieces 24 [] (addCrc Verif.Crc.crc32Init t.payload), 24 + c.length ≤ 48) ∧
      (∀ c ∈ (pieces 24 [] (addCrc Verif.Crc.crc32Init t.payload)).dropLast, 24 + c.length = 48)) ∧
      push (recorded udpSocket) 48 9382 t ((), []) = some (((), datagrams t.header (pieces 24 [] (addCrc Verif.Crc.crc32Init t.payload))), none)) : Ships udpSocket 48 9382 (udpShipment t which) := by
  obtain ⟨⟨h1, h2, h3, h4⟩, h5⟩ := h
  refine ⟨⟨h1, h2, h3, h4⟩, ⟨(), (), _, none, h5, ?_⟩, ?_⟩
  · show List.Sublist (List.map _ (List.map _ _)) _
    rw [List.map_map]
    have := (List.filter_sublist (p := fun p : List Byte × Nat => which.contains p.2) (l := (datagrams t.header (pieces 24 [] (addCrc Verif.Crc.crc32Init t.payload))).zipIdx)).map Prod.fst
    rwa [List.zipIdx_map_fst] at this
  · intro p hp
    obtain ⟨q, -, rfl⟩ := List.mem_map.1 hp
    exact ⟨rfl, rfl⟩

theorem udpItems_ships (a b c : List Nat) : ∀ it ∈ udpItems [a, b, c], Ships udpSocket 48 9382 it ∧ TailFits 48 it.transfer := by
  have e : messagesOn 100 serialHanded = [(messagesOn 100 serialHanded)[0]'(by decide +kernel), (messagesOn 100 serialHanded)[1]'(by decide +kernel), (messagesOn 100 serialHanded)[2]'(by decide +kernel)] := by
    decide +kernel
  intro it hit
  unfold udpItems at hit
  rw [e] at hit
  simp only [List.zipWith_cons_cons, List.zipWith_nil_right, List.mem_cons, List.not_mem_nil, or_false] at hit
  rcases hit with rfl | rfl | rfl <;> exact ⟨udpShipment_ships (by decide +kernel), by unfold TailFits; simp only [udpShipment]; decide +kernel⟩

/-- The second datagram of the last message is lost. -/
def udpLost : List Shipment := udpItems [[0, 1], [0, 1], [0]]

/-- The second message is lost. -/
def udpGone : List Shipment := udpItems [[0, 1], [], [0, 1]]

/-- What arrives, with a message on another subject in between. -/
def udpPackets (items : List Shipment) : List Packet :=
  (items.take 1).flatMap (·.arrived) ++ ((serialHanded.drop 2).take 1).flatMap (fun t => (udpShipment t [0, 1]).arrived) ++ (items.drop 1).flatMap (·.arrived)

example : ∀ items, items = udpLost ∨ items = udpGone →
    items.map (·.transfer) = messagesOn 100 serialHanded ∧ (∀ it ∈ items, Ships udpSocket 48 9382 it ∧ TailFits 48 it.transfer) ∧ (∀ it ∈ items, it.NoCollision) ∧
      packetsIn 1500 ⟨.message, 100, node 9#16⟩ (udpPackets items) = items.flatMap (·.arrived) := by
  intro items h
  rcases h with rfl | rfl
  · refine ⟨by decide +kernel, udpItems_ships _ _ _, fun it hit => noCollision_of_test ?_, by decide +kernel⟩
    revert it
    decide +kernel
  · refine ⟨by decide +kernel, udpItems_ships _ _ _, fun it hit => noCollision_of_test ?_, by decide +kernel⟩
    revert it
    decide +kernel

example : (udpReceiver.subscriptions.find .message 100).map (fun sub => (sub.payloadSizeMax, (sub.sessions (node 9#16)).isSome)) = some (30, false) ∧
    (certain true udpLost).map (·.transfer.header.transferId) = [0#64, 1#64] ∧ (∀ it ∈ udpGone, it.arrived = [] ∨ it.whole = true) ∧
    (udpReceiver.run 1500 (udpPackets udpLost)).map (fun p => p.2.map fun t => (t.header.port, t.header.transferId)) = some [(100, 0#64), (101, 0#64), (100, 1#64)] ∧
    (udpReceiver.run 1500 (udpPackets udpGone)).map (fun p => p.2.map fun t => (t.header.port, t.header.transferId)) = some [(100, 0#64), (101, 0#64), (100, 2#64)] :=
  ⟨by decide +kernel, by decide +kernel, by decide +kernel, by decide +kernel, by decide +kernel⟩

end Verif.End
