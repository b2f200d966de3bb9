import Verif.Can.TxProps
import Verif.Can.RxReassemblyProps
import Verif.Can.IdProps

/-! C06: a transfer that is sent and whose frames arrive in order is received. -/

namespace Verif.Can

open Verif.Crc (crc16 be16)

/-- The session that the transfers of a sender belong to. -/
def keyOf (h : CanHeader) (source : NodeId) : Key := { kind := h.kind, port := h.port, source }

/-- `gs` are the frames `fs` as they arrive at a receiver: the same IDs and data in the same order, but with the time of
reception instead of the deadline, and as loopback frames or not. -/
def Arrives (loopback : Bool) (fs gs : List Frame) : Prop :=
  gs.map (fun g => (g.id, g.data)) = fs.map (fun f => (f.id, f.data)) ∧ ∀ g ∈ gs, g.loopback = loopback

theorem header_ext {h h' : CanHeader} (h1 : h.kind = h'.kind) (h2 : h.priority = h'.priority) (h3 : h.port = h'.port)
    (h4 : h.source = h'.source) (h5 : h.destination = h'.destination) (h6 : h.timestamp = h'.timestamp)
    (h7 : h.transferId = h'.transferId) : h = h' := by
  have hp : ∀ {n : Nat} {a b : BitVec n}, a.toNat = b.toNat → a = b := fun h => BitVec.eq_of_toNat_eq h
  cases h <;> cases h' <;> first | cases h1 | skip
  all_goals
    rename_i a b
    cases a; cases b
    simp only [Header.priority, Header.port, Header.source, Header.destination, Header.timestamp, Header.transferId,
      Option.some.injEq] at h2 h3 h4 h5 h6 h7
    have := hp h3
    subst_vars
    rfl

/-- How a receiver reads a frame that was made for a header. -/
theorem readFrame_sent (h : CanHeader) (payload : List Byte) (g : Frame) (last : Byte) (t : TailByte)
    (hid : makeCanId h payload = some g.id) (hl : g.data.getLast? = some last) (ht : TailByte.parse last = t)
    (htid : t.transferId = h.transferId) (hanon : h.source = none → t.toggle = true ∧ t.start = true ∧ t.end_ = true) :
    readFrame g = some (h.setTimestamp g.timestamp, t) ∧ g.id.toNat < 2 ^ 29 := by
  obtain ⟨id, h1, h2, h3⟩ := C04_can_id_roundtrip h payload
  rw [hid] at h1
  cases h1
  obtain ⟨h', p1, p2, p3, p4, p5, p6, p7, p8⟩ := h3 g.timestamp t.transferId
  have he : h' = h.setTimestamp g.timestamp := by
    apply header_ext <;> simp [p2, p3, p4, p5, p6, p7, p8, htid]
  refine ⟨?_, h2⟩
  unfold readFrame sanityCheck
  rw [hl]
  simp only [ht, p1, he]
  cases h with
  | message m =>
    obtain ⟨_, _, _, _, source⟩ := m
    cases source with
    | none =>
      obtain ⟨a1, a2, a3⟩ := hanon rfl
      simp [Header.setTimestamp, a1, a2, a3]
    | some s => simp [Header.setTimestamp]
  | request s => simp [Header.setTimestamp]
  | response s => simp [Header.setTimestamp]

theorem exec_append (checks : Bool) (a b : List Op) (r : Receiver) :
    r.exec checks (a ++ b) = (r.exec checks a).bind (fun p => (p.1.exec checks b).map (fun q => (q.1, p.2 ++ q.2))) := by
  induction a generalizing r with
  | nil => cases h : r.exec checks b <;> simp [Receiver.exec, h]
  | cons op a ih =>
    simp only [List.cons_append, Receiver.exec]
    cases hs : r.step checks op with
    | none => rfl
    | some p =>
      obtain ⟨r1, x⟩ := p
      simp only [ih]
      cases ha : r1.exec checks a with
      | none => rfl
      | some p =>
        obtain ⟨r2, ts⟩ := p
        simp only [Option.bind_some]
        cases hb : r2.exec checks b with
        | none => rfl
        | some q =>
          cases x <;> rfl

/-- The transfer that handling one frame delivered, if any. -/
def Accepted.transfers : Accepted → List CanTransfer
  | .transfer t => [t]
  | _ => []

theorem exec_one (checks : Bool) (r r' : Receiver) (op : Op) (a : Accepted) (h : r.step checks op = some (r', a)) :
    r.exec checks [op] = some (r', a.transfers) := by
  simp only [Receiver.exec, h]
  cases a <;> rfl

/-- Handling one frame of a session, in terms of its view. -/
theorem view_step {checks : Bool} {r : Receiver} {key : Key} {v : View} {g : Frame} {h : CanHeader} {t : TailByte}
    (hr : readFrame g = some (h, t)) (hv : g.id.toNat < 2 ^ 29) (hk : key.Matches h) (hview : r.view key = some v)
    (hpass : passes r.id g.loopback h = true) {st : SessionState} {res : Except SubscriptionError (Option CanTransfer)}
    (hca : v.state.checkedAccept checks false v.extent v.timeout g h t = some (st, res)) :
    ∃ r', r.step checks (.frame g false) = some (r', outcome res) ∧ r'.id = r.id ∧ r'.view key = some { v with state := st } := by
  have := frame_view checks false r g key h t hr hk hv
  unfold viewFrame at this
  rw [hview] at this
  simp only [hpass, if_true, hca] at this
  exact this

/-- What the receiver holds after the first `k` frames. -/
structure Partway (checks : Bool) (r0 : Receiver) (key : Key) (v : View) (tid : Tid) (lb : Bool) (t0 : Instant) (gs : List Frame)
    (k : Nat) (r : Receiver) : Prop where
  run : r0.exec checks ((gs.take k).map (fun g => .frame g false)) = some (r, [])
  id : r.id = r0.id
  open_ : ∃ ltt s, r.view key = some { v with state := { expectedTid := tid, lastTransferTime := ltt, session := some s } } ∧
    s.loopback = lb ∧ s.transferTimestamp = t0 ∧ Tracks v.extent (gs.take k) s.buildup

/-- The frame `i` of `gs`, as the receiver reads it. -/
def ReadAs (gs : List Frame) (h : CanHeader) (lb : Bool) (tid : Tid) : Prop :=
  ∀ i (hi : i < gs.length), ∃ last, (gs[i]).data.getLast? = some last ∧ (gs[i]).id.toNat < 2 ^ 29 ∧ (gs[i]).loopback = lb ∧
    readFrame (gs[i]) = some (h.setTimestamp (gs[i]).timestamp, TailByte.parse last) ∧
    TailByte.parse last = { start := decide (i = 0), end_ := decide (i + 1 = gs.length), toggle := decide (i % 2 = 0), transferId := tid }

/-- The receiver is ready for a transfer of the session: it is not a repetition of the last one within the timeout, and no
transfer with the same ID is half received. -/
def Ready (v : View) (tid : Tid) (now : Instant) : Prop :=
  ¬ Duplicate v tid now ∧ (v.state.session = none ∨ v.state.expectedTid ≠ tid)

theorem ready_accept {checks : Bool} {v : View} {f : Frame} {h : CanHeader} {t : TailByte} (hr : Ready v t.transferId f.timestamp) :
    ∃ ltt, v.state.checkedAccept checks false v.extent v.timeout f h t =
      ({ expectedTid := t.transferId, lastTransferTime := ltt, session := none } : SessionState).acceptNonAnonymous checks false
        v.extent f h t := by
  refine ⟨v.state.lastTransferTime, ?_⟩
  unfold SessionState.checkedAccept
  by_cases h1 : t.transferId = v.state.expectedTid
  · have hs := hr.2.resolve_right (fun h => h h1.symm)
    rw [if_pos h1, h1]
    congr 1
    cases hst : v.state
    rw [hst] at hs
    cases hs
    rfl
  · rw [if_neg h1, if_neg (fun h => hr.1 ((duplicate_iff ..).mp h))]

theorem partway_first {checks : Bool} {r : Receiver} {key : Key} {v : View} {h : CanHeader} {tid : Tid} {lb : Bool} {gs : List Frame}
    (hread : ReadAs gs h lb tid) (hk : key.Matches h) (hpass : passes r.id lb h = true) (hview : r.view key = some v)
    (hlen : 1 < gs.length) (g0 : Frame) (hg0 : gs.head? = some g0) (hready : Ready v tid g0.timestamp) :
    ∃ r', Partway checks r key v tid lb g0.timestamp gs 1 r' := by
  obtain ⟨last, hl, hid, hlb, hrf, htail⟩ := hread 0 (by omega)
  have hg : gs[0] = g0 := by
    rw [List.head?_eq_getElem?, List.getElem?_eq_getElem (by omega)] at hg0
    exact Option.some.inj hg0
  rw [hg] at hl hid hlb hrf
  rw [htail] at hrf
  have hend : ¬ (0 + 1 = gs.length) := by omega
  simp only [hend, decide_false, decide_true, Nat.zero_mod] at hrf htail
  have hk' : key.Matches (h.setTimestamp g0.timestamp) := (matches_setTimestamp _ _ _).mpr hk
  have hp : passes r.id g0.loopback (h.setTimestamp g0.timestamp) = true := by
    rw [hlb]; unfold passes; simpa [passes] using hpass
  obtain ⟨ltt, hacc⟩ := ready_accept (checks := checks) (h := h.setTimestamp g0.timestamp) (f := g0)
    (t := { start := true, end_ := false, toggle := true, transferId := tid }) hready
  have hadd := buildup_add_outcome checks v.extent [] (Buildup.new v.extent) g0
    { start := true, end_ := false, toggle := true, transferId := tid } last hl htail.symm (by simp) (tracks_new _)
  have hmore : ∃ b', (Buildup.new v.extent).add checks g0.data = some (b', .ok none) ∧ Tracks v.extent [g0] b' := by
    cases hadd with
    | ignored b' hne h ht => simp at hne
    | more b' hs htog he h ht => exact ⟨b', h, ht⟩
    | panic hs => cases hs
    | bad b' hs => cases hs
    | done b' body hs => cases hs
  obtain ⟨b', hb, htr⟩ := hmore
  have hca : v.state.checkedAccept checks false v.extent v.timeout g0 (h.setTimestamp g0.timestamp)
      { start := true, end_ := false, toggle := true, transferId := tid } =
      some ({ expectedTid := tid, lastTransferTime := ltt, session := some { transferTimestamp := g0.timestamp, loopback := lb, buildup := b' } },
        .ok none) := by
    rw [hacc]
    unfold SessionState.acceptNonAnonymous
    rw [if_neg (by simp), if_neg (by simp), acceptWithSession_eq _ _ _ _ _ _ _ rfl]
    simp only [Bool.true_eq_false, Bool.false_eq_true, if_false, Session.accept, Session.new, ne_eq, not_true_eq_false, hb, afterAccept,
      Header.setTimestamp_timestamp, hlb]
  obtain ⟨r', h1, h2, h3⟩ := view_step hrf hid hk' hview hp hca
  have htake : gs.take 1 = [g0] := by
    match gs, hg0 with
    | _ :: _, rfl => rfl
  refine ⟨r', ?_, h2, ltt, _, h3, rfl, rfl, ?_⟩
  · rw [htake]; exact exec_one _ _ _ _ _ h1
  · rw [htake]; exact htr

theorem partway_run {checks : Bool} {r r1 : Receiver} {key : Key} {v : View} {tid : Tid} {lb : Bool} {t0 : Instant} {gs : List Frame}
    {k : Nat} (hk : k < gs.length) (hp : Partway checks r key v tid lb t0 gs k r1) {r2 : Receiver} {a : Accepted}
    (hs : r1.step checks (.frame gs[k] false) = some (r2, a)) :
    r.exec checks ((gs.take (k + 1)).map (fun g => .frame g false)) = some (r2, a.transfers) := by
  rw [List.take_succ_eq_append_getElem hk, List.map_append, exec_append, hp.run]
  simp only [Option.bind_some, List.map_cons, List.map_nil, exec_one _ _ _ _ _ hs, Option.map_some, List.nil_append]

theorem partway_next {checks : Bool} {r r1 : Receiver} {key : Key} {v : View} {h : CanHeader} {tid : Tid} {lb : Bool} {t0 : Instant}
    {gs : List Frame} (hread : ReadAs gs h lb tid) (hk : key.Matches h) (hpass : passes r.id lb h = true) {k : Nat} (hk0 : 0 < k)
    (hkl : k < gs.length) (hp : Partway checks r key v tid lb t0 gs k r1) :
    (k + 1 < gs.length → ∃ r2, Partway checks r key v tid lb t0 gs (k + 1) r2) ∧
    (∀ body, k + 1 = gs.length → gs.flatMap Frame.body = body ++ be16 (crc16 body) →
      ∃ r2, r.exec checks (gs.map (fun g => .frame g false)) = some (r2,
        [{ header := h.setTimestamp t0, loopback := lb, payload := body.take v.extent }])) := by
  obtain ⟨last, hl, hid, hlb, hrf, htail⟩ := hread k hkl
  rw [htail] at hrf
  obtain ⟨ltt, s, hview, hslb, hst, htr⟩ := hp.open_
  have hk' : key.Matches (h.setTimestamp (gs[k]).timestamp) := (matches_setTimestamp _ _ _).mpr hk
  have hpass' : passes r1.id (gs[k]).loopback (h.setTimestamp (gs[k]).timestamp) = true := by
    rw [hlb, hp.id]; unfold passes; simpa [passes] using hpass
  have hkne : ¬ k = 0 := by omega
  have hlentake : (gs.take k).length = k := by rw [List.length_take]; omega
  have hadd := buildup_add_outcome checks v.extent (gs.take k) s.buildup gs[k] _ last hl htail.symm (by simp [hkne]) htr
  have happ : gs.take k ++ [gs[k]] = gs.take (k + 1) := (List.take_succ_eq_append_getElem hkl).symm
  have hca : ∀ (b' : Buildup) (o : Option (List Byte)), s.buildup.add checks (gs[k]).data = some (b', .ok o) →
      ({ v with state := { expectedTid := tid, lastTransferTime := ltt, session := some s } } : View).state.checkedAccept checks false
        v.extent v.timeout gs[k] (h.setTimestamp (gs[k]).timestamp)
        { start := decide (k = 0), end_ := decide (k + 1 = gs.length), toggle := decide (k % 2 = 0), transferId := tid } =
      afterAccept { expectedTid := tid, lastTransferTime := ltt, session := some s }
        (some ({ s with buildup := b' }, .ok (o.map (fun data => ({ header := h.setTimestamp t0, loopback := lb, payload := data } : CanTransfer))))) := by
    intro b' o hb
    unfold SessionState.checkedAccept SessionState.acceptNonAnonymous
    rw [if_pos rfl, if_neg (by simp), if_neg (by simp [hkne]), acceptWithSession_eq _ _ _ _ _ _ _ rfl]
    simp only [Session.accept]
    rw [if_neg (by rw [hlb, hslb]; simp), hb]
    cases o <;> simp [hslb, hst]
  constructor
  · intro hmore
    have hne : ¬ k + 1 = gs.length := by omega
    have : ∃ b', s.buildup.add checks (gs[k]).data = some (b', .ok none) ∧ Tracks v.extent (gs.take (k + 1)) b' := by
      cases hadd with
      | ignored b' hne' h ht =>
        rw [hlentake] at hne'
        simp at hne'
      | more b' hs htog he h ht => exact ⟨b', h, happ ▸ ht⟩
      | panic hs htog hfs he => simp [hne] at he
      | bad b' hs htog hfs he => simp [hne] at he
      | done b' body hs htog hfs he => simp [hne] at he
    obtain ⟨b', hb, htr'⟩ := this
    obtain ⟨r2, h1, h2, h3⟩ := view_step hrf hid hk' hview hpass' (hca b' none hb)
    exact ⟨r2, partway_run hkl hp h1, by rw [h2, hp.id], ltt, _, h3, hslb, hst, htr'⟩
  · intro body hlast hbody
    have hfull : gs.take (k + 1) = gs := by rw [hlast]; exact List.take_length
    have happ := happ.trans hfull
    have : ∃ b', s.buildup.add checks (gs[k]).data = some (b', .ok (some (body.take v.extent))) := by
      cases hadd with
      | ignored b' hne' h ht =>
        rw [hlentake] at hne'
        simp at hne'
      | more b' hs htog he h ht => simp [hlast] at he
      | panic hs htog hfs he hc hlen h =>
        rw [happ, hbody, List.length_append, be16_length] at hlen
        omega
      | bad b' hs htog hfs he hcrc h =>
        rw [happ, hbody] at hcrc
        have : ∀ m : List Byte, crc16 (m ++ be16 (crc16 m)) = 0#16 := by
          intro m
          have hb : ∃ hi lo, be16 (crc16 m) = [hi, lo] := ⟨_, _, rfl⟩
          obtain ⟨hi, lo, hb⟩ := hb
          rw [hb]
          exact (Verif.Crc.C01_crc16_residue_zero_iff m hi lo).mpr hb.symm
        exact absurd (this body) hcrc
      | done b' body' hs htog hfs he hbody' h =>
        rw [happ, hbody] at hbody'
        have hlen := congrArg List.length hbody'
        simp only [List.length_append, be16_length] at hlen
        have : body = body' := (List.append_inj hbody' (by omega)).1
        subst this
        exact ⟨b', h⟩
    obtain ⟨b', hb⟩ := this
    obtain ⟨r2, h1, h2, h3⟩ := view_step hrf hid hk' hview hpass' (hca b' _ hb)
    have := partway_run hkl hp h1
    rw [hfull] at this
    exact ⟨r2, this⟩

theorem arrives_read {lb : Bool} {fs gs : List Frame} {mtu padding : Nat} {transfer : CanTransfer} {id : BitVec 32}
    (hid : makeCanId transfer.header transfer.payload = some id) (hseg : Segmentation mtu transfer id padding fs)
    (harr : Arrives lb fs gs) (hsrc : transfer.header.source ≠ none ∨ fs.length = 1) :
    gs.length = fs.length ∧ gs.flatMap Frame.body = fs.flatMap Frame.body ∧
      ReadAs gs transfer.header lb transfer.header.transferId := by
  have hlen : gs.length = fs.length := by have := congrArg List.length harr.1; simpa using this
  have hget : ∀ i (hi : i < gs.length), (gs[i]).id = (fs[i]'(hlen ▸ hi)).id ∧ (gs[i]).data = (fs[i]'(hlen ▸ hi)).data := by
    intro i hi
    have h2 := congrArg (fun l => l[i]?) harr.1
    simp only [List.getElem?_map, List.getElem?_eq_getElem hi, List.getElem?_eq_getElem (hlen ▸ hi), Option.map_some,
      Option.some.injEq, Prod.mk.injEq] at h2
    exact h2
  refine ⟨hlen, ?_, ?_⟩
  · have : ∀ l : List Frame, l.flatMap Frame.body =
        (l.map (fun g => (g.id, g.data))).flatMap (fun p => p.2.take (p.2.length - 1)) := by
      intro l; rw [List.flatMap_map]; rfl
    rw [this, this, harr.1]
  · intro i hi
    obtain ⟨h1, h2⟩ := hget i hi
    obtain ⟨last, hl, ht⟩ := hseg.tails i (hlen ▸ hi)
    have hmem : fs[i]'(hlen ▸ hi) ∈ fs := List.getElem_mem _
    have hfid := (hseg.fields _ hmem).1
    rw [← hlen] at ht
    obtain ⟨hr, h29⟩ := readFrame_sent transfer.header transfer.payload gs[i] last (TailByte.parse last)
      (by rw [hid, h1, hfid]) (by rw [h2, hl]) rfl (by rw [ht]) (by
        intro hs
        rcases hsrc with hsrc | hsrc
        · exact absurd hs hsrc
        · have : i = 0 := by omega
          subst this
          rw [ht]
          simp [hlen, hsrc])
    exact ⟨last, by rw [h2, hl], h29, harr.2 _ (List.getElem_mem _), hr, ht⟩

theorem partway_all {checks : Bool} {r : Receiver} {key : Key} {v : View} {h : CanHeader} {tid : Tid} {lb : Bool} {gs : List Frame}
    (hread : ReadAs gs h lb tid) (hk : key.Matches h) (hpass : passes r.id lb h = true) (hview : r.view key = some v)
    (g0 : Frame) (hg0 : gs.head? = some g0) (hready : Ready v tid g0.timestamp) :
    ∀ k, 0 < k → k < gs.length → ∃ r', Partway checks r key v tid lb g0.timestamp gs k r'
  | 1, _, hl => partway_first hread hk hpass hview hl g0 hg0 hready
  | k + 2, _, hl => by
    obtain ⟨r1, h1⟩ := partway_all hread hk hpass hview g0 hg0 hready (k + 1) (by omega) (by omega)
    exact (partway_next hread hk hpass (by omega) (by omega) h1).1 hl

/-- The receiver alone with the frames of the transfer. -/
theorem receive_all {checks : Bool} {r : Receiver} {key : Key} {v : View} {h : CanHeader} {tid : Tid} {lb : Bool} {gs : List Frame}
    (hread : ReadAs gs h lb tid) (hk : key.Matches h) (hpass : ∀ d, h.destination = some d → lb = false → r.id = some d)
    (hview : r.view key = some v) (g0 : Frame) (hg0 : gs.head? = some g0) (hready : Ready v tid g0.timestamp) (body : List Byte)
    (hbody : gs.flatMap Frame.body = body ++ (if gs.length = 1 then [] else be16 (crc16 body))) :
    (∀ k, k < gs.length → ∃ r', r.exec checks ((gs.take k).map (fun g => .frame g false)) = some (r', [])) ∧
    ∃ r', r.exec checks (gs.map (fun g => .frame g false)) = some (r',
        [{ header := h.setTimestamp g0.timestamp, loopback := lb, payload := body.take v.extent }]) := by
  have hp : passes r.id lb h = true := by
    unfold passes
    cases hd : h.destination with
    | none => rfl
    | some d =>
      cases hl : lb with
      | true => rfl
      | false => simp [hpass d hd hl]
  constructor
  · intro k hkl
    cases k with
    | zero => exact ⟨r, rfl⟩
    | succ k =>
      obtain ⟨r', h1⟩ := partway_all (checks := checks) hread hk hp hview g0 hg0 hready (k + 1) (by omega) hkl
      exact ⟨r', h1.run⟩
  · match gs, hg0 with
    | [g], rfl =>
      obtain ⟨last, hl, hid, hlb, hrf, htail⟩ := hread 0 (by simp)
      simp only [List.getElem_cons_zero] at hl hid hlb hrf
      rw [htail] at hrf
      obtain ⟨r', a, h1, -, h2⟩ := C14_single_frame_delivered_iff (checks := checks) hid hrf ((matches_setTimestamp _ _ _).mpr hk)
        (by simpa [hlb] using hpass) hview (by simp)
      have hst := h2 hready.1
      subst hst
      refine ⟨r', ?_⟩
      have hb : g.data.take (g.data.length - 1) = body := by simpa [Frame.body] using hbody
      have := exec_one checks r r' (.frame g false) _ h1
      rw [hb, hlb] at this
      exact this
    | g :: g' :: gs, rfl =>
      obtain ⟨r1, h1⟩ := partway_all (checks := checks) hread hk hp hview g rfl hready (gs.length + 1) (by omega) (by simp)
      exact (partway_next hread hk hp (by omega) (by simp) h1).2 body (by simp) (by simpa using hbody)

/-- **C06.** Let a node that has an ID push a transfer. The frames `fs` that its transmitter hands to the driver (with the
padding described by `Segmentation`) reach a receiver in order, at any times, while the receiver handles any other frames and
calls in between that do not belong to the session, subscription or node ID (`relevant`). If the receiver is subscribed, is
the destination (or sees its own frames looped back) and is ready for the transfer, then it delivers exactly one transfer for
that session: the same header (with the time of the first frame), and the payload with its padding, cut to the extent. Nothing
is delivered before the last frame. The receiver does not panic. -/
theorem C06_can_round_trip (checks : Bool) (cap mtu : Nat) (transfer : CanTransfer) (hm : 1 < mtu) (hl : LegalLength mtu)
    (hcap : mtu ≤ cap) (source : NodeId) (hsrc : transfer.header.source = some source) :
    ∃ id padding fs, Segmentation mtu transfer id padding fs ∧
      (∀ {σ E : Type} (d : TxDriver σ E) (s : σ), pushInner d cap mtu transfer s = reserveAndTransmit d fs s) ∧
      ∀ (loopback : Bool) (gs : List Frame), Arrives loopback fs gs → ∀ (r : Receiver) (v : View) (g0 : Frame),
        gs.head? = some g0 → r.view (keyOf transfer.header source) = some v →
        (∀ d, transfer.header.destination = some d → loopback = false → r.id = some d) →
        Ready v transfer.header.transferId g0.timestamp →
        (∃ r' ts, r.exec checks (gs.map (fun g => .frame g false)) = some (r', ts)) ∧
        ∀ (ops : List Op) (r' : Receiver) (ts : List CanTransfer), (∀ op ∈ ops, op.Valid) →
          r.exec checks ops = some (r', ts) →
          (ops.filter (keyOf transfer.header source).relevant = gs.map (fun g => .frame g false) →
            transfersOf (keyOf transfer.header source) ts =
              [{ header := transfer.header.setTimestamp g0.timestamp, loopback
                 payload := (transfer.payload ++ List.replicate padding 0#8).take v.extent }]) ∧
          (∀ k, k < gs.length →
            ops.filter (keyOf transfer.header source).relevant = (gs.take k).map (fun g => .frame g false) →
            transfersOf (keyOf transfer.header source) ts = []) := by
  obtain ⟨id, padding, fs, hid, hseg, hpush⟩ := C05_segmentation cap mtu transfer hm hl hcap
  refine ⟨id, padding, fs, hseg, hpush, ?_⟩
  intro lb gs harr r v g0 hg0 hview hdest hready
  obtain ⟨hlen, hcont, hread⟩ := arrives_read hid hseg harr (Or.inl (by rw [hsrc]; simp))
  have hk : (keyOf transfer.header source).Matches transfer.header := ⟨rfl, rfl, hsrc⟩
  obtain ⟨h1, r1, h2⟩ := receive_all (checks := checks) hread hk hdest hview g0 hg0 hready
    (transfer.payload ++ List.replicate padding 0#8) (by rw [hcont, hseg.content, hlen])
  refine ⟨⟨r1, _, h2⟩, ?_⟩
  intro ops r' ts hv he
  obtain ⟨r'', h3, -⟩ := C10_session_independence (keyOf transfer.header source) hv he
  constructor
  · intro hops
    rw [hops, h2] at h3
    exact (Prod.mk.inj (Option.some.inj h3)).2.symm
  · intro k hkl hops
    obtain ⟨r2, h4⟩ := h1 k hkl
    rw [hops, h4] at h3
    exact (Prod.mk.inj (Option.some.inj h3)).2.symm

/-- **C06, anonymous.** A message from a node without an ID that fits into one frame is delivered to every receiver that is
subscribed to the subject, whatever it received before, as one transfer with the payload and its padding. The code does not
cut it to the extent. -/
theorem C06_can_round_trip_anonymous (checks : Bool) (cap mtu : Nat) (transfer : CanTransfer) (hm : 1 < mtu) (hl : LegalLength mtu)
    (hcap : mtu ≤ cap) (hsrc : transfer.header.source = none) (hfit : transfer.payload.length + 1 ≤ mtu) :
    ∃ id padding f, Segmentation mtu transfer id padding [f] ∧
      (∀ {σ E : Type} (d : TxDriver σ E) (s : σ), pushInner d cap mtu transfer s = reserveAndTransmit d [f] s) ∧
      ∀ (loopback : Bool) (g : Frame), Arrives loopback [f] [g] → ∀ (r : Receiver),
        r.find .message transfer.header.port ≠ none →
        ∃ r', r.acceptFrame checks false g = some (r', .transfer
          { header := transfer.header.setTimestamp g.timestamp, loopback
            payload := transfer.payload ++ List.replicate padding 0#8 }) := by
  obtain ⟨id, padding, fs, hid, hseg, hpush⟩ := C05_segmentation cap mtu transfer hm hl hcap
  have h1 := hseg.single.mpr hfit
  match fs, h1 with
  | [f], _ =>
  refine ⟨id, padding, f, hseg, hpush, ?_⟩
  intro lb g harr r hsub
  obtain ⟨hlen, hcont, hread⟩ := arrives_read hid hseg harr (Or.inr rfl)
  obtain ⟨last, hgl, h29, hlb, hrf, -⟩ := hread 0 (by simp)
  simp only [List.getElem_cons_zero] at hgl h29 hlb hrf
  have hkind : transfer.header.kind = .message ∧ transfer.header.destination = none := by
    cases hh : transfer.header with
    | message m => exact ⟨rfl, rfl⟩
    | request s => rw [hh] at hsrc; cases hsrc
    | response s => rw [hh] at hsrc; cases hsrc
  obtain ⟨sub, hsub⟩ := Option.ne_none_iff_exists'.mp hsub
  have hspec := acceptFirst_spec checks false g (transfer.header.setTimestamp g.timestamp) (TailByte.parse last)
    (r.subs (transfer.header.setTimestamp g.timestamp).kind)
  have hne : g.data ≠ [] := by intro h; rw [h] at hgl; cases hgl
  have hbody : g.data.take (g.data.length - 1) = transfer.payload ++ List.replicate padding 0#8 := by
    have := hcont.trans hseg.content
    simpa [Frame.body] using this
  have hfind : (r.subs (transfer.header.setTimestamp g.timestamp).kind).find?
      (fun s => s.port == (transfer.header.setTimestamp g.timestamp).port) = some sub := by
    rw [← hsub]; simp [Receiver.find, hkind.1]
  rw [hfind] at hspec
  have hacc : sub.accept checks false g (transfer.header.setTimestamp g.timestamp) (TailByte.parse last) =
      some (sub, .ok (some { header := transfer.header.setTimestamp g.timestamp, loopback := lb
                             payload := transfer.payload ++ List.replicate padding 0#8 })) := by
    unfold Subscription.accept acceptAnonymous
    simp [hsrc, hne, hbody, hlb]
  simp only [hacc] at hspec
  obtain ⟨l', h2, -⟩ := hspec
  have hp : passes r.id g.loopback (transfer.header.setTimestamp g.timestamp) = true := by
    unfold passes; simp [hkind.2]
  rw [acceptFrame_eq, sanityCheck_eq g h29, hrf]
  simp only [hp, if_true]
  unfold Receiver.acceptSaneFrame
  rw [h2]
  exact ⟨_, rfl⟩

/-! Concrete cases: the two frames of an 8-byte message arrive between frames of another node, and are delivered to a fresh
subscription once, cut to its extent. -/

/-- A receiver with one subscription. -/
def demoSubscribed : Receiver := ((Receiver.new none).subscribeMessage false 100#13 7 1000#32).1

example : ∃ v, demoSubscribed.view (keyOf (demoTransfer 8).header 9#7) = some v ∧ Ready v 3#5 20#32 := by
  refine ⟨_, rfl, ?_, Or.inl rfl⟩
  rintro ⟨h, -⟩
  exact absurd h (by decide)

example : ((pushInner recorder 8 8 (demoTransfer 8) ([], 0)).bind (fun p =>
      demoSubscribed.exec true ([.frame { timestamp := 19#32, id := 0x10606408#32, loopback := false, data := [5#8, 0xe0#8] } false] ++
        p.1.1.map (fun f => .frame { f with timestamp := f.timestamp + 20#32 } false)))).map
        (fun p => p.2.map (fun t => (t.header.source, t.header.timestamp, t.payload))) =
    some [(some 8#7, 19#32, [5#8]), (some 9#7, 29#32, [1#8, 2#8, 3#8, 4#8, 5#8, 6#8, 7#8])] := by decide +kernel

example : ∃ (t : CanTransfer), t.header.source = none ∧ t.payload.length + 1 ≤ 8 ∧ t.payload ≠ [] ∧
    demoSubscribed.find .message t.header.port ≠ none :=
  ⟨{ header := .message { timestamp := 9#32, transferId := 3#5, priority := 4#3, subject := 100#13, source := none }
     loopback := false, payload := [1#8, 2#8] }, rfl, by decide, by decide, by simp [Receiver.find, demoSubscribed]; decide⟩

end Verif.Can
