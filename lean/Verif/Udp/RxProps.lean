import Verif.Udp.RxInv

/-! Properties of the UDP receiver (C34, C36, C37, C38). -/

namespace Verif.Udp

open Verif.Hdr (NodeId16 Tid64 TransportHeader)
open Verif.Crc (le32 crc32c)

/-- The pieces of a transfer are all received: the transfer fits into one datagram, or the last datagram carries at least four
bytes. (The receiver ignores datagrams with fewer than four bytes after the header.) -/
def TailFits (mtu : Nat) (t : UdpTransfer) : Prop :=
  t.payload.length + 4 ≤ mtu - 24 ∨ (t.payload.length + 4) % (mtu - 24) = 0 ∨ 4 ≤ (t.payload.length + 4) % (mtu - 24)

/-- The transfer as it is returned: with the time of the first datagram, cut to the extent. -/
def asReceived (t : UdpTransfer) (now : Instant) (extent : Nat) : UdpTransfer :=
  { header := t.header.setTimestamp now, loopback := false, payload := t.payload.take extent }

theorem packetsIn_frames {mtu : Nat} {key : Key} {ps : List Packet} {p : Packet} {own : List Packet} (h : packetsIn mtu key ps = p :: own) :
    ∃ f, p.frame mtu = some f := by
  have : p ∈ packetsIn mtu key ps := by rw [h]; simp
  unfold packetsIn at this
  simp only [List.mem_filter, decide_eq_true_eq] at this
  cases hp : p.frame mtu with
  | none => rw [hp] at this; cases this.2
  | some f => exact ⟨f, rfl⟩

/-- **C34** (partial: `TailFits`; see `C34_short_tail_lost` for the other payload lengths). The datagrams of one transfer arrive in
order, among any other datagrams, at a receiver with a subscription and a session that is ready for it: then exactly one transfer of
this session is returned, with the same header fields, the time of the first datagram, and the payload cut to the extent. -/
theorem C34_roundtrip_partial {mtu mtu' : Nat} (hm : 28 ≤ mtu) (hmtu : mtu ≤ mtu') {t : UdpTransfer} {chunks : List (List Byte)}
    (hp : Pieces mtu t chunks) (hn : chunks.length ≤ 2 ^ 31) (hfit : TailFits mtu t)
    {key : Key} (_hk : keyOf? t.header = some key) {r : Receiver} {sub : Subscription} (hsub : r.subscriptions.find key.kind key.port = some sub)
    {ps own : List Packet} {first : Packet} (hown : packetsIn mtu' key ps = first :: own)
    (hdata : (first :: own).map (·.data) = datagrams t.header chunks) (hmem : ∀ p ∈ first :: own, p.oom = false ∧ p.oomSession = false)
    (hready : Ready sub.timeout t.header.transferId first.now (sub.sessions key.source))
    {r' : Receiver} {out : List UdpTransfer} (hrun : r.run mtu' ps = some (r', out)) :
    transfersOf key out = [asReceived t first.now sub.payloadSizeMax] := by
  obtain ⟨sub', g1, g2, g3, g4⟩ := run_session hrun hsub
  have hge := pieces_ge hp hm hfit
  have hne : chunks ≠ [] := by
    intro h
    rw [h] at hdata
    simp [datagrams] at hdata
  have hw := whole_of (mtu := mtu') hne hdata (fun c hc => ⟨(hge c hc).1, by have := (hge c hc).2; omega⟩) hn hmem
  rw [framesOf_eq, hown] at g4
  obtain ⟨f, hf⟩ := packetsIn_frames hown
  rw [List.filterMap_cons_some hf] at g4 hw
  have hnow := (frame_now hf).1
  rw [← hnow] at hready
  have := run_whole (n := sub.payloadSizeMax) hready hw.1 (fun c hc => (hge c hc).1) (by omega) hp.whole
  rw [this] at g4
  have h2 := (Prod.mk.inj (Option.some.inj g4)).2
  rw [← h2, hnow]
  rfl


/-- A transfer in two datagrams, with garbage and a transfer of another node in between. -/
def demoTraffic : List Packet :=
  match demoPackets 32 77 10 500#32, demoPackets 1500 3 5 600#32 with
  | [a, b], [c] => [{ c with data := [1#8, 2#8] }, a, { c with data := Verif.Hdr.encode { frameHeader (demo 5).header 0 true with dataSpecifier := .subject none 7509#13 } ++ c.data.drop 24 }, b]
  | _, _ => []

example {r' : Receiver} {out : List UdpTransfer} (hrun : demoReceiver.run 1500 demoTraffic = some (r', out)) :
    transfersOf demoKey out = [asReceived (demo 10) 500#32 9] := by
  obtain ⟨first, own, hps, hnow⟩ : ∃ first own, demoPackets 32 77 10 500#32 = first :: own ∧ first.now = 500#32 := ⟨_, _, rfl, rfl⟩
  have hown : packetsIn 1500 demoKey demoTraffic = demoPackets 32 77 10 500#32 := by decide +kernel
  have hdata : (demoPackets 32 77 10 500#32).map (·.data) = datagrams (demo 10).header (demoChunks 32 10) := by decide +kernel
  have hmem : ∀ p ∈ demoPackets 32 77 10 500#32, p.oom = false ∧ p.oomSession = false := by decide +kernel
  rw [hps] at hown hdata hmem
  have := C34_roundtrip_partial (mtu := 32) (mtu' := 1500) (by decide) (by decide) (demo_pieces 32 10 (by decide +kernel)) (by decide +kernel)
    (by unfold TailFits; decide +kernel) (key := demoKey) rfl
    (r := demoReceiver) (sub := Subscription.new 9 2000000#32) rfl hown hdata hmem .new hrun
  rw [hnow] at this
  exact this

example : (demoReceiver.run 1500 demoTraffic).map (fun p => p.2.map (·.payload.length)) = some [5, 9] := by decide +kernel

/-- **C34** for anonymous transfers, which always are one datagram: it is returned at once. -/
theorem C34_anonymous {mtu mtu' : Nat} (hmtu : mtu ≤ mtu') {t : UdpTransfer} {chunks : List (List Byte)} (hp : Pieces mtu t chunks)
    (hone : chunks.length = 1) (hanon : keyOf? t.header = none) {r : Receiver} {sub : Subscription}
    (hsub : r.subscriptions.find t.header.kind t.header.port = some sub) {p : Packet} (hdata : [p.data] = datagrams t.header chunks)
    (hmem : p.oom = false) : (r.acceptInner mtu' p).map (·.2) = some (.transfer (asReceived t p.now sub.payloadSizeMax)) := by
  obtain ⟨c, rfl⟩ := List.length_eq_one_iff.mp hone
  have hw := hp.whole
  simp only [List.flatten_cons, List.flatten_nil, List.append_nil] at hw
  have hfit := hp.fits c (by simp)
  have hlen : 4 ≤ c.length := by rw [hw]; simp [le32]
  simp only [datagrams, List.mapIdx_cons, List.mapIdx_nil, List.cons.injEq, and_true] at hdata
  have hf := datagram_frame (mtu := mtu') (i := 0) hdata (by omega) (by omega)
  rw [if_neg (by omega)] at hf
  rw [acceptInner_eq, hf]
  have hk : specifierKind (frameHeader t.header 0 true).dataSpecifier = t.header.kind ∧
      specifierPort (frameHeader t.header 0 true).dataSpecifier = t.header.port ∧
      (frameHeader t.header 0 true).dataSpecifier.source = none := by
    cases hh : t.header with
    | message m =>
      refine ⟨rfl, rfl, ?_⟩
      rw [hh] at hanon
      cases hs : m.source with
      | none => unfold frameHeader; rw [← hs]; rfl
      | some n => exact absurd hanon (by simp [keyOf?, Header.source, hs])
    | request m => rw [hh] at hanon; cases hanon
    | response m => rw [hh] at hanon; cases hanon
  dsimp only
  unfold Receiver.acceptFrame
  simp only [List.length_cons, List.length_nil, Nat.zero_add, beq_self_eq_true]
  rw [hk.1, hk.2.1, hsub]
  dsimp only
  unfold Subscription.handleFrame
  rw [hk.2.2]
  dsimp only [Option.map_some]
  unfold handleAnonymous ActiveSession.handleFrame
  rw [if_neg (by unfold transferCrcSize; omega), if_pos ⟨rfl, rfl⟩, hmem]
  have hc : (collected sub.payloadSizeMax c).2.correct = true := (collected_correct _ _).mpr ⟨_, hw⟩
  simp only [Bool.false_eq_true, if_false, collect_first, hc, if_true]
  rw [convert_frameHeader, hw, collected_body]
  rfl

/-- An anonymous message. -/
def demoAnonymous : UdpTransfer :=
  { demo 12 with header := .message { timestamp := 100#32, transferId := 9#64, priority := 4#3, subject := 7509#13, source := none } }

example (p : Packet) (hdata : [p.data] = datagrams demoAnonymous.header (demoChunks 64 12)) (hmem : p.oom = false) :
    (demoReceiver.acceptInner 1500 p).map (·.2) = some (.transfer (asReceived demoAnonymous p.now 9)) :=
  have h := demo_pieces 64 12 (by decide +kernel)
  C34_anonymous (mtu := 64) (mtu' := 1500) (t := demoAnonymous) (r := demoReceiver) (by decide) ⟨h.whole, h.nonempty, h.fits, h.full⟩ (by decide +kernel) rfl (sub := Subscription.new 9 2000000#32) rfl hdata hmem

/-- **C34**, the negation for the other lengths: if a transfer needs several datagrams and the last one has fewer than four bytes after
its header, then its datagrams alone never make the receiver return a transfer. -/
theorem C34_short_tail_lost {mtu mtu' : Nat} (hm : 28 ≤ mtu) (hmtu : mtu ≤ mtu') {t : UdpTransfer} {chunks : List (List Byte)}
    (hp : Pieces mtu t chunks) (hn : chunks.length ≤ 2 ^ 31) (hshort : ¬ TailFits mtu t)
    {key : Key} (hk : keyOf? t.header = some key) {r : Receiver} {sub : Subscription} (hsub : r.subscriptions.find key.kind key.port = some sub)
    {ps : List Packet} {first : Packet} (hdata : (first :: ps).map (·.data) = datagrams t.header chunks)
    (hmem : ∀ p ∈ first :: ps, p.oom = false ∧ p.oomSession = false)
    (hready : Ready sub.timeout t.header.transferId first.now (sub.sessions key.source))
    {r' : Receiver} {out : List UdpTransfer} (hrun : r.run mtu' (first :: ps) = some (r', out)) :
    transfersOf key out = [] := by
  obtain ⟨last, hcc, hpos, hle, htot⟩ := pieces_total hp
  unfold TailFits at hshort
  have hlen : chunks.dropLast.length = chunks.length - 1 := by simp
  have hlast : last.length < 4 := by
    by_cases hfull : last.length = mtu - 24
    · exfalso
      apply hshort
      right; left
      rw [htot, hfull]
      rw [show (chunks.length - 1) * (mtu - 24) + (mtu - 24) = (chunks.length - 1 + 1) * (mtu - 24) by rw [Nat.add_mul, Nat.one_mul]]
      exact Nat.mul_mod_left _ _
    · have hmod : (t.payload.length + 4) % (mtu - 24) = last.length := by
        rw [htot, Nat.add_comm, Nat.add_mul_mod_self_right, Nat.mod_eq_of_lt (by omega)]
      omega
  have hmany : 0 < chunks.length - 1 := by
    by_cases h : chunks.length - 1 = 0
    · rw [h] at htot; omega
    · omega
  have hdrop : ∀ c ∈ chunks.dropLast, 4 ≤ c.length ∧ 24 + c.length ≤ mtu' := by
    intro c hc
    have := hp.full c hc
    omega
  rw [hcc, datagrams_snoc] at hdata
  obtain ⟨ps1, ps2, hps, hd1, hd2⟩ := List.map_eq_append_iff.mp hdata
  cases ps2 with
  | nil => simp at hd2
  | cons p ps2 =>
    have hnil : ps2 = [] := by
      have := congrArg List.length hd2
      simp at this
      exact this
    subst hnil
    simp only [List.map_cons, List.map_nil, List.cons.injEq, and_true] at hd2
    have hf := datagram_frame (mtu := mtu') hd2 (by omega) (by omega)
    rw [if_pos hlast] at hf
    have hpart := part_of (mtu := mtu') (h := t.header) chunks.dropLast (i := 0) (ps := ps1) (by rw [hd1]; simp) hdrop
      (by omega) (fun p hp => hmem p (by rw [hps]; simp [hp]))
    obtain ⟨sub', g1, g2, g3, g4⟩ := run_session hrun hsub
    cases ps1 with
    | nil =>
      have := congrArg List.length hd1
      simp at this
      omega
    | cons q ps1 =>
      simp only [List.cons_append, List.cons.injEq] at hps
      obtain ⟨hq, hps⟩ := hps
      subst hq
      have hframes : framesOf mtu' key (first :: ps) = (first :: ps1).filterMap (Packet.frame mtu') := by
        unfold framesOf
        rw [hps]
        have e1 : (first :: (ps1 ++ [p])).filterMap (Packet.frame mtu') = (first :: ps1).filterMap (Packet.frame mtu') := by
          rw [show first :: (ps1 ++ [p]) = (first :: ps1) ++ [p] by simp, List.filterMap_append, List.filterMap_cons_none hf]
          simp
        rw [e1, List.filter_eq_self]
        intro f hfm
        have : ∀ (cs : List (List Byte)) (i : Nat) (fs : List Frame), Part t.header i cs fs → ∀ f ∈ fs, f.key? = some key := by
          intro cs
          induction cs with
          | nil => intro i fs hp f hf; cases fs with
            | nil => cases hf
            | cons => cases hp
          | cons c cs ih => intro i fs hp f hf; cases fs with
            | nil => cases hf
            | cons g gs =>
              rcases List.mem_cons.mp hf with rfl | hf
              · rw [frame_key hp.1.header, hk]
              · exact ih _ _ hp.2 f hf
        simpa using this _ _ _ hpart f hfm
      have hfirst : ∃ f, first.frame mtu' = some f := by
        cases hcs : chunks.dropLast with
        | nil => rw [hcs] at hlen; simp at hlen; omega
        | cons c cs =>
          rw [hcs, List.mapIdx_cons, List.map_cons] at hd1
          have := datagram_frame (mtu := mtu') (List.cons.inj hd1).1 (by omega) (hdrop c (by rw [hcs]; simp)).2
          rw [if_neg (by have := (hdrop c (by rw [hcs]; simp)).1; omega)] at this
          exact ⟨_, this⟩
      obtain ⟨f, hff⟩ := hfirst
      rw [hframes, List.filterMap_cons_some hff] at g4
      rw [List.filterMap_cons_some hff] at hpart
      rw [← (frame_now hff).1] at hready
      obtain ⟨a, h1, _⟩ := run_incomplete (n := sub.payloadSizeMax) hready hpart (fun c hc => (hdrop c hc).1)
      rw [h1] at g4
      exact (Prod.mk.inj (Option.some.inj g4)).2.symm

example : ¬ TailFits 32 (demo 6) ∧ (demoReceiver.run 1500 (demoPackets 32 77 6 500#32)).map (·.2) = some [] := by
  unfold TailFits
  decide +kernel

example {r' : Receiver} {out : List UdpTransfer} (hrun : demoReceiver.run 1500 (demoPackets 32 77 6 500#32) = some (r', out)) :
    transfersOf demoKey out = [] := by
  obtain ⟨first, own, hps⟩ : ∃ first own, demoPackets 32 77 6 500#32 = first :: own := ⟨_, _, rfl⟩
  have hdata : (demoPackets 32 77 6 500#32).map (·.data) = datagrams (demo 6).header (demoChunks 32 6) := by decide +kernel
  have hmem : ∀ p ∈ demoPackets 32 77 6 500#32, p.oom = false ∧ p.oomSession = false := by decide +kernel
  rw [hps] at hdata hmem hrun
  exact C34_short_tail_lost (mtu := 32) (mtu' := 1500) (by decide) (by decide) (demo_pieces 32 6 (by decide +kernel)) (by decide +kernel)
    (by unfold TailFits; decide +kernel) (key := demoKey) rfl (r := demoReceiver) (sub := Subscription.new 9 2000000#32) rfl hdata hmem .new hrun

/-- **C34**, the negation: the datagrams of a transfer, in order and without loss, and no transfer. -/
theorem C34_counterexample : ¬ ∀ (mtu : Nat) (t : UdpTransfer) (chunks : List (List Byte)) (r : Receiver) (ps : List Packet) (out : List UdpTransfer) (r' : Receiver),
    28 < mtu → Pieces mtu t chunks → r.subscriptions.find t.header.kind t.header.port ≠ none → ps.map (·.data) = datagrams t.header chunks →
    (∀ p ∈ ps, p.oom = false ∧ p.oomSession = false) → (∀ k port sub, r.subscriptions.find k port = some sub → ∀ n, sub.sessions n = none) →
    r.run mtu ps = some (r', out) → out ≠ [] := by
  intro h
  cases hr : demoReceiver.run 32 (demoPackets 32 77 6 500#32) with
  | none => exact absurd (congrArg Option.isSome hr) (by decide +kernel)
  | some q =>
    refine h 32 (demo 6) (demoChunks 32 6) demoReceiver (demoPackets 32 77 6 500#32) q.2 q.1 (by decide) (demo_pieces 32 6 (by decide +kernel)) ?_ ?_ ?_ ?_ hr ?_
    · intro hn; cases hn
    · decide +kernel
    · decide +kernel
    · intro k port sub hs n
      unfold demoReceiver at hs
      simp only [Receiver.subscribeMessage, Bool.false_eq_true, if_false, find_subscribe] at hs
      split at hs
      · cases hs; rfl
      · cases k <;> cases hs
    · have := congrArg (Option.map (·.2)) hr
      have h2 : (demoReceiver.run 32 (demoPackets 32 77 6 500#32)).map (·.2) = some [] := by decide +kernel
      rw [h2] at this
      exact (Option.some.inj this).symm

/-- **C34**, another consequence: after such a transfer, the next one in several datagrams is lost as well. -/
theorem C34_next_lost_counterexample : TailFits 32 (demo 10) ∧
    (demoReceiver.run 1500 (demoPackets 32 77 10 600#32)).map (fun p => p.2.length) = some 1 ∧
    (demoReceiver.run 1500 (demoPackets 32 76 6 500#32 ++ demoPackets 32 77 10 600#32)).map (·.2) = some [] := by
  unfold TailFits
  decide +kernel

/-! ### Calls of `receive` -/

/-- The datagrams among the results of the socket. -/
def inputPackets {E : Type} : List (Input E) → List Packet
  | [] => []
  | .packet p :: rest => p :: inputPackets rest
  | _ :: rest => inputPackets rest

/-- The transfer in the result of `receive`. -/
def Received.transfers {E : Type} : Received E → List UdpTransfer
  | .transfer t => [t]
  | _ => []

/-- A call of `receive` handles the datagrams that it takes from the socket one after the other. So what is said here about sequences
of datagrams is said about calls of `receive`. -/
theorem receive_run {E : Type} {mtu : Nat} (inputs : List (Input E)) : ∀ {r r' : Receiver} {res : Received E} {rest : List (Input E)},
    r.receive mtu inputs = some (r', res, rest) →
    ∃ used, inputs = used ++ rest ∧ r.run mtu (inputPackets used) = some (r', res.transfers) := by
  induction inputs with
  | nil => intro r r' res rest h; cases h; exact ⟨[], rfl, rfl⟩
  | cons x inputs ih =>
    intro r r' res rest h
    cases x with
    | wouldBlock => cases h; exact ⟨[.wouldBlock], rfl, rfl⟩
    | error e => cases h; exact ⟨[.error e], rfl, rfl⟩
    | packet p =>
      simp only [Receiver.receive] at h
      cases ha : r.acceptInner mtu p with
      | none => rw [ha] at h; cases h
      | some q =>
        obtain ⟨r1, o⟩ := q
        rw [ha] at h
        cases o with
        | transfer t => cases h; exact ⟨[.packet p], rfl, by simp [inputPackets, Receiver.run, ha, Output.transfers, Received.transfers]⟩
        | outOfMemory => cases h; exact ⟨[.packet p], rfl, by simp [inputPackets, Receiver.run, ha, Output.transfers, Received.transfers]⟩
        | nothing =>
          obtain ⟨used, h1, h2⟩ := ih h
          exact ⟨.packet p :: used, by rw [h1]; rfl, by simp [inputPackets, Receiver.run, ha, h2, Output.transfers]⟩

/-- A call of `receive` panics only if one of the datagrams makes the receiver panic. -/
theorem receive_panic {E : Type} {mtu : Nat} (inputs : List (Input E)) : ∀ {r : Receiver}, r.receive mtu inputs = none →
    ∃ used rest, inputs = used ++ rest ∧ r.run mtu (inputPackets used) = none := by
  induction inputs with
  | nil => intro r h; cases h
  | cons x inputs ih =>
    intro r h
    cases x with
    | wouldBlock => cases h
    | error e => cases h
    | packet p =>
      simp only [Receiver.receive] at h
      cases ha : r.acceptInner mtu p with
      | none => exact ⟨[.packet p], inputs, rfl, by simp [inputPackets, Receiver.run, ha]⟩
      | some q =>
        obtain ⟨r1, o⟩ := q
        rw [ha] at h
        cases o with
        | transfer t => cases h
        | outOfMemory => cases h
        | nothing =>
          obtain ⟨used, rest, h1, h2⟩ := ih h
          exact ⟨.packet p :: used, rest, by rw [h1]; rfl, by simp [inputPackets, Receiver.run, ha, h2]⟩

/-! ### Duplicates -/

/-- The session has delivered transfer `last`, at a time that is not longer ago than the timeout. -/
def Recent (timeout : Duration) (time now : Instant) : Prop := ∃ age, Instant.checkedDurationSince now time = some age ∧ age ≤ timeout

theorem step_duplicate {n : Nat} {timeout : Duration} {f : Frame} {time : Instant} {last : Tid64} (ht : f.header.transferId ≤ last)
    (hr : Recent timeout time f.now) : f.step n timeout (some (.complete time last)) = some (some (.complete time last), .nothing) := by
  obtain ⟨age, ha, hle⟩ := hr
  unfold Frame.step sessionStep Session.admit Instant.sub?
  simp only [ha]
  rw [if_neg]
  rintro (h | h)
  · exact absurd h (by simpa using ht)
  · exact absurd h (by simpa using hle)

theorem run_duplicates {n : Nat} {timeout : Duration} {time : Instant} {last : Tid64} (fs : List Frame)
    (h : ∀ f ∈ fs, f.header.transferId ≤ last ∧ Recent timeout time f.now) :
    runSession n timeout (some (.complete time last)) fs = some (some (.complete time last), []) := by
  induction fs with
  | nil => rfl
  | cons f fs ih =>
    have := h f (by simp)
    simp only [runSession, step_duplicate this.1 this.2, Option.bind_some, ih (fun f hf => h f (by simp [hf])), Option.map_some,
      Output.transfers, List.append_nil]

/-- **C36** (partial: the recorded transfer ID is not always that of the transfer returned, see `C36_duplicate_counterexample`). After a
transfer has been recorded, no datagram of the session with this or an older transfer ID has any effect within the timeout, whatever else
arrives. -/
theorem C36_recorded_suppressed_partial {mtu : Nat} {key : Key} {r r' : Receiver} {sub : Subscription} {ps : List Packet} {out : List UdpTransfer}
    {time : Instant} {last : Tid64} (hsub : r.subscriptions.find key.kind key.port = some sub)
    (hs : sub.sessions key.source = some (.complete time last))
    (hp : ∀ f ∈ framesOf mtu key ps, f.header.transferId ≤ last ∧ Recent sub.timeout time f.now) (hrun : r.run mtu ps = some (r', out)) :
    transfersOf key out = [] ∧ r'.session key = some (.complete time last) := by
  obtain ⟨sub', g1, g2, g3, g4⟩ := run_session hrun hsub
  rw [hs, run_duplicates _ hp] at g4
  have := Prod.mk.inj (Option.some.inj g4)
  refine ⟨this.2.symm, ?_⟩
  unfold Receiver.session
  rw [g1]
  exact this.1.symm

/-- The clock difference is at most the timeout, as a test. -/
def recentTest (timeout : Duration) (a b : Instant) : Bool := (Instant.checkedDurationSince b a).any (fun age => age ≤ timeout)

theorem recent_of_test {timeout : Duration} {a b : Instant} (h : recentTest timeout a b = true) : Recent timeout a b := by
  unfold recentTest at h
  rw [Option.any_eq_true] at h
  obtain ⟨age, h1, h2⟩ := h
  exact ⟨age, h1, by simpa using h2⟩

/-- A receiver whose session has recorded transfer 5 at time 500. -/
def recordedReceiver : Receiver :=
  { demoReceiver with subscriptions := demoReceiver.subscriptions.store .message 7509 ((Subscription.new 9 2000000#32).setSession (node 42#16) (some (.complete 500#32 5#64))) }

example {r' : Receiver} {out : List UdpTransfer} (hrun : recordedReceiver.run 1500 (demoPackets 32 5 10 600#32 ++ demoPackets 32 4 3 700#32) = some (r', out)) :
    transfersOf demoKey out = [] :=
  (C36_recorded_suppressed_partial (key := demoKey) (time := 500#32) (last := 5#64)
    (sub := (Subscription.new 9 2000000#32).setSession (node 42#16) (some (.complete 500#32 5#64))) rfl rfl (by
    have h : ∀ f ∈ framesOf 1500 demoKey (demoPackets 32 5 10 600#32 ++ demoPackets 32 4 3 700#32),
        f.header.transferId ≤ 5#64 ∧ recentTest 2000000#32 500#32 f.now = true := by decide +kernel
    exact fun f hf => ⟨(h f hf).1, recent_of_test (h f hf).2⟩) hrun).1

/-- One transfer of a session that arrives as a whole. -/
structure Arrival where
  transfer : UdpTransfer
  chunks : List (List Byte)
  packets : List Packet

/-- All datagrams of the transfer arrive, in order, while there is memory. -/
structure Arrival.Complete (mtu mtu' : Nat) (key : Key) (a : Arrival) : Prop where
  key : keyOf? a.transfer.header = some key
  pieces : Pieces mtu a.transfer a.chunks
  count : a.chunks.length ≤ 2 ^ 31
  fits : TailFits mtu a.transfer
  data : a.packets.map (·.data) = datagrams a.transfer.header a.chunks
  memory : ∀ p ∈ a.packets, p.oom = false ∧ p.oomSession = false

theorem whole_tids {h : UdpHeader} {chunks : List (List Byte)} {fs : List Frame} (hw : Whole h chunks fs) :
    ∀ f ∈ fs, f.header.transferId = h.transferId := by
  obtain ⟨fs', g, last, h1, h2, h3, h4⟩ := hw
  have hpart : ∀ (cs : List (List Byte)) (i : Nat) (fs : List Frame), Part h i cs fs → ∀ f ∈ fs, f.header.transferId = h.transferId := by
    intro cs
    induction cs with
    | nil => intro i fs hp f hf; cases fs with
      | nil => cases hf
      | cons => cases hp
    | cons c cs ih => intro i fs hp f hf; cases fs with
      | nil => cases hf
      | cons g gs =>
        rcases List.mem_cons.mp hf with rfl | hf
        · rw [hp.1.header]; rfl
        · exact ih _ _ hp.2 f hf
  intro f hf
  rw [h1] at hf
  rcases List.mem_append.mp hf with hf | hf
  · exact hpart _ _ _ h3 f hf
  · simp only [List.mem_singleton] at hf
    subst hf
    rw [h4.header]; rfl

theorem recent_self (timeout : Duration) (now : Instant) : Recent timeout now now := by
  refine ⟨now - now, ?_, ?_⟩
  · unfold Instant.checkedDurationSince Instant.before
    simp
  · simp [BitVec.le_def]

theorem ready_or_duplicate {timeout : Duration} {tid last : Tid64} {time now : Instant} (hr : Recent timeout time now) :
    tid ≤ last ∨ Ready timeout tid now (some (.complete time last)) := by
  by_cases h : tid ≤ last
  · exact Or.inl h
  · obtain ⟨age, ha, _⟩ := hr
    exact Or.inr (.later time last age ha (Or.inl (by simpa using h)))

/-- Whole transfers in any order: the session delivers those with a higher transfer ID than before. -/
theorem run_arrivals {n mtu mtu' : Nat} {timeout : Duration} {key : Key} (hm : 28 ≤ mtu) (hmtu : mtu ≤ mtu') (as : List Arrival) :
    ∀ (s : Option Session), (∀ a ∈ as, a.Complete mtu mtu' key) →
    ((as.flatMap (·.packets)).Pairwise (fun p q => Recent timeout p.now q.now)) →
    (s = none ∨ ∃ time last, s = some (.complete time last) ∧ ∀ p ∈ as.flatMap (·.packets), Recent timeout time p.now) →
    ∃ s' out, runSession n timeout s ((as.flatMap (·.packets)).filterMap (Packet.frame mtu')) = some (s', out) ∧
      (∀ time last, s = some (.complete time last) → ∀ t ∈ out, last < t.header.transferId) ∧
      out.Pairwise (fun a b => a.header.transferId < b.header.transferId) ∧
      (∀ t ∈ out, ∃ a ∈ as, ∃ p ∈ a.packets, t = asReceived a.transfer p.now n) := by
  induction as with
  | nil => intro s _ _ _; exact ⟨s, [], rfl, by simp, List.Pairwise.nil, by simp⟩
  | cons a as ih =>
    intro s hc hpw hs
    have ha := hc a (by simp)
    have hge := pieces_ge ha.pieces hm ha.fits
    have hne : a.chunks ≠ [] := by
      intro h
      have := ha.pieces.whole
      rw [h] at this
      simp [Verif.Crc.le32] at this
    have hw := whole_of (mtu := mtu') hne ha.data (fun c hc => ⟨(hge c hc).1, by have := (hge c hc).2; omega⟩) ha.count ha.memory
    rw [List.flatMap_cons] at hpw ⊢
    rw [List.filterMap_append, runSession_append]
    rw [List.pairwise_append] at hpw
    obtain ⟨hpw1, hpw2, hpw3⟩ := hpw
    cases hpk : a.packets with
    | nil =>
      have := ha.data
      rw [hpk] at this
      have := congrArg List.length this
      simp [datagrams] at this
      exact absurd this.symm (by simpa using hne)
    | cons first own =>
      rw [hpk] at hw hpw1 hpw3
      obtain ⟨f, hf⟩ : ∃ f, first.frame mtu' = some f := by
        cases hff : first.frame mtu' with
        | some f => exact ⟨f, rfl⟩
        | none =>
          exfalso
          have hcount := congrArg List.length hw.2
          rw [List.filterMap_cons_none hff] at hcount
          have := List.length_filterMap_le (Packet.frame mtu') own
          simp at hcount
          omega
      have hnow := (frame_now hf).1
      rw [List.filterMap_cons_some hf] at hw ⊢
      -- ready, or everything is a duplicate
      have hdec : (Ready timeout a.transfer.header.transferId f.now s) ∨
          ∃ time last, s = some (.complete time last) ∧ a.transfer.header.transferId ≤ last := by
        rcases hs with rfl | ⟨time, last, rfl, hrec⟩
        · exact Or.inl .new
        · have : Recent timeout time f.now := by rw [hnow]; exact hrec first (by simp [hpk])
          rcases ready_or_duplicate (tid := a.transfer.header.transferId) (last := last) this with h | h
          · exact Or.inr ⟨time, last, rfl, h⟩
          · exact Or.inl h
      rcases hdec with hready | ⟨time, last, rfl, hdup⟩
      · have hrun := run_whole (n := n) hready hw.1 (fun c hc => (hge c hc).1) (by have := ha.count; omega) ha.pieces.whole
        rw [hrun]
        simp only [Option.bind_some]
        obtain ⟨s', out, h1, h2, h3, h4⟩ := ih (some (.complete f.now a.transfer.header.transferId)) (fun b hb => hc b (by simp [hb])) hpw2
          (Or.inr ⟨_, _, rfl, by rw [hnow]; exact fun p hp => hpw3 first (by simp) p hp⟩)
        rw [h1]
        refine ⟨s', _, rfl, ?_, ?_, ?_⟩
        · intro time last hsl t ht
          have hlt : last < a.transfer.header.transferId := by
            subst hsl
            rcases hs with hs | ⟨time', last', hs, hrec⟩
            · cases hs
            · cases hs
              cases hready with
              | later _ _ age hage h =>
                rcases h with h | h
                · exact h
                · exfalso
                  obtain ⟨age', hage', hle⟩ := hrec first (by simp [hpk])
                  rw [hnow, hage'] at hage
                  cases hage
                  exact absurd h (by simpa using hle)
          simp only [List.singleton_append, List.mem_cons] at ht
          rcases ht with rfl | ht
          · simpa using hlt
          · exact BitVec.lt_trans hlt (h2 _ _ rfl t ht)
        · simp only [List.singleton_append, List.pairwise_cons]
          refine ⟨?_, h3⟩
          intro t ht
          have := h2 _ _ rfl t ht
          simpa using this
        · intro t ht
          simp only [List.singleton_append, List.mem_cons] at ht
          rcases ht with rfl | ht
          · exact ⟨a, by simp, first, by rw [hpk]; simp, by rw [hnow]; rfl⟩
          · obtain ⟨b, hb, h⟩ := h4 t ht
            exact ⟨b, by simp [hb], h⟩
      · have hrec : ∀ p ∈ (a :: as).flatMap (·.packets), Recent timeout time p.now := by
          rcases hs with hs | ⟨time', last', hs, hrec⟩
          · cases hs
          · cases hs; exact hrec
        have hrun := run_duplicates (n := n) (timeout := timeout) (time := time) (last := last) (f :: own.filterMap (Packet.frame mtu')) (by
          intro g hg
          refine ⟨by rw [whole_tids hw.1 g hg]; exact hdup, ?_⟩
          have : g.now ∈ (f :: own.filterMap (Packet.frame mtu')).map (·.now) := List.mem_map_of_mem hg
          rw [hw.2] at this
          obtain ⟨p, hp, hpn⟩ := List.mem_map.mp this
          rw [← hpn]
          exact hrec p (by rw [List.flatMap_cons, hpk]; exact List.mem_append_left _ hp))
        rw [hrun]
        simp only [Option.bind_some]
        obtain ⟨s', out, h1, h2, h3, h4⟩ := ih (some (.complete time last)) (fun b hb => hc b (by simp [hb])) hpw2
          (Or.inr ⟨_, _, rfl, fun p hp => hrec p (by rw [List.flatMap_cons]; exact List.mem_append_right _ hp)⟩)
        rw [h1]
        refine ⟨s', _, rfl, ?_, by simpa using h3, ?_⟩
        · intro time' last' hsl t ht
          exact h2 time' last' hsl t (by simpa using ht)
        · intro t ht
          obtain ⟨b, hb, h⟩ := h4 t (by simpa using ht)
          exact ⟨b, by simp [hb], h⟩

/-- **C36** (partial: only for transfers that arrive as a whole). If the datagrams of a session are those of whole transfers, in any order
of the transfers and with any repetitions, all within the timeout, then the transfer IDs returned increase strictly: nothing is returned
twice. -/
theorem C36_no_duplicates_partial {mtu mtu' : Nat} (hm : 28 ≤ mtu) (hmtu : mtu ≤ mtu') {key : Key} {r r' : Receiver} {sub : Subscription}
    {ps : List Packet} {out : List UdpTransfer} (hsub : r.subscriptions.find key.kind key.port = some sub)
    (hnew : sub.sessions key.source = none) {as : List Arrival} (hwhole : packetsIn mtu' key ps = as.flatMap (·.packets))
    (hc : ∀ a ∈ as, a.Complete mtu mtu' key) (hrec : (packetsIn mtu' key ps).Pairwise (fun p q => Recent sub.timeout p.now q.now))
    (hrun : r.run mtu' ps = some (r', out)) :
    (transfersOf key out).Pairwise (fun a b => a.header.transferId < b.header.transferId) ∧
    ∀ t ∈ transfersOf key out, ∃ a ∈ as, ∃ p ∈ a.packets, t = asReceived a.transfer p.now sub.payloadSizeMax := by
  obtain ⟨sub', g1, g2, g3, g4⟩ := run_session hrun hsub
  rw [framesOf_eq, hwhole, hnew] at g4
  rw [hwhole] at hrec
  obtain ⟨s', out', h1, _, h3, h4⟩ := run_arrivals (n := sub.payloadSizeMax) hm hmtu as none hc hrec (Or.inl rfl)
  rw [h1] at g4
  have := (Prod.mk.inj (Option.some.inj g4)).2
  rw [← this]
  exact ⟨h3, h4⟩

/-- Transfers 5, 6, 5, 6, 7 arrive: 5, 6 and 7 are returned. -/
def demoHistory : List Arrival :=
  [(5, 10, 500#32), (6, 3, 510#32), (5, 10, 520#32), (6, 3, 530#32), (7, 10, 540#32)].map (fun e =>
    { transfer := demoTid e.1 e.2.1, chunks := demoChunks 32 e.2.1, packets := demoPackets 32 e.1 e.2.1 e.2.2 })

theorem demoHistory_complete : ∀ a ∈ demoHistory, a.Complete 32 1500 demoKey := by
  intro a ha
  simp only [demoHistory, List.map_cons, List.map_nil, List.mem_cons, List.not_mem_nil, or_false] at ha
  have h10 := demo_pieces 32 10 (by decide +kernel)
  have h3 := demo_pieces 32 3 (by decide +kernel)
  rcases ha with rfl | rfl | rfl | rfl | rfl
  · exact ⟨rfl, ⟨h10.whole, h10.nonempty, h10.fits, h10.full⟩, by decide +kernel, by unfold TailFits; decide +kernel, by decide +kernel, by decide +kernel⟩
  · exact ⟨rfl, ⟨h3.whole, h3.nonempty, h3.fits, h3.full⟩, by decide +kernel, by unfold TailFits; decide +kernel, by decide +kernel, by decide +kernel⟩
  · exact ⟨rfl, ⟨h10.whole, h10.nonempty, h10.fits, h10.full⟩, by decide +kernel, by unfold TailFits; decide +kernel, by decide +kernel, by decide +kernel⟩
  · exact ⟨rfl, ⟨h3.whole, h3.nonempty, h3.fits, h3.full⟩, by decide +kernel, by unfold TailFits; decide +kernel, by decide +kernel, by decide +kernel⟩
  · exact ⟨rfl, ⟨h10.whole, h10.nonempty, h10.fits, h10.full⟩, by decide +kernel, by unfold TailFits; decide +kernel, by decide +kernel, by decide +kernel⟩

example {r' : Receiver} {out : List UdpTransfer} (hrun : demoReceiver.run 1500 (demoHistory.flatMap (·.packets)) = some (r', out)) :
    (transfersOf demoKey out).Pairwise (fun a b => a.header.transferId < b.header.transferId) := by
  have hown : packetsIn 1500 demoKey (demoHistory.flatMap (·.packets)) = demoHistory.flatMap (·.packets) := by decide +kernel
  refine (C36_no_duplicates_partial (mtu := 32) (by decide) (by decide) (key := demoKey) (r := demoReceiver) (sub := Subscription.new 9 2000000#32) rfl rfl
    hown demoHistory_complete ?_ hrun).1
  rw [hown]
  refine List.Pairwise.imp (R := fun (p q : Packet) => recentTest 2000000#32 p.now q.now = true) recent_of_test ?_
  decide +kernel

example : (demoReceiver.run 1500 (demoHistory.flatMap (·.packets))).map (fun p => p.2.map (·.header.transferId)) = some [5#64, 6#64, 7#64] := by
  decide +kernel

/-- **C36**, the negation: a transfer of one datagram is returned twice, 10 microseconds apart, because the session was waiting for
the second datagram of an older transfer. -/
theorem C36_duplicate_counterexample :
    (demoReceiver.run 1500 ((demoPackets 32 5 10 500#32).take 1 ++ demoPackets 32 6 3 510#32 ++ demoPackets 32 6 3 520#32)).map
      (fun p => p.2.map (fun t => (t.header.transferId, t.payload))) = some [(6#64, [0#8, 1#8, 2#8]), (6#64, [0#8, 1#8, 2#8])] := by
  decide +kernel

/-! ### Integrity -/

/-- **C38** (partial: the first frame of the run need not have index 0, see `C38_counterexample`). When an event makes the receiver
return a transfer, the event is the arrival of a datagram. Its frame is the last of a run of frames: the latest frames of this session,
with one transfer ID and priority and with consecutive indices. It is flagged as the last frame; if the run begins with index 0, it
is the only one that is flagged. What the frames carry ends with the right CRC of what is before it. The payload of the
transfer is this data, cut to the extent of the subscription. -/
theorem C38_integrity_partial {mtu : Nat} {id : Option NodeId16} {ops : List Op} {op : Op} {w w' : World} {out ts : List UdpTransfer} {t : UdpTransfer}
    (h : (World.new id).exec mtu ops = some (w, out)) (hstep : w.step mtu op = some (w', ts)) (ht : t ∈ ts) :
    ∃ p f sub run start body time, op = .packet p ∧ p.frame mtu = some f ∧
      w.receiver.subscriptions.find t.header.kind t.header.port = some sub ∧
      (run ++ [f]) <:+ ((packetsOf (ops ++ [op])).filterMap (Packet.frame mtu)).filter (fun g => g.key? = keyOf? t.header) ∧
      Consecutive start t.header.transferId t.header.priority (run ++ [f]) ∧
      f.header.lastFrame = true ∧ (start = 0 → ∀ g ∈ run, g.header.lastFrame = false) ∧
      (run ++ [f]).flatMap (·.bytes) = body ++ le32 (crc32c body) ∧
      t = convertResult (body.take sub.payloadSizeMax) f.header time := by
  cases op with
  | subscribeMessage fails subject extent timeout => cases hstep; cases ht
  | unsubscribeMessage fails subject => cases hstep; cases ht
  | subscribeRequest fails service extent timeout => cases hstep; cases ht
  | unsubscribeRequest fails service => cases hstep; cases ht
  | subscribeResponse fails service extent timeout => cases hstep; cases ht
  | unsubscribeResponse fails service => cases hstep; cases ht
  | setId id => cases hstep; cases ht
  | packet p =>
    simp only [World.step] at hstep
    rw [acceptInner_eq] at hstep
    cases hp : p.frame mtu with
    | none => rw [hp] at hstep; cases hstep; cases ht
    | some f =>
      rw [hp] at hstep
      dsimp only at hstep
      cases ha : w.receiver.acceptFrame f with
      | none => rw [ha] at hstep; cases hstep
      | some q =>
        obtain ⟨r', o⟩ := q
        rw [ha] at hstep
        cases hstep
        have key : ∃ sub, w.receiver.subscriptions.find (specifierKind f.header.dataSpecifier) (specifierPort f.header.dataSpecifier) = some sub ∧
            Assembled sub.payloadSizeMax (((packetsOf (ops ++ [.packet p])).filterMap (Packet.frame mtu)).filter (fun g => g.key? = f.key?)) f t := by
          have hsnoc : ((packetsOf (ops ++ [.packet p])).filterMap (Packet.frame mtu)).filter (fun g => g.key? = f.key?) =
              ((packetsOf ops).filterMap (Packet.frame mtu)).filter (fun g => g.key? = f.key?) ++ [f] := by
            rw [packetsOf_append]
            simp [packetsOf, hp]
          rw [hsnoc]
          cases acceptFrame_step ha with
          | unsubscribed hu => cases ht
          | anonymous sub r' hu hk hid hlen hfind =>
            exact ⟨sub, hu, (accept_gathers (frame_length hp) (frame_index hp) (Or.inl rfl) rfl).2 t (anonymous_transfers ht)⟩
          | session key sub s o r' hk hu hs hid hlen hfind =>
            have hkp := key_port hk
            refine ⟨sub, by rw [← hkp.1, ← hkp.2]; exact hu, ?_⟩
            rw [hk]
            exact (step_gathers (exec_gathers ops h key sub hu) (frame_length hp) (frame_index hp) hs).2 t ht
        obtain ⟨sub, hsub, run, start, body, time, h1, h2, h3, h4, h5, h6⟩ := key
        have hf := convert_fields (body.take sub.payloadSizeMax) f.header time
        rw [← h6] at hf
        have hk := convert_key (body.take sub.payloadSizeMax) f time
        rw [← h6] at hk
        refine ⟨p, f, sub, run, start, body, time, rfl, hp, by rw [hf.1, hf.2.1]; exact hsub, by rw [hk]; exact h1,
          by rw [hf.2.2.1, hf.2.2.2]; exact h2, h4, ?_, h5, h6⟩
        intro h0 g hg
        obtain ⟨i, hi⟩ := List.getElem?_of_mem hg
        exact h3 i g hi (Or.inr h0)

/-- A history that gives a transfer of two datagrams. -/
def demoOps : List Op := [.subscribeMessage false 7509#13 9 2000000#32, .packet ((demoPackets 32 77 10 500#32).head (by decide +kernel))]

example : ((World.new none).exec 1500 demoOps).isSome = true ∧
    ((World.new none).exec 1500 (demoOps ++ [.packet ((demoPackets 32 77 10 500#32).getLast (by decide +kernel))])).map (fun q => q.2.map (·.payload)) =
      some [[0#8, 1#8, 2#8, 3#8, 4#8, 5#8, 6#8, 7#8, 8#8]] := by decide +kernel

/-- A datagram with any header fields. -/
def rawPacket (tid : Tid64) (index : BitVec 32) (last : Bool) (bytes : List Byte) : Packet :=
  { data := Verif.Hdr.encode { frameHeader (demo 0).header 0 last with transferId := tid, frameIndex := index } ++ bytes
    now := 500#32, oomSession := false, oom := false }

/-- **C38**, the negation: a transfer is returned although the datagrams with index 0 and 1 have never arrived, and its payload is what
the sender has put into datagrams 2 and 3. -/
theorem C38_counterexample :
    (demoReceiver.run 1500 [rawPacket 8#64 2#32 false [1#8, 2#8, 3#8, 4#8],
      rawPacket 8#64 3#32 true ([5#8, 6#8] ++ le32 (crc32c [1#8, 2#8, 3#8, 4#8, 5#8, 6#8]))]).map (fun p => p.2.map (·.payload)) =
    some [[1#8, 2#8, 3#8, 4#8, 5#8, 6#8]] := by decide +kernel

/-! ### Panics -/

/-- The instants lie within half of the range of the clock after `base`, in this order. -/
def InOrder (base : Instant) (times : List Instant) : Prop :=
  times.Pairwise (fun a b => (a - base).toNat ≤ (b - base).toNat) ∧ ∀ t ∈ times, (t - base).toNat < 2 ^ 31

/-- **C37** (partial: see `C37_counterexample`). While the datagrams arrive within half of the range of the clock (about 35 minutes) and
the clock does not go backwards, no history makes the receiver panic, whatever the datagrams contain. -/
theorem C37_no_panic_partial {mtu : Nat} (id : Option NodeId16) (base : Instant) (ops : List Op)
    (h : InOrder base ((packetsOf ops).map (·.now))) : (World.new id).exec mtu ops ≠ none := by
  induction ops using snoc_induction with
  | nil => intro h; cases h
  | snoc ops op ih =>
    rw [packetsOf_append, List.map_append] at h
    have hpre : InOrder base ((packetsOf ops).map (·.now)) :=
      ⟨(List.pairwise_append.mp h.1).1, fun t ht => h.2 t (List.mem_append_left _ ht)⟩
    intro hn
    rw [exec_append] at hn
    cases he : (World.new id).exec mtu ops with
    | none => exact ih hpre he
    | some q =>
      obtain ⟨w, out⟩ := q
      rw [he] at hn
      simp only [Option.bind_some, World.exec] at hn
      cases hst : w.step mtu op with
      | some q => rw [hst] at hn; simp at hn
      | none =>
        cases op with
        | subscribeMessage fails subject extent timeout => cases hst
        | unsubscribeMessage fails subject => cases hst
        | subscribeRequest fails service extent timeout => cases hst
        | unsubscribeRequest fails service => cases hst
        | subscribeResponse fails service extent timeout => cases hst
        | unsubscribeResponse fails service => cases hst
        | setId id => cases hst
        | packet p =>
          simp only [World.step] at hst
          rw [acceptInner_eq] at hst
          cases hp : p.frame mtu with
          | none => rw [hp] at hst; cases hst
          | some f =>
            rw [hp] at hst
            dsimp only at hst
            cases ha : w.receiver.acceptFrame f with
            | some q => rw [ha] at hst; cases hst
            | none =>
              obtain ⟨key, sub, hk, hf, hs⟩ := acceptFrame_none ha
              obtain ⟨t, i, h1, h2⟩ := step_panics hs
              have hmem : t ∈ (packetsOf ops).map (·.now) := exec_times ops he key sub hf _ h1
              have hle := (List.pairwise_append.mp h.1).2.2 t hmem f.now (by simp [packetsOf, (frame_now hp).1])
              have hb := h.2 f.now (List.mem_append_right _ (by simp [packetsOf, (frame_now hp).1]))
              unfold Instant.before at h2
              simp only [decide_eq_true_eq] at h2
              have heq : f.now - t = (f.now - base) - (t - base) := by
                apply BitVec.eq_of_toNat_eq
                simp only [BitVec.toNat_sub]
                omega
              rw [heq, BitVec.toNat_sub] at h2
              have := (f.now - base).isLt
              have := (t - base).isLt
              omega


example : InOrder 450#32 ((packetsOf (demoOps ++ [.packet (rawPacket 8#64 3#32 true [1#8]), .setId none])).map (·.now)) := by
  have h : (packetsOf (demoOps ++ [.packet (rawPacket 8#64 3#32 true [1#8]), .setId none])).map (·.now) = [500#32, 500#32] := by decide +kernel
  rw [h]
  refine ⟨by decide, ?_⟩
  intro t ht
  simp only [List.mem_cons, List.not_mem_nil, or_false, or_self] at ht
  subst ht
  decide

/-- **C37**, the negation: two transfers of one session with more than 2^31 microseconds between them. -/
theorem C37_counterexample : (World.new none).exec 1500 ([.subscribeMessage false 7509#13 9 2000000#32] ++
    (demoPackets 32 77 3 500#32).map Op.packet ++ (demoPackets 32 78 3 2147484200#32).map Op.packet) = none := by
  have h : (((World.new none).exec 1500 ([.subscribeMessage false 7509#13 9 2000000#32] ++
    (demoPackets 32 77 3 500#32).map Op.packet ++ (demoPackets 32 78 3 2147484200#32).map Op.packet)).isNone) = true := by decide +kernel
  simpa using h

end Verif.Udp
