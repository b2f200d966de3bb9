import Verif.Udp.StreamLemmas
import Verif.Udp.RxProps

/-!
C114: a stream of transfers over UDP, of whose datagrams any may be lost.
-/

namespace Verif.Udp

open Verif.Hdr (NodeId16 Tid64 TransportHeader)

theorem sound_frames {mtu mtu' : Nat} (hm : 28 ≤ mtu) (hmtu : mtu ≤ mtu') {key : Key} {it : Shipment} (hs : it.Sound mtu key) :
    (∀ c ∈ it.chunks, 4 ≤ c.length ∧ 24 + c.length ≤ mtu') ∧ it.chunks ≠ [] ∧
    Some' it.transfer.header it.chunks.length 0 it.chunks (it.arrived.filterMap (Packet.frame mtu')) ∧ (it.arrived.filterMap (Packet.frame mtu')).length = it.arrived.length := by
  have hge := pieces_ge hs.pieces hm hs.fits
  have hge' : ∀ c ∈ it.chunks, 4 ≤ c.length ∧ 24 + c.length ≤ mtu' := fun c hc => ⟨(hge c hc).1, by have := (hge c hc).2; omega⟩
  have hne : it.chunks ≠ [] := by
    intro h
    have := hs.pieces.whole
    rw [h] at this
    simp [Verif.Crc.le32] at this
  have := some_of (mtu := mtu') (h := it.transfer.header) (N := it.chunks.length) it.chunks (i := 0) (ps := it.arrived) (by simpa [datagrams] using hs.arrived) hge' (by have := hs.count; omega) hs.memory
  exact ⟨hge', hne, this.1, this.2⟩

theorem whole_iff {key : Key} {mtu : Nat} {it : Shipment} (hs : it.Sound mtu key) : it.whole = true ↔ it.arrived.length = it.chunks.length := by
  unfold Shipment.whole
  rw [beq_iff_eq]
  have hl : (datagrams it.transfer.header it.chunks).length = it.chunks.length := by simp [datagrams]
  constructor
  · intro h
    have := congrArg List.length h
    rw [List.length_map, hl] at this
    exact this
  · intro h
    exact hs.arrived.eq_of_length (by rw [List.length_map, hl, h])

/-- A transfer of which nothing is lost, at a session without an incomplete transfer, or a transfer of one datagram. -/
theorem run_good {n mtu mtu' : Nat} {timeout : Duration} (hm : 28 ≤ mtu) (hmtu : mtu ≤ mtu') {key : Key} {it : Shipment} (hit : it.Sound mtu key) {s s' : Option Session}
    {out : List UdpTransfer} (hs : Older it.transfer.header.transferId s) (hrun : runSession n timeout s (it.arrived.filterMap (Packet.frame mtu')) = some (s', out)) (hw : it.whole = true)
    (hgood : Idle s ∨ it.chunks.length = 1) :
    ∃ time last, (s', out) = (some (.complete time last), [{ header := it.transfer.header.setTimestamp time, loopback := false, payload := it.transfer.payload.take n }]) ∧
      last ≤ it.transfer.header.transferId := by
  obtain ⟨hlen, hne, hsome, hcount⟩ := sound_frames hm hmtu hit
  have hpos : 0 < it.chunks.length := List.length_pos_iff.2 hne
  have hlen4 : ∀ c ∈ it.chunks, 4 ≤ c.length := fun c hc => (hlen c hc).1
  have hempty : it.arrived ≠ [] := by
    intro he
    have h1 := (whole_iff hit).1 hw
    rw [he] at h1
    simp at h1
    omega
  have hwhole := (whole_of (mtu := mtu') hne (beq_iff_eq.1 hw) hlen hit.count hit.memory).1
  by_cases hone : it.chunks.length = 1
  · obtain ⟨c, hc⟩ := List.length_eq_one_iff.1 hone
    obtain ⟨fs', g, last, h1, h2, h3, h4⟩ := hwhole
    rw [hc] at h2 h3 h4
    simp only [List.dropLast_singleton, List.nil_append, List.cons.injEq, and_true] at h2 h3
    cases fs' with
    | cons x xs => cases h3
    | nil =>
      have hbody := hit.pieces.whole
      rw [hc] at hbody
      simp only [List.flatten_cons, List.flatten_nil, List.append_nil] at hbody
      rw [← h2, hbody] at h4
      rw [h1] at hrun
      simp only [List.nil_append, runSession] at hrun
      cases hstep : g.step n timeout s with
      | none => rw [hstep] at hrun; cases hrun
      | some p =>
        obtain ⟨time, last, rfl, hle⟩ := step_only hs h4 hstep
        rw [hstep] at hrun
        simp only [Option.bind_some, Option.map_some, Output.transfers, List.append_nil] at hrun
        exact ⟨time, last, (Option.some.inj hrun).symm, hle⟩
  · have hidle : Idle s := hgood.resolve_right hone
    cases hfs : it.arrived.filterMap (Packet.frame mtu') with
    | nil =>
      rw [hfs] at hcount
      exact (hempty (List.length_eq_zero_iff.1 hcount.symm)).elim
    | cons f fs =>
      rw [hfs] at hrun hwhole
      have htid : f.header.transferId = it.transfer.header.transferId := whole_tids hwhole f List.mem_cons_self
      have hr : Ready timeout it.transfer.header.transferId f.now s := by
        have h' := hrun
        simp only [runSession] at h'
        cases hstep : f.step n timeout s with
        | none => rw [hstep] at h'; cases h'
        | some p => rw [← htid]; exact ready_of_step (by rw [htid]; exact hs) hidle hstep
      rw [run_whole hr hwhole hlen4 (by have := hit.count; omega) hit.pieces.whole] at hrun
      exact ⟨_, _, (Option.some.inj hrun).symm, BitVec.le_refl _⟩

/-- What one transfer does to its session. -/
theorem run_item {n mtu mtu' : Nat} {timeout : Duration} (hm : 28 ≤ mtu) (hmtu : mtu ≤ mtu') {key : Key} {it : Shipment} (hit : it.Sound mtu key) (hno : it.NoCollision) {s s' : Option Session}
    {out : List UdpTransfer} (hs : Older it.transfer.header.transferId s) (hrun : runSession n timeout s (it.arrived.filterMap (Packet.frame mtu')) = some (s', out)) :
    (∀ t, it.transfer.header.transferId < t → Older t s') ∧
    (it.arrived = [] → out = [] ∧ s' = s) ∧
    (it.whole = true → (Idle s ∨ it.chunks.length = 1) → Idle s' ∧ ∃ o, out = [o] ∧ IsReceived it.transfer n o) ∧
    (it.whole = true → it.chunks.length ≠ 1 → ¬ Idle s → out = [] ∧ (it.chunks.length ≠ 2 → Idle s')) ∧
    (it.arrived ≠ [] → it.whole = false → out = []) := by
  obtain ⟨hlen, hne, hsome, hcount⟩ := sound_frames hm hmtu hit
  have hpos : 0 < it.chunks.length := List.length_pos_iff.2 hne
  have hlen4 : ∀ c ∈ it.chunks, 4 ≤ c.length := fun c hc => (hlen c hc).1
  by_cases hempty : it.arrived = []
  · rw [hempty] at hrun
    cases hrun
    have hnw : it.whole ≠ true := by
      intro hw
      have h1 := (whole_iff hit).1 hw
      have h2 : it.arrived.length = 0 := by rw [hempty]; rfl
      omega
    exact ⟨fun t ht => older_mono ht hs, fun _ => ⟨rfl, rfl⟩, fun h => (hnw h).elim, fun h => (hnw h).elim, fun h => (h hempty).elim⟩
  · by_cases hw : it.whole = true
    · have hwhole := (whole_of (mtu := mtu') hne (beq_iff_eq.1 hw) hlen hit.count hit.memory).1
      by_cases hgood : Idle s ∨ it.chunks.length = 1
      · obtain ⟨time, last, he, hle⟩ := run_good hm hmtu hit hs hrun hw hgood
        cases he
        refine ⟨fun t ht => ?_, fun h => (hempty h).elim, fun _ _ => ⟨trivial, _, rfl, time, rfl⟩, fun _ h1 h2 => ?_, fun _ h => by rw [hw] at h; cases h⟩
        · show last < t
          rw [BitVec.lt_def] at ht ⊢
          rw [BitVec.le_def] at hle
          omega
        · rcases hgood with h | h
          · exact (h2 h).elim
          · exact (h1 h).elim
      · rw [not_or] at hgood
        obtain ⟨i1, i2⟩ := run_lost hlen4 hit.count (by omega) hno hsome hs (Or.inr hgood.1) hrun
        refine ⟨i2, fun h => (hempty h).elim, fun _ h => (not_or.2 hgood h).elim, fun _ _ _ => ⟨i1, fun htwo => ?_⟩, fun _ h => by rw [hw] at h; cases h⟩
        match s, hs, hgood.1 with
        | some (.active a), hs, _ =>
          rw [run_clears hlen4 hit.count (by omega) hno hwhole hs] at hrun
          cases hrun
          trivial
        | none, _, h => exact (h trivial).elim
        | some (.complete _ _), _, h => exact (h trivial).elim
    · have hlt : it.arrived.length < it.chunks.length := by
        have h1 := some_all hsome
        rw [hcount] at h1
        have h2 : it.arrived.length ≠ it.chunks.length := fun h => hw ((whole_iff hit).2 h)
        omega
      have hone : 0 < it.arrived.length := List.length_pos_iff.2 hempty
      obtain ⟨i1, i2⟩ := run_lost hlen4 hit.count (by omega) hno hsome hs (Or.inl (by rw [hcount]; exact hlt)) hrun
      exact ⟨i2, fun h => (hempty h).elim, fun h => (hw h).elim, fun h => (hw h).elim, fun _ _ => i1⟩

theorem certain_mono : ∀ (flag : Bool) (items : List Shipment), (certain flag items).Sublist (certain true items)
  | _, [] => List.Sublist.refl _
  | flag, it :: items => by
    unfold certain
    split
    · exact certain_mono flag items
    · split
      · rw [if_pos (c := (true || it.chunks.length == 1) = true) (by simp)]
        split
        · exact List.Sublist.refl _
        · exact (certain_mono _ items).cons it
      · exact List.Sublist.refl _

/-- What a stream does to its session. -/
theorem run_items {n mtu mtu' : Nat} {timeout : Duration} (hm : 28 ≤ mtu) (hmtu : mtu ≤ mtu') {key : Key} : ∀ {items : List Shipment} {s s' : Option Session} {out : List UdpTransfer} (inStep : Bool),
    (∀ it ∈ items, it.Sound mtu key) → (∀ it ∈ items, it.NoCollision) → Increasing items → (∀ it ∈ items, Older it.transfer.header.transferId s) → (inStep = true → Idle s) →
    runSession n timeout s ((items.flatMap (·.arrived)).filterMap (Packet.frame mtu')) = some (s', out) →
    ∃ returned, (certain inStep items).Sublist returned ∧ returned.Sublist (items.filter (·.whole)) ∧ List.Forall₂ (fun it o => IsReceived it.transfer n o) returned out
  | [], s, s', out, _, _, _, _, _, _, hrun => by
    cases hrun
    exact ⟨[], List.Sublist.refl _, List.Sublist.refl _, .nil⟩
  | it :: items, s, s', out, inStep, hsound, hno, hinc, hold, hstep, hrun => by
    rw [List.flatMap_cons, List.filterMap_append, runSession_append] at hrun
    cases h1 : runSession n timeout s (it.arrived.filterMap (Packet.frame mtu')) with
    | none => rw [h1] at hrun; cases hrun
    | some p =>
      obtain ⟨s1, out1⟩ := p
      rw [h1] at hrun
      simp only [Option.bind_some] at hrun
      obtain ⟨q, hq, he⟩ := Option.map_eq_some_iff.1 hrun
      cases he
      have hit := hsound it List.mem_cons_self
      have hinc' := List.pairwise_cons.1 hinc
      obtain ⟨k1, k2, k3, k4, k5⟩ := run_item hm hmtu hit (hno it List.mem_cons_self) (hold it List.mem_cons_self) h1
      have ih := fun flag hflag => run_items hm hmtu (items := items) (s := s1) (s' := q.1) (out := q.2) flag (fun x hx => hsound x (List.mem_cons_of_mem _ hx))
        (fun x hx => hno x (List.mem_cons_of_mem _ hx)) hinc'.2 (fun x hx => k1 _ (hinc'.1 x hx)) hflag hq
      have hwe : it.whole = true → it.arrived ≠ [] := by
        intro hw he
        rw [whole_iff hit, he] at hw
        obtain ⟨-, hne, -⟩ := sound_frames hm (Nat.le_refl _) hit
        exact hne (List.length_eq_zero_iff.1 hw.symm)
      unfold certain
      by_cases hempty : it.arrived = []
      · obtain ⟨e1, rfl⟩ := k2 hempty
        obtain ⟨returned, r1, r2, r3⟩ := ih inStep hstep
        rw [if_pos hempty, e1]
        have hw : it.whole = false := by
          cases hw : it.whole with
          | false => rfl
          | true => exact (hwe hw hempty).elim
        exact ⟨returned, r1, by rw [List.filter_cons, if_neg (by simp [hw])]; exact r2, r3⟩
      · rw [if_neg hempty]
        cases hw : it.whole with
        | false =>
          rw [k5 hempty hw]
          obtain ⟨returned, r1, r2, r3⟩ := ih false (by simp)
          exact ⟨returned, r1, by rw [List.filter_cons, if_neg (by simp [hw])]; exact r2, r3⟩
        | true =>
          rw [if_pos rfl, List.filter_cons, if_pos hw]
          by_cases hgood : Idle s ∨ it.chunks.length = 1
          · obtain ⟨hidle, o, e1, e2⟩ := k3 hw hgood
            rw [e1]
            obtain ⟨returned, r1, r2, r3⟩ := ih true (fun _ => hidle)
            refine ⟨it :: returned, ?_, r2.cons_cons it, .cons e2 r3⟩
            split
            · exact r1.cons_cons it
            · exact (((certain_mono _ items).trans r1).cons it)
          · have hgood' := not_or.1 hgood
            have hflag : inStep = false := by
              cases inStep with
              | false => rfl
              | true => exact (hgood'.1 (hstep rfl)).elim
            obtain ⟨e1, e2⟩ := k4 hw hgood'.2 hgood'.1
            rw [e1, hflag, if_neg (by simp [hgood'.2])]
            obtain ⟨returned, r1, r2, r3⟩ := ih (it.chunks.length != 2) (fun h => e2 (by simpa using h))
            exact ⟨returned, r1, r2.cons it, r3⟩

/-- What a session must be like at the beginning: nothing is incomplete, and only older transfers were returned. -/
def Begins (items : List Shipment) (s : Option Session) : Prop :=
  s = none ∨ ∃ time last, s = some (.complete time last) ∧ ∀ it ∈ items, last < it.transfer.header.transferId

theorem begins_older {items : List Shipment} {s : Option Session} (h : Begins items s) : (∀ it ∈ items, Older it.transfer.header.transferId s) ∧ Idle s := by
  rcases h with rfl | ⟨time, last, rfl, h⟩
  · exact ⟨fun _ _ => trivial, trivial⟩
  · exact ⟨fun it hit => h it hit, trivial⟩

/-- **C114 (partial).** A node sends transfers with increasing IDs, and any datagrams are lost. Among anything else that arrives, the receiver returns only transfers of which nothing was lost, each once, in order
and with the right payload (cut to the extent); and it certainly returns those in `certain`.

Missing from the full claim: all transfers of which nothing was lost are returned. See the counterexample below. -/
theorem C114_stream_partial {mtu mtu' : Nat} (hm : 28 ≤ mtu) (hmtu : mtu ≤ mtu') {key : Key} {r r' : Receiver} {sub : Subscription} {ps : List Packet} {out : List UdpTransfer}
    (hsub : r.subscriptions.find key.kind key.port = some sub) {items : List Shipment} (hbegin : Begins items (sub.sessions key.source))
    (hitems : packetsIn mtu' key ps = items.flatMap (·.arrived)) (hsound : ∀ it ∈ items, it.Sound mtu key) (hno : ∀ it ∈ items, it.NoCollision) (hinc : Increasing items)
    (hrun : r.run mtu' ps = some (r', out)) :
    ∃ returned, (certain true items).Sublist returned ∧ returned.Sublist (items.filter (·.whole)) ∧
      List.Forall₂ (fun it o => IsReceived it.transfer sub.payloadSizeMax o) returned (transfersOf key out) := by
  obtain ⟨sub', g1, g2, g3, g4⟩ := run_session hrun hsub
  rw [framesOf_eq, hitems] at g4
  obtain ⟨h1, h2⟩ := begins_older hbegin
  exact run_items hm hmtu true hsound hno hinc h1 (fun _ => h2) g4

/-- While each transfer arrives as a whole or not at all, those that arrive are certain. -/
theorem certain_of_whole : ∀ {items : List Shipment}, (∀ it ∈ items, it.arrived = [] ∨ it.whole = true) → (∀ it ∈ items, it.whole = true → it.arrived ≠ []) → certain true items = items.filter (·.whole)
  | [], _, _ => rfl
  | it :: items, h, hne => by
    have ih := certain_of_whole (fun x hx => h x (List.mem_cons_of_mem _ hx)) (fun x hx => hne x (List.mem_cons_of_mem _ hx))
    unfold certain
    rw [List.filter_cons]
    rcases h it List.mem_cons_self with he | hw
    · rw [if_pos he, if_neg (fun hw => hne it List.mem_cons_self hw he), ih]
    · rw [if_neg (hne it List.mem_cons_self hw), if_pos hw, if_pos hw, if_pos (by simp), ih]

theorem run_wholes {n mtu mtu' : Nat} {timeout : Duration} (hm : 28 ≤ mtu) (hmtu : mtu ≤ mtu') {key : Key} : ∀ {items : List Shipment} {s s' : Option Session} {out : List UdpTransfer},
    (∀ it ∈ items, it.Sound mtu key) → (∀ it ∈ items, it.arrived = [] ∨ it.whole = true) → Increasing items → (∀ it ∈ items, Older it.transfer.header.transferId s) → Idle s →
    runSession n timeout s ((items.flatMap (·.arrived)).filterMap (Packet.frame mtu')) = some (s', out) →
    List.Forall₂ (fun it o => IsReceived it.transfer n o) (items.filter (·.whole)) out
  | [], s, s', out, _, _, _, _, _, hrun => by cases hrun; exact .nil
  | it :: items, s, s', out, hsound, hall, hinc, hold, hidle, hrun => by
    rw [List.flatMap_cons, List.filterMap_append, runSession_append] at hrun
    have hinc' := List.pairwise_cons.1 hinc
    have hit := hsound it List.mem_cons_self
    cases hw : it.whole with
    | false =>
      have he : it.arrived = [] := (hall it List.mem_cons_self).resolve_right (by simp [hw])
      rw [he] at hrun
      simp only [List.filterMap_nil, runSession, Option.bind_some, List.nil_append] at hrun
      rw [List.filter_cons, if_neg (by simp [hw])]
      obtain ⟨q, hq, he⟩ := Option.map_eq_some_iff.1 hrun
      cases he
      exact run_wholes hm hmtu (fun x hx => hsound x (List.mem_cons_of_mem _ hx)) (fun x hx => hall x (List.mem_cons_of_mem _ hx)) hinc'.2 (fun x hx => hold x (List.mem_cons_of_mem _ hx)) hidle hq
    | true =>
      cases h1 : runSession n timeout s (it.arrived.filterMap (Packet.frame mtu')) with
      | none => rw [h1] at hrun; cases hrun
      | some p =>
        obtain ⟨time, last, he, hle⟩ := run_good hm hmtu hit (hold it List.mem_cons_self) (s' := p.1) (out := p.2) h1 hw (Or.inl hidle)
        rw [h1, show p = (p.1, p.2) from rfl, he] at hrun
        simp only [Option.bind_some] at hrun
        obtain ⟨q, hq, he⟩ := Option.map_eq_some_iff.1 hrun
        cases he
        rw [List.filter_cons, if_pos hw]
        refine .cons ⟨time, rfl⟩ (run_wholes hm hmtu (fun x hx => hsound x (List.mem_cons_of_mem _ hx)) (fun x hx => hall x (List.mem_cons_of_mem _ hx)) hinc'.2 (fun x hx => ?_) (show Idle (some (.complete time last)) from trivial) hq)
        have := hinc'.1 x hx
        show last < _
        rw [BitVec.lt_def] at this ⊢
        rw [BitVec.le_def] at hle
        omega

/-- **C114 (partial).** If each transfer arrives as a whole or not at all, as it is the case if they all fit into one datagram, the receiver returns exactly those that arrive. -/
theorem C114_whole_partial {mtu mtu' : Nat} (hm : 28 ≤ mtu) (hmtu : mtu ≤ mtu') {key : Key} {r r' : Receiver} {sub : Subscription} {ps : List Packet} {out : List UdpTransfer}
    (hsub : r.subscriptions.find key.kind key.port = some sub) {items : List Shipment} (hbegin : Begins items (sub.sessions key.source))
    (hitems : packetsIn mtu' key ps = items.flatMap (·.arrived)) (hsound : ∀ it ∈ items, it.Sound mtu key) (hall : ∀ it ∈ items, it.arrived = [] ∨ it.whole = true) (hinc : Increasing items)
    (hrun : r.run mtu' ps = some (r', out)) :
    List.Forall₂ (fun it o => IsReceived it.transfer sub.payloadSizeMax o) (items.filter (·.whole)) (transfersOf key out) := by
  obtain ⟨sub', g1, g2, g3, g4⟩ := run_session hrun hsub
  rw [framesOf_eq, hitems] at g4
  obtain ⟨h1, h2⟩ := begins_older hbegin
  exact run_wholes hm hmtu hsound hall hinc h1 h2 g4

/-- A transfer of two datagrams that comes to a session with an incomplete transfer is lost, and leaves an incomplete transfer. -/
theorem run_two {n mtu mtu' : Nat} {timeout : Duration} (hm : 28 ≤ mtu) (hmtu : mtu ≤ mtu') {key : Key} {it : Shipment} (hit : it.Sound mtu key) (htwo : it.chunks.length = 2) (hw : it.whole = true)
    {s s' : Option Session} {out : List UdpTransfer} (hs : Older it.transfer.header.transferId s) (hidle : ¬ Idle s)
    (hrun : runSession n timeout s (it.arrived.filterMap (Packet.frame mtu')) = some (s', out)) : out = [] ∧ ¬ Idle s' ∧ ∀ t, it.transfer.header.transferId < t → Older t s' := by
  obtain ⟨hlen, hne, hsome, hcount⟩ := sound_frames hm hmtu hit
  have h2 := (whole_iff hit).1 hw
  obtain ⟨c0, c1, hch⟩ := List.length_eq_two.1 htwo
  rw [h2, htwo] at hcount
  rw [hch] at hsome hlen
  generalize it.arrived.filterMap (Packet.frame mtu') = fs at *
  match s, hs, hidle with
  | some (.active a), hs, _ =>
    cases hsome with
    | lost hsome => have := some_all hsome; simp at this; omega
    | here h0 hsome =>
      cases hsome with
      | lost hsome => cases hsome; simp at hcount
      | here h1 hsome =>
        cases hsome
        have e0 := step_displaces (n := n) (timeout := timeout) hs h0 (hlen c0 (by simp)).1 (by omega) (Or.inr rfl)
        simp only [runSession, e0, Option.bind_some] at hrun
        obtain ⟨q, hq, he⟩ := Option.map_eq_some_iff.1 hrun
        obtain ⟨q1, hq1, hq2⟩ := Option.bind_eq_some_iff.1 hq
        obtain ⟨b, rfl, k1, k2⟩ := step_start (s := none) trivial trivial h1 (hlen c1 (by simp)).1 (by omega) (Or.inl (by omega)) hq1
        cases hq2
        cases he
        exact ⟨rfl, fun h => h, fun t ht => building_older k1 k2 (by omega) (by omega) ht⟩
  | none, _, h => exact (h trivial).elim
  | some (.complete _ _), _, h => exact (h trivial).elim

theorem run_twos {n mtu mtu' : Nat} {timeout : Duration} (hm : 28 ≤ mtu) (hmtu : mtu ≤ mtu') {key : Key} : ∀ {items : List Shipment} {s s' : Option Session} {out : List UdpTransfer},
    (∀ it ∈ items, it.Sound mtu key) → (∀ x ∈ items, x.chunks.length = 2) → (∀ x ∈ items, x.whole = true) → Increasing items → (∀ it ∈ items, Older it.transfer.header.transferId s) → ¬ Idle s →
    runSession n timeout s ((items.flatMap (·.arrived)).filterMap (Packet.frame mtu')) = some (s', out) → out = []
  | [], s, s', out, _, _, _, _, _, _, hrun => by cases hrun; rfl
  | it :: items, s, s', out, hsound, htwo, hwhole, hinc, hold, hidle, hrun => by
    rw [List.flatMap_cons, List.filterMap_append, runSession_append] at hrun
    have hinc' := List.pairwise_cons.1 hinc
    obtain ⟨p, hp, hrun⟩ := Option.bind_eq_some_iff.1 hrun
    obtain ⟨q, hq, he⟩ := Option.map_eq_some_iff.1 hrun
    obtain ⟨k1, k2, k3⟩ := run_two hm hmtu (hsound it List.mem_cons_self) (htwo it List.mem_cons_self) (hwhole it List.mem_cons_self) (hold it List.mem_cons_self) hidle (s' := p.1) (out := p.2) hp
    have := run_twos hm hmtu (fun x hx => hsound x (List.mem_cons_of_mem _ hx)) (fun x hx => htwo x (List.mem_cons_of_mem _ hx)) (fun x hx => hwhole x (List.mem_cons_of_mem _ hx)) hinc'.2
      (fun x hx => k3 _ (hinc'.1 x hx)) k2 (s' := q.1) (out := q.2) hq
    cases he
    rw [k1, this]
    rfl

/-- A transfer of two datagrams of which one is lost leaves an incomplete transfer. -/
theorem run_one {n mtu mtu' : Nat} {timeout : Duration} (hm : 28 ≤ mtu) (hmtu : mtu ≤ mtu') {key : Key} {it : Shipment} (hit : it.Sound mtu key) (htwo : it.chunks.length = 2) (hone : it.arrived.length = 1)
    {s s' : Option Session} {out : List UdpTransfer} (hs : Older it.transfer.header.transferId s) (hidle : Idle s)
    (hrun : runSession n timeout s (it.arrived.filterMap (Packet.frame mtu')) = some (s', out)) : out = [] ∧ ¬ Idle s' ∧ ∀ t, it.transfer.header.transferId < t → Older t s' := by
  obtain ⟨hlen, hne, hsome, hcount⟩ := sound_frames hm hmtu hit
  obtain ⟨c0, c1, hch⟩ := List.length_eq_two.1 htwo
  rw [hone] at hcount
  rw [hch] at hsome hlen
  generalize it.arrived.filterMap (Packet.frame mtu') = fs at *
  cases hsome with
  | lost hsome =>
    cases hsome with
    | lost hsome => cases hsome; simp at hcount
    | here h1 hsome =>
      cases hsome
      obtain ⟨q1, hq1, hq2⟩ := Option.bind_eq_some_iff.1 hrun
      obtain ⟨b, rfl, k1, k2⟩ := step_start hs hidle h1 (hlen c1 (by simp)).1 (by omega) (Or.inl (by omega)) hq1
      cases hq2
      exact ⟨rfl, fun h => h, fun t ht => building_older k1 k2 (by omega) (by omega) ht⟩
  | here h0 hsome =>
    cases hsome with
    | here h1 hsome => simp at hcount
    | lost hsome =>
      cases hsome
      obtain ⟨q1, hq1, hq2⟩ := Option.bind_eq_some_iff.1 hrun
      obtain ⟨b, rfl, k1, k2⟩ := step_start hs hidle h0 (hlen c0 (by simp)).1 (by omega) (Or.inr rfl) hq1
      cases hq2
      exact ⟨rfl, fun h => h, fun t ht => building_older k1 k2 (by omega) (by omega) ht⟩

/-- **C114, violated.** One datagram of a transfer of two is lost. From then on, of any number of transfers of two datagrams that arrive as a whole, none is returned. -/
theorem C114_forever_counterexample {mtu mtu' : Nat} (hm : 28 ≤ mtu) (hmtu : mtu ≤ mtu') {key : Key} {r r' : Receiver} {sub : Subscription} {ps : List Packet} {out : List UdpTransfer}
    (hsub : r.subscriptions.find key.kind key.port = some sub) {it : Shipment} {items : List Shipment} (hbegin : Begins (it :: items) (sub.sessions key.source))
    (hitems : packetsIn mtu' key ps = (it :: items).flatMap (·.arrived)) (hsound : ∀ x ∈ it :: items, x.Sound mtu key) (htwo : ∀ x ∈ it :: items, x.chunks.length = 2)
    (hlost : it.arrived.length = 1) (hwhole : ∀ x ∈ items, x.whole = true) (hinc : Increasing (it :: items)) (hrun : r.run mtu' ps = some (r', out)) : transfersOf key out = [] := by
  obtain ⟨sub', g1, g2, g3, g4⟩ := run_session hrun hsub
  rw [framesOf_eq, hitems, List.flatMap_cons, List.filterMap_append, runSession_append] at g4
  obtain ⟨h1, h2⟩ := begins_older hbegin
  obtain ⟨p, hp, g4⟩ := Option.bind_eq_some_iff.1 g4
  obtain ⟨q, hq, he⟩ := Option.map_eq_some_iff.1 g4
  have hinc' := List.pairwise_cons.1 hinc
  obtain ⟨k1, k2, k3⟩ := run_one hm hmtu (hsound it List.mem_cons_self) (htwo it List.mem_cons_self) hlost (h1 it List.mem_cons_self) h2 (s' := p.1) (out := p.2) hp
  have := run_twos hm hmtu (fun x hx => hsound x (List.mem_cons_of_mem _ hx)) (fun x hx => htwo x (List.mem_cons_of_mem _ hx)) hwhole hinc'.2
      (fun x hx => k3 _ (hinc'.1 x hx)) k2 (s' := q.1) (out := q.2) hq
  rw [← (Prod.mk.inj he).2, k1, this]
  rfl

/-! ### Cases -/

/-- The collision, as a test. -/
theorem noCollision_of_test {it : Shipment} (h : ∀ i, i < it.chunks.length → 0 < i → (collected 0 (it.chunks.drop i).flatten).2.correct = false) : it.NoCollision := by
  intro i body h0 hi hb
  have := (collected_correct 0 _).2 ⟨body, hb⟩
  rw [h i hi h0] at this
  cases this

/-- The message with transfer ID `tid` and `n` bytes, of which the datagrams arrive whose index is in `which`. -/
def demoShipment (tid n : Nat) (which : List Nat) : Shipment :=
  { transfer := demoTid tid n, chunks := demoChunks 32 n
    arrived := (((demoPackets 32 tid n (BitVec.ofNat 32 (1000 * tid))).zipIdx).filter fun p => which.contains p.2).map (·.1) }

theorem demoShipment_sound {tid n : Nat} {which : List Nat}
    (h : ((demoChunks 32 n).flatten = (demo n).payload ++ Verif.Crc.le32 (Verif.Crc.crc32c (demo n).payload) ∧
      (∀ c ∈ demoChunks 32 n, c ≠ []) ∧ (∀ c ∈ demoChunks 32 n, 24 + c.length ≤ 32) ∧ (∀ c ∈ (demoChunks 32 n).dropLast, 24 + c.length = 32)) ∧ (demoChunks 32 n).length ≤ 2 ^ 31 ∧
      (n + 4 ≤ 8 ∨ (n + 4) % 8 = 0 ∨ 4 ≤ (n + 4) % 8)) : (demoShipment tid n which).Sound 32 demoKey := by
  obtain ⟨⟨h1, h2, h3, h4⟩, h5, h6⟩ := h
  have hsub : (demoShipment tid n which).arrived.Sublist (demoPackets 32 tid n (BitVec.ofNat 32 (1000 * tid))) := by
    have := (List.filter_sublist (p := fun p : Packet × Nat => which.contains p.2) (l := (demoPackets 32 tid n (BitVec.ofNat 32 (1000 * tid))).zipIdx)).map Prod.fst
    rwa [List.zipIdx_map_fst] at this
  refine ⟨rfl, ⟨h1, h2, h3, h4⟩, h5, ?_, ?_, ?_⟩
  · simpa [demoShipment, demoTid] using h6
  · have := hsub.map (·.data)
    rwa [show (demoPackets 32 tid n (BitVec.ofNat 32 (1000 * tid))).map (·.data) = datagrams (demoTid tid n).header (demoChunks 32 n) from by
      unfold demoPackets
      rw [List.map_map]
      exact List.map_id _] at this
  · intro p hp
    have := hsub.subset hp
    unfold demoPackets at this
    obtain ⟨d, -, rfl⟩ := List.mem_map.1 this
    exact ⟨rfl, rfl⟩

/-- A transfer of three datagrams of which the last is lost, then one that is whole but lost, one that is returned, one that does not arrive, one in one datagram, one of two of which the first is lost, and two
in one datagram each. -/
def demoStream : List Shipment :=
  [demoShipment 5 20 [0, 1], demoShipment 6 20 [0, 1, 2], demoShipment 7 10 [0, 1], demoShipment 8 10 [], demoShipment 9 3 [0], demoShipment 10 8 [1], demoShipment 11 4 [0], demoShipment 12 2 [0]]

example : ∀ it ∈ demoStream, it.Sound 32 demoKey ∧ it.NoCollision := by
  intro it hit
  simp only [demoStream, List.mem_cons, List.not_mem_nil, or_false] at hit
  rcases hit with rfl | rfl | rfl | rfl | rfl | rfl | rfl | rfl <;>
    exact ⟨demoShipment_sound (by decide +kernel), noCollision_of_test (by decide +kernel)⟩

example : Increasing demoStream ∧ Begins demoStream ((Subscription.new 9 2000000#32).sessions demoKey.source) ∧
    packetsIn 1500 demoKey (demoStream.flatMap (·.arrived)) = demoStream.flatMap (·.arrived) ∧
    (certain true demoStream).map (·.transfer.header.transferId) = [7#64, 9#64, 11#64, 12#64] ∧
    (demoStream.filter (·.whole)).map (·.transfer.header.transferId) = [6#64, 7#64, 9#64, 11#64, 12#64] ∧
    (demoReceiver.run 1500 (demoStream.flatMap (·.arrived))).map (fun p => p.2.map (·.header.transferId)) = some [7#64, 9#64, 11#64, 12#64] :=
  ⟨by unfold Increasing; decide +kernel, Or.inl rfl, by decide +kernel, by decide +kernel, by decide +kernel, by decide +kernel⟩

/-- One datagram is lost, and five transfers after it are lost as well. -/
def demoForever : List Shipment :=
  [demoShipment 5 10 [0], demoShipment 6 10 [0, 1], demoShipment 7 8 [0, 1], demoShipment 8 12 [0, 1], demoShipment 9 10 [0, 1], demoShipment 10 10 [0, 1]]

example : ∀ it ∈ demoForever, it.Sound 32 demoKey ∧ it.chunks.length = 2 := by
  intro it hit
  simp only [demoForever, List.mem_cons, List.not_mem_nil, or_false] at hit
  rcases hit with rfl | rfl | rfl | rfl | rfl | rfl <;> exact ⟨demoShipment_sound (by decide +kernel), by decide +kernel⟩

example : Increasing demoForever ∧ demoForever.map (·.whole) = [false, true, true, true, true, true] ∧
    packetsIn 1500 demoKey (demoForever.flatMap (·.arrived)) = demoForever.flatMap (·.arrived) ∧
    (demoReceiver.run 1500 (demoForever.flatMap (·.arrived))).map (fun p => p.2) = some [] ∧
    (demoReceiver.run 1500 (demoForever.tail.flatMap (·.arrived))).map (fun p => p.2.length) = some 5 :=
  ⟨by unfold Increasing; decide +kernel, by decide +kernel, by decide +kernel, by decide +kernel, by decide +kernel⟩

end Verif.Udp
