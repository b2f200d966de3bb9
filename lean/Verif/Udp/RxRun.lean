import Verif.Udp.RxLemmas

/-! Reassembly of one transfer by one session. -/

namespace Verif.Udp

open Verif.Crc (Tracker)
open Verif.Hdr (NodeId16 Tid64 TransportHeader)

/-- The session is receiving a transfer with header `h`: it has the bytes `m` and waits for datagram `i`. -/
def Building (n : Nat) (h : UdpHeader) (i : Nat) (m : List Byte) (a : ActiveSession) : Prop :=
  a.buildup = some { bytes := (collected n m).1, capacity := n, crc := (collected n m).2, nextFrameIndex := BitVec.ofNat 32 i
                     priority := h.priority, transferId := h.transferId }

/-- A frame that is datagram `i` of a transfer, arriving while there is memory. -/
structure IsFrame (h : UdpHeader) (i : Nat) (last : Bool) (c : List Byte) (f : Frame) : Prop where
  header : f.header = frameHeader h i last
  bytes : f.bytes = c
  memory : f.oom = false ∧ f.oomSession = false

theorem ofNat_ne_zero {i : Nat} (h : 0 < i) (h' : i < 2 ^ 32) : BitVec.ofNat 32 i ≠ 0#32 := by
  intro hc
  have := congrArg BitVec.toNat hc
  simp only [BitVec.toNat_ofNat, Nat.zero_mod] at this
  rw [Nat.mod_eq_of_lt h'] at this
  omega

theorem ofNat_succ (i : Nat) : BitVec.ofNat 32 i + 1#32 = BitVec.ofNat 32 (i + 1) := by
  apply BitVec.eq_of_toNat_eq
  simp

theorem push_building {n : Nat} {h : UdpHeader} {i : Nat} {m : List Byte} {last : Bool} (c : List Byte) :
    Buildup.push { bytes := (collected n m).1, capacity := n, crc := (collected n m).2, nextFrameIndex := BitVec.ofNat 32 i
                   priority := h.priority, transferId := h.transferId } (frameHeader h i last) c =
      .ok { bytes := (collected n (m ++ c)).1, capacity := n, crc := (collected n (m ++ c)).2, nextFrameIndex := BitVec.ofNat 32 (i + 1)
            priority := h.priority, transferId := h.transferId } := by
  unfold Buildup.push
  rw [if_neg (by simp [frameHeader]), if_neg (by simp [frameHeader]), if_neg (by simp [frameHeader])]
  dsimp only
  have := collect_more n m c
  rw [show collectBytes n ((collected n m).1, (collected n m).2) c = collected n (m ++ c) from this, ofNat_succ]

theorem convert_frameHeader (h : UdpHeader) (i : Nat) (last : Bool) (payload : List Byte) (now : Instant) :
    convertResult payload (frameHeader h i last) now = { header := h.setTimestamp now, loopback := false, payload } := by
  cases h <;> rfl

/-- A datagram in the middle of a transfer. -/
theorem step_middle {n : Nat} {timeout : Duration} {h : UdpHeader} {i : Nat} {m c : List Byte} {a : ActiveSession} {f : Frame}
    (hb : Building n h i m a) (hf : IsFrame h i false c f) (hc : 4 ≤ c.length) :
    ∃ a', f.step n timeout (some (.active a)) = some (some (.active a'), .nothing) ∧ Building n h (i + 1) (m ++ c) a' ∧
      a'.time = a.time ∧ a'.transferId = a.transferId := by
  refine ⟨{ a with buildup := some { bytes := (collected n (m ++ c)).1, capacity := n, crc := (collected n (m ++ c)).2, nextFrameIndex := BitVec.ofNat 32 (i + 1), priority := h.priority, transferId := h.transferId } }, ?_, rfl, rfl, rfl⟩
  unfold Frame.step sessionStep Session.admit
  simp only
  unfold ActiveSession.accept ActiveSession.handleFrame
  rw [hf.header, hf.bytes, if_neg (by simp [transferCrcSize]; omega), if_neg (by simp [frameHeader])]
  rw [show a.buildup = _ from hb]
  simp only
  rw [push_building]
  simp [frameHeader]

/-- The last datagram of a transfer. -/
theorem step_last {n : Nat} {timeout : Duration} {h : UdpHeader} {i : Nat} {m c body : List Byte} {a : ActiveSession} {f : Frame}
    (hb : Building n h i m a) (hf : IsFrame h i true c f) (hc : 4 ≤ c.length) (h0 : 0 < i) (hi : i < 2 ^ 32)
    (hm : m ++ c = body ++ Verif.Crc.le32 (Verif.Crc.crc32c body)) :
    f.step n timeout (some (.active a)) = some (some (.complete a.time a.transferId),
      .transfer { header := h.setTimestamp a.time, loopback := false, payload := body.take n }) := by
  unfold Frame.step sessionStep Session.admit
  simp only
  unfold ActiveSession.accept ActiveSession.handleFrame
  rw [hf.header, hf.bytes, if_neg (by simp [transferCrcSize]; omega),
    if_neg (by intro hcon; exact ofNat_ne_zero h0 hi hcon.1)]
  rw [show a.buildup = _ from hb]
  simp only
  rw [push_building]
  have hcor : (collected n (m ++ c)).2.correct = true := (collected_correct n _).mpr ⟨body, hm⟩
  have hbody : (collected n (m ++ c)).1 = body.take n := by rw [hm]; exact collected_body n body
  simp only [hcor, hbody]
  rw [if_pos (by simp [frameHeader])]
  simp [convert_frameHeader]

/-- The session takes a new transfer with this ID at this time: it has not delivered anything, or only older transfer IDs, or
the last delivery is longer ago than the timeout; and no transfer is incomplete. -/
inductive Ready (timeout : Duration) (tid : Tid64) (now : Instant) : Option Session → Prop where
  | new : Ready timeout tid now none
  | later (time : Instant) (last : Tid64) (age : Duration) (ha : Instant.checkedDurationSince now time = some age)
      (h : last < tid ∨ timeout < age) : Ready timeout tid now (some (.complete time last))

theorem step_ready {n : Nat} {timeout : Duration} {s : Option Session} {f : Frame} (hm : f.oomSession = false)
    (hr : Ready timeout f.header.transferId f.now s) :
    f.step n timeout s = some ((freshSession f.header f.now).accept f.oom f.header f.bytes n) := by
  unfold Frame.step sessionStep
  cases hr with
  | new => simp [hm]
  | later time last age ha h =>
    simp only [Session.admit, Instant.sub?, ha]
    rw [if_pos h]

/-- The first of several datagrams. -/
theorem step_first {n : Nat} {timeout : Duration} {h : UdpHeader} {c : List Byte} {s : Option Session} {f : Frame}
    (hr : Ready timeout h.transferId f.now s) (hf : IsFrame h 0 false c f) (hc : 4 ≤ c.length) :
    ∃ a, f.step n timeout s = some (some (.active a), .nothing) ∧ Building n h 1 c a ∧ a.time = f.now ∧ a.transferId = h.transferId := by
  refine ⟨{ time := f.now, transferId := h.transferId, buildup := some { bytes := (collected n c).1, capacity := n, crc := (collected n c).2, nextFrameIndex := BitVec.ofNat 32 1, priority := h.priority, transferId := h.transferId } }, ?_, rfl, rfl, rfl⟩
  rw [step_ready hf.memory.2 (by rw [hf.header]; exact hr), hf.memory.1]
  unfold ActiveSession.accept ActiveSession.handleFrame
  rw [hf.header, hf.bytes, if_neg (by simp [transferCrcSize]; omega), if_neg (by simp [frameHeader])]
  simp [freshSession, Buildup.new, collect_first, frameHeader]

/-- The only datagram of a transfer. -/
theorem step_single {n : Nat} {timeout : Duration} {h : UdpHeader} {body : List Byte} {s : Option Session} {f : Frame}
    (hr : Ready timeout h.transferId f.now s) (hf : IsFrame h 0 true (body ++ Verif.Crc.le32 (Verif.Crc.crc32c body)) f) :
    f.step n timeout s = some (some (.complete f.now h.transferId),
      .transfer { header := h.setTimestamp f.now, loopback := false, payload := body.take n }) := by
  rw [step_ready hf.memory.2 (by rw [hf.header]; exact hr), hf.memory.1]
  unfold ActiveSession.accept ActiveSession.handleFrame
  rw [hf.header, hf.bytes, if_neg (by simp [transferCrcSize, Verif.Crc.le32]), if_pos ⟨rfl, rfl⟩]
  have hcor : (collected n (body ++ Verif.Crc.le32 (Verif.Crc.crc32c body))).2.correct = true := (collected_correct n _).mpr ⟨body, rfl⟩
  have hbody : (collected n (body ++ Verif.Crc.le32 (Verif.Crc.crc32c body))).1 = body.take n := collected_body n body
  simp only [collect_first, hcor, hbody]
  simp [freshSession, convert_frameHeader]
  rfl

/-- Datagrams `i`, `i+1`, ... that are not the last one. -/
def Part (h : UdpHeader) (i : Nat) : List (List Byte) → List Frame → Prop
  | [], [] => True
  | c :: cs, f :: fs => IsFrame h i false c f ∧ Part h (i + 1) cs fs
  | _, _ => False

theorem run_part {n : Nat} {timeout : Duration} {h : UdpHeader} (cs : List (List Byte)) : ∀ {i : Nat} {fs : List Frame} {m : List Byte}
    {a : ActiveSession}, Building n h i m a → Part h i cs fs → (∀ c ∈ cs, 4 ≤ c.length) →
    ∃ a', runSession n timeout (some (.active a)) fs = some (some (.active a'), []) ∧ Building n h (i + cs.length) (m ++ cs.flatten) a' ∧
      a'.time = a.time ∧ a'.transferId = a.transferId := by
  induction cs with
  | nil =>
    intro i fs m a hb hp _
    cases fs with
    | nil => exact ⟨a, rfl, by simpa using hb, rfl, rfl⟩
    | cons f fs => cases hp
  | cons c cs ih =>
    intro i fs m a hb hp hc
    cases fs with
    | nil => cases hp
    | cons f fs =>
      obtain ⟨hf, hp⟩ := hp
      obtain ⟨a1, h1, h2, h3, h4⟩ := step_middle (timeout := timeout) hb hf (hc c (by simp))
      obtain ⟨a2, g1, g2, g3, g4⟩ := ih h2 hp (fun c hc' => hc c (by simp [hc']))
      refine ⟨a2, ?_, ?_, by rw [g3, h3], by rw [g4, h4]⟩
      · simp only [runSession, h1, Option.bind_some, g1, Option.map_some, Output.transfers, List.nil_append]
      · simp only [List.length_cons, List.flatten_cons]
        rw [show i + (cs.length + 1) = i + 1 + cs.length by omega, ← List.append_assoc]
        exact g2

theorem runSession_append {n : Nat} {timeout : Duration} (fs : List Frame) : ∀ {s : Option Session} {gs : List Frame},
    runSession n timeout s (fs ++ gs) = (runSession n timeout s fs).bind (fun p =>
      (runSession n timeout p.1 gs).map (fun q => (q.1, p.2 ++ q.2))) := by
  induction fs with
  | nil => intro s gs; simp [runSession]
  | cons f fs ih =>
    intro s gs
    simp only [List.cons_append, runSession]
    cases f.step n timeout s with
    | none => rfl
    | some p =>
      simp only [Option.bind_some, ih]
      cases runSession n timeout p.1 fs with
      | none => rfl
      | some q =>
        simp only [Option.bind_some, Option.map_some]
        cases runSession n timeout q.1 gs with
        | none => rfl
        | some q' => simp

/-- All datagrams of a transfer. -/
def Whole (h : UdpHeader) (chunks : List (List Byte)) (fs : List Frame) : Prop :=
  ∃ fs' f last, fs = fs' ++ [f] ∧ chunks = chunks.dropLast ++ [last] ∧ Part h 0 chunks.dropLast fs' ∧
    IsFrame h (chunks.length - 1) true last f

/-- All datagrams but the last: nothing is returned, the transfer is incomplete. -/
theorem run_incomplete {n : Nat} {timeout : Duration} {h : UdpHeader} {cs : List (List Byte)} {f : Frame} {fs : List Frame} {s : Option Session}
    (hr : Ready timeout h.transferId f.now s) (hp : Part h 0 cs (f :: fs)) (hc : ∀ c ∈ cs, 4 ≤ c.length) :
    ∃ a, runSession n timeout s (f :: fs) = some (some (.active a), []) ∧ Building n h cs.length cs.flatten a ∧ a.time = f.now ∧
      a.transferId = h.transferId := by
  cases cs with
  | nil => cases hp
  | cons c cs =>
    obtain ⟨hf, hp⟩ := hp
    obtain ⟨a1, h1, h2, h3, h4⟩ := step_first (n := n) hr hf (hc c (by simp))
    obtain ⟨a2, g1, g2, g3, g4⟩ := run_part (timeout := timeout) cs h2 hp (fun c hc' => hc c (by simp [hc']))
    refine ⟨a2, ?_, ?_, by rw [g3, h3], by rw [g4, h4]⟩
    · simp only [runSession, h1, Option.bind_some, g1, Option.map_some, Output.transfers, List.nil_append]
    · rw [List.length_cons, List.flatten_cons, Nat.add_comm]
      exact g2

/-- A whole transfer: it is returned once. -/
theorem run_whole {n : Nat} {timeout : Duration} {h : UdpHeader} {body : List Byte} {chunks : List (List Byte)} {f : Frame} {fs : List Frame}
    {s : Option Session} (hr : Ready timeout h.transferId f.now s) (hw : Whole h chunks (f :: fs)) (hc : ∀ c ∈ chunks, 4 ≤ c.length)
    (hl : chunks.length ≤ 2 ^ 32) (hm : chunks.flatten = body ++ Verif.Crc.le32 (Verif.Crc.crc32c body)) :
    runSession n timeout s (f :: fs) = some (some (.complete f.now h.transferId),
      [{ header := h.setTimestamp f.now, loopback := false, payload := body.take n }]) := by
  obtain ⟨fs', g, last, h1, h2, h3, h4⟩ := hw
  cases fs' with
  | nil =>
    simp only [List.nil_append, List.cons.injEq] at h1
    obtain ⟨h1, h1'⟩ := h1
    subst h1; subst h1'
    have hd : chunks.dropLast = [] := by
      cases hd : chunks.dropLast with
      | nil => rfl
      | cons x xs => rw [hd] at h3; cases h3
    rw [hd] at h2
    simp only [List.nil_append] at h2
    rw [h2] at h4 hm
    simp only [List.flatten_cons, List.flatten_nil, List.append_nil] at hm
    rw [hm] at h4
    have := step_single (n := n) hr (f := f) h4
    simp only [runSession, this, Option.bind_some, Option.map_some, Output.transfers, List.append_nil]
  | cons f' fs' =>
    simp only [List.cons_append, List.cons.injEq] at h1
    obtain ⟨h1, h1'⟩ := h1
    subst h1
    obtain ⟨a, g1, g2, g3, g4⟩ := run_incomplete (n := n) hr h3 (fun c hc' => hc c ((List.dropLast_sublist _).subset hc'))
    have hlen : chunks.dropLast.length = chunks.length - 1 := by simp
    have hpos : 0 < chunks.dropLast.length := by
      cases hd : chunks.dropLast with
      | nil => rw [hd] at h3; cases h3
      | cons x xs => simp
    have hm' : chunks.dropLast.flatten ++ last = body ++ Verif.Crc.le32 (Verif.Crc.crc32c body) := by
      rw [← hm]
      conv => rhs; rw [h2]
      simp
    rw [← hlen] at h4
    have hlast : last ∈ chunks := by rw [h2]; simp
    have hs := step_last (timeout := timeout) g2 h4 (hc last hlast) hpos (by omega) hm'
    rw [h1', show f :: (fs' ++ [g]) = (f :: fs') ++ [g] by simp, runSession_append, g1]
    simp only [Option.bind_some, runSession, hs, Option.map_some, Output.transfers, List.append_nil, List.nil_append, g3, g4]

/-! ### From datagrams to frames -/

theorem datagram_frame {mtu : Nat} {h : UdpHeader} {i : Nat} {last : Bool} {c : List Byte} {p : Packet}
    (hd : p.data = Verif.Hdr.encode (frameHeader h i last) ++ c) (hi : i < 2 ^ 31) (hfit : 24 + c.length ≤ mtu) :
    p.frame mtu = if c.length < 4 then none
      else some { header := frameHeader h i last, bytes := c, now := p.now, oomSession := p.oomSession, oom := p.oom } := by
  have hl := (Verif.Hdr.C25_checksum_valid (frameHeader h i last)).1
  have hlen : p.data.length = 24 + c.length := by rw [hd]; simp [hl]
  have htake : p.data.take mtu = p.data := List.take_of_length_le (by omega)
  unfold Packet.frame
  rw [htake, hlen]
  by_cases hc : c.length < 4
  · rw [if_pos (by omega), if_pos hc]
  · rw [if_neg (by omega), if_neg hc, hd, List.take_left' hl, List.drop_left' hl]
    rw [Verif.Hdr.C25_header_roundtrip _ (by simp only [frameHeader, BitVec.toNat_ofNat]; omega)]
    rfl

theorem frame_key {h : UdpHeader} {i : Nat} {last : Bool} {f : Frame} (hf : f.header = frameHeader h i last) : f.key? = keyOf? h := by
  rw [key_eq, hf]
  cases h with
  | message m => cases hm : m.source <;> simp [frameHeader, keyOf?, Header.source, Header.kind, Header.port, specifierKind, specifierPort, Verif.Hdr.DataSpecifier.source, hm]
  | request s => rfl
  | response s => rfl

theorem framesOf_eq (mtu : Nat) (key : Key) (ps : List Packet) : framesOf mtu key ps = (packetsIn mtu key ps).filterMap (Packet.frame mtu) := by
  induction ps with
  | nil => rfl
  | cons p ps ih =>
    unfold framesOf packetsIn at *
    cases hp : p.frame mtu with
    | none => simp [hp, ih]
    | some f =>
      by_cases hk : f.key? = some key
      · simp [hp, hk, ih]
      · simp [hp, hk, ih]

theorem datagrams_snoc (h : UdpHeader) (cs : List (List Byte)) (last : List Byte) : datagrams h (cs ++ [last]) =
    cs.mapIdx (fun i c => Verif.Hdr.encode (frameHeader h i false) ++ c) ++ [Verif.Hdr.encode (frameHeader h cs.length true) ++ last] := by
  unfold datagrams
  rw [List.mapIdx_append]
  congr 1
  · apply List.mapIdx_eq_mapIdx_iff.mpr
    intro i hi
    have : (i + 1 == (cs ++ [last]).length) = false := by simp; omega
    rw [this]
  · simp

theorem part_of {mtu : Nat} {h : UdpHeader} (cs : List (List Byte)) : ∀ {i : Nat} {ps : List Packet},
    ps.map (·.data) = cs.mapIdx (fun j c => Verif.Hdr.encode (frameHeader h (i + j) false) ++ c) →
    (∀ c ∈ cs, 4 ≤ c.length ∧ 24 + c.length ≤ mtu) → i + cs.length ≤ 2 ^ 31 →
    (∀ p ∈ ps, p.oom = false ∧ p.oomSession = false) → Part h i cs (ps.filterMap (Packet.frame mtu)) := by
  induction cs with
  | nil =>
    intro i ps hd _ _ _
    simp at hd
    subst hd
    trivial
  | cons c cs ih =>
    intro i ps hd hc hi ho
    cases ps with
    | nil => simp at hd
    | cons p ps =>
      rw [List.mapIdx_cons, List.map_cons, List.cons.injEq] at hd
      simp only [List.length_cons] at hi
      have hf := datagram_frame (mtu := mtu) (i := i) hd.1 (by omega) (hc c (by simp)).2
      rw [if_neg (by have := (hc c (by simp)).1; omega)] at hf
      rw [List.filterMap_cons_some hf]
      refine ⟨⟨rfl, rfl, ho p (by simp)⟩, ih ?_ (fun c hc' => hc c (by simp [hc'])) (by omega) (fun p hp => ho p (by simp [hp]))⟩
      rw [hd.2]
      congr 1
      funext j c'
      rw [show i + (j + 1) = i + 1 + j by omega]

theorem whole_of {mtu : Nat} {h : UdpHeader} {chunks : List (List Byte)} {ps : List Packet} (hne : chunks ≠ [])
    (hd : ps.map (·.data) = datagrams h chunks) (hc : ∀ c ∈ chunks, 4 ≤ c.length ∧ 24 + c.length ≤ mtu) (hi : chunks.length ≤ 2 ^ 31)
    (ho : ∀ p ∈ ps, p.oom = false ∧ p.oomSession = false) :
    Whole h chunks (ps.filterMap (Packet.frame mtu)) ∧ (ps.filterMap (Packet.frame mtu)).map (·.now) = ps.map (·.now) := by
  have hcc := (List.dropLast_concat_getLast hne).symm
  generalize chunks.getLast hne = last at hcc
  have hlast : last ∈ chunks := by rw [hcc]; simp
  have hlen : chunks.dropLast.length = chunks.length - 1 := by simp
  have hpos : 0 < chunks.length := by
    cases chunks with
    | nil => exact absurd rfl hne
    | cons => simp
  rw [hcc, datagrams_snoc] at hd
  obtain ⟨ps1, ps2, hps, hd1, hd2⟩ := List.map_eq_append_iff.mp hd
  cases ps2 with
  | nil => simp at hd2
  | cons p ps2 =>
    have hnil : ps2 = [] := by
      have := congrArg List.length hd2
      simp at this
      exact this
    subst hnil
    simp only [List.map_cons, List.map_nil, List.cons.injEq, and_true] at hd2
    have hf := datagram_frame (mtu := mtu) hd2 (by omega) (hc last hlast).2
    rw [if_neg (by have := (hc last hlast).1; omega)] at hf
    have hpart := part_of (mtu := mtu) (h := h) chunks.dropLast (i := 0) (ps := ps1) (by rw [hd1]; simp)
      (fun c hc' => hc c ((List.dropLast_sublist _).subset hc')) (by omega) (fun p hp => ho p (by rw [hps]; simp [hp]))
    constructor
    · refine ⟨ps1.filterMap (Packet.frame mtu), { header := frameHeader h (chunks.length - 1) true, bytes := last, now := p.now, oomSession := p.oomSession, oom := p.oom }, last, ?_, hcc, hpart, ?_⟩
      · rw [hps, List.filterMap_append, List.filterMap_cons_some hf, hlen]; rfl
      · exact ⟨rfl, rfl, ho p (by rw [hps]; simp)⟩
    · rw [hps, List.filterMap_append, List.filterMap_cons_some hf]
      simp only [List.filterMap_nil, List.map_append, List.map_cons, List.map_nil, List.append_cancel_right_eq]
      have : ∀ (ps : List Packet), (∀ p ∈ ps, p.frame mtu ≠ none) → (ps.filterMap (Packet.frame mtu)).map (·.now) = ps.map (·.now) := by
        intro ps
        induction ps with
        | nil => intro _; rfl
        | cons p ps ih =>
          intro hall
          cases hp : p.frame mtu with
          | none => exact absurd hp (hall p (by simp))
          | some f =>
            rw [List.filterMap_cons_some hp, List.map_cons, List.map_cons, ih (fun p hp => hall p (by simp [hp])), (frame_now hp).1]
      apply this
      intro q hq
      have hmem : q.data ∈ chunks.dropLast.mapIdx (fun i c => Verif.Hdr.encode (frameHeader h i false) ++ c) := by
        rw [← hd1]; exact List.mem_map_of_mem hq
      obtain ⟨j, hj, hqd⟩ := List.mem_mapIdx.mp hmem
      have hcm : chunks.dropLast[j] ∈ chunks := (List.dropLast_sublist _).subset (List.getElem_mem hj)
      have hfq := datagram_frame (mtu := mtu) hqd.symm (by omega) (hc _ hcm).2
      rw [if_neg (by have := (hc _ hcm).1; omega)] at hfq
      rw [hfq]
      simp

/-! ### Lengths of the pieces -/

theorem pieces_ge {mtu : Nat} {t : UdpTransfer} {chunks : List (List Byte)} (hp : Pieces mtu t chunks) (hm : 28 ≤ mtu)
    (hfit : t.payload.length + 4 ≤ mtu - 24 ∨ (t.payload.length + 4) % (mtu - 24) = 0 ∨ 4 ≤ (t.payload.length + 4) % (mtu - 24)) :
    ∀ c ∈ chunks, 4 ≤ c.length ∧ 24 + c.length ≤ mtu := by
  obtain ⟨last, hcc, hpos, hle, htot⟩ := pieces_total hp
  intro c hc
  refine ⟨?_, hp.fits c hc⟩
  rw [hcc] at hc
  rcases List.mem_append.mp hc with hc | hc
  · have := hp.full c hc; omega
  · simp only [List.mem_singleton] at hc
    subst hc
    by_cases h1 : chunks.length - 1 = 0
    · rw [h1] at htot; omega
    · by_cases hfull : c.length = mtu - 24
      · omega
      · have hmod : (t.payload.length + 4) % (mtu - 24) = c.length := by
          rw [htot, Nat.add_comm, Nat.add_mul_mod_self_right, Nat.mod_eq_of_lt (by omega)]
        have hge : mtu - 24 ≤ (chunks.length - 1) * (mtu - 24) := Nat.le_mul_of_pos_left _ (by omega)
        omega

end Verif.Udp
