import Verif.Udp.Demo
import Verif.Udp.AddrProps
import Verif.Serial.Lemmas

/-! Properties of the UDP transmitter (C33). -/

namespace Verif.Udp

open Verif.Hdr (NodeId16 Tid64 TransportHeader RawHeader)

theorem addCrc_eq (payload : List Byte) : ∀ crc, addCrc crc payload =
    payload ++ Verif.Crc.le32 (Verif.Crc.getCrc32 (Verif.Crc.digestBytes32 crc payload)) := by
  induction payload with
  | nil => intro crc; rfl
  | cons b bs ih =>
    intro crc
    simp only [addCrc, ih, List.cons_append]
    rfl

/-- Cuts data into pieces of `n` bytes; `cur` is the piece being filled. -/
def pieces (n : Nat) (cur : List Byte) : List Byte → List (List Byte)
  | [] => if cur = [] then [] else [cur]
  | b :: bs => if (cur ++ [b]).length = n then (cur ++ [b]) :: pieces n [] bs else pieces n (cur ++ [b]) bs

theorem pieces_flatten (n : Nat) (data : List Byte) : ∀ cur, (pieces n cur data).flatten = cur ++ data := by
  induction data with
  | nil => intro cur; unfold pieces; split <;> simp_all
  | cons b bs ih =>
    intro cur
    unfold pieces
    split
    · simp [ih]
    · rw [ih]; simp

theorem pieces_ne_nil (n : Nat) (data : List Byte) : ∀ cur, cur ≠ [] ∨ data ≠ [] → pieces n cur data ≠ [] := by
  intro cur h hp
  have := pieces_flatten n data cur
  rw [hp] at this
  simp at this
  rcases h with h | h <;> simp_all

theorem pieces_mem (n : Nat) (data : List Byte) : ∀ cur : List Byte, cur.length < n →
    ∀ c ∈ pieces n cur data, c ≠ [] ∧ c.length ≤ n := by
  induction data with
  | nil =>
    intro cur h c hc
    unfold pieces at hc
    split at hc
    · simp at hc
    · simp only [List.mem_singleton] at hc; subst hc; exact ⟨by assumption, by omega⟩
  | cons b bs ih =>
    intro cur h c hc
    unfold pieces at hc
    split at hc
    · rename_i hn
      rcases List.mem_cons.mp hc with rfl | hc
      · exact ⟨by simp, by omega⟩
      · exact ih [] (by simp; omega) c hc
    · rename_i hn
      refine ih (cur ++ [b]) ?_ c hc
      simp at hn ⊢; omega

theorem pieces_full (n : Nat) (data : List Byte) : ∀ cur : List Byte, cur.length < n →
    ∀ c ∈ (pieces n cur data).dropLast, c.length = n := by
  induction data with
  | nil =>
    intro cur h c hc
    unfold pieces at hc
    split at hc <;> simp at hc
  | cons b bs ih =>
    intro cur h c hc
    unfold pieces at hc
    split at hc
    · rename_i hn
      by_cases hp : pieces n [] bs = []
      · rw [hp] at hc; simp at hc
      · rw [List.dropLast_cons_of_ne_nil hp] at hc
        rcases List.mem_cons.mp hc with rfl | hc
        · exact hn
        · exact ih [] (by simp; omega) c hc
    · rename_i hn
      refine ih (cur ++ [b]) ?_ c hc
      simp at hn ⊢; omega

/-- The pieces that the iterator has still to give. -/
structure Remaining (b : Breakdown) (cs : List (List Byte)) : Prop where
  here : b.done = false → b.currentFrame = emptyFrame ∧ pieces (b.mtu - 24) [] b.payload = cs
  done : b.done = true → cs = []

/-- Number of pieces that are full. -/
def fullCount (n : Nat) (cs : List (List Byte)) : Nat := (cs.filter (fun c => c.length == n)).length

theorem fill_eq (data : List Byte) : ∀ (b : Breakdown) (cur : List Byte), b.done = false → 24 < b.mtu → cur.length < b.mtu - 24 →
    b.currentFrame = emptyFrame ++ cur →
    b.frameIndex.toNat + fullCount (b.mtu - 24) (pieces (b.mtu - 24) cur data) < 2 ^ 31 →
    match pieces (b.mtu - 24) cur data with
    | [] => ∃ b', b.fill data = some (none, b')
    | c :: cs => ∃ b', b.fill data = some (some { deadline := b.deadline, data := Verif.Hdr.encode (b.makeHeader cs.isEmpty) ++ c }, b') ∧
        b'.deadline = b.deadline ∧ b'.mtu = b.mtu ∧ b'.headerBase = b.headerBase ∧ Remaining b' cs ∧
        (cs ≠ [] → b'.frameIndex = b.frameIndex + 1#32) ∧
        (cs ≠ [] → b'.frameIndex.toNat + fullCount (b.mtu - 24) cs < 2 ^ 31) := by
  induction data with
  | nil =>
    intro b cur hd hm hc hcf hi
    by_cases h : cur = []
    · subst h
      simp only [pieces, if_true]
      unfold Breakdown.fill
      rw [if_neg]
      · exact ⟨_, rfl⟩
      · rw [hcf]; simp [emptyFrame]
    · simp only [pieces, h, if_false]
      unfold Breakdown.fill
      rw [if_pos]
      · refine ⟨{ b with payload := [], currentFrame := emptyFrame, done := true }, ?_, rfl, rfl, rfl,
          ⟨(by intro h; cases h), fun _ => rfl⟩, by simp, by simp⟩
        simp only [Breakdown.takeFrame, Option.some.injEq, Prod.mk.injEq, and_true, UdpFrame.mk.injEq, true_and, hcf]
        rw [List.drop_left' (by simp [emptyFrame])]
        rfl
      · rw [hcf]
        have : cur.length ≠ 0 := by simpa using h
        simp [emptyFrame, h]
  | cons x rest ih =>
    intro b cur hd hm hc hcf hi
    unfold Breakdown.fill
    have hlen : ((b.currentFrame ++ [x]).length = b.mtu) ↔ ((cur ++ [x]).length = b.mtu - 24) := by
      rw [hcf]; simp [emptyFrame, Verif.Hdr.size]; omega
    by_cases hn : (cur ++ [x]).length = b.mtu - 24
    · have hp : pieces (b.mtu - 24) cur (x :: rest) = (cur ++ [x]) :: pieces (b.mtu - 24) [] rest := by
        rw [pieces, if_pos hn]
      rw [hp] at hi ⊢
      dsimp only
      rw [if_pos (hlen.mpr hn)]
      have hfc : fullCount (b.mtu - 24) ((cur ++ [x]) :: pieces (b.mtu - 24) [] rest) =
          fullCount (b.mtu - 24) (pieces (b.mtu - 24) [] rest) + 1 := by
        unfold fullCount
        rw [List.filter_cons_of_pos (by simpa using hn)]
        simp
      rw [hfc] at hi
      have hidx : (b.frameIndex + 1#32).toNat = b.frameIndex.toNat + 1 := by
        rw [BitVec.toNat_add]
        have : (1#32).toNat = 1 := rfl
        rw [this]; omega
      rw [if_pos]
      · refine ⟨{ b with payload := rest, currentFrame := emptyFrame, frameIndex := b.frameIndex + 1#32 }, ?_, rfl, rfl, rfl, ⟨?_, ?_⟩,
          fun _ => rfl, fun _ => ?_⟩
        · simp only [Breakdown.takeFrame, Option.some.injEq, Prod.mk.injEq, and_true, UdpFrame.mk.injEq, true_and, hcf]
          rw [List.append_assoc, List.drop_left' (by simp [emptyFrame])]
          have : (!(!rest.isEmpty)) = (pieces (b.mtu - 24) [] rest).isEmpty := by
            cases rest with
            | nil => rfl
            | cons y ys =>
              have := pieces_ne_nil (b.mtu - 24) (y :: ys) [] (Or.inr (by simp))
              cases hq : pieces (b.mtu - 24) [] (y :: ys) with
              | nil => exact absurd hq this
              | cons a as => rfl
          rw [this]
          rfl
        · intro _; exact ⟨rfl, rfl⟩
        · intro h
          simp only [hd] at h; cases h
        · rw [hidx]; omega
      · have hl := Verif.Hdr.last_index (b.frameIndex + 1#32)
        rw [hidx] at hl
        have : decide (2 ^ 31 ≤ b.frameIndex.toNat + 1) = false := by simp; omega
        rw [this] at hl
        simp only [bne_eq_false_iff_eq] at hl
        exact hl
    · have hp : pieces (b.mtu - 24) cur (x :: rest) = pieces (b.mtu - 24) (cur ++ [x]) rest := by
        rw [pieces, if_neg hn]
      rw [hp] at hi ⊢
      dsimp only
      rw [if_neg (fun h => hn (hlen.mp h))]
      exact ih { b with currentFrame := b.currentFrame ++ [x] } (cur ++ [x]) hd hm
        (by simp at hn ⊢; omega) (by simp [hcf]) hi

theorem next_eq (b : Breakdown) (cs : List (List Byte)) (hm : 24 < b.mtu) (hr : Remaining b cs)
    (hi : cs ≠ [] → b.frameIndex.toNat + fullCount (b.mtu - 24) cs < 2 ^ 31) :
    match cs with
    | [] => ∃ b', b.next = some (none, b')
    | c :: cs => ∃ b', b.next = some (some { deadline := b.deadline, data := Verif.Hdr.encode (b.makeHeader cs.isEmpty) ++ c }, b') ∧
        b'.deadline = b.deadline ∧ b'.mtu = b.mtu ∧ b'.headerBase = b.headerBase ∧ Remaining b' cs ∧
        (cs ≠ [] → b'.frameIndex = b.frameIndex + 1#32) ∧
        (cs ≠ [] → b'.frameIndex.toNat + fullCount (b.mtu - 24) cs < 2 ^ 31) := by
  cases hd : b.done with
  | true =>
    have := hr.done hd
    subst this
    exact ⟨b, by simp [Breakdown.next, hd]⟩
  | false =>
    obtain ⟨h1, h2⟩ := hr.here hd
    have hnext : b.next = b.fill b.payload := by simp [Breakdown.next, hd]
    by_cases hp : b.payload = []
    · rw [hp] at h2 hnext
      have : cs = [] := by rw [← h2]; rfl
      subst this
      dsimp only
      rw [hnext]
      unfold Breakdown.fill
      rw [if_neg (by rw [h1]; simp [emptyFrame])]
      exact ⟨_, rfl⟩
    · have hne := pieces_ne_nil (b.mtu - 24) b.payload [] (Or.inr hp)
      have := fill_eq b.payload b [] hd hm (by simp; omega) (by simp [h1]) (by rw [h2]; exact hi (by rw [← h2]; exact hne))
      rw [h2, ← hnext] at this
      exact this

/-- The headers with the indices from `i`, followed by the pieces. -/
def dataFrom (h : UdpHeader) (i : Nat) : List (List Byte) → List (List Byte)
  | [] => []
  | c :: cs => (Verif.Hdr.encode (frameHeader h i cs.isEmpty) ++ c) :: dataFrom h (i + 1) cs

theorem headerBase_eq (h : UdpHeader) : (headerBase h).priority = h.priority ∧ (headerBase h).transferId = h.transferId ∧
    (headerBase h).data = 0#16 ∧ (headerBase h).dataSpecifier = (frameHeader h 0 true).dataSpecifier := by
  cases h <;> exact ⟨rfl, rfl, rfl, rfl⟩

theorem sendFrames_eq {σ E : Type} (env : Env σ E) (h : UdpHeader) (ip : BitVec 32) (port : BitVec 16) (fuel : Nat) :
    ∀ (b : Breakdown) (cs : List (List Byte)) (i : Nat) (s : σ), 24 < b.mtu → Remaining b cs → b.headerBase = headerBase h →
    (cs ≠ [] → b.frameIndex = BitVec.ofNat 32 i) → (cs ≠ [] → b.frameIndex.toNat + fullCount (b.mtu - 24) cs < 2 ^ 31) → cs.length < fuel →
    sendFrames env ip port fuel b s = some (sendAll env b.deadline ip port (dataFrom h i cs) s) := by
  induction fuel with
  | zero => intro b cs i s _ _ _ _ _ hf; omega
  | succ fuel ih =>
    intro b cs i s hm hr hb hx hi hf
    have hn := next_eq b cs hm hr hi
    cases cs with
    | nil =>
      obtain ⟨b', hn⟩ := hn
      unfold sendFrames
      rw [hn]
      rfl
    | cons c cs =>
      obtain ⟨b', hn, hdl, hmt, hbb, hr', hx', hi'⟩ := hn
      have hhead : b.makeHeader cs.isEmpty = frameHeader h i cs.isEmpty := by
        obtain ⟨e1, e2, e3, e4⟩ := headerBase_eq h
        unfold Breakdown.makeHeader
        rw [hb, e1, e2, e3, e4, hx (by simp)]
        rfl
      rw [hhead] at hn
      have hrec := fun s => ih b' cs (i + 1) s (by omega) hr' (by rw [hbb, hb])
        (by intro hne; rw [hx' hne, hx (by simp)]; apply BitVec.eq_of_toNat_eq; simp)
        (by rw [hmt]; exact hi') (by simp at hf; omega)
      rw [hdl] at hrec
      unfold sendFrames
      rw [hn]
      simp only [dataFrom, sendAll]
      by_cases ha : Instant.after b.deadline (env.now s).2 = true
      · rw [if_pos ha, if_pos ha]
        cases (env.sendTo (env.now s).1 (Verif.Hdr.encode (frameHeader h i cs.isEmpty) ++ c) ip port).2 with
        | some e => rfl
        | none => exact hrec _
      · rw [if_neg ha, if_neg ha]
        exact hrec _

theorem dataFrom_eq (h : UdpHeader) (cs : List (List Byte)) : ∀ i, dataFrom h i cs =
    cs.mapIdx (fun j c => Verif.Hdr.encode (frameHeader h (i + j) (j + 1 == cs.length)) ++ c) := by
  induction cs with
  | nil => intro i; rfl
  | cons c cs ih =>
    intro i
    rw [dataFrom, ih, List.mapIdx_cons]
    congr 1
    · cases cs <;> rfl
    · congr 1
      funext j c'
      have h1 : i + 1 + j = i + (j + 1) := by omega
      have h2 : (j + 1 == cs.length) = (j + 1 + 1 == (c :: cs).length) := by
        simp
      rw [h1, h2]

theorem fullCount_le (n : Nat) (cs : List (List Byte)) : n * fullCount n cs ≤ cs.flatten.length := by
  induction cs with
  | nil => simp [fullCount]
  | cons c cs ih =>
    unfold fullCount at *
    simp only [List.filter_cons, List.flatten_cons, List.length_append]
    split
    · rename_i hc
      simp only [beq_iff_eq] at hc
      simp only [List.length_cons, Nat.mul_add, Nat.mul_one]
      omega
    · omega

theorem length_le_flatten (cs : List (List Byte)) (h : ∀ c ∈ cs, c ≠ []) : cs.length ≤ cs.flatten.length := by
  induction cs with
  | nil => simp
  | cons c cs ih =>
    have h1 : c.length ≠ 0 := by have := h c (by simp); simpa using this
    have := ih (fun c hc => h c (by simp [hc]))
    simp only [List.length_cons, List.flatten_cons, List.length_append]
    omega

theorem destinationAddress_toIp (h : UdpHeader) : (destinationAddress h).toIp = BitVec.ofNat 32 (destinationIp h) := by
  apply BitVec.eq_of_toNat_eq
  rw [BitVec.toNat_ofNat]
  cases h with
  | message h =>
    have := h.subject.isLt
    simp only [destinationAddress, destinationIp, C39_subject_address]
    omega
  | request h =>
    have := h.destination.val.isLt
    simp only [destinationAddress, destinationIp, C39_node_address]
    omega
  | response h =>
    have := h.destination.val.isLt
    simp only [destinationAddress, destinationIp, C39_node_address]
    omega

/-- **C33.** `push` sends, in order, to the address of the subject or of the destination node, the datagrams made from the
pieces of the payload with its CRC. The indices count from 0, only the last datagram is marked as last, none is longer than the
MTU, and all but the last are exactly as long as the MTU. The only limit is the index field: fewer than 2^31 full datagrams. -/
theorem C33_segmentation (mtu : Nat) (hm : 24 < mtu) (t : UdpTransfer) (hsize : (t.payload.length + 4) / (mtu - 24) < 2 ^ 31) :
    ∃ chunks, Pieces mtu t chunks ∧ ∀ {σ E : Type} (env : Env σ E) (port : BitVec 16) (s : σ),
      push env mtu port t s =
        some (sendAll env t.header.timestamp (BitVec.ofNat 32 (destinationIp t.header)) port (datagrams t.header chunks) s) := by
  let data := addCrc Verif.Crc.crc32Init t.payload
  have hdata : data = t.payload ++ Verif.Crc.le32 (Verif.Crc.crc32c t.payload) := addCrc_eq _ _
  have hlen : data.length = t.payload.length + 4 := by rw [hdata]; simp [Verif.Crc.le32]
  have hmem := pieces_mem (mtu - 24) data [] (by simp; omega)
  have hfl := pieces_flatten (mtu - 24) data []
  refine ⟨pieces (mtu - 24) [] data, ⟨?_, ?_, ?_, ?_⟩, ?_⟩
  · rw [hfl, hdata]; rfl
  · intro c hc; exact (hmem c hc).1
  · intro c hc; have := (hmem c hc).2; omega
  · intro c hc
    have := pieces_full (mtu - 24) data [] (by simp; omega) c hc
    omega
  · intro σ E env port s
    rw [← destinationAddress_toIp]
    unfold push
    have hcount : fullCount (mtu - 24) (pieces (mtu - 24) [] data) < 2 ^ 31 := by
      have h1 := fullCount_le (mtu - 24) (pieces (mtu - 24) [] data)
      rw [hfl] at h1
      simp only [List.nil_append] at h1
      rw [hlen, Nat.mul_comm] at h1
      have h2 := (Nat.le_div_iff_mul_le (by omega : 0 < mtu - 24)).mpr h1
      omega
    have hl := length_le_flatten (pieces (mtu - 24) [] data) (fun c hc => (hmem c hc).1)
    rw [hfl] at hl
    simp only [List.nil_append] at hl
    have := sendFrames_eq env t.header (destinationAddress t.header).toIp port (t.payload.length + 6)
      (Breakdown.new (headerBase t.header) t.header.timestamp t.payload mtu) (pieces (mtu - 24) [] data) 0 s hm
      ⟨fun _ => ⟨rfl, rfl⟩, fun h => by cases h⟩ rfl (fun _ => rfl)
      (fun _ => by simpa [Breakdown.new] using hcount) (by omega)
    dsimp only
    rw [this, dataFrom_eq]
    simp only [Nat.zero_add]
    rfl

/-- A clock that always shows 9 and a socket that records what is sent. -/
def recording : Env (List (List Byte × BitVec 32 × BitVec 16)) Empty := { now := fun s => (s, 9#32), sendTo := fun s d ip port => (s ++ [(d, ip, port)], none) }

example : 24 < 32 ∧ ((demo 10).payload.length + 4) / (32 - 24) < 2 ^ 31 ∧
    (push recording 32 9382#16 (demo 10) []).map (fun p => (p.1.map (fun d => (d.1.length, d.2)))) =
      some [(32, 0xef001d55#32, 9382#16), (30, 0xef001d55#32, 9382#16)] := by decide +kernel

theorem pieces_total {mtu : Nat} {t : UdpTransfer} {chunks : List (List Byte)} (hp : Pieces mtu t chunks) :
    ∃ last, chunks = chunks.dropLast ++ [last] ∧ 0 < last.length ∧ 24 + last.length ≤ mtu ∧
      t.payload.length + 4 = (chunks.length - 1) * (mtu - 24) + last.length := by
  have hne : chunks ≠ [] := by
    intro h
    have := hp.whole
    rw [h] at this
    simp [Verif.Crc.le32] at this
  have hcc := (List.dropLast_concat_getLast hne).symm
  generalize chunks.getLast hne = last at hcc
  have hlast : last ∈ chunks := by rw [hcc]; simp
  have h1 := hp.nonempty last hlast
  have h2 := hp.fits last hlast
  refine ⟨last, hcc, by cases last with | nil => exact absurd rfl h1 | cons => simp, h2, ?_⟩
  have hw := congrArg List.length hp.whole
  rw [hcc] at hw
  simp only [List.flatten_append, List.flatten_cons, List.flatten_nil, List.append_nil, List.length_append] at hw
  have hfull : ∀ (l : List (List Byte)) (n : Nat), (∀ c ∈ l, c.length = n) → l.flatten.length = l.length * n := by
    intro l n
    induction l with
    | nil => intro _; simp
    | cons c l ih =>
      intro h
      rw [List.flatten_cons, List.length_append, ih (fun c hc => h c (by simp [hc])), h c (by simp), List.length_cons,
        Nat.add_mul, Nat.one_mul, Nat.add_comm]
  rw [hfull chunks.dropLast (mtu - 24) (fun c hc => by have := hp.full c hc; omega)] at hw
  simp only [List.length_dropLast, Verif.Crc.le32, List.length_cons, List.length_nil] at hw
  omega

/-- **C33**, how many datagrams there are: the data (payload and CRC) divided by the room in a datagram, rounded up. -/
theorem C33_count {mtu : Nat} (hm : 24 < mtu) {t : UdpTransfer} {chunks : List (List Byte)} (hp : Pieces mtu t chunks) :
    chunks.length = (t.payload.length + 4 + (mtu - 24) - 1) / (mtu - 24) := by
  obtain ⟨last, hcc, hpos, hle, htot⟩ := pieces_total hp
  have hl := congrArg List.length hcc
  simp only [List.length_append, List.length_cons, List.length_nil] at hl
  have h0 : 0 < chunks.length := by omega
  symm
  apply Nat.div_eq_of_lt_le
  · rw [htot]
    have : chunks.length * (mtu - 24) = (chunks.length - 1) * (mtu - 24) + (mtu - 24) := by
      rw [← Nat.add_one_mul]; congr 1; omega
    omega
  · rw [htot, Nat.add_one_mul]
    have : chunks.length * (mtu - 24) = (chunks.length - 1) * (mtu - 24) + (mtu - 24) := by
      rw [← Nat.add_one_mul]; congr 1; omega
    omega

/-- **C33**, what the MTU that the transmitter reports means: a transfer is sent in one datagram exactly if its payload is not longer. -/
theorem C33_single_iff {mtu : Nat} (hm : 28 < mtu) {t : UdpTransfer} {chunks : List (List Byte)} (hp : Pieces mtu t chunks) :
    chunks.length = 1 ↔ t.payload.length ≤ transmitterMtu mtu := by
  obtain ⟨last, hcc, hpos, hle, htot⟩ := pieces_total hp
  have hl := congrArg List.length hcc
  simp only [List.length_append, List.length_cons, List.length_nil] at hl
  have hsize : Verif.Hdr.size = 24 := rfl
  unfold transmitterMtu transferCrcSize
  rw [hsize]
  constructor
  · intro h
    rw [h] at htot
    omega
  · intro h
    by_cases h1 : chunks.length = 1
    · exact h1
    · exfalso
      have : mtu - 24 ≤ (chunks.length - 1) * (mtu - 24) := Nat.le_mul_of_pos_left _ (by omega)
      omega

example : Pieces 32 (demo 10) (demoChunks 32 10) ∧ (demoChunks 32 10).length = 2 ∧ Pieces 32 (demo 4) (demoChunks 32 4) ∧ (demoChunks 32 4).length = 1 := by
  refine ⟨demo_pieces 32 10 ?_, ?_, demo_pieces 32 4 ?_, ?_⟩ <;> decide +kernel

end Verif.Udp
