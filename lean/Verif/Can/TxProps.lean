import Verif.Can.TxLemmas
import Verif.Can.IdProps

/-! Properties of the CAN transmitter: C05 (segmentation). -/

namespace Verif.Can

open Verif.Crc (crc16 be16)

theorem flatMap_body_length (m : Nat) (es : List (List Byte)) (h : ∀ e ∈ es, e.length = m) :
    (es.flatMap (fun e => e.take (e.length - 1))).length = es.length * (m - 1) := by
  induction es with
  | nil => simp
  | cons e es ih =>
    simp only [List.flatMap_cons, List.length_append, List.length_take, List.length_cons]
    rw [ih (fun e he => h e (List.mem_cons_of_mem _ he)), h e (List.mem_cons_self ..), Nat.add_mul]
    omega

/-- **C05.** For every transfer, every MTU the library offers and every driver, `push` does not panic (unless the driver does),
and it is the same as reserving space for and then handing over, in order, one list of frames that only depends on the transfer and the MTU. That
list is a correct segmentation: legal lengths within the MTU, flags, toggle bits, transfer IDs, payload and CRC as the
protocol asks for; and the number of frames reserved is the number of frames sent. -/
theorem C05_segmentation (cap mtu : Nat) (transfer : CanTransfer) (hm : 1 < mtu) (hl : LegalLength mtu)
    (hcap : mtu ≤ cap) :
    ∃ id padding fs, makeCanId transfer.header transfer.payload = some id ∧ Segmentation mtu transfer id padding fs ∧
      ∀ {σ E : Type} (d : TxDriver σ E) (s : σ), pushInner d cap mtu transfer s = reserveAndTransmit d fs s := by
  have hm64 : mtu ≤ 64 := by
    unfold LegalLength at hl
    simp only [List.mem_cons, List.not_mem_nil, or_false] at hl
    omega
  obtain ⟨id, hid, -⟩ := C04_can_id_roundtrip transfer.header transfer.payload
  obtain ⟨k, last, pad, hstats, hlen, hlast1, hlast2, hfit, hlegal, hmin⟩ :=
    frameStats_spec transfer.payload.length mtu hm hm64 hl
  let mk' : List Byte → Frame := fun data =>
    { timestamp := transfer.header.timestamp, id, loopback := transfer.loopback, data }
  have hmk : ∀ e, e.length ≤ mtu →
      Frame.make cap transfer.header.timestamp id transfer.loopback e = some (mk' e) := by
    intro e he
    unfold Frame.make
    rw [if_pos (by omega)]
  generalize hp : transfer.payload ++ List.replicate pad 0#8 = padded
  have hplen : padded.length = transfer.payload.length + pad := by rw [← hp]; simp
  obtain ⟨es1, b1, hp1, hl1⟩ := pushBytes_eq hm hm64 _ mk' hmk padded
    (progress_new mtu transfer.header.transferId)
  simp only [List.nil_append] at hp1
  have hc1 : padded.length = es1.length * (mtu - 1) + b1.frame.length := by
    have := congrArg List.length hp1.content
    rw [List.length_append, flatMap_body_length mtu es1 hp1.full] at this
    omega
  have hsh1 := hp1.short
  -- whether there is more than one frame
  have hk0 : k = 0 ↔ transfer.payload.length ≤ mtu - 1 := by
    constructor
    · intro h
      subst h
      split at hlen
      · assumption
      · omega
    · intro h
      rw [if_pos h] at hlen
      rcases Nat.eq_zero_or_pos k with hk | hk
      · exact hk
      · have h2 := hlast2 (by omega)
        have : 1 * (mtu - 1) ≤ k * (mtu - 1) := Nat.mul_le_mul_right _ hk
        omega
  have hes1 : es1.length = 0 ↔ k = 0 := by
    rw [hk0]
    constructor
    · intro h
      rw [h] at hc1
      omega
    · intro h
      rw [if_pos h] at hlen
      rw [hk0.mpr h] at hlen
      rcases Nat.eq_zero_or_pos es1.length with hk | hk
      · exact hk
      · have h2 : 0 < b1.frame.length := by
          apply List.length_pos_iff.mpr
          apply hp1.pending
          intro hc; rw [hc] at hk; simp at hk
        have : 1 * (mtu - 1) ≤ es1.length * (mtu - 1) := Nat.mul_le_mul_right _ hk
        omega
  generalize hcrc : (if es1.length ≠ 0 then crcBytes (Verif.Crc.digestBytes16 Verif.Crc.crc16Init padded) else []) = tailBytes
  obtain ⟨es2, b2, hp2, hl2⟩ := pushBytes_eq hm hm64 _ mk' hmk tailBytes hp1
  have htlen : tailBytes.length = if transfer.payload.length ≤ mtu - 1 then 0 else 2 := by
    rw [← hcrc]
    by_cases h : transfer.payload.length ≤ mtu - 1
    · rw [if_neg (by rw [ne_eq, Decidable.not_not, hes1, hk0]; exact h), if_pos h]; rfl
    · rw [if_pos (by rw [ne_eq, hes1, hk0]; exact h), if_neg h]; rfl
  have hc2 : transfer.payload.length + pad + tailBytes.length = (es1 ++ es2).length * (mtu - 1) + b2.frame.length := by
    have := congrArg List.length hp2.content
    rw [List.length_append, flatMap_body_length mtu _ hp2.full, List.length_append (as := padded), hplen] at this
    omega
  have hsh2 := hp2.short
  have hcount : (es1 ++ es2).length = k ∧ b2.frame.length = last - 1 + pad := by
    rw [htlen] at hc2
    have hpend : (es1 ++ es2).length ≠ 0 → 1 ≤ b2.frame.length := by
      intro h
      apply List.length_pos_iff.mpr
      apply hp2.pending
      intro hc; rw [hc] at h; simp at h
    generalize (es1 ++ es2).length = n at *
    have he : n * (mtu - 1) + b2.frame.length = k * (mtu - 1) + (last - 1 + pad) := by omega
    have hnk : n = k := by
      rcases Nat.lt_trichotomy n k with h | h | h
      · have : (n + 1) * (mtu - 1) ≤ k * (mtu - 1) := Nat.mul_le_mul_right _ h
        rw [Nat.add_mul] at this
        have := hlast2 (by omega)
        omega
      · exact h
      · have : (k + 1) * (mtu - 1) ≤ n * (mtu - 1) := Nat.mul_le_mul_right _ h
        rw [Nat.add_mul] at this
        have := hpend (by omega)
        omega
    subst hnk
    exact ⟨rfl, by omega⟩
  obtain ⟨hn, hb2⟩ := hcount
  have hfin : b2.finish = some (b2.frame ++ [makeTailByte b2.start true b2.toggle b2.transferId]) := by
    unfold Breakdown.finish push64
    rw [if_pos (by omega)]
  generalize hfd : b2.frame ++ [makeTailByte b2.start true b2.toggle b2.transferId] = final at hfin
  have hfl : final.length = last + pad := by rw [← hfd]; simp; omega
  have hfslen : ((es1 ++ es2).map mk' ++ [mk' final]).length = k + 1 := by
    rw [List.length_append, List.length_map, hn]; rfl
  refine ⟨id, pad, (es1 ++ es2).map mk' ++ [mk' final], hid, ?_, ?_⟩
  · constructor
    · simp
    · intro f hf
      rcases List.mem_append.mp hf with hf | hf
      · obtain ⟨e, -, rfl⟩ := List.mem_map.mp hf
        exact ⟨rfl, rfl, rfl⟩
      · simp only [List.mem_singleton] at hf
        subst hf
        exact ⟨rfl, rfl, rfl⟩
    · intro f hf
      rcases List.mem_append.mp hf with hf | hf
      · obtain ⟨e, he, rfl⟩ := List.mem_map.mp hf
        have := hp2.full e he
        simp only [mk', this]
        exact ⟨Nat.le_refl _, hl⟩
      · simp only [List.mem_singleton] at hf
        subst hf
        simp only [mk', hfl]
        exact ⟨by omega, hlegal⟩
    · intro i hi
      rw [hfslen] at hi
      have hi' : i < ((es1 ++ es2).map mk').length := by rw [List.length_map, hn]; omega
      rw [List.getElem_append_left hi', List.getElem_map]
      exact hp2.full _ (List.getElem_mem _)
    · intro i hi
      have hi0 := hi
      rw [hfslen] at hi0
      by_cases h1 : i < k
      · have hi' : i < ((es1 ++ es2).map mk').length := by rw [List.length_map, hn]; omega
        rw [List.getElem_append_left hi', List.getElem_map]
        refine ⟨_, hp2.tails i (by rw [hn]; exact h1), ?_⟩
        rw [parse_makeTailByte, hfslen]
        have : ¬ i + 1 = k + 1 := by omega
        rw [decide_eq_false this]
      · have hik : i = k := by omega
        have hmap : ((es1 ++ es2).map mk').length = k := by rw [List.length_map, hn]
        rw [List.getElem_append_right (by omega)]
        simp only [List.getElem_singleton]
        refine ⟨makeTailByte b2.start true b2.toggle b2.transferId, ?_, ?_⟩
        · simp only [mk', ← hfd]; simp
        · rw [parse_makeTailByte, hfslen, hp2.start, hp2.toggle, hp2.htid, hn, hik]
          simp
    · rw [List.flatMap_append]
      have e1 : ((es1 ++ es2).map mk').flatMap Frame.body =
          (es1 ++ es2).flatMap (fun e => e.take (e.length - 1)) := by
        rw [List.flatMap_map]; rfl
      have e2 : [mk' final].flatMap Frame.body = b2.frame := by
        simp only [List.flatMap_cons, List.flatMap_nil, List.append_nil, Frame.body, mk', ← hfd]
        simp
      rw [e1, e2, hp2.content, hp]
      congr 1
      rw [hfslen, ← hcrc]
      by_cases h : k = 0
      · rw [if_neg (by rw [ne_eq, Decidable.not_not, hes1]; exact h), if_pos (by omega)]
      · rw [if_pos (by rw [ne_eq, hes1]; exact h), if_neg (by omega)]
        rfl
    · rw [hfslen]
      omega
    · intro f hf
      rw [List.getLast?_concat] at hf
      cases hf
      simp only [mk', hfl]
      refine ⟨by omega, ?_⟩
      intro n hn hle
      exact hmin n hn (by omega)
  · intro σ E d s
    unfold pushInner reserveAndTransmit
    rw [hstats, hfslen]
    simp only
    cases hr : d.tryReserve s (k + 1) with
    | none => rfl
    | some p =>
      obtain ⟨s1, ok⟩ := p
      cases ok with
      | false => rfl
      | true =>
        simp only [hid, hp, hl1]
        rw [List.map_append, List.append_assoc, pushBytes_append_transmit]
        cases ht1 : transmitAll d (es1.map mk') s1 with
        | none => rfl
        | some p =>
          obtain ⟨s2, r1⟩ := p
          cases r1 with
          | ok =>
            simp only [loopResult_ok]
            rw [Nat.zero_add, hcrc, hl2, pushBytes_append_transmit]
            cases ht2 : transmitAll d (es2.map mk') s2 with
            | none => rfl
            | some p =>
              obtain ⟨s3, r2⟩ := p
              cases r2 with
              | ok =>
                simp only [loopResult_ok, hfin, pushFrame, hmk final (by omega), transmitAll]
                cases d.transmit s3 (mk' final) with
                | none => rfl
                | some p => obtain ⟨s4, r⟩ := p; cases r <;> rfl
              | memory => rfl
              | wouldBlock => rfl
              | driver e => rfl
          | memory => rfl
          | wouldBlock => rfl
          | driver e => rfl

/-- The two MTUs that exist (`Mtu`, `canadensis_can/src/data.rs` L53-59) meet the hypotheses. -/
example : (1 < 8 ∧ LegalLength 8) ∧ (1 < 64 ∧ LegalLength 64) := by decide

/-- A driver that records the frames, for examples. -/
def recorder : TxDriver (List Frame × Nat) Empty where
  tryReserve s n := some ((s.1, n), true)
  transmit s f := some ((s.1 ++ [f], s.2), .ok none)

/-- A 7-byte and an 8-byte payload over classic CAN. -/
def demoTransfer (n : Nat) : CanTransfer :=
  { header := .message { timestamp := 9#32, transferId := 3#5, priority := 4#3, subject := 100#13, source := some 9#7 }
    loopback := false, payload := (List.range n).map (fun i => BitVec.ofNat 8 (i + 1)) }

example : (pushInner recorder 8 8 (demoTransfer 7) ([], 0)).map (fun p => (p.1.1.map Frame.data, p.1.2)) =
    some ([[1#8, 2#8, 3#8, 4#8, 5#8, 6#8, 7#8, 0xe3#8]], 1) := by decide +kernel
example : (pushInner recorder 8 8 (demoTransfer 8) ([], 0)).map (fun p => (p.1.1.map Frame.data, p.1.2)) =
    some ([[1#8, 2#8, 3#8, 4#8, 5#8, 6#8, 7#8, 0xa3#8], [8#8, 0x47#8, 0x92#8, 0x43#8]], 2) := by decide +kernel
/-- Over CAN FD, 8 bytes need 12 bytes with 3 bytes of padding, and 70 bytes need two frames. -/
example : (pushInner recorder 64 64 (demoTransfer 8) ([], 0)).map (fun p => (p.1.1.map Frame.data, p.1.2)) =
    some ([[1#8, 2#8, 3#8, 4#8, 5#8, 6#8, 7#8, 8#8, 0#8, 0#8, 0#8, 0xe3#8]], 1) := by decide +kernel
example : (pushInner recorder 64 64 (demoTransfer 70) ([], 0)).map (fun p => (p.1.1.map (fun f => f.data.length), p.1.2)) =
    some ([64, 12], 2) := by decide +kernel

end Verif.Can
