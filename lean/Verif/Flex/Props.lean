import Verif.Flex.Lemmas

/-!
Properties of the driver for the FlexCAN peripheral (C118, C119, C120).
-/

namespace Verif.Flex

open Verif.Can

/-! ### C118: contents of a message buffer and the order of arbitration -/

/-- C118: a header that is written to a message buffer is read back as it was. -/
theorem C118_header {N : Nat} (mb : Message N) (h : Header) (fits : Fits h) : (mb.writeHeader h).readHeader = h ∧ (mb.writeHeader h).data = mb.data := ⟨fromBits_asBits h fits, rfl⟩

/-- A header in which every field counts. -/
def someHeader : Header := ⟨0xabcd#16, 7#8, true, true, true, 12#8, true, false, true, 0x1abcdef5#32, 5#8⟩

example : Fits someHeader := ⟨by decide, by decide, by decide, by decide⟩
example : (Message.writeHeader (N := 8) ⟨0xffffffff#32, 0xffffffff#32, Vector.replicate 8 0#8⟩ someHeader).controlStatus = 0xac77abcd#32 := by decide
example : (Message.writeHeader (N := 8) ⟨0xffffffff#32, 0xffffffff#32, Vector.replicate 8 0#8⟩ someHeader).id = 0xbabcdef5#32 := by decide

/-- C118: bytes that are written to a message buffer of whole words are in the order of the peripheral, are read back as they were, and leave the header and the other bytes alone. -/
theorem C118_data {N : Nat} (hN : 4 ∣ N) (mb : Message N) (bytes : List Byte) (h : bytes.length ≤ N) :
    ∃ mb', mb.writeData bytes = some mb' ∧ HoldsBytes mb'.data bytes ∧ readBytes mb'.data bytes.length = some bytes ∧ mb'.controlStatus = mb.controlStatus ∧ mb'.id = mb.id ∧
      ∀ j, (∀ k, k < bytes.length → j ≠ place k) → mb'.data[j]? = mb.data[j]? := by
  obtain ⟨w, e1, e2, e3⟩ := writeFrom_spec hN bytes 0 mb.data (by omega)
  have hb : HoldsBytes w bytes := by intro j hj; have := e2 j hj; simpa using this
  refine ⟨{ mb with data := w }, ?_, hb, ?_, rfl, rfl, ?_⟩
  · unfold Message.writeData
    rw [List.take_of_length_le h, e1]
    rfl
  · rw [readBytes_spec hN _ _ h, holds_map _ _ hb]
  · intro j hj
    exact e3 j (by simpa using hj)

example : (Message.writeData (N := 8) ⟨0#32, 0#32, Vector.replicate 8 0xff#8⟩ [1#8, 2#8, 3#8, 4#8, 5#8]).map (·.data) =
    some #v[4#8, 3#8, 2#8, 1#8, 0xff#8, 0xff#8, 0xff#8, 5#8] := by decide

/-- C118: the comparison of two headers is the order of arbitration on the bus. Only the fields that are sent count, and equal means that those are the same. -/
theorem C118_priority (a b : Header) (ha : Fits a) (hb : Fits b) (sa : a.srr = a.ide) (sb : b.srr = b.ide) :
    (a.comparePriority b = .gt ↔ Beats (wire a) (wire b)) ∧ (a.comparePriority b = .lt ↔ Beats (wire b) (wire a)) ∧ (a.comparePriority b = .eq ↔ wire a = wire b) := by
  unfold Header.comparePriority
  rw [arbitration_num a ha.id sa, arbitration_num b hb.id sb]
  have la := padded_length a
  have lb := padded_length b
  refine ⟨?_, ?_, ?_⟩
  · rw [Ordering.swap_eq_gt, Nat.compare_eq_lt, num_lt_iff _ _ (by omega), beats_padded]
  · rw [Ordering.swap_eq_lt, Nat.compare_eq_gt, num_lt_iff _ _ (by omega), beats_padded]
  · rw [Ordering.swap_eq_eq, Nat.compare_eq_eq]
    constructor
    · intro h
      have he := num_inj _ _ (by omega) h
      unfold padded at he
      have hl : (wire a).length = if a.ide then 32 else 13 := by unfold wire; split <;> simp [bitsOf_length]
      have hl' : (wire b).length = if b.ide then 32 else 13 := by unfold wire; split <;> simp [bitsOf_length]
      obtain ⟨pa, za, h1, h2, h3⟩ := wire_head a
      obtain ⟨pb, zb, k1, k2, k3⟩ := wire_head b
      have h12 : (padded a)[12]? = some a.ide := by unfold padded; rw [h1]; cases a.ide <;> simp [h2]
      have k12 : (padded b)[12]? = some b.ide := by unfold padded; rw [k1]; cases b.ide <;> simp [k2]
      have hide : a.ide = b.ide := by
        have : padded a = padded b := he
        rw [this, k12] at h12
        exact (Option.some.inj h12).symm
      rw [hide] at he
      cases hb' : b.ide <;> rw [hb'] at he
      · simpa using he
      · simpa using he
    · intro h
      have hl : (wire a).length = if a.ide then 32 else 13 := by unfold wire; split <;> simp [bitsOf_length]
      have hl' : (wire b).length = if b.ide then 32 else 13 := by unfold wire; split <;> simp [bitsOf_length]
      have hide : a.ide = b.ide := by
        rw [h, hl'] at hl
        cases h1 : a.ide <;> cases h2 : b.ide <;> rw [h1, h2] at hl <;> simp at hl ⊢
      unfold padded
      rw [h, hide]

/-- A standard frame beats the extended frame that begins with the same 11 bits, even as a remote frame. -/
example : (Header.comparePriority ⟨0#16, 0#8, true, false, false, 12#8, false, false, false, 0x123#32, 0#8⟩ ⟨0#16, 0#8, false, true, true, 12#8, false, false, false, 0x048c0000#32, 0#8⟩) = .gt := by decide
example : Fits ⟨0#16, 0#8, false, true, true, 12#8, false, false, false, 0x048c0000#32, 0#8⟩ := ⟨by decide, by decide, by decide, by decide⟩

/-- C118, counterexample: `send` accepts a frame with more than 8 bytes (`Frame` allows up to 64) and drops the bytes after the eighth without an error. Here two frames that differ in the ninth byte leave
the same contents in the buffer. -/
theorem C118_long_frame_counterexample : ∃ f g : FlexFrame, FlexFrame.new (Id.extended 1#32) [1#8, 2#8, 3#8, 4#8, 5#8, 6#8, 7#8, 8#8, 9#8, 0#8, 0#8, 0#8] = some f ∧
    FlexFrame.new (Id.extended 1#32) [1#8, 2#8, 3#8, 4#8, 5#8, 6#8, 7#8, 8#8, 10#8, 0#8, 0#8, 0#8] = some g ∧
    ∀ env fuel, ∃ mb, send env fuel ⟨0#32, 0#32, Vector.replicate 8 0#8⟩ f = (mb, .ok none) ∧ send env fuel ⟨0#32, 0#32, Vector.replicate 8 0#8⟩ g = (mb, .ok none) := by
  refine ⟨_, _, rfl, rfl, fun env fuel => ⟨⟨0x0c690000#32, 1#32, #v[4#8, 3#8, 2#8, 1#8, 8#8, 7#8, 6#8, 5#8]⟩, ?_, ?_⟩⟩
  · unfold send
    rw [if_neg (by decide)]
    decide
  · unfold send
    rw [if_neg (by decide)]
    decide

/-! ### C119: memory of the message buffers -/

/-- C119: message buffers of the same size (for 8, 16, 32 or 64 bytes) with different numbers do not overlap, and none crosses the end of a block of 512 bytes. -/
theorem C119_disjoint (size : Nat) (hs : size ∈ [16, 24, 40, 72]) (i j : Nat) : ∃ a b c d, bufferSpace i size = some (a, b) ∧ bufferSpace j size = some (c, d) ∧ b = a + size ∧
    (i < j → b ≤ c) ∧ ∃ block, 0x80 + 512 * block ≤ a ∧ b ≤ 0x80 + 512 * (block + 1) := by
  simp only [List.mem_cons, List.not_mem_nil, or_false] at hs
  rcases hs with rfl | rfl | rfl | rfl
  all_goals
    refine ⟨_, _, _, _, by unfold bufferSpace; rw [if_neg (by decide)], by unfold bufferSpace; rw [if_neg (by decide)], rfl, ?_, ⟨_, Nat.le_add_right _ _, ?_⟩⟩
    · simp only [Nat.reduceDiv]; omega
    · simp only [Nat.reduceDiv]; omega

example : bufferSpace 20 24 = some (0x260, 0x278) ∧ bufferSpace 21 24 = some (0x280, 0x298) := by decide

/-- C119: within one block the FIFO with `filters` filters overlaps exactly the buffers for 8 bytes with the numbers below 6 plus a quarter of the filters, rounded up. -/
theorem C119_fifo (filters i : Nat) : ∃ a b, bufferSpace i 16 = some (a, b) ∧ ((a < (fifoSpace filters).2 ∧ (fifoSpace filters).1 < b) ↔ i < 6 + (filters + 3) / 4) := by
  refine ⟨_, _, by unfold bufferSpace; rw [if_neg (by decide)], ?_⟩
  simp only [Nat.reduceDiv, fifoSpace]
  omega

/-- C119: the buffer that `send` uses is outside the FIFO if and only if there are at most 8 filters. -/
theorem C119_send_buffer (filters : Nat) : ∃ a b, bufferSpace 8 16 = some (a, b) ∧ ((fifoSpace filters).2 ≤ a ↔ filters ≤ 8) := by
  refine ⟨0x100, 0x110, rfl, ?_⟩
  simp only [fifoSpace]
  omega

example : bufferSpace 8 16 = some (0x100, 0x110) ∧ fifoSpace 8 = (0x80, 0x100) := by decide

/-! ### C120: transmitting and receiving -/

/-- C120: a frame is taken when the buffer is free. It is refused, and nothing changes, when the buffer holds a frame with the same ID or a lower one. -/
theorem C120_transmit (env : SendEnv) (fuel : Nat) (mb : Message 8) (frame : Frame) (hc : Classic frame) :
    (field mb.controlStatus 24 4 ≠ 12 → ∃ mb', transmit env fuel mb frame = some (mb', some (.ok none)) ∧ HoldsFrame mb' frame.id frame.data) ∧
    (∀ id bytes, HoldsFrame mb id bytes → id.toNat ≤ frame.id.toNat → transmit env fuel mb frame = some (mb, some .wouldBlock)) :=
  ⟨transmit_free env fuel mb frame hc, fun id bytes h hle => transmit_busy env fuel mb frame hc id bytes h hle⟩

/-- The buffer after the memory was filled with zeros. -/
def zeroBuffer : Message 8 := ⟨0#32, 0#32, Vector.replicate 8 0#8⟩

/-- A buffer with a frame. -/
def fullBuffer : Message 8 := ⟨0x0c630000#32, 0x107d5529#32, #v[0#8, 3#8, 2#8, 1#8, 0#8, 0#8, 0#8, 0#8]⟩

def lowFrame : Frame := ⟨5#32, 0x00000001#32, false, [7#8, 8#8]⟩
def highFrame : Frame := ⟨5#32, 0x107d552a#32, false, [9#8]⟩

example : Classic lowFrame ∧ Classic highFrame ∧ field zeroBuffer.controlStatus 24 4 ≠ 12 := ⟨⟨by decide, by decide⟩, ⟨by decide, by decide⟩, by decide⟩

theorem fullBuffer_holds : HoldsFrame fullBuffer 0x107d5529#32 [1#8, 2#8, 3#8] :=
  ⟨by decide, by decide, by decide, by decide, by decide, by decide, by decide, by
    intro i hi
    match i, hi with
    | 0, _ => rfl
    | 1, _ => rfl
    | 2, _ => rfl⟩

example : transmit ⟨fun _ => false, 0#8⟩ 0 fullBuffer highFrame = some (fullBuffer, some .wouldBlock) :=
  (C120_transmit _ _ _ _ ⟨by decide, by decide⟩).2 _ _ fullBuffer_holds (by decide)

/-- C120, partial: when the buffer holds a frame with a higher ID and the interrupt flag is clear at the first look, the new frame replaces it. The old frame is handed back with its ID and data if the code
that is read is `ABORT`. Missing: its time stamp (it becomes 0), and any waiting for the outcome (see the counterexamples). -/
theorem C120_replace_partial (env : SendEnv) (fuel : Nat) (mb : Message 8) (frame : Frame) (hc : Classic frame) (id : BitVec 32) (bytes : List Byte) (h : HoldsFrame mb id bytes)
    (hlt : frame.id.toNat < id.toNat) (hflag : env.flag 0 = false) : ∃ mb', HoldsFrame mb' frame.id frame.data ∧
      transmit env (fuel + 1) mb frame = some (mb', some (.ok (if env.code = 9#8 then some ⟨0#32, id, false, bytes⟩ else none))) :=
  (transmit_replace env (fuel + 1) mb frame hc id bytes h hlt).2 (by rw [waits, hflag]; rfl)

example : ∃ mb', transmit ⟨fun _ => false, 9#8⟩ 1 fullBuffer lowFrame = some (mb', some (.ok (some ⟨0#32, 0x107d5529#32, false, [1#8, 2#8, 3#8]⟩))) := by
  obtain ⟨mb', _, e⟩ := C120_replace_partial ⟨fun _ => false, 9#8⟩ 0 fullBuffer lowFrame ⟨by decide, by decide⟩ _ _ fullBuffer_holds (by decide) rfl
  exact ⟨mb', e⟩

/-- C120, counterexample: the loop that should wait until the flag is set waits while it is set. Once the peripheral has set the flag, as it does when it has aborted or sent the frame, nothing clears it and
the driver never returns. -/
theorem C120_waits_forever_counterexample (env : SendEnv) (mb : Message 8) (frame : Frame) (hc : Classic frame) (id : BitVec 32) (bytes : List Byte) (h : HoldsFrame mb id bytes)
    (hlt : frame.id.toNat < id.toNat) (hset : env.flag 0 = true) (hstays : ∀ n, env.flag n = true → env.flag (n + 1) = true) : ∀ fuel, ∃ mb', transmit env fuel mb frame = some (mb', none) := by
  have hall : ∀ n, env.flag n = true := by
    intro n
    induction n with
    | zero => exact hset
    | succ n ih => exact hstays n ih
  exact fun fuel => (transmit_replace env fuel mb frame hc id bytes h hlt).1 (waits_true _ hall fuel 0)

example : ∀ fuel, ∃ mb', transmit ⟨fun _ => true, 9#8⟩ fuel fullBuffer lowFrame = some (mb', none) :=
  C120_waits_forever_counterexample ⟨fun _ => true, 9#8⟩ fullBuffer lowFrame ⟨by decide, by decide⟩ _ _ fullBuffer_holds (by decide) rfl (fun _ _ => rfl)

/-- C120, counterexample: the driver does not wait for the outcome. With the flag clear at the first look, which is before the peripheral has decided, it returns after one look and hands the old frame back;
what the flag does later makes no difference. -/
theorem C120_does_not_wait_counterexample : ∃ mb', ∀ env : SendEnv, env.flag 0 = false → env.code = 9#8 →
    transmit env 1 fullBuffer lowFrame = some (mb', some (.ok (some ⟨0#32, 0x107d5529#32, false, [1#8, 2#8, 3#8]⟩))) := by
  obtain ⟨mb', _, e⟩ := C120_replace_partial ⟨fun _ => false, 9#8⟩ 0 fullBuffer lowFrame ⟨by decide, by decide⟩ _ _ fullBuffer_holds (by decide) rfl
  refine ⟨mb', fun env h1 h2 => ?_⟩
  have e' : transmit ⟨fun _ => false, 9#8⟩ 1 fullBuffer lowFrame = some (mb', some (.ok (some ⟨0#32, 0x107d5529#32, false, [1#8, 2#8, 3#8]⟩))) := e
  rw [← e']
  have hs : ∀ f, send env 1 fullBuffer f = send ⟨fun _ => false, 9#8⟩ 1 fullBuffer f := by
    intro f
    unfold send waits
    rw [h1, h2]
    simp only [Bool.false_eq_true, if_false]
  unfold transmit
  simp only [hs]

/-- C120, partial: over any sequence of transmissions and completions, with any answers of the peripheral, every frame that the driver took has gone over the bus, was handed back, or is in the buffer; each
exactly once. Missing: that the code read back tells the truth, since the driver does not wait for the outcome; and executions in which it does not return. -/
theorem C120_ledger_partial (ops : List Op) (hc : ∀ f env fuel, Op.transmit f env fuel ∈ ops → Classic f) (mb mb' : Message 8) (es : List Event) (hmb : field mb.controlStatus 24 4 ≠ 12)
    (h : runOps mb ops = some (mb', es)) : (taken es).Perm (onBus es ++ (handedBack es ++ inBuffer mb')) := by
  have := (run_ledger ops mb mb' es (fun k => absurd k hmb) hc h).2
  have hb : inBuffer mb = [] := by unfold inBuffer; rw [if_neg hmb]
  rwa [hb, List.nil_append] at this

/-- Three frames: the second displaces the first, the third finds the buffer free. -/
def someOps : List Op := [.transmit highFrame ⟨fun _ => false, 9#8⟩ 1, .transmit lowFrame ⟨fun _ => false, 9#8⟩ 1, .complete, .transmit highFrame ⟨fun _ => false, 9#8⟩ 1]

example : (runOps zeroBuffer someOps).map (·.2) = some [.taken (0x107d552a#32, [9#8]), .handedBack (0x107d552a#32, [9#8]), .taken (1#32, [7#8, 8#8]), .onBus (1#32, [7#8, 8#8]), .taken (0x107d552a#32, [9#8])] := by
  decide +kernel

/-- C120, partial: a data frame with an extended ID and up to 8 bytes is received with its ID and data. Missing: longer length codes and remote frames, see the counterexamples. -/
theorem C120_receive_partial (now : Instant) (fifo : Fifo) (id : BitVec 32) (bytes : List Byte) (h : Shows fifo id bytes.length false) (hb : HoldsBytes fifo.data bytes) :
    driverReceive now (some fifo) = some (some ⟨now, id, false, bytes⟩) := by
  have hl := holds_length (by decide) fifo.data bytes hb
  have hi : id.toNat < 2 ^ 29 := by rw [← h.id]; exact Nat.mod_lt _ (by decide)
  have hid : bitAt fifo.flags 21 = true := by rw [bitAt_eq, h.ide]; rfl
  unfold driverReceive
  dsimp only
  rw [receive_data fifo h.rtr (Id.extended id) (by rw [hid, and29 _ _ h.id]; rfl) bytes h.dlc hb, new_small _ _ hl]
  simp only [extended_isExtended, if_true, toFrame_spec now id hi bytes _ hl, Option.map_some]

/-- A frame with three bytes in the FIFO. -/
def someFifo : Fifo := ⟨0x00631234#32, 0x107d5529#32, #v[0#8, 3#8, 2#8, 1#8, 0#8, 0#8, 0#8, 0#8]⟩

example : driverReceive 77#32 (some someFifo) = some (some ⟨77#32, 0x107d5529#32, false, [1#8, 2#8, 3#8]⟩) :=
  C120_receive_partial _ _ _ [1#8, 2#8, 3#8] ⟨by decide, by decide, by decide, by decide⟩ fullBuffer_holds.bytes

/-- C120: a frame with a standard ID and a length code up to 8 is ignored. -/
theorem C120_standard (now : Instant) (fifo : Fifo) (h : field fifo.flags 21 1 = 0) (hd : field fifo.flags 16 4 ≤ 8) : driverReceive now (some fifo) = some none := by
  have hid : bitAt fifo.flags 21 = false := by rw [bitAt_eq, h]; rfl
  have hn := standard_isExtended ((fifo.id >>> 18).setWidth 16)
  unfold driverReceive
  dsimp only
  by_cases hr : field fifo.flags 20 1 = 1
  · rw [receive_remote fifo hr _ rfl hd]
    simp only [hid, Bool.false_eq_true, if_false, hn]
  · have hr0 : field fifo.flags 20 1 = 0 := by unfold field at hr ⊢; omega
    have hb : HoldsBytes fifo.data ((List.range (field fifo.flags 16 4)).map fun i => fifo.data[place i]?.getD 0#8) := by
      intro i hi
      have hi' : i < field fifo.flags 16 4 := by simpa using hi
      have hp : place i < 8 := by rw [place_lt (by decide)]; omega
      simp [Vector.getElem?_eq_getElem hp]
    rw [receive_data fifo hr0 _ rfl _ (by simp) hb, new_small _ _ (by simpa using hd)]
    simp only [hid, Bool.false_eq_true, if_false, hn]

example : driverReceive 77#32 (some ⟨0x00430000#32, 0x048c0000#32, Vector.replicate 8 1#8⟩) = some none := C120_standard _ _ (by decide) (by decide)

/-- C120, counterexample: classic CAN allows the length codes 9 to 15, which mean 8 bytes. Whatever else is in the FIFO, the driver panics when a frame with such a code is received. -/
theorem C120_length_code_counterexample (now : Instant) (fifo : Fifo) (h : 8 < field fifo.flags 16 4) : driverReceive now (some fifo) = none := by
  unfold driverReceive
  dsimp only
  rw [receive_long fifo h]

example : driverReceive 0#32 (some ⟨0x00690000#32, 0x107d5529#32, Vector.replicate 8 1#8⟩) = none := C120_length_code_counterexample _ _ (by decide)

/-- C120, counterexample: a remote frame, which carries no data, is received as a data frame with as many zeros as its length code says. -/
theorem C120_remote_counterexample (now : Instant) (fifo : Fifo) (id : BitVec 32) (n : Nat) (hn : n ≤ 8) (h : Shows fifo id n true) :
    driverReceive now (some fifo) = some (some ⟨now, id, false, List.replicate n 0#8⟩) := by
  have hi : id.toNat < 2 ^ 29 := by rw [← h.id]; exact Nat.mod_lt _ (by decide)
  have hid : bitAt fifo.flags 21 = true := by rw [bitAt_eq, h.ide]; rfl
  have hd := h.dlc
  unfold driverReceive
  dsimp only
  rw [receive_remote fifo h.rtr (Id.extended id) (by rw [hid, and29 _ _ h.id]; rfl) (by omega)]
  have := toFrame_spec now id hi (List.replicate n 0#8) (List.replicate (64 - n) 0#8) (by simpa using hn) true
  simp only [List.length_replicate, List.replicate_append_replicate, show n + (64 - n) = 64 by omega] at this
  simp only [extended_isExtended, if_true, hd, this, Option.map_some]

example : driverReceive 1#32 (some ⟨0x00720000#32, 0x107d5529#32, Vector.replicate 8 1#8⟩) = some (some ⟨1#32, 0x107d5529#32, false, [0#8, 0#8]⟩) :=
  C120_remote_counterexample _ _ _ 2 (by decide) ⟨by decide, by decide, by decide, by decide⟩

end Verif.Flex
