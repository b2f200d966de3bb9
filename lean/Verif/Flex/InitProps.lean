import Verif.Flex.Init
import Verif.Flex.FilterProps

/-! # C146: the registers hold the configuration, and the buffer for sending is one of it -/

namespace Verif.Flex

/-! ### Specification -/

/-- The jump width in time quanta. -/
def JumpWidth.quanta : JumpWidth → Nat
  | .width1 => 1 | .width2 => 2 | .width3 => 3 | .width4 => 4

/-- The length in time quanta. -/
def SegmentLength.quanta : SegmentLength → Nat
  | .length1 => 1 | .length2 => 2 | .length3 => 3 | .length4 => 4
  | .length5 => 5 | .length6 => 6 | .length7 => 7 | .length8 => 8

/-- The length in time quanta. -/
def Phase2Length.quanta : Phase2Length → Nat
  | .length2 => 2 | .length3 => 3 | .length4 => 4 | .length5 => 5 | .length6 => 6 | .length7 => 7 | .length8 => 8

/-! ### Lemmas -/

theorem getLsbD_writeField (w v : BitVec 32) (n o i : Nat) (hn : n ≤ 32) (hi : i < 32) :
    (writeField w n o v).getLsbD i = if o ≤ i ∧ i < o + n then v.getLsbD (i - o) else w.getLsbD i := by
  unfold writeField
  have hm : ∀ j, (BitVec.allOnes 32 >>> (32 - n)).getLsbD j = decide (j < n) := by
    intro j
    rw [BitVec.getLsbD_ushiftRight, BitVec.getLsbD_allOnes, decide_eq_decide]
    omega
  generalize BitVec.allOnes 32 >>> (32 - n) = m at hm
  rw [BitVec.getLsbD_or, BitVec.getLsbD_and, BitVec.getLsbD_not, BitVec.getLsbD_shiftLeft, BitVec.getLsbD_shiftLeft,
    BitVec.getLsbD_and, hm]
  by_cases h1 : o ≤ i
  · by_cases h2 : i < o + n
    · have h3 : i - o < n := by omega
      simp only [hi, h1, h2, h3, Nat.not_lt.2 h1]
      simp
    · have h3 : ¬i - o < n := by omega
      simp only [hi, h1, h2, h3, Nat.not_lt.2 h1]
      simp
  · simp only [hi, h1, Nat.lt_of_not_le h1]
    simp

theorem getLsbD_writeBit (w : BitVec 32) (o i : Nat) (b : Bool) (hi : i < 32) :
    (writeBit w o b).getLsbD i = if i = o then b else w.getLsbD i := by
  unfold writeBit
  by_cases h1 : i = o
  · subst h1
    cases b <;> simp [hi, ofBool]
  · rcases Nat.lt_or_ge i o with h | h
    · simp [hi, h1, h]
    · have h2 : i - o ≠ 0 := by omega
      simp [hi, h1, Nat.not_lt.2 h, h2]

theorem field_eq {w v : BitVec 32} {o n : Nat}
    (h : ∀ i < n, w.getLsbD (o + i) = v.getLsbD i) (hv : v.toNat < 2 ^ n) : field w o n = v.toNat := by
  unfold field
  rw [← Nat.shiftRight_eq_div_pow]
  apply Nat.eq_of_testBit_eq
  intro i
  rw [Nat.testBit_mod_two_pow, Nat.testBit_shiftRight]
  by_cases hi : i < n
  · simp only [hi, decide_true, Bool.true_and]
    exact h i hi
  · have : v.toNat.testBit i = false :=
      Nat.testBit_lt_two_pow (Nat.lt_of_lt_of_le hv (Nat.pow_le_pow_right (by omega) (by omega)))
    simp [hi, this]

theorem JumpWidth.bits_lt (x : JumpWidth) : x.bits.toNat + 1 = x.quanta := by cases x <;> rfl
theorem SegmentLength.bits_lt (x : SegmentLength) : x.bits.toNat + 1 = x.quanta := by cases x <;> rfl
theorem Phase2Length.bits_lt (x : Phase2Length) : x.bits.toNat + 1 = x.quanta := by cases x <;> rfl

/-! ### C146 -/

/-- **C146**: after setting up, each field of CTRL1 for the timing holds one less than what was asked for (PROPSEG from bit
0, PSEG2 from 16, PSEG1 from 19, RJW from 22, PRESDIV from 24), the clock is that of the peripheral (CLKSRC, bit 13) and
all other bits are zero. -/
theorem C146_timing (t : Timing) :
    field (ctrl1AfterInit t) 24 8 + 1 = t.prescaler.toNat ∧ field (ctrl1AfterInit t) 22 2 + 1 = t.jumpWidth.quanta
    ∧ field (ctrl1AfterInit t) 19 3 + 1 = t.phase1.quanta ∧ field (ctrl1AfterInit t) 16 3 + 1 = t.phase2.quanta
    ∧ field (ctrl1AfterInit t) 0 3 + 1 = t.propagation.quanta
    ∧ (ctrl1AfterInit t).getLsbD 13 = true
    ∧ ∀ i, 3 ≤ i → i < 16 → i ≠ 13 → (ctrl1AfterInit t).getLsbD i = false := by
  have bit : ∀ i < 32, (ctrl1AfterInit t).getLsbD i =
      if i < 3 then t.propagation.bits.getLsbD i
      else if 16 ≤ i ∧ i < 19 then t.phase2.bits.getLsbD (i - 16)
      else if 19 ≤ i ∧ i < 22 then t.phase1.bits.getLsbD (i - 19)
      else if 22 ≤ i ∧ i < 24 then t.jumpWidth.bits.getLsbD (i - 22)
      else if 24 ≤ i then (t.prescaler - 1#8).getLsbD (i - 24)
      else decide (i = 13) := by
    intro i hi
    unfold ctrl1AfterInit
    have wf : ∀ (w v : BitVec 32) (n o : Nat), n ≤ 32 → (writeField w n o v).getLsbD i = if o ≤ i ∧ i < o + n then v.getLsbD (i - o) else w.getLsbD i :=
      fun w v n o hn => getLsbD_writeField w v n o i hn hi
    have sw : ∀ (x : BitVec 8) (k : Nat), k < 32 → (x.setWidth 32).getLsbD k = x.getLsbD k := by
      intro x k hk
      simp [hk]
    rw [wf _ _ 3 0 (by omega), wf _ _ 3 16 (by omega), wf _ _ 3 19 (by omega), wf _ _ 2 22 (by omega), wf _ _ 8 24 (by omega),
      getLsbD_writeBit _ _ _ _ hi, sw _ _ (by omega), sw _ _ (by omega), sw _ _ (by omega), sw _ _ (by omega), sw _ _ (by omega)]
    have e1 : (0 ≤ i ∧ i < 0 + 3) ↔ i < 3 := by omega
    have e2 : (24 ≤ i ∧ i < 24 + 8) ↔ 24 ≤ i := by omega
    simp only [e1, e2, Nat.reduceAdd, Nat.sub_zero]
    by_cases h13 : i = 13 <;> simp [h13]
  have hp := t.jumpWidth.bits_lt
  have get : ∀ (o n : Nat) (x : BitVec 8), o + n ≤ 32 → n ≤ 8 → x.toNat < 2 ^ n → (∀ i < n, (ctrl1AfterInit t).getLsbD (o + i) = x.getLsbD i) →
      field (ctrl1AfterInit t) o n = x.toNat := by
    intro o n x h1 h2 h3 h4
    have hx : (x.setWidth 32).toNat = x.toNat := by
      rw [BitVec.toNat_setWidth, Nat.mod_eq_of_lt (by omega)]
    rw [← hx]
    refine field_eq (fun i hi => ?_) (by rwa [hx])
    rw [h4 i hi]
    simp [show i < 32 by omega]
  refine ⟨?_, ?_, ?_, ?_, ?_, by rw [bit 13 (by omega)]; simp, ?_⟩
  · rw [get 24 8 (t.prescaler - 1#8) (by omega) (by omega) (BitVec.isLt _)]
    · have h0 : t.prescaler.toNat ≠ 0 := fun h => t.nonzero (BitVec.eq_of_toNat_eq h)
      have h1 : (1#8).toNat = 1 := rfl
      have h2 := t.prescaler.isLt
      rw [BitVec.toNat_sub, h1]
      omega
    · intro i hi
      rw [bit _ (by omega), if_neg (by omega), if_neg (by omega), if_neg (by omega), if_neg (by omega), if_pos (by omega), Nat.add_sub_cancel_left]
  · rw [get 22 2 t.jumpWidth.bits (by omega) (by omega) (by cases t.jumpWidth <;> decide), JumpWidth.bits_lt]
    intro i hi
    rw [bit _ (by omega), if_neg (by omega), if_neg (by omega), if_neg (by omega), if_pos (by omega), Nat.add_sub_cancel_left]
  · rw [get 19 3 t.phase1.bits (by omega) (by omega) (by cases t.phase1 <;> decide), SegmentLength.bits_lt]
    intro i hi
    rw [bit _ (by omega), if_neg (by omega), if_neg (by omega), if_pos (by omega), Nat.add_sub_cancel_left]
  · rw [get 16 3 t.phase2.bits (by omega) (by omega) (by cases t.phase2 <;> decide), Phase2Length.bits_lt]
    intro i hi
    rw [bit _ (by omega), if_neg (by omega), if_pos (by omega), Nat.add_sub_cancel_left]
  · rw [get 0 3 t.propagation.bits (by omega) (by omega) (by cases t.propagation <;> decide), SegmentLength.bits_lt]
    intro i hi
    rw [bit _ (by omega), if_pos (by omega), Nat.zero_add]
  · intro i h1 h2 h3
    rw [bit i (by omega), if_neg (by omega), if_neg (by omega), if_neg (by omega), if_neg (by omega), if_neg (by omega), decide_eq_false h3]

/-- A timing of 16 time quanta, of five periods of the clock each. -/
def someTiming : Timing := ⟨5#8, by decide, .width4, .length7, .length4, .length4⟩

example : ctrl1AfterInit someTiming = 0x04db2006#32 := by decide

/-- **C146**: after setting up, FDCTRL holds for each of the four blocks the code of the size of its data (0 to 3 for 8, 16,
32 and 64 bytes; two bits from 16, 19, 22 and 25), with 8 bytes for a block that there is not. -/
theorem C146_sizes (b : Blocks) (i : Nat) (hi : i < 4) :
    8 + 8 * 2 ^ field (fdctrlAfterInit b) (16 + 3 * i) 2 = ((b.bufferSizes[i]?).getD .bytes8).bytes := by
  have code : ∀ s : BufferSize, s.asBits.toNat < 2 ^ 2 ∧ 8 + 8 * 2 ^ s.asBits.toNat = s.bytes := by intro s; cases s <;> decide
  have get : field (fdctrlAfterInit b) (16 + 3 * i) 2 = ((b.bufferSizes[i]?).getD .bytes8).asBits.toNat := by
    refine field_eq (fun k hk => ?_) (code _).1
    have wf : ∀ (w v : BitVec 32) (o : Nat), (writeField w 2 o v).getLsbD (16 + 3 * i + k) =
        if o ≤ 16 + 3 * i + k ∧ 16 + 3 * i + k < o + 2 then v.getLsbD (16 + 3 * i + k - o) else w.getLsbD (16 + 3 * i + k) :=
      fun w v o => getLsbD_writeField w v 2 o _ (by omega) (by omega)
    unfold fdctrlAfterInit
    simp only [wf]
    match i, hi with
    | 0, _ => rw [if_neg (by omega), if_neg (by omega), if_neg (by omega), if_pos (by omega)]; congr 1; omega
    | 1, _ => rw [if_neg (by omega), if_neg (by omega), if_pos (by omega)]; congr 1; omega
    | 2, _ => rw [if_neg (by omega), if_pos (by omega)]; congr 1; omega
    | 3, _ => rw [if_pos (by omega)]; congr 1; omega
  rw [get, (code _).2]

example : fdctrlAfterInit (.three #v[.bytes8, .bytes64, .bytes16]) = 0x80580100#32 := by decide

/-- **C146**: the buffer that `send` uses is within the memory for buffers in every configuration. It is a message buffer of
the configuration exactly if the first block has buffers for 8 bytes. -/
theorem C146_send_partial (b : Blocks) :
    sendSpace.2 ≤ 0x80 + b.bufferBytes
    ∧ ((∃ s n i, b.bufferSizes[0]? = some s ∧ b.messagesPerBuffer[0]? = some n ∧ i < n ∧ bufferSpace i s.bytes = some sendSpace)
      ↔ b.bufferSizes[0]? = some .bytes8) := by
  refine ⟨by cases b <;> simp [sendSpace, Blocks.bufferBytes], ?_, ?_⟩
  · rintro ⟨s, n, i, h1, h2, h3, h4⟩
    obtain ⟨m, h5, h6, -⟩ := ((C144_messages b).2.2.2 0).1 s h1
    rw [h2] at h5
    cases h5
    have hi : i < 33 := by
      have : n * s.bytes ≤ 512 := Nat.le_trans h6 (Nat.min_le_left _ _)
      have h16 : 16 ≤ s.bytes := by cases s <;> decide
      have := Nat.mul_le_mul_left n h16
      omega
    have : ∀ s : BufferSize, ∀ i < 33, bufferSpace i s.bytes = some sendSpace → s = .bytes8 := by
      intro s; cases s <;> decide
    rw [h1, this s i hi h4]
  · intro h
    obtain ⟨n, h5, -, h6⟩ := ((C144_messages b).2.2.2 0).1 _ h
    refine ⟨_, n, 8, h, h5, ?_, by decide⟩
    have : 256 ≤ min 512 b.bufferBytes := by cases b <;> simp [Blocks.bufferBytes]
    have h16 : BufferSize.bytes8.bytes = 16 := rfl
    rw [h16] at h6
    omega

example : (Blocks.two #v[.bytes8, .bytes64]).bufferSizes[0]? = some .bytes8 := by decide

/-- **C146** fails for a first block of larger buffers: what `send` writes is not a message buffer. -/
theorem C146_send_counterexample : ∃ b : Blocks, ¬∃ s n i, b.bufferSizes[0]? = some s ∧ b.messagesPerBuffer[0]? = some n ∧ i < n
    ∧ bufferSpace i s.bytes = some sendSpace :=
  ⟨.one .bytes64, fun h => absurd ((C146_send_partial _).2.1 h) (by decide)⟩

end Verif.Flex
