import Verif.Enc.Spec

/-!
Helper lemmas: the cursors as positions in bit sequences.
-/

namespace Verif.Enc

/-! ### Bits -/

theorem bitsVal_testBit (n : Nat) : ∀ (f : Nat → Bool) (i : Nat), (bitsVal f n).testBit i = (decide (i < n) && f i) := by
  induction n with
  | zero => intro f i; simp [bitsVal]
  | succ n ih =>
    intro f i
    cases i with
    | zero =>
      simp only [bitsVal, Nat.testBit_zero, Nat.zero_lt_succ, decide_true, Bool.true_and]
      cases hf : f 0 <;> simp
    | succ i =>
      rw [Nat.testBit_succ, bitsVal]
      have : ((if f 0 then 1 else 0) + 2 * bitsVal (fun i => f (i + 1)) n) / 2 = bitsVal (fun i => f (i + 1)) n := by
        split <;> omega
      rw [this, ih]
      simp

theorem bitsVal_lt (f : Nat → Bool) (n : Nat) : bitsVal f n < 2 ^ n := by
  induction n generalizing f with
  | zero => simp [bitsVal]
  | succ n ih =>
    have := ih (fun i => f (i + 1))
    rw [bitsVal, Nat.pow_succ]
    split <;> omega

theorem bitsVal_congr {f g : Nat → Bool} {n : Nat} (h : ∀ i, i < n → f i = g i) : bitsVal f n = bitsVal g n := by
  apply Nat.eq_of_testBit_eq
  intro i
  rw [bitsVal_testBit, bitsVal_testBit]
  by_cases hi : i < n
  · simp [hi, h i hi]
  · simp [hi]

theorem toNat_eq_bitsVal {w : Nat} {x : BitVec w} {f : Nat → Bool} {n : Nat}
    (h : ∀ i, i < w → x.getLsbD i = (decide (i < n) && f i)) (hn : n ≤ w) : x.toNat = bitsVal f n := by
  apply Nat.eq_of_testBit_eq
  intro i
  rw [bitsVal_testBit, BitVec.testBit_toNat]
  by_cases hi : i < w
  · exact h i hi
  · rw [BitVec.getLsbD_of_ge _ _ (by omega)]
    simp
    omega

theorem mask8_getLsbD : ∀ n, n ≤ 8 → ∀ i, i < 8 → (mask8 n).getLsbD i = decide (i < n) := by
  have h : ∀ n : Fin 9, ∀ i : Fin 8, (mask8 n.val).getLsbD i.val = decide (i.val < n.val) := by decide
  intro n hn i hi
  exact h ⟨n, by omega⟩ ⟨i, hi⟩

theorem bitAt_drop (bs : List Byte) (p i : Nat) : bitAt (bs.drop (p / 8)) (p % 8 + i) = bitAt bs (p + i) := by
  unfold bitAt
  have h1 : p / 8 + (p % 8 + i) / 8 = (p + i) / 8 := by omega
  have h2 : (p % 8 + i) % 8 = (p + i) % 8 := by omega
  rw [h2]
  simp only [List.getD_eq_getElem?_getD, List.getElem?_drop, h1]

theorem getD_drop_bit (bs : List Byte) (p k j : Nat) (hj : j < 8) :
    ((bs.drop (p / 8)).getD k 0).getLsbD j = bitAt bs (8 * (p / 8 + k) + j) := by
  unfold bitAt
  have h1 : (8 * (p / 8 + k) + j) / 8 = p / 8 + k := by omega
  have h2 : (8 * (p / 8 + k) + j) % 8 = j := by omega
  rw [h1, h2]
  simp only [List.getD_eq_getElem?_getD, List.getElem?_drop]

theorem bitAt_of_ge {bs : List Byte} {p : Nat} (h : 8 * bs.length ≤ p) : bitAt bs p = false := by
  unfold bitAt
  rw [List.getD_eq_getElem?_getD, List.getElem?_eq_none (by omega)]
  simp

theorem bytes_ext {a b : List Byte} (hl : a.length = b.length) (h : ∀ p, p < 8 * a.length → bitAt a p = bitAt b p) : a = b := by
  apply List.ext_getElem hl
  intro k h1 h2
  apply BitVec.eq_of_getLsbD_eq
  intro j hj
  have hp := h (8 * k + j) (by omega)
  unfold bitAt at hp
  have e1 : (8 * k + j) / 8 = k := by omega
  have e2 : (8 * k + j) % 8 = j := by omega
  rw [e1, e2] at hp
  simpa [List.getD_eq_getElem?_getD, h1, h2] using hp

/-! ### Reading -/

/-- The read cursor at bit position `p` of `bs`. -/
def rcur (bs : List Byte) (p : Nat) : ReadCursor := ⟨bs.drop (p / 8), p % 8⟩

theorem new_eq_rcur (bs : List Byte) : ReadCursor.new bs = rcur bs 0 := by simp [ReadCursor.new, rcur]

theorem eq_rcur (c : ReadCursor) (h : c.bitIndex < 8) : c = rcur c.bytes c.bitIndex := by
  unfold rcur
  rw [Nat.div_eq_of_lt h, Nat.mod_eq_of_lt h]
  simp

theorem advanceBytes_rcur (bs : List Byte) (p n : Nat) : (rcur bs p).advanceBytes n = rcur bs (p + 8 * n) := by
  unfold ReadCursor.advanceBytes rcur
  have h1 : (p + 8 * n) / 8 = p / 8 + n := by omega
  have h2 : (p + 8 * n) % 8 = p % 8 := by omega
  simp only [h1, h2, List.drop_drop, List.length_drop, ReadCursor.mk.injEq, and_true]
  by_cases hn : n ≤ bs.length - p / 8
  · rw [Nat.min_eq_left hn]
  · rw [List.drop_eq_nil_of_le (by omega), List.drop_eq_nil_of_le (by omega)]

theorem advanceBits_rcur (bs : List Byte) (p n : Nat) : (rcur bs p).advanceBits n = rcur bs (p + n) := by
  unfold ReadCursor.advanceBits
  have : ({ rcur bs p with bitIndex := ((rcur bs p).bitIndex + n) % 8 } : ReadCursor).advanceBytes (((rcur bs p).bitIndex + n) / 8)
      = rcur bs (p + n) := by
    have e : ({ rcur bs p with bitIndex := ((rcur bs p).bitIndex + n) % 8 } : ReadCursor) = rcur bs (8 * (p / 8) + (p + n) % 8) := by
      unfold rcur
      simp only [ReadCursor.mk.injEq]
      constructor
      · congr 1; omega
      · omega
    rw [e, advanceBytes_rcur]
    congr 1
    simp only [rcur]
    omega
  exact this

theorem align_rcur (bs : List Byte) (p : Nat) : (rcur bs p).align = rcur bs ((p + 7) / 8 * 8) := by
  unfold ReadCursor.align
  by_cases h : p % 8 = 0
  · rw [if_neg (by simp [rcur, h])]
    congr 1; omega
  · rw [if_pos (by simpa [rcur] using h), advanceBits_rcur]
    congr 1
    simp only [rcur]
    omega

theorem readUpToU8_rcur (bs : List Byte) (p n : Nat) (hn : n ≤ 8) :
    ∃ v : Byte, (rcur bs p).readUpToU8 n = some (v, rcur bs (p + n)) ∧
      ∀ i, i < 8 → v.getLsbD i = (decide (i < n) && bitAt bs (p + i)) := by
  unfold ReadCursor.readUpToU8
  rw [if_neg (by omega)]
  by_cases h0 : n = 0
  · subst h0
    exact ⟨0, by simp, by simp⟩
  rw [if_neg h0, advanceBits_rcur]
  refine ⟨_, rfl, ?_⟩
  intro i hi
  rw [BitVec.getLsbD_and, mask8_getLsbD n hn i hi]
  by_cases hin : i < n
  · simp only [hin, decide_true, Bool.and_true, Bool.true_and]
    have hcur : ∀ j, j < 8 → (rcur bs p).readCurrent.getLsbD j = bitAt bs (8 * (p / 8) + j) := by
      intro j hj
      have := getD_drop_bit bs p 0 j hj
      simpa [ReadCursor.readCurrent, rcur] using this
    have hnext : ∀ j, j < 8 → (rcur bs p).readNext.getLsbD j = bitAt bs (8 * (p / 8 + 1) + j) := by
      intro j hj
      exact getD_drop_bit bs p 1 j hj
    have hbi : (rcur bs p).bitIndex = p % 8 := rfl
    rw [hbi]
    split
    · rename_i hle
      rw [BitVec.getLsbD_ushiftRight, hcur _ (by omega)]
      congr 1; omega
    · rename_i hle
      rw [BitVec.getLsbD_or, BitVec.getLsbD_ushiftRight, BitVec.getLsbD_shiftLeft]
      by_cases hs : p % 8 + i < 8
      · rw [hcur _ hs]
        have : decide (i < 8 - p % 8) = true := by simp; omega
        rw [this]
        simp
        congr 1; omega
      · rw [BitVec.getLsbD_of_ge _ (p % 8 + i) (by omega), hnext _ (by omega)]
        have : decide (i < 8 - p % 8) = false := by simp; omega
        rw [this]
        simp [hi]
        congr 1; omega
  · simp [hin]

theorem readWhole_rcur {w : Nat} (bs : List Byte) (k : Nat) : ∀ (p : Nat) (value : BitVec w) (shift : Nat), shift + 8 * k ≤ w →
    ∃ v : BitVec w, ReadCursor.readWhole k (rcur bs p) value shift = some (v, shift + 8 * k, rcur bs (p + 8 * k)) ∧
      ∀ i, i < w → v.getLsbD i = (value.getLsbD i || (decide (shift ≤ i) && decide (i < shift + 8 * k) && bitAt bs (p + (i - shift)))) := by
  induction k with
  | zero =>
    intro p value shift _
    refine ⟨value, rfl, ?_⟩
    intro i _
    by_cases h : shift ≤ i
    · simp [h]
      intro h2; omega
    · simp [h]
  | succ k ih =>
    intro p value shift hw
    obtain ⟨b, hb, hbits⟩ := readUpToU8_rcur bs p 8 (by omega)
    unfold ReadCursor.readWhole
    rw [hb]
    dsimp only
    rw [shl?, if_pos (by omega)]
    dsimp only
    obtain ⟨v, hv, hvb⟩ := ih (p + 8) (value ||| (b.setWidth w <<< shift)) (shift + 8) (by omega)
    refine ⟨v, ?_, ?_⟩
    · rw [hv]
      have e1 : shift + 8 + 8 * k = shift + 8 * (k + 1) := by omega
      have e2 : p + 8 + 8 * k = p + 8 * (k + 1) := by omega
      rw [e1, e2]
    · intro i hi
      rw [hvb i hi, BitVec.getLsbD_or, BitVec.getLsbD_shiftLeft, BitVec.getLsbD_setWidth]
      cases hval : value.getLsbD i
      · simp only [Bool.false_or]
        by_cases h1 : shift ≤ i
        · by_cases h2 : i < shift + 8
          · have e1 : decide (i < shift) = false := by simp; omega
            have e2 : decide (i - shift < w) = true := by simp; omega
            have e3 : decide (shift + 8 ≤ i) = false := by simp; omega
            have e4 : decide (i < shift + 8 * (k + 1)) = true := by simp; omega
            have e5 : decide (i < w) = true := by simp; omega
            have e6 : decide (i - shift < 8) = true := by simp; omega
            rw [hbits (i - shift) (by omega)]
            simp [e1, e2, e3, e4, e5, e6, h1]
          · have e3 : decide (shift + 8 ≤ i) = true := by simp; omega
            have e7 : p + 8 + (i - (shift + 8)) = p + (i - shift) := by omega
            have e8 : b.getLsbD (i - shift) = false := BitVec.getLsbD_of_ge _ _ (by omega)
            rw [e7, e8]
            have e9 : decide (i < shift + 8 + 8 * k) = decide (i < shift + 8 * (k + 1)) := by
              apply decide_eq_decide.2; omega
            simp [e3, e9, h1]
        · have e1 : decide (i < shift) = true := by simp; omega
          have e3 : decide (shift + 8 ≤ i) = false := by simp; omega
          have e2 : decide (shift ≤ i) = false := by simp; omega
          simp [e1, e2, e3]
      · simp

theorem readRest_rcur {w : Nat} (bs : List Byte) (p n : Nat) (hn : n < 8) (value : BitVec w) (shift : Nat) (hs : shift < w) :
    ∃ v : BitVec w, (rcur bs p).readRest n value shift = some (v, rcur bs (p + n)) ∧
      ∀ i, i < w → v.getLsbD i = (value.getLsbD i || (decide (shift ≤ i) && decide (i < shift + n) && bitAt bs (p + (i - shift)))) := by
  obtain ⟨b, hb, hbits⟩ := readUpToU8_rcur bs p n (by omega)
  unfold ReadCursor.readRest
  rw [hb]
  dsimp only
  rw [shl?, if_pos hs]
  refine ⟨_, rfl, ?_⟩
  intro i hi
  rw [BitVec.getLsbD_or, BitVec.getLsbD_shiftLeft, BitVec.getLsbD_setWidth]
  congr 1
  by_cases h1 : shift ≤ i
  · by_cases h2 : i - shift < 8
    · rw [hbits _ h2]
      have e1 : decide (i < shift) = false := by simp; omega
      have e2 : decide (i - shift < w) = true := by simp; omega
      have e4 : decide (i - shift < n) = decide (i < shift + n) := by apply decide_eq_decide.2; omega
      simp [e1, e2, e4, h1, hi]
    · rw [BitVec.getLsbD_of_ge _ _ (by omega)]
      have e4 : decide (i < shift + n) = false := by simp; omega
      simp [e4]
  · have e1 : decide (i < shift) = true := by simp; omega
    simp [e1, h1]

theorem readUpToU16_rcur (bs : List Byte) (p n : Nat) (h1 : 8 < n) (h2 : n < 16) :
    ∃ v, (rcur bs p).readUpToU16 n = some (v, rcur bs (p + n)) ∧ v.toNat = bitsVal (fun i => bitAt bs (p + i)) n := by
  unfold ReadCursor.readUpToU16
  rw [if_neg (by omega), if_pos h1]
  obtain ⟨b, hb, hbits⟩ := readUpToU8_rcur bs p 8 (by omega)
  rw [hb]
  dsimp only
  obtain ⟨v, hv, hvb⟩ := readRest_rcur (w := 16) bs (p + 8) (n % 8) (by omega) (b.setWidth 16) 8 (by omega)
  refine ⟨v, ?_, ?_⟩
  · rw [hv]
    have : p + 8 + n % 8 = p + n := by omega
    rw [this]
  · apply toNat_eq_bitsVal _ (by omega)
    intro i hi
    rw [hvb i hi, BitVec.getLsbD_setWidth]
    by_cases h8 : i < 8
    · rw [hbits i h8]
      have e1 : decide (8 ≤ i) = false := by simp; omega
      have e2 : decide (i < n) = true := by simp; omega
      simp [e1, e2, h8, hi]
    · rw [BitVec.getLsbD_of_ge _ _ (by omega)]
      have e1 : decide (8 ≤ i) = true := by simp; omega
      have e2 : decide (i < 8 + n % 8) = decide (i < n) := by apply decide_eq_decide.2; omega
      have e3 : p + 8 + (i - 8) = p + i := by omega
      simp [e1, e2, e3]

theorem readUpToU32_rcur (bs : List Byte) (p n : Nat) (h2 : n < 32) :
    ∃ v, (rcur bs p).readUpToU32 n = some (v, rcur bs (p + n)) ∧ v.toNat = bitsVal (fun i => bitAt bs (p + i)) n := by
  unfold ReadCursor.readUpToU32
  rw [if_neg (by omega)]
  obtain ⟨x, hx, hxb⟩ := readWhole_rcur (w := 32) bs (n / 8) p 0 0 (by omega)
  rw [hx]
  dsimp only
  obtain ⟨v, hv, hvb⟩ := readRest_rcur (w := 32) bs (p + 8 * (n / 8)) (n % 8) (by omega) x (0 + 8 * (n / 8)) (by omega)
  refine ⟨v, ?_, ?_⟩
  · rw [hv]
    have : p + 8 * (n / 8) + n % 8 = p + n := by omega
    rw [this]
  · apply toNat_eq_bitsVal _ (by omega)
    intro i hi
    rw [hvb i hi, hxb i hi]
    by_cases h8 : i < 8 * (n / 8)
    · have e1 : decide (8 * (n / 8) ≤ i) = false := by simp; omega
      have e2 : decide (i < n) = true := by simp; omega
      simp [e1, e2, h8]
    · have e1 : decide (8 * (n / 8) ≤ i) = true := by simp; omega
      have e2 : decide (i < 8 * (n / 8) + n % 8) = decide (i < n) := by apply decide_eq_decide.2; omega
      have e3 : p + 8 * (n / 8) + (i - 8 * (n / 8)) = p + i := by omega
      simp [e1, e2, e3, h8]

theorem readUpToU64_rcur (bs : List Byte) (p n : Nat) (h2 : n ≤ 64) :
    ∃ v, (rcur bs p).readUpToU64 n = some (v, rcur bs (p + n)) ∧ v.toNat = bitsVal (fun i => bitAt bs (p + i)) n := by
  unfold ReadCursor.readUpToU64
  rw [if_neg (by omega)]
  obtain ⟨x, hx, hxb⟩ := readWhole_rcur (w := 64) bs (n / 8) p 0 0 (by omega)
  rw [hx]
  dsimp only
  by_cases h64 : n = 64
  · subst h64
    rw [if_neg (by simp)]
    refine ⟨x, rfl, ?_⟩
    apply toNat_eq_bitsVal _ (by omega)
    intro i hi
    rw [hxb i hi]
    simp [hi]
  rw [if_pos h64]
  obtain ⟨v, hv, hvb⟩ := readRest_rcur (w := 64) bs (p + 8 * (n / 8)) (n % 8) (by omega) x (0 + 8 * (n / 8)) (by omega)
  refine ⟨v, ?_, ?_⟩
  · rw [hv]
    have : p + 8 * (n / 8) + n % 8 = p + n := by omega
    rw [this]
  · apply toNat_eq_bitsVal _ (by omega)
    intro i hi
    rw [hvb i hi, hxb i hi]
    by_cases h8 : i < 8 * (n / 8)
    · have e1 : decide (8 * (n / 8) ≤ i) = false := by simp; omega
      have e2 : decide (i < n) = true := by simp; omega
      simp [e1, e2, h8]
    · have e1 : decide (8 * (n / 8) ≤ i) = true := by simp; omega
      have e2 : decide (i < 8 * (n / 8) + n % 8) = decide (i < n) := by apply decide_eq_decide.2; omega
      have e3 : p + 8 * (n / 8) + (i - 8 * (n / 8)) = p + i := by omega
      simp [e1, e2, e3, h8]

/-- `read_u<n>` at position `p` returns the `n` bits from there. -/
theorem readU_rcur (bs : List Byte) (p n : Nat) (h1 : 1 ≤ n) (h2 : n ≤ 64) :
    (rcur bs p).readU n = some (BitVec.ofNat 64 (bitsVal (fun i => bitAt bs (p + i)) n), rcur bs (p + n)) := by
  have hlt : bitsVal (fun i => bitAt bs (p + i)) n < 2 ^ 64 :=
    Nat.lt_of_lt_of_le (bitsVal_lt _ _) (Nat.pow_le_pow_right (by omega) h2)
  have key : ∀ {w : Nat} (v : BitVec w), v.toNat = bitsVal (fun i => bitAt bs (p + i)) n →
      v.setWidth 64 = BitVec.ofNat 64 (bitsVal (fun i => bitAt bs (p + i)) n) := by
    intro w v hv
    apply BitVec.eq_of_toNat_eq
    simp [hv]
  unfold ReadCursor.readU
  rw [if_neg (by omega)]
  by_cases h8 : n ≤ 8
  · rw [if_pos h8]
    obtain ⟨v, hv, hb⟩ := readUpToU8_rcur bs p n h8
    rw [hv, Option.map_some, key v (toNat_eq_bitsVal hb h8)]
  rw [if_neg h8]
  by_cases h15 : n ≤ 15
  · rw [if_pos h15]
    obtain ⟨v, hv, hb⟩ := readUpToU16_rcur bs p n (by omega) (by omega)
    rw [hv, Option.map_some, key v hb]
  rw [if_neg h15]
  by_cases h16 : n = 16
  · rw [if_pos h16]
    obtain ⟨v, hv, hb⟩ := readUpToU32_rcur bs p n (by omega)
    rw [hv, Option.map_some, key (v.setWidth 16)]
    have := bitsVal_lt (fun i => bitAt bs (p + i)) n
    rw [h16] at this hb ⊢
    simp only [BitVec.toNat_setWidth, hb]
    omega
  rw [if_neg h16]
  by_cases h31 : n ≤ 31
  · rw [if_pos h31]
    obtain ⟨v, hv, hb⟩ := readUpToU32_rcur bs p n (by omega)
    rw [hv, Option.map_some, key v hb]
  rw [if_neg h31]
  by_cases h32 : n = 32
  · rw [if_pos h32]
    obtain ⟨v, hv, hb⟩ := readUpToU64_rcur bs p n (by omega)
    rw [hv, Option.map_some, key (v.setWidth 32)]
    have := bitsVal_lt (fun i => bitAt bs (p + i)) n
    rw [h32] at this hb ⊢
    simp only [BitVec.toNat_setWidth, hb]
    omega
  rw [if_neg h32]
  obtain ⟨v, hv, hb⟩ := readUpToU64_rcur bs p n (by omega)
  rw [hv]
  congr 2
  have := key v hb
  simpa using this

theorem readBool_rcur (bs : List Byte) (p : Nat) : (rcur bs p).readBool = some (bitAt bs p, rcur bs (p + 1)) := by
  unfold ReadCursor.readBool
  rw [readU_rcur bs p 1 (by omega) (by omega), Option.map_some]
  simp only [bitsVal, Nat.add_zero]
  by_cases h : bitAt bs p = true
  · simp [h]
  · simp [h]

/-- The byte at bit position `p`. -/
def byteAt (bs : List Byte) (p : Nat) : Byte := BitVec.ofNat 8 (bitsVal (fun i => bitAt bs (p + i)) 8)

theorem readBytes_rcur (bs : List Byte) (n : Nat) : ∀ p, ReadCursor.readBytes n (rcur bs p) =
    some ((List.range n).map fun k => byteAt bs (p + 8 * k), rcur bs (p + 8 * n)) := by
  induction n with
  | zero => intro p; rfl
  | succ n ih =>
    intro p
    unfold ReadCursor.readBytes
    rw [readU_rcur bs p 8 (by omega) (by omega)]
    dsimp only
    rw [ih, Option.map_some]
    have e : p + 8 + 8 * n = p + 8 * (n + 1) := by omega
    rw [e, List.range_succ_eq_map, List.map_cons, List.map_map]
    have hhead : (BitVec.ofNat 64 (bitsVal (fun i => bitAt bs (p + i)) 8)).setWidth 8 = byteAt bs (p + 8 * 0) := by
      generalize hx : bitsVal (fun i => bitAt bs (p + i)) 8 = x
      have : byteAt bs (p + 8 * 0) = BitVec.ofNat 8 x := by rw [← hx]; rfl
      rw [this]
      apply BitVec.eq_of_toNat_eq
      simp only [BitVec.toNat_setWidth, BitVec.toNat_ofNat]
      omega
    have htail : (List.range n).map (fun k => byteAt bs (p + 8 + 8 * k)) = (List.range n).map ((fun k => byteAt bs (p + 8 * k)) ∘ Nat.succ) := by
      apply List.map_congr_left
      intro k _
      have : p + 8 + 8 * k = p + 8 * (Nat.succ k) := by omega
      simp only [Function.comp, this]
    rw [hhead, htail]

theorem shape_read_rcur (bs : List Byte) (p : Nat) (s : Shape) (hs : s.Ok) :
    s.read (rcur bs p) = some ((s.at (bitAt bs) p).1, rcur bs (s.at (bitAt bs) p).2) := by
  cases s with
  | uint n =>
    simp only [Shape.read, readU_rcur bs p n hs.1 hs.2, Option.map_some, Shape.at]
    have hlt : bitsVal (fun i => bitAt bs (p + i)) n < 2 ^ 64 :=
      Nat.lt_of_lt_of_le (bitsVal_lt _ _) (Nat.pow_le_pow_right (by omega) hs.2)
    rw [BitVec.toNat_ofNat, Nat.mod_eq_of_lt hlt]
  | bool => simp only [Shape.read, readBool_rcur, Option.map_some, Shape.at]
  | bytes n => simp only [Shape.read, readBytes_rcur, Option.map_some, Shape.at]; rfl
  | align => simp only [Shape.read, align_rcur, Shape.at]

theorem readAll_rcur (bs : List Byte) (ss : List Shape) (hok : ∀ s ∈ ss, s.Ok) : ∀ p,
    readAll ss (rcur bs p) = some ((shapesAt (bitAt bs) p ss).1, rcur bs (shapesAt (bitAt bs) p ss).2) := by
  induction ss with
  | nil => intro p; rfl
  | cons s ss ih =>
    intro p
    unfold readAll
    rw [shape_read_rcur bs p s (hok s (by simp))]
    dsimp only
    rw [ih (fun x hx => hok x (by simp [hx]))]
    rfl

end Verif.Enc
