import Verif.Crc.Lemmas

/-!
Properties C01, C02, C03: what the CRC checks guarantee.
-/

namespace Verif.Crc

/-! ### Specification vocabulary -/

/-- The bits of a byte, most significant first: the order in which CRC-16 consumes them. -/
def byteBitsMsb (b : Byte) : List Bool :=
  [bit b 7, bit b 6, bit b 5, bit b 4, bit b 3, bit b 2, bit b 1, bit b 0]

/-- The bits of a byte, least significant first: the order in which CRC-32C consumes them. -/
def byteBitsLsb (b : Byte) : List Bool :=
  [bit b 0, bit b 1, bit b 2, bit b 3, bit b 4, bit b 5, bit b 6, bit b 7]

/-- All bits of a message, each byte most significant bit first. -/
def bitsMsb (m : List Byte) : List Bool := m.flatMap byteBitsMsb

/-- All bits of a message, each byte least significant bit first. -/
def bitsLsb (m : List Byte) : List Bool := m.flatMap byteBitsLsb

/-- `a` and `b` agree at every index outside of some window of `n` consecutive indices. -/
def DifferInWindow (n : Nat) (a b : List Bool) : Prop :=
  ∃ i, ∀ k, (k < i ∨ i + n ≤ k) → a[k]? = b[k]?

/-- The two bytes of a 16-bit number, most significant first. -/
def be16 (v : BitVec 16) : List Byte := [(v >>> 8).setWidth 8, v.setWidth 8]

/-- The four bytes of a 32-bit number, least significant first. -/
def le32 (v : BitVec 32) : List Byte :=
  [v.setWidth 8, (v >>> 8).setWidth 8, (v >>> 16).setWidth 8, (v >>> 24).setWidth 8]

/-! ### Connection of the byte-wise model with the bit registers -/

theorem step16_eq : step16 = gstep crc16Poly := by
  funext v
  have h : v &&& 0x8000#16 = if v.getLsbD 15 then BitVec.twoPow 16 15 else 0#16 := by
    have := BitVec.and_twoPow v 15
    rw [← this]; rfl
  unfold step16 gstep
  rw [h, BitVec.msb_eq_getLsbD_last]
  rcases hv : v.getLsbD 15
  · simp [hv]
  · have : (BitVec.twoPow 16 15) ≠ 0#16 := by decide
    simp [hv, this]

theorem step32_eq : step32 = rstep crc32Poly := by
  funext v
  have h : v &&& 0x1#32 = if v.getLsbD 0 then BitVec.twoPow 32 0 else 0#32 := by
    have := BitVec.and_twoPow v 0
    rw [← this]; rfl
  unfold step32 rstep
  rw [h]
  rcases hv : v.getLsbD 0
  · simp
  · have : (BitVec.twoPow 32 0) ≠ 0#32 := by decide
    simp [this]

theorem gplace_byte : ∀ b : Byte, gplace 16 (byteBitsMsb b) = (b.setWidth 16) <<< 8 := by
  decide +kernel

theorem rplace_byte : ∀ b : Byte, rplace 32 (byteBitsLsb b) = b.setWidth 32 := by
  decide +kernel

theorem digest16_eq (v : BitVec 16) (b : Byte) :
    digest16 v b = (byteBitsMsb b).foldl (gfeed crc16Poly) v := by
  rw [gfeed_all _ _ (by simp [byteBitsMsb]), gplace_byte, digest16, step16_eq]
  rfl

theorem digest32_eq (v : BitVec 32) (b : Byte) :
    digest32 v b = (byteBitsLsb b).foldl (rfeed crc32Poly) v := by
  rw [rfeed_all _ _ (by simp [byteBitsLsb]), rplace_byte, digest32, step32_eq]
  rfl

theorem digestBytes16_eq (m : List Byte) : ∀ v,
    digestBytes16 v m = (bitsMsb m).foldl (gfeed crc16Poly) v := by
  induction m with
  | nil => intro v; rfl
  | cons b m ih =>
    intro v
    simp only [digestBytes16, List.foldl_cons, bitsMsb, List.flatMap_cons, List.foldl_append]
    rw [← digest16_eq]
    exact ih _

theorem digestBytes32_eq (m : List Byte) : ∀ v,
    digestBytes32 v m = (bitsLsb m).foldl (rfeed crc32Poly) v := by
  induction m with
  | nil => intro v; rfl
  | cons b m ih =>
    intro v
    simp only [digestBytes32, List.foldl_cons, bitsLsb, List.flatMap_cons, List.foldl_append]
    rw [← digest32_eq]
    exact ih _

theorem poly16_odd : crc16Poly.getLsbD 0 = true := by decide
theorem poly32_msb : crc32Poly.msb = true := by decide

theorem gplace16_two (hi lo : Byte) :
    gplace 16 (bitsMsb [hi, lo]) = ((hi.setWidth 16) <<< 8) ^^^ lo.setWidth 16 := by
  apply BitVec.eq_of_getLsbD_eq
  intro i hi'
  have : i = 0 ∨ i = 1 ∨ i = 2 ∨ i = 3 ∨ i = 4 ∨ i = 5 ∨ i = 6 ∨ i = 7 ∨ i = 8 ∨ i = 9 ∨ i = 10 ∨
    i = 11 ∨ i = 12 ∨ i = 13 ∨ i = 14 ∨ i = 15 := by omega
  have hb : ∀ c : Bool, ∀ j k, (if c then BitVec.twoPow 16 j else 0#16).getLsbD k =
      (c && decide (j < 16) && decide (j = k)) := by
    intro c j k
    rcases c <;> simp [BitVec.getLsbD_twoPow]
  rcases this with rfl | rfl | rfl | rfl | rfl | rfl | rfl | rfl | rfl | rfl | rfl | rfl | rfl |
    rfl | rfl | rfl <;>
  simp [bitsMsb, byteBitsMsb, gplace, hb, -BitVec.getLsbD_eq_getElem, BitVec.getLsbD_xor, BitVec.getLsbD_ushiftRight,
    BitVec.getLsbD_shiftLeft, BitVec.getLsbD_setWidth]

theorem xor_bytes_eq (v : BitVec 16) (hi lo : Byte) :
    v = ((hi.setWidth 16) <<< 8) ^^^ lo.setWidth 16 ↔ [hi, lo] = be16 v := by
  constructor
  · rintro rfl
    simp only [be16, List.cons.injEq, and_true]
    constructor
    · apply BitVec.eq_of_getLsbD_eq
      intro i h
      simp only [BitVec.getLsbD_setWidth, BitVec.getLsbD_ushiftRight, BitVec.getLsbD_xor,
        BitVec.getLsbD_shiftLeft, h, decide_true, Bool.true_and]
      rw [lo.getLsbD_of_ge (8 + i) (by omega)]
      simp [show 8 + i < 16 by omega, show i < 16 by omega]
    · apply BitVec.eq_of_getLsbD_eq
      intro i h
      simp [-BitVec.getLsbD_eq_getElem, h, show i < 16 by omega]
  · intro h
    simp only [be16, List.cons.injEq, and_true] at h
    obtain ⟨rfl, rfl⟩ := h
    apply BitVec.eq_of_getLsbD_eq
    intro i h
    simp only [BitVec.getLsbD_setWidth, BitVec.getLsbD_ushiftRight, BitVec.getLsbD_xor,
        BitVec.getLsbD_shiftLeft, h, decide_true, Bool.true_and]
    rcases Nat.lt_or_ge i 8 with h8 | h8
    · simp [h8]
    · simp [show ¬ i < 8 by omega, show i - 8 < 16 by omega, show i - 8 < 8 by omega,
        show 8 + (i - 8) = i by omega]

/-! ### C01 -/

/-- **C01.** Running CRC-16 over any message followed by two bytes gives residue zero exactly when
the two bytes are the big-endian CRC of the message. -/
theorem C01_crc16_residue_zero_iff (m : List Byte) (hi lo : Byte) :
    crc16 (m ++ [hi, lo]) = 0#16 ↔ [hi, lo] = be16 (crc16 m) := by
  have h : crc16 (m ++ [hi, lo]) = digestBytes16 (crc16 m) [hi, lo] := by
    simp [crc16, digestBytes16]
  rw [h, digestBytes16_eq, gfeed_all _ _ (by simp [bitsMsb, byteBitsMsb]), gplace16_two,
    ← xor_bytes_eq]
  have hlen : (bitsMsb [hi, lo]).length = 16 := rfl
  rw [hlen]
  constructor
  · intro h0
    have := iter_gstep_inj poly16_odd 16 (h0.trans (iter_gstep_zero crc16Poly 16).symm)
    exact xor_eq_zero_iff.mp this
  · intro h0
    rw [xor_eq_zero_iff.mpr h0]
    exact iter_gstep_zero _ _

/-- The published check value of CRC-16/CCITT-FALSE ("123456789"), and a message accepted with it. -/
example : crc16 [0x31#8, 0x32#8, 0x33#8, 0x34#8, 0x35#8, 0x36#8, 0x37#8, 0x38#8, 0x39#8] = 0x29b1#16 ∧
    crc16 [0x31#8, 0x32#8, 0x33#8, 0x34#8, 0x35#8, 0x36#8, 0x37#8, 0x38#8, 0x39#8, 0x29#8, 0xb1#8] = 0#16 := by
  decide +kernel

/-! ### C02 -/

/-- The tracker's last-four-bytes word after a byte. -/
def pushWord (acc : BitVec 32) (b : Byte) : BitVec 32 := ((b.setWidth 32) <<< 24) ||| (acc >>> 8)

theorem pushWord_four (acc : BitVec 32) (a b c d : Byte) :
    pushWord (pushWord (pushWord (pushWord acc a) b) c) d =
      a.setWidth 32 ||| ((b.setWidth 32) <<< 8) ||| ((c.setWidth 32) <<< 16) ||| ((d.setWidth 32) <<< 24) := by
  apply BitVec.eq_of_getLsbD_eq
  intro i hi
  simp only [pushWord, BitVec.getLsbD_or, BitVec.getLsbD_shiftLeft, BitVec.getLsbD_ushiftRight,
    BitVec.getLsbD_setWidth]
  rw [acc.getLsbD_of_ge _ (by omega)]
  rcases Nat.lt_or_ge i 8 with h | h
  · simp [show i < 16 by omega, show i < 24 by omega, h, hi, show 8 + i < 24 by omega,
      show 8 + (8 + i) < 24 by omega, show ¬ 8 + (8 + (8 + i)) < 24 by omega,
      show 8 + (8 + (8 + i)) < 32 by omega, show 8 + (8 + (8 + i)) - 24 = i by omega]
  rcases Nat.lt_or_ge i 16 with h | h
  · rw [a.getLsbD_of_ge _ (by omega), a.getLsbD_of_ge _ (by omega)]
    simp [show i < 24 by omega, h, hi, show 8 + i < 24 by omega, show ¬ i < 8 by omega,
      show ¬ 8 + (8 + i) < 24 by omega, show 8 + (8 + i) < 32 by omega, show i - 8 < 32 by omega,
      show 8 + (8 + i) - 24 = i - 8 by omega]
  rcases Nat.lt_or_ge i 24 with h | h
  · rw [a.getLsbD_of_ge _ (by omega), a.getLsbD_of_ge _ (by omega), b.getLsbD_of_ge _ (by omega), b.getLsbD_of_ge _ (by omega)]
    simp [show ¬ 8 + i < 24 by omega, h, hi, show 8 + i < 32 by omega, show i - 16 < 32 by omega,
      show 8 + i - 24 = i - 16 by omega, show ¬ i < 16 by omega]
  · rw [a.getLsbD_of_ge _ (by omega), a.getLsbD_of_ge _ (by omega), b.getLsbD_of_ge _ (by omega),
      b.getLsbD_of_ge _ (by omega), c.getLsbD_of_ge _ (by omega), c.getLsbD_of_ge _ (by omega)]
    simp

theorem pushWord_four_low (acc : BitVec 32) (a b c d : Byte) :
    (pushWord (pushWord (pushWord (pushWord acc a) b) c) d).setWidth 8 = a := by
  rw [pushWord_four]
  apply BitVec.eq_of_getLsbD_eq
  intro i hi
  simp only [BitVec.getLsbD_setWidth, BitVec.getLsbD_or, BitVec.getLsbD_shiftLeft]
  simp [hi, show i < 16 by omega, show i < 24 by omega, show i < 32 by omega]

theorem eq_word_iff (v : BitVec 32) (a b c d : Byte) :
    v = a.setWidth 32 ||| ((b.setWidth 32) <<< 8) ||| ((c.setWidth 32) <<< 16) ||| ((d.setWidth 32) <<< 24) ↔
      [a, b, c, d] = le32 v := by
  constructor
  · rintro rfl
    simp only [le32, List.cons.injEq, and_true]
    refine ⟨?_, ?_, ?_, ?_⟩
    all_goals
      apply BitVec.eq_of_getLsbD_eq
      intro i h
      simp only [BitVec.getLsbD_setWidth, BitVec.getLsbD_ushiftRight, BitVec.getLsbD_or,
        BitVec.getLsbD_shiftLeft, h, decide_true, Bool.true_and]
    · simp [h, show i < 16 by omega, show i < 24 by omega, show i < 32 by omega]
    · rw [a.getLsbD_of_ge _ (by omega)]
      simp [show 8 + i < 16 by omega, show 8 + i < 24 by omega, show 8 + i < 32 by omega, show i < 32 by omega]
    · rw [a.getLsbD_of_ge _ (by omega), b.getLsbD_of_ge _ (by omega)]
      simp [show 16 + i < 24 by omega, show 16 + i < 32 by omega, show i < 32 by omega]
    · rw [a.getLsbD_of_ge _ (by omega), b.getLsbD_of_ge _ (by omega), c.getLsbD_of_ge _ (by omega)]
      simp [show 24 + i < 32 by omega, show i < 32 by omega]
  · intro h
    simp only [le32, List.cons.injEq, and_true] at h
    obtain ⟨rfl, rfl, rfl, rfl⟩ := h
    apply BitVec.eq_of_getLsbD_eq
    intro i hi
    simp only [BitVec.getLsbD_setWidth, BitVec.getLsbD_ushiftRight, BitVec.getLsbD_or,
        BitVec.getLsbD_shiftLeft, hi, decide_true, Bool.true_and]
    rcases Nat.lt_or_ge i 8 with h | h
    · simp [h, show i < 16 by omega, show i < 24 by omega]
    rcases Nat.lt_or_ge i 16 with h | h
    · simp [show ¬ i < 8 by omega, h, show i < 24 by omega, show i - 8 < 8 by omega,
        show 8 + (i - 8) = i by omega, show i - 8 < 32 by omega]
    rcases Nat.lt_or_ge i 24 with h | h
    · simp [show ¬ i < 8 by omega, h, show ¬ i < 16 by omega, show ¬ i - 8 < 8 by omega, show i - 16 < 8 by omega,
        show 16 + (i - 16) = i by omega, show i - 16 < 32 by omega]
    · simp [show ¬ i < 8 by omega, show ¬ i < 24 by omega, show ¬ i < 16 by omega, show ¬ i - 8 < 8 by omega,
        show ¬ i - 16 < 8 by omega, show i - 24 < 8 by omega,
        show 24 + (i - 24) = i by omega, show i - 24 < 32 by omega]

theorem digestAll_append (t : Tracker) (a b : List Byte) :
    t.digestAll (a ++ b) =
      ((t.digestAll a).1 ++ ((t.digestAll a).2.digestAll b).1, ((t.digestAll a).2.digestAll b).2) := by
  induction a generalizing t with
  | nil => simp [Tracker.digestAll]
  | cons x a ih => simp [Tracker.digestAll, ih, List.append_assoc]

theorem exists_last_four {α : Type} (m : List α) (h : 4 ≤ m.length) :
    ∃ body a b c d, m = body ++ [a, b, c, d] := by
  refine ⟨m.take (m.length - 4), ?_⟩
  have h1 : (m.drop (m.length - 4)).length = 4 := by simp; omega
  match h2 : m.drop (m.length - 4), h1 with
  | [a, b, c, d], _ => exact ⟨a, b, c, d, by rw [← h2, List.take_append_drop]⟩

/-- State of the tracker after any message. -/
theorem tracker_state (m : List Byte) :
    Tracker.new.digestAll m =
      (m.take (m.length - 4),
       { crc := digestBytes32 crc32Init (m.take (m.length - 4))
         lastFour := m.foldl pushWord 0#32
         processed := BitVec.ofNat 8 (min m.length 255) }) := by
  induction hn : m.length generalizing m with
  | zero =>
    have : m = [] := by simpa using hn
    subst this
    rfl
  | succ n ih =>
    obtain ⟨l, x, rfl⟩ : ∃ l x, m = l ++ [x] := by
      rcases List.eq_nil_or_concat m with h | ⟨l, x, h⟩
      · simp [h] at hn
      · exact ⟨l, x, by simpa using h⟩
    have hl : l.length = n := by simpa using hn
    rw [digestAll_append, ih l hl]
    simp only [Tracker.digestAll, Tracker.digest, List.append_nil]
    have hproc : satInc (BitVec.ofNat 8 (min n 255)) = BitVec.ofNat 8 (min (n + 1) 255) := by
      unfold satInc
      rcases Nat.lt_or_ge n 255 with h | h
      · have h1 : min n 255 = n := by omega
        have h2 : min (n + 1) 255 = n + 1 := by omega
        rw [h1, h2, if_neg]
        · apply BitVec.eq_of_toNat_eq
          simp
        · intro hc
          have := congrArg BitVec.toNat hc
          simp at this
          omega
      · have h1 : min n 255 = 255 := by omega
        have h2 : min (n + 1) 255 = 255 := by omega
        rw [h1, h2]; rfl
    have hge : (BitVec.ofNat 8 (min n 255) ≥ 4#8) ↔ 4 ≤ n := by
      simp only [ge_iff_le, BitVec.le_def, BitVec.toNat_ofNat]
      omega
    rw [hproc]
    simp only [hge]
    rcases Nat.lt_or_ge n 4 with h | h
    · have h1 : n - 4 = 0 := by omega
      have h2 : n + 1 - 4 = 0 := by omega
      simp [show ¬ 4 ≤ n by omega, h1, h2, pushWord]
    · simp only [h, if_true]
      obtain ⟨body, a, b, c, d, rfl⟩ := exists_last_four l (by omega)
      have hb : n = body.length + 4 := by simpa using hl.symm
      subst hb
      have h3 : ((body ++ [a, b, c, d]).foldl pushWord 0#32).setWidth 8 = a := by
        simp only [List.foldl_append, List.foldl_cons, List.foldl_nil]
        exact pushWord_four_low _ _ _ _ _
      rw [h3]
      have e1 : body.length + 4 - 4 = body.length := by omega
      have e2 : body.length + 4 + 1 - 4 = body.length + 1 := by omega
      have e3 : (body ++ [a, b, c, d] ++ [x]).take (body.length + 1) = body ++ [a] := by
        rw [show body ++ [a, b, c, d] ++ [x] = (body ++ [a]) ++ [b, c, d, x] by simp]
        rw [List.take_left' (by simp)]
      have e4 : (body ++ [a, b, c, d]).take body.length = body := List.take_left' rfl
      rw [e1, e2, e3, e4]
      simp [digestBytes32, pushWord]

/-- **C02.** The tracker delivers exactly the bytes before the last four, in order, and reports `correct` exactly when
the last four bytes are the little-endian CRC-32C of all the bytes before them. -/
theorem C02_tracker_correct_iff (m : List Byte) :
    ((Tracker.new.digestAll m).2.correct = true ↔
      ∃ body, m = body ++ le32 (crc32c body)) ∧
    (Tracker.new.digestAll m).1 = m.take (m.length - 4) := by
  rw [tracker_state]
  refine ⟨?_, rfl⟩
  simp only [Tracker.correct, Bool.and_eq_true, decide_eq_true_eq, beq_iff_eq]
  have hge : (BitVec.ofNat 8 (min m.length 255) ≥ 4#8) ↔ 4 ≤ m.length := by
    simp only [ge_iff_le, BitVec.le_def, BitVec.toNat_ofNat]
    omega
  rw [hge]
  constructor
  · rintro ⟨h4, hcrc⟩
    obtain ⟨body, a, b, c, d, rfl⟩ := exists_last_four m h4
    refine ⟨body, ?_⟩
    have e1 : (body ++ [a, b, c, d]).length - 4 = body.length := by simp
    rw [e1, List.take_left' rfl] at hcrc
    simp only [List.foldl_append, List.foldl_cons, List.foldl_nil, pushWord_four] at hcrc
    congr 1
    exact (eq_word_iff _ _ _ _ _).mp hcrc
  · rintro ⟨body, rfl⟩
    have e1 : (body ++ le32 (crc32c body)).length - 4 = body.length := by simp [le32]
    refine ⟨by simp [le32], ?_⟩
    rw [e1, List.take_left' rfl]
    have h := (eq_word_iff (crc32c body) _ _ _ _).mpr (rfl : _ = le32 (crc32c body))
    rw [le32, List.foldl_append]
    simp only [List.foldl_cons, List.foldl_nil]
    rw [pushWord_four, ← h]
    rfl

/-- **C02**, splitting: digesting in two calls is the same as digesting in one. -/
theorem C02_tracker_split (t : Tracker) (a b : List Byte) :
    (t.digestAll (a ++ b)).2 = ((t.digestAll a).2.digestAll b).2 ∧
    (t.digestAll (a ++ b)).1 = (t.digestAll a).1 ++ ((t.digestAll a).2.digestAll b).1 := by
  rw [digestAll_append]; exact ⟨rfl, rfl⟩

/-- The message of the unit test at canadensis_core/src/crc.rs L77-85 is accepted; with one bit flipped it is not. -/
example : (Tracker.new.digestAll [0x39#8, 0x52#8, 0xee#8, 0x11#8, 0x68#8, 0x81#8, 0x3e#8, 0xc8#8]).2.correct = true ∧
    (Tracker.new.digestAll [0x39#8, 0x52#8, 0xee#8, 0x11#8, 0x68#8, 0x81#8, 0x3e#8, 0xc9#8]).2.correct = false := by
  decide +kernel

/-! ### C03 -/

theorem bitsMsb_length (m : List Byte) : (bitsMsb m).length = 8 * m.length := by
  induction m with
  | nil => rfl
  | cons b m ih => simp only [bitsMsb, List.flatMap_cons, List.length_append] at ih ⊢; rw [ih]; simp [byteBitsMsb]; omega

theorem bitsLsb_length (m : List Byte) : (bitsLsb m).length = 8 * m.length := by
  induction m with
  | nil => rfl
  | cons b m ih => simp only [bitsLsb, List.flatMap_cons, List.length_append] at ih ⊢; rw [ih]; simp [byteBitsLsb]; omega

theorem byteBitsMsb_inj : ∀ a b : Byte, byteBitsMsb a = byteBitsMsb b → a = b := by
  intro a b h
  apply BitVec.eq_of_getLsbD_eq
  intro i hi
  simp only [byteBitsMsb, List.cons.injEq, and_true] at h
  have : i = 0 ∨ i = 1 ∨ i = 2 ∨ i = 3 ∨ i = 4 ∨ i = 5 ∨ i = 6 ∨ i = 7 := by omega
  rcases this with rfl | rfl | rfl | rfl | rfl | rfl | rfl | rfl <;> simp_all only [bit]

theorem byteBitsLsb_inj : ∀ a b : Byte, byteBitsLsb a = byteBitsLsb b → a = b := by
  intro a b h
  apply BitVec.eq_of_getLsbD_eq
  intro i hi
  simp only [byteBitsLsb, List.cons.injEq, and_true] at h
  have : i = 0 ∨ i = 1 ∨ i = 2 ∨ i = 3 ∨ i = 4 ∨ i = 5 ∨ i = 6 ∨ i = 7 := by omega
  rcases this with rfl | rfl | rfl | rfl | rfl | rfl | rfl | rfl <;> simp_all only [bit]

theorem bitsMsb_inj : ∀ a b : List Byte, bitsMsb a = bitsMsb b → a = b := by
  intro a
  induction a with
  | nil =>
    intro b h
    have := congrArg List.length h
    rw [bitsMsb_length, bitsMsb_length] at this
    rcases b with _ | ⟨y, b⟩
    · rfl
    · simp at this
  | cons x a ih =>
    intro b h
    rcases b with _ | ⟨y, b⟩
    · simp [bitsMsb, byteBitsMsb] at h
    · simp only [bitsMsb, List.flatMap_cons] at h
      obtain ⟨h1, h2⟩ := List.append_inj h rfl
      rw [byteBitsMsb_inj x y h1, ih b h2]

theorem bitsLsb_inj : ∀ a b : List Byte, bitsLsb a = bitsLsb b → a = b := by
  intro a
  induction a with
  | nil =>
    intro b h
    have := congrArg List.length h
    rw [bitsLsb_length, bitsLsb_length] at this
    rcases b with _ | ⟨y, b⟩
    · rfl
    · simp at this
  | cons x a ih =>
    intro b h
    rcases b with _ | ⟨y, b⟩
    · simp [bitsLsb, byteBitsLsb] at h
    · simp only [bitsLsb, List.flatMap_cons] at h
      obtain ⟨h1, h2⟩ := List.append_inj h rfl
      rw [byteBitsLsb_inj x y h1, ih b h2]

/-- **C03** (CAN transfer CRC, header CRC). Two different messages of the same length that differ only within 16
consecutive bits have different CRCs. -/
theorem C03_crc16_detects_bursts (m m' : List Byte) (hlen : m.length = m'.length) (hne : m ≠ m')
    (hw : DifferInWindow 16 (bitsMsb m) (bitsMsb m')) : crc16 m ≠ crc16 m' := by
  obtain ⟨i, hi⟩ := hw
  unfold crc16
  rw [digestBytes16_eq, digestBytes16_eq]
  exact gfeed_burst poly16_odd (by rw [bitsMsb_length, bitsMsb_length, hlen])
    (fun h => hne (bitsMsb_inj _ _ h)) hi _

/-- **C03**, as seen by a receiver: a message (including its trailer) accepted because its residue is zero is no
longer accepted after such a corruption. -/
theorem C03_crc16_corrupt_rejected (m m' : List Byte) (hlen : m.length = m'.length) (hne : m ≠ m')
    (hw : DifferInWindow 16 (bitsMsb m) (bitsMsb m')) (hok : crc16 m = 0#16) : crc16 m' ≠ 0#16 := by
  intro h
  exact C03_crc16_detects_bursts m m' hlen hne hw (hok.trans h.symm)

example : DifferInWindow 16 (bitsMsb [0x31#8, 0x32#8, 0x33#8, 0x34#8]) (bitsMsb [0x31#8, 0x3d#8, 0xc3#8, 0x34#8]) :=
  ⟨12, by
    intro k hk
    rcases Nat.lt_or_ge k 32 with h | h
    · have : ∀ k : Fin 32, (k.val < 12 ∨ 12 + 16 ≤ k.val) →
        (bitsMsb [0x31#8, 0x32#8, 0x33#8, 0x34#8])[k.val]? = (bitsMsb [0x31#8, 0x3d#8, 0xc3#8, 0x34#8])[k.val]? := by decide
      exact this ⟨k, h⟩ hk
    · rw [List.getElem?_eq_none (by simpa [bitsMsb_length] using h), List.getElem?_eq_none (by simpa [bitsMsb_length] using h)]⟩

/-- **C03** (CRC-32C). Two different messages of the same length that differ only within 32 consecutive bits have
different CRCs. -/
theorem C03_crc32c_detects_bursts (m m' : List Byte) (hlen : m.length = m'.length) (hne : m ≠ m')
    (hw : DifferInWindow 32 (bitsLsb m) (bitsLsb m')) : crc32c m ≠ crc32c m' := by
  obtain ⟨i, hi⟩ := hw
  unfold crc32c getCrc32
  rw [digestBytes32_eq, digestBytes32_eq]
  intro h
  have := congrArg (· ^^^ crc32Xor) h
  simp only [BitVec.xor_assoc, BitVec.xor_self, BitVec.xor_zero] at this
  exact gfeed_ne i hi this
where
  gfeed_ne (i : Nat) (hi : ∀ k, (k < i ∨ i + 32 ≤ k) → (bitsLsb m)[k]? = (bitsLsb m')[k]?) :=
    rfeed_burst poly32_msb (by rw [bitsLsb_length, bitsLsb_length, hlen])
    (fun h => hne (bitsLsb_inj _ _ h)) hi crc32Init

theorem rplace_le32 (a b c d : Byte) : rplace 32 (bitsLsb [a, b, c, d]) =
    a.setWidth 32 ||| ((b.setWidth 32) <<< 8) ||| ((c.setWidth 32) <<< 16) ||| ((d.setWidth 32) <<< 24) := by
  have hb : ∀ c : Bool, ∀ k, (if c then BitVec.twoPow 32 0 else 0#32).getLsbD k = (c && decide (0 = k)) := by
    intro c k
    rcases c <;> simp [BitVec.getLsbD_twoPow]
  have hcons : ∀ (x : Bool) (xs : List Bool) (k : Nat),
      (rplace 32 (x :: xs)).getLsbD k = (if k = 0 then x else decide (k < 32) && (rplace 32 xs).getLsbD (k - 1)) := by
    intro x xs k
    rw [rplace, BitVec.getLsbD_xor, hb, BitVec.getLsbD_shiftLeft]
    rcases k with _ | k <;> simp
  have hget : ∀ (xs : List Bool) (k : Nat), k < 32 → (rplace 32 xs).getLsbD k = xs[k]?.getD false := by
    intro xs
    induction xs with
    | nil => intro k _; simp [rplace]
    | cons x xs ih =>
      intro k hk
      rw [hcons]
      rcases k with _ | k
      · simp
      · simp only [Nat.add_one_ne_zero, if_false, hk, decide_true, Bool.true_and, Nat.add_sub_cancel, List.getElem?_cons_succ]
        exact ih k (by omega)
  apply BitVec.eq_of_getLsbD_eq
  intro i hi
  rw [hget _ _ hi]
  have : i = 0 ∨ i = 1 ∨ i = 2 ∨ i = 3 ∨ i = 4 ∨ i = 5 ∨ i = 6 ∨ i = 7 ∨ i = 8 ∨ i = 9 ∨ i = 10 ∨
    i = 11 ∨ i = 12 ∨ i = 13 ∨ i = 14 ∨ i = 15 ∨ i = 16 ∨ i = 17 ∨ i = 18 ∨ i = 19 ∨ i = 20 ∨ i = 21 ∨
    i = 22 ∨ i = 23 ∨ i = 24 ∨ i = 25 ∨ i = 26 ∨ i = 27 ∨ i = 28 ∨ i = 29 ∨ i = 30 ∨ i = 31 := by omega
  simp only [BitVec.getLsbD_or, BitVec.getLsbD_shiftLeft, BitVec.getLsbD_setWidth]
  rcases this with rfl | rfl | rfl | rfl | rfl | rfl | rfl | rfl | rfl | rfl | rfl | rfl | rfl |
    rfl | rfl | rfl | rfl | rfl | rfl | rfl | rfl | rfl | rfl | rfl | rfl | rfl | rfl | rfl | rfl | rfl | rfl | rfl <;>
  simp [bitsLsb, byteBitsLsb, bit, -BitVec.getLsbD_eq_getElem]

/-- Running CRC-32C over a message and its little-endian CRC always gives the same register value. -/
theorem digest32_trailer (body : List Byte) (a b c d : Byte) :
    digestBytes32 crc32Init (body ++ [a, b, c, d]) = iter (rstep crc32Poly) 32 crc32Xor ↔
      [a, b, c, d] = le32 (crc32c body) := by
  have h : digestBytes32 crc32Init (body ++ [a, b, c, d]) =
      digestBytes32 (digestBytes32 crc32Init body) [a, b, c, d] := by simp [digestBytes32]
  rw [h, digestBytes32_eq [a, b, c, d], rfeed_all _ _ (by simp [bitsLsb, byteBitsLsb]), rplace_le32, ← eq_word_iff]
  have hlen : (bitsLsb [a, b, c, d]).length = 32 := rfl
  rw [hlen, crc32c, getCrc32]
  constructor
  · intro h
    have := iter_rstep_inj poly32_msb 32 h
    rw [← this, bv_xor_cancel]
  · intro h
    rw [← h, bv_xor_cancel]

/-- **C03**, as seen by a receiver of serial or UDP transfers: a transfer (payload and trailer) accepted by the tracker is no
longer accepted when it is changed only within 32 consecutive bits, wherever the change is (payload, trailer, or both). -/
theorem C03_crc32c_corrupt_rejected (m m' : List Byte) (hlen : m.length = m'.length) (hne : m ≠ m')
    (hw : DifferInWindow 32 (bitsLsb m) (bitsLsb m'))
    (hok : (Tracker.new.digestAll m).2.correct = true) :
    (Tracker.new.digestAll m').2.correct = false := by
  rcases hc : (Tracker.new.digestAll m').2.correct with _ | _
  · rfl
  · exfalso
    obtain ⟨x, hx⟩ := (C02_tracker_correct_iff m).1.mp hok
    obtain ⟨y, hy⟩ := (C02_tracker_correct_iff m').1.mp hc
    apply C03_crc32c_detects_bursts m m' hlen hne hw
    unfold crc32c
    congr 1
    have e1 := (digest32_trailer x _ _ _ _).mpr (rfl : _ = le32 (crc32c x))
    have e2 := (digest32_trailer y _ _ _ _).mpr (rfl : _ = le32 (crc32c y))
    rw [hx, hy]
    exact e1.trans e2.symm

/-- The published check value of CRC-32C ("123456789"). -/
example : crc32c [0x31#8, 0x32#8, 0x33#8, 0x34#8, 0x35#8, 0x36#8, 0x37#8, 0x38#8, 0x39#8] = 0xe3069283#32 := by
  decide +kernel

example : DifferInWindow 32 (bitsLsb [0x39#8, 0x52#8, 0xee#8, 0x11#8, 0x68#8, 0x81#8, 0x3e#8, 0xc8#8])
    (bitsLsb [0x39#8, 0x52#8, 0xee#8, 0x12#8, 0x68#8, 0x80#8, 0x3e#8, 0xc8#8]) :=
  ⟨24, by
    intro k hk
    rcases Nat.lt_or_ge k 64 with h | h
    · have : ∀ k : Fin 64, (k.val < 24 ∨ 24 + 32 ≤ k.val) →
        (bitsLsb [0x39#8, 0x52#8, 0xee#8, 0x11#8, 0x68#8, 0x81#8, 0x3e#8, 0xc8#8])[k.val]? =
        (bitsLsb [0x39#8, 0x52#8, 0xee#8, 0x12#8, 0x68#8, 0x80#8, 0x3e#8, 0xc8#8])[k.val]? := by decide
      exact this ⟨k, h⟩ hk
    · rw [List.getElem?_eq_none (by simpa [bitsLsb_length] using h), List.getElem?_eq_none (by simpa [bitsLsb_length] using h)]⟩

end Verif.Crc
