import Verif.Enc.WLemmas

/-!
C41 to C43 and C46: fields written with a cursor, and read back.
-/

namespace Verif.Enc

/-- A sequence with fields of many widths, across byte boundaries. -/
def demoFields : List Field :=
  [.uint 3 5, .bool true, .uint 17 0x1abcd, .uint 64 0xfedcba9876543210, .bytes [0xa5, 0x5a], .align, .uint 32 0xffffffff, .uint 1 2]

theorem demoFields_ok : ∀ f ∈ demoFields, f.Ok := by
  simp [demoFields, Field.Ok]

/-! ### Reading -/

/-- **C42.** Reading any sequence of fields (integers of 1 to 64 bits, booleans, byte arrays, alignments) from any byte string never panics,
and returns the fields found in the string extended with infinitely many zeros. -/
theorem C42_read_total (bs : List Byte) (ss : List Shape) (hok : ∀ s ∈ ss, s.Ok) :
    ∃ c, readAll ss (ReadCursor.new bs) = some ((shapesAt (bitAt bs) 0 ss).1, c) := by
  rw [new_eq_rcur, readAll_rcur bs ss hok 0]
  exact ⟨_, rfl⟩

/-- Integers after the end are zero, and one across the end is extended with zeros. -/
example : ∃ c, readAll [.uint 4, .uint 16, .bool, .align, .uint 64, .bytes 2] (ReadCursor.new [0xab]) =
    some ([.uint 0xb, .uint 0xa, .bool false, .align, .uint 0, .bytes [0, 0]], c) := by
  obtain ⟨c, h⟩ := C42_read_total [0xab] [.uint 4, .uint 16, .bool, .align, .uint 64, .bytes 2] (by simp [Shape.Ok])
  refine ⟨c, ?_⟩
  have e : (shapesAt (bitAt [0xab]) 0 [.uint 4, .uint 16, .bool, .align, .uint 64, .bytes 2]).1 =
      [.uint 0xb, .uint 0xa, .bool false, .align, .uint 0, .bytes [0, 0]] := by decide +kernel
  rw [h, e]

/-- **C42.** Appending zero bytes to the input does not change what is read. -/
theorem C42_zero_extension (bs : List Byte) (k : Nat) (ss : List Shape) (hok : ∀ s ∈ ss, s.Ok) :
    (readAll ss (ReadCursor.new (bs ++ List.replicate k 0))).map (·.1) = (readAll ss (ReadCursor.new bs)).map (·.1) := by
  have h : bitAt (bs ++ List.replicate k 0) = bitAt bs := by
    funext p
    unfold bitAt
    rw [List.getD_eq_getElem?_getD, List.getD_eq_getElem?_getD]
    by_cases hp : p / 8 < bs.length
    · rw [List.getElem?_append_left hp]
    · rw [List.getElem?_append_right (by omega), List.getElem?_eq_none (l := bs) (by omega), List.getElem?_replicate]
      split <;> rfl
  rw [new_eq_rcur, new_eq_rcur, readAll_rcur _ ss hok 0, readAll_rcur _ ss hok 0, h]
  rfl

example : (readAll [.uint 13, .bytes 1] (ReadCursor.new ([0xab] ++ List.replicate 3 0))).map (·.1) =
    (readAll [.uint 13, .bytes 1] (ReadCursor.new [0xab])).map (·.1) :=
  C42_zero_extension [0xab] 3 _ (by simp [Shape.Ok])

/-! ### Writing -/

/-- The number of bits a field takes at bit position `p`. -/
def Field.size (p : Nat) : Field → Nat
  | .uint n _ => n
  | .bool _ => 1
  | .bytes bs => 8 * bs.length
  | .align => (8 - p % 8) % 8

/-- Bit `i` of a field. -/
def Field.bit (i : Nat) : Field → Bool
  | .uint _ v => v.getLsbD i
  | .bool b => b
  | .bytes bs => bitAt bs i
  | .align => false

theorem flatMap_getD (bs : List Byte) : ∀ i, (bs.flatMap fun b => bitsOf 8 b.toNat).getD i false = bitAt bs i := by
  induction bs with
  | nil => intro i; simp [bitAt]
  | cons b bs ih =>
    intro i
    rw [List.flatMap_cons, List.getD_eq_getElem?_getD]
    by_cases h : i < 8
    · rw [List.getElem?_append_left (by simpa using h)]
      unfold bitAt
      rw [Nat.div_eq_of_lt h, Nat.mod_eq_of_lt h]
      simp [bitsOf, h, BitVec.testBit_toNat]
    · rw [List.getElem?_append_right (by simp; omega), length_bitsOf, ← List.getD_eq_getElem?_getD, ih]
      unfold bitAt
      have e1 : i / 8 = (i - 8) / 8 + 1 := by omega
      have e2 : i % 8 = (i - 8) % 8 := by omega
      rw [e1, e2]
      simp

theorem append_getD (bits : List Bool) (f : Field) (p : Nat) :
    (f.append bits).length = bits.length + f.size bits.length ∧
    (f.append bits).getD p false =
      if bits.length ≤ p ∧ p < bits.length + f.size bits.length then f.bit (p - bits.length) else bits.getD p false := by
  have hbase : ∀ x : List Bool, ∀ g : Nat → Bool, (∀ i, i < x.length → x.getD i false = g i) →
      (bits ++ x).getD p false = if bits.length ≤ p ∧ p < bits.length + x.length then g (p - bits.length) else bits.getD p false := by
    intro x g hg
    rw [List.getD_eq_getElem?_getD]
    by_cases h1 : bits.length ≤ p
    · rw [List.getElem?_append_right h1, ← List.getD_eq_getElem?_getD]
      by_cases h2 : p < bits.length + x.length
      · rw [if_pos ⟨h1, h2⟩, hg _ (by omega)]
      · rw [if_neg (by omega), getD_of_ge (by omega), getD_of_ge (by omega)]
    · rw [List.getElem?_append_left (by omega), ← List.getD_eq_getElem?_getD, if_neg (by omega)]
  cases f with
  | uint n v =>
    refine ⟨by simp [Field.append, Field.size], ?_⟩
    have := hbase (bitsOf n v.toNat) (fun i => v.getLsbD i) (by
      intro i hi
      have hi' : i < n := by simpa using hi
      simp [bitsOf, hi', BitVec.testBit_toNat])
    simpa [Field.append, Field.size, Field.bit] using this
  | bool b =>
    refine ⟨by simp [Field.append, Field.size], ?_⟩
    have := hbase [b] (fun _ => b) (by
      intro i hi
      have : i = 0 := by simpa using hi
      subst this
      rfl)
    simpa [Field.append, Field.size, Field.bit] using this
  | bytes bs =>
    refine ⟨by simp only [Field.append, Field.size, List.length_append, length_flatMap_bits], ?_⟩
    have := hbase (bs.flatMap fun b => bitsOf 8 b.toNat) (bitAt bs) (fun i _ => flatMap_getD bs i)
    rw [length_flatMap_bits] at this
    exact this
  | align =>
    refine ⟨by simp [Field.append, Field.size], ?_⟩
    have := hbase (List.replicate ((8 - bits.length % 8) % 8) false) (fun _ => false) (by
      intro i hi
      have : i < (8 - bits.length % 8) % 8 := by simpa using hi
      simp [this])
    simpa [Field.append, Field.size, Field.bit] using this

/-- **C43.** Whatever fields were written before: writing a field succeeds exactly if its bits fit into the rest of the buffer and panics
otherwise; it advances the cursor by the size of the field; the bits of the field, least significant first, are found at the position where
the cursor was (position `p` is bit `p % 8` of byte `p / 8`), and no other bit of the buffer changes. -/
theorem C43_write (buf : List Byte) (fs : List Field) (hok : ∀ f ∈ fs, f.Ok) (c : WriteCursor) (hc : writeAll fs (WriteCursor.new buf) = some c)
    (f : Field) (hf : f.Ok) :
    (f.write c = none ↔ 8 * buf.length < c.bitsWritten + f.size c.bitsWritten) ∧
    ∀ c', f.write c = some c' →
      c'.bytes.length = buf.length ∧ c'.bitsWritten = c.bitsWritten + f.size c.bitsWritten ∧
      ∀ p, bitAt c'.bytes p =
        if c.bitsWritten ≤ p ∧ p < c.bitsWritten + f.size c.bitsWritten then f.bit (p - c.bitsWritten) else bitAt c.bytes p := by
  rw [new_eq_wcur, writeAll_wcur _ _ hok [] (by simp)] at hc
  split at hc
  case isFalse => cases hc
  rename_i hfit
  injection hc with hc
  subst hc
  have hbw : ∀ L (bits : List Bool), (wcur L bits).bitsWritten = bits.length := by
    intro L bits
    simp only [WriteCursor.bitsWritten, wcur]
    omega
  rw [field_write_wcur _ _ f hf hfit, hbw]
  generalize hbits : fs.foldl Field.append [] = bits at hfit
  have hlen := (append_getD bits f 0).1
  constructor
  · rw [← hlen]
    split
    · rename_i h
      constructor
      · intro h'; cases h'
      · intro h'; omega
    · rename_i h
      constructor
      · intro _; omega
      · intro _; rfl
  · intro c' hc'
    split at hc'
    case isFalse => cases hc'
    rename_i hfit'
    injection hc' with hc'
    subst hc'
    refine ⟨by simp [wcur], by rw [hbw, hlen], ?_⟩
    intro p
    by_cases hp : p < 8 * buf.length
    · simp only [wcur]
      rw [bitAt_pack _ _ _ hp, bitAt_pack _ _ _ hp, (append_getD bits f p).2]
    · simp only [wcur]
      rw [bitAt_of_ge (by simp; omega), bitAt_of_ge (by simp; omega), if_neg (by omega)]

/-- The layout of a whole sequence: the bits of the fields in order, then zeros. -/
theorem C43_layout (buf : List Byte) (fs : List Field) (hok : ∀ f ∈ fs, f.Ok) :
    (writeAll fs (WriteCursor.new buf) = none ↔ 8 * buf.length < (encode fs).length) ∧
    ∀ c, writeAll fs (WriteCursor.new buf) = some c →
      c.bytes.length = buf.length ∧ c.bitsWritten = (encode fs).length ∧ ∀ p, bitAt c.bytes p = (encode fs).getD p false := by
  rw [new_eq_wcur, writeAll_wcur _ _ hok [] (by simp)]
  unfold encode
  generalize fs.foldl Field.append [] = bits
  constructor
  · split
    · constructor
      · intro h'; cases h'
      · intro h'; omega
    · constructor
      · intro _; omega
      · intro _; rfl
  · intro c hc
    split at hc
    case isFalse => cases hc
    rename_i hfit
    injection hc with hc
    subst hc
    refine ⟨by simp [wcur], ?_, ?_⟩
    · simp only [WriteCursor.bitsWritten, wcur]
      omega
    · intro p
      by_cases hp : p < 8 * buf.length
      · exact bitAt_pack _ _ _ hp
      · simp only [wcur]
        rw [bitAt_of_ge (by simp; omega), getD_of_ge (by omega)]

/-- The demonstration sequence takes 137 bits: it fits into 18 bytes, not into 17. -/
example : (writeAll demoFields (WriteCursor.new (List.replicate 18 0xff))).isSome = true ∧
    writeAll demoFields (WriteCursor.new (List.replicate 17 0xff)) = none := by
  constructor
  · decide +kernel
  · exact (C43_layout (List.replicate 17 0xff) demoFields demoFields_ok).1.2 (by decide +kernel)

/-- A 12-bit field written after 3 bits. -/
example : ∃ c, writeAll [.uint 3 5] (WriteCursor.new [0xff, 0xff, 0xff]) = some c ∧
    (Field.uint 12 0xabc).write c = some ⟨[0xe5, 0x55, 0], 1, 7⟩ := by
  refine ⟨⟨[5, 0, 0], 0, 3⟩, by decide +kernel, by decide +kernel⟩

/-! ### Reading back -/

theorem shapesAt_foldl (fs : List Field) : ∀ (acc : List Bool) (f : Nat → Bool),
    (∀ p, p < (fs.foldl Field.append acc).length → f p = (fs.foldl Field.append acc).getD p false) →
    shapesAt f acc.length (fs.map Field.shape) = (fs.map Field.expected, (fs.foldl Field.append acc).length) := by
  induction fs with
  | nil => intro acc f _; rfl
  | cons x fs ih =>
    intro acc f hf
    rw [List.foldl_cons] at hf ⊢
    have hle := length_foldl_append fs (x.append acc)
    -- the bits of `x` are the same in the whole sequence
    have hpre : ∀ p, p < (x.append acc).length → f p = (x.append acc).getD p false := by
      have hgen : ∀ (fs : List Field) (acc : List Bool) (p : Nat), p < acc.length →
          (fs.foldl Field.append acc).getD p false = acc.getD p false := by
        intro fs
        induction fs with
        | nil => intro acc p _; rfl
        | cons y fs ih2 =>
          intro acc p hp
          rw [List.foldl_cons, ih2 _ _ (Nat.lt_of_lt_of_le hp (length_append_field acc y)), (append_getD acc y p).2, if_neg (by omega)]
      intro p hp
      rw [hf p (by omega), hgen fs _ p hp]
    have hbit : ∀ i, i < x.size acc.length → f (acc.length + i) = x.bit i := by
      intro i hi
      have hl := (append_getD acc x 0).1
      rw [hpre _ (by omega), (append_getD acc x _).2, if_pos (by omega)]
      congr 1; omega
    have hx : x.shape.at f acc.length = (x.expected, (x.append acc).length) := by
      rw [(append_getD acc x 0).1]
      cases x with
      | uint n v =>
        simp only [Field.shape, Shape.at, Field.expected, Field.size, Prod.mk.injEq, and_true, Value.uint.injEq]
        apply Nat.eq_of_testBit_eq
        intro i
        rw [bitsVal_testBit, Nat.testBit_mod_two_pow, BitVec.testBit_toNat]
        by_cases hi : i < n
        · rw [hbit i hi]; rfl
        · simp [hi]
      | bool b =>
        simp only [Field.shape, Shape.at, Field.expected, Field.size, Prod.mk.injEq, and_true, Value.bool.injEq]
        have := hbit 0 (by simp [Field.size])
        simpa [Field.bit] using this
      | bytes bs =>
        simp only [Field.shape, Shape.at, Field.expected, Field.size, Prod.mk.injEq, and_true, Value.bytes.injEq]
        apply List.ext_getElem
        · simp
        · intro k h1 h2
          simp only [List.getElem_map, List.getElem_range]
          apply BitVec.eq_of_getLsbD_eq
          intro j hj
          rw [getLsbD_ofBits _ j hj, Nat.add_assoc, hbit _ (by simp only [Field.size]; omega)]
          simp only [Field.bit]
          unfold bitAt
          have e1 : (8 * k + j) / 8 = k := by omega
          have e2 : (8 * k + j) % 8 = j := by omega
          rw [e1, e2, List.getD_eq_getElem?_getD, List.getElem?_eq_getElem h2, Option.getD_some]
      | align =>
        simp only [Field.shape, Shape.at, Field.expected, Field.size, Prod.mk.injEq, true_and]
        omega
    rw [List.map_cons, List.map_cons]
    unfold shapesAt
    rw [hx]
    dsimp only
    rw [ih (x.append acc) f hf]

/-- **C41.** Whatever sequence of unsigned fields of 1 to 64 bits, booleans, byte arrays and alignments is written to a buffer (of any content
and size in which it fits): reading the buffer with the same widths returns the written values, integers modulo 2^width. -/
theorem C41_roundtrip (buf : List Byte) (fs : List Field) (hok : ∀ f ∈ fs, f.Ok) (c : WriteCursor)
    (hc : writeAll fs (WriteCursor.new buf) = some c) :
    ∃ c', readAll (fs.map Field.shape) (ReadCursor.new c.bytes) = some (fs.map Field.expected, c') := by
  obtain ⟨hlen, hbw, hbits⟩ := (C43_layout buf fs hok).2 c hc
  have hshapes : ∀ s ∈ fs.map Field.shape, s.Ok := by
    intro s hs
    obtain ⟨f, hf, rfl⟩ := List.mem_map.1 hs
    have := hok f hf
    cases f <;> simp_all [Field.shape, Shape.Ok, Field.Ok]
  rw [new_eq_rcur, readAll_rcur c.bytes _ hshapes 0]
  have := shapesAt_foldl fs [] (bitAt c.bytes) (fun p _ => hbits p)
  rw [List.length_nil] at this
  rw [this]
  exact ⟨_, rfl⟩

example : ∃ c c', writeAll demoFields (WriteCursor.new (List.replicate 18 0xff)) = some c ∧
    readAll (demoFields.map Field.shape) (ReadCursor.new c.bytes) =
      some ([.uint 5, .bool true, .uint 0x1abcd, .uint 0xfedcba9876543210, .bytes [0xa5, 0x5a], .align, .uint 0xffffffff, .uint 0], c') := by
  cases hc : writeAll demoFields (WriteCursor.new (List.replicate 18 0xff)) with
  | none =>
    have := (C43_layout (List.replicate 18 0xff) demoFields demoFields_ok).1.1 hc
    exact absurd this (by decide +kernel)
  | some c =>
    obtain ⟨c', h⟩ := C41_roundtrip _ demoFields demoFields_ok c hc
    refine ⟨c, c', rfl, ?_⟩
    rw [h]
    have e : demoFields.map Field.expected =
        [.uint 5, .bool true, .uint 0x1abcd, .uint 0xfedcba9876543210, .bytes [0xa5, 0x5a], .align, .uint 0xffffffff, .uint 0] := by decide +kernel
    rw [e]

/-! ### Aligned functions -/

theorem fit_iff {a b : Nat} : 8 * a < 8 * b ↔ a < b := by omega

theorem writeAlignedBytes_wcur (L : Nat) (bits : List Bool) (bs : List Byte) (ha : bits.length % 8 = 0) (hL : bits.length ≤ 8 * L) :
    (wcur L bits).writeAlignedBytes bs =
      if bits.length + 8 * bs.length ≤ 8 * L then some (wcur L (bits ++ bs.flatMap fun b => bitsOf 8 b.toNat)) else none := by
  unfold WriteCursor.writeAlignedBytes
  have hlen : (wcur L bits).bytes.length = L := by simp [wcur]
  have hbw : (wcur L bits).bytesWritten = bits.length / 8 := rfl
  rw [hlen, hbw, if_neg (by omega)]
  by_cases hfit : bits.length + 8 * bs.length ≤ 8 * L
  · rw [if_pos hfit, if_neg (by omega)]
    have hbytes : (wcur L bits).bytes.take (bits.length / 8) ++ bs ++ (wcur L bits).bytes.drop (bits.length / 8 + bs.length) =
        pack L (bits ++ bs.flatMap fun b => bitsOf 8 b.toNat) := by
      have hb : (wcur L bits).bytes = pack L bits := rfl
      rw [hb]
      apply bytes_ext
      · simp only [List.length_append, List.length_take, List.length_drop, length_pack]
        omega
      · intro p hp
        have hp' : p < 8 * L := by
          simp only [List.length_append, List.length_take, List.length_drop, length_pack] at hp
          omega
        rw [bitAt_pack _ _ _ hp']
        have hspec : (bits ++ bs.flatMap fun b => bitsOf 8 b.toNat).getD p false =
            if bits.length ≤ p ∧ p < bits.length + 8 * bs.length then bitAt bs (p - bits.length) else bits.getD p false :=
          (append_getD bits (.bytes bs) p).2
        rw [hspec]
        have hpk := bitAt_pack L bits p hp'
        unfold bitAt at hpk ⊢
        rw [List.append_assoc, List.getD_eq_getElem?_getD]
        have htl : (List.take (bits.length / 8) (pack L bits)).length = bits.length / 8 := by
          rw [List.length_take, length_pack]; omega
        by_cases h1 : p < bits.length
        · rw [if_neg (by omega), List.getElem?_append_left (by omega), List.getElem?_take_of_lt (by omega), ← List.getD_eq_getElem?_getD]
          exact hpk
        · rw [List.getElem?_append_right (by omega), htl]
          by_cases h2 : p < bits.length + 8 * bs.length
          · rw [if_pos ⟨by omega, h2⟩, List.getElem?_append_left (by omega), ← List.getD_eq_getElem?_getD]
            have e1 : p / 8 - bits.length / 8 = (p - bits.length) / 8 := by omega
            have e2 : p % 8 = (p - bits.length) % 8 := by omega
            rw [e1, e2]
          · rw [if_neg (by omega), List.getElem?_append_right (by omega), List.getElem?_drop, ← List.getD_eq_getElem?_getD]
            have e1 : bits.length / 8 + bs.length + (p / 8 - bits.length / 8 - bs.length) = p / 8 := by omega
            rw [e1]
            exact hpk
    unfold WriteCursor.advanceBits WriteCursor.checkLength
    rw [hbytes]
    simp only [length_pack]
    have hbi : (wcur L bits).bitIndex = 0 := ha
    rw [hbi]
    rw [if_pos (by simp; omega)]
    unfold wcur
    simp only [List.length_append, length_flatMap_bits, Option.some.injEq, WriteCursor.mk.injEq, true_and]
    omega
  · rw [if_neg hfit, if_pos (by omega)]

/-- **C46**, true part: on a byte aligned cursor `write_aligned_bytes` is `write_bytes`: it panics exactly if the bytes do not fit,
and otherwise (C43) changes only the bits that it advances over.
Missing: the rejection of misaligned cursors, which the code does not do (`C46_counterexample`). -/
theorem C46_aligned_bytes_partial (buf : List Byte) (fs : List Field) (hok : ∀ f ∈ fs, f.Ok) (c : WriteCursor)
    (hc : writeAll fs (WriteCursor.new buf) = some c) (ha : c.bitsWritten % 8 = 0) (bs : List Byte) :
    c.writeAlignedBytes bs = (Field.bytes bs).write c := by
  rw [new_eq_wcur, writeAll_wcur _ _ hok [] (by simp)] at hc
  split at hc
  case isFalse => cases hc
  rename_i hfit
  injection hc with hc
  subst hc
  have ha' : (fs.foldl Field.append []).length % 8 = 0 := by
    simp only [WriteCursor.bitsWritten, wcur] at ha
    omega
  rw [writeAlignedBytes_wcur _ _ _ ha' hfit]
  exact (writeBytes_wcur _ _ _ hfit).symm

example : ∃ c, writeAll [.uint 3 5, .align] (WriteCursor.new [0xff, 0xff, 0xff]) = some c ∧
    c.writeAlignedBytes [0x12, 0x34] = (Field.bytes [0x12, 0x34]).write c := by
  refine ⟨⟨[5, 0, 0], 1, 0⟩, by decide +kernel, ?_⟩
  exact C46_aligned_bytes_partial [0xff, 0xff, 0xff] [.uint 3 5, .align] (by simp [Field.Ok]) _ (by decide +kernel) (by decide) _

/-- **C46** is false: after four bits have been written, `write_aligned_bytes` does not panic, and it erases these bits. -/
theorem C46_counterexample :
    ∃ (buf : List Byte) (fs : List Field) (c c' : WriteCursor) (bs : List Byte), (∀ f ∈ fs, f.Ok) ∧
      writeAll fs (WriteCursor.new buf) = some c ∧ c.bitsWritten % 8 ≠ 0 ∧ c.writeAlignedBytes bs = some c' ∧
      ∃ p, p < c.bitsWritten ∧ bitAt c'.bytes p ≠ bitAt c.bytes p :=
  ⟨[0, 0], [.uint 4 0xf], ⟨[0x0f, 0], 0, 4⟩, ⟨[0, 0], 1, 4⟩, [0], by simp [Field.Ok], by decide +kernel, by decide, by decide +kernel, 0, by decide,
    by decide⟩

/-- The other aligned functions do check the alignment: `write_aligned_u8`, `..u16`, `..u32`, `..u64` (`n` = 1, 2, 4, 8 bytes) panic on
a misaligned cursor, and do the same as the function for unaligned integers otherwise. -/
theorem C46_aligned_integers (buf : List Byte) (fs : List Field) (hok : ∀ f ∈ fs, f.Ok) (c : WriteCursor)
    (hc : writeAll fs (WriteCursor.new buf) = some c) (n : Nat) (h1 : 1 ≤ n) (h8 : n ≤ 8) (v : BitVec 64) :
    c.writeAlignedU n v = if c.bitsWritten % 8 = 0 then c.writeU (8 * n) v else none := by
  rw [new_eq_wcur, writeAll_wcur _ _ hok [] (by simp)] at hc
  split at hc
  case isFalse => cases hc
  rename_i hfit
  injection hc with hc
  subst hc
  generalize fs.foldl Field.append [] = bits at hfit
  unfold WriteCursor.writeAlignedU
  have hbi : (wcur buf.length bits).isAligned = (bits.length % 8 == 0) := rfl
  have hbw : (wcur buf.length bits).bitsWritten % 8 = bits.length % 8 := by
    simp only [WriteCursor.bitsWritten, wcur]
    omega
  rw [hbi, hbw]
  by_cases ha : bits.length % 8 = 0
  · rw [if_pos (by simpa using ha), if_pos ha, writeAlignedBytes_wcur _ _ _ ha hfit, writeU_wcur _ _ _ _ (by omega) (by omega) hfit]
    simp only [List.length_map, List.length_range]
    have : ((List.range n).map fun i => (v >>> (8 * i)).setWidth 8).flatMap (fun b : Byte => bitsOf 8 b.toNat) = bitsOf (8 * n) v.toNat := by
      clear hbi hbw ha hfit h1 h8
      induction n with
      | zero => rfl
      | succ n ih =>
        rw [List.range_succ, List.map_append, List.flatMap_append, ih]
        have e : 8 * (n + 1) = 8 * n + 8 := by omega
        rw [e, bitsOf_add]
        simp only [List.map_cons, List.map_nil, List.flatMap_cons, List.flatMap_nil, List.append_nil, BitVec.toNat_setWidth,
          BitVec.toNat_ushiftRight]
        rw [bitsOf_mod _ _ _ (Nat.le_refl _)]
    rw [this]
  · rw [if_neg (by simpa using ha), if_neg ha]

example : ∃ c, writeAll [.uint 3 5] (WriteCursor.new [0xff, 0xff, 0xff]) = some c ∧ c.writeAlignedU 2 0x1234 = none := by
  refine ⟨⟨[5, 0, 0], 0, 3⟩, by decide +kernel, ?_⟩
  rw [C46_aligned_integers [0xff, 0xff, 0xff] [.uint 3 5] (by simp [Field.Ok]) _ (by decide +kernel) 2 (by decide) (by decide)]
  decide

/-- The aligned reading functions panic exactly on a misaligned cursor, and otherwise do the same as the function for unaligned integers. -/
theorem C42_read_aligned_u8 (c : ReadCursor) (h : c.bitIndex < 8) :
    (c.readAlignedU8.map fun r => (r.1.setWidth 64, r.2)) = if c.bitIndex = 0 then c.readU 8 else none := by
  unfold ReadCursor.readAlignedU8 ReadCursor.isAligned
  by_cases h0 : c.bitIndex = 0
  · rw [if_pos (by simpa using h0), if_pos h0, Option.map_some]
    rw [eq_rcur c h, advanceBytes_rcur, readU_rcur _ _ 8 (by omega) (by omega), h0]
    have : ((rcur c.bytes 0).readCurrent.setWidth 64 : BitVec 64) = BitVec.ofNat 64 (bitsVal (fun i => bitAt c.bytes (0 + i)) 8) := by
      apply BitVec.eq_of_toNat_eq
      have hlt := bitsVal_lt (fun i => bitAt c.bytes (0 + i)) 8
      rw [BitVec.toNat_setWidth, BitVec.toNat_ofNat]
      congr 1
      apply toNat_eq_bitsVal _ (Nat.le_refl _)
      intro i hi
      have := getD_drop_bit c.bytes 0 0 i hi
      simpa [ReadCursor.readCurrent, rcur, hi] using this
    rw [this]
  · rw [if_neg (by simpa using h0), if_neg h0]
    rfl

example : (ReadCursor.new [0xab, 0xcd]).readAlignedU8 = some (0xab, ⟨[0xcd], 0⟩) := by decide +kernel

end Verif.Enc
