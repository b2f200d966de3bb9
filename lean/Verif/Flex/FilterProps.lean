import Verif.Flex.Filter

/-!
C143: what a receive filter of the FlexCAN driver compares. C144: how many message buffers the memory has.
-/

namespace Verif.Flex

/-! ### Specification -/

/-- The number that four bytes are, the most significant first. -/
def wordOf (bytes : List Byte) : Nat := bytes.foldl (fun n b => 256 * n + b.toNat) 0

/-- The IDs that `Id::standard` and `Id::extended` make. -/
def Id.Proper (id : Id) : Prop := (∃ b, id = Id.standard b) ∨ ∃ b, id = Id.extended b

/-- The `n` most significant bits of an ID of 11 or 29 bits. -/
def Id.top (id : Id) (n : Nat) : Nat := id.bits.toNat / 2 ^ ((if id.isExtended then 29 else 11) - n)

/-- The same format and RTR bit, and the same `standard` or `extended` most significant bits of the ID. -/
def Alike (standard extended : Nat) (a b : IdRtr) : Prop :=
  a.rtr = b.rtr ∧ a.id.isExtended = b.id.isExtended ∧ a.id.top (if a.id.isExtended then extended else standard) = b.id.top (if b.id.isExtended then extended else standard)

/-- The size of a message buffer: 8 bytes for the header, and the data. -/
def BufferSize.bytes : BufferSize → Nat
  | .bytes8 => 8 + 8
  | .bytes16 => 8 + 16
  | .bytes32 => 8 + 32
  | .bytes64 => 8 + 64

/-! ### Lemmas -/

theorem wordOf_toBe (w : BitVec 32) : wordOf (toBe w) = w.toNat := by
  have := w.isLt
  simp only [wordOf, toBe, List.foldl_cons, List.foldl_nil, BitVec.toNat_setWidth, BitVec.toNat_ushiftRight, Nat.shiftRight_eq_div_pow]
  omega

theorem toBe_inj (v w : BitVec 32) : toBe v = toBe w ↔ v.toNat = w.toNat :=
  ⟨fun h => by rw [← wordOf_toBe, h, wordOf_toBe], fun h => by rw [BitVec.eq_of_toNat_eq h]⟩

theorem or_add_width {n : Nat} {a b : BitVec n} {k : Nat} (ha : a.toNat < 2 ^ k) (hb : b.toNat * 2 ^ k < 2 ^ n) : (a ||| b <<< k).toNat = a.toNat + b.toNat * 2 ^ k := by
  rw [BitVec.toNat_or, BitVec.toNat_shiftLeft, Nat.shiftLeft_eq, Nat.mod_eq_of_lt hb, Nat.or_comm, Nat.mul_comm, ← Nat.two_pow_add_eq_or_of_lt ha]
  omega

theorem shl_toNat {n : Nat} {b : BitVec n} {k : Nat} (hb : b.toNat * 2 ^ k < 2 ^ n) : (b <<< k).toNat = b.toNat * 2 ^ k := by
  rw [BitVec.toNat_shiftLeft, Nat.shiftLeft_eq, Nat.mod_eq_of_lt hb]

theorem bool_le (b : Bool) : b.toNat ≤ 1 := by cases b <;> decide

theorem standard_word (id : BitVec 16) (rtr : Bool) : wordOf (filterAStandard id rtr) = rtr.toNat * 2 ^ 31 + id.toNat % 2 ^ 11 * 2 ^ 19 := by
  have h0 : ((id.setWidth 32) &&& 0x7ff#32).toNat = id.toNat % 2 ^ 11 := by
    rw [and_ones _ 11 _ rfl, BitVec.toNat_setWidth]
    omega
  have h1 := bool_le rtr
  have h2 : (((id.setWidth 32) &&& 0x7ff#32) <<< 19).toNat = id.toNat % 2 ^ 11 * 2 ^ 19 := by rw [shl_toNat (by rw [h0]; omega), h0]
  rw [filterAStandard, wordOf_toBe, or_add (by rw [h2]; omega) (by rw [ofBool_toNat]; omega), h2, ofBool_toNat]
  omega

theorem extended_word (id : BitVec 32) (rtr : Bool) : wordOf (filterAExtended id rtr) = rtr.toNat * 2 ^ 31 + 2 ^ 30 + id.toNat % 2 ^ 29 * 2 := by
  have h0 : (id &&& 0x1fffffff#32).toNat = id.toNat % 2 ^ 29 := and_ones _ 29 _ rfl
  have h1 := bool_le rtr
  have h2 : ((id &&& 0x1fffffff#32) <<< 1).toNat = id.toNat % 2 ^ 29 * 2 := by rw [shl_toNat (by rw [h0]; omega), h0]
  have h3 : ((id &&& 0x1fffffff#32) <<< 1 ||| 1#32 <<< 30).toNat = id.toNat % 2 ^ 29 * 2 + 2 ^ 30 := by
    rw [or_add (by rw [h2]; omega) (by decide), h2]
    rfl
  rw [filterAExtended, wordOf_toBe, or_add (by rw [h3]; omega) (by rw [ofBool_toNat]; omega), h3, ofBool_toNat]
  omega

theorem bits_lt (id : Id) : id.bits.toNat < 2 ^ 29 := by
  unfold Id.bits
  rw [and_ones _ 29 _ rfl]
  omega

theorem proper_standard {id : Id} (h : id.Proper) (hs : id.isExtended = false) : id.bits.toNat < 2 ^ 11 := by
  rcases h with ⟨b, rfl⟩ | ⟨b, rfl⟩
  · unfold Id.bits Id.standard
    rw [and_ones _ 29 _ rfl, and_ones _ 11 _ rfl]
    omega
  · rw [extended_isExtended] at hs; cases hs

theorem bPart_word (x : IdRtr) (h : x.id.Proper) : (filterBPart x).toNat =
    x.rtr.toNat * 2 ^ 15 + x.id.isExtended.toNat * 2 ^ 14 + if x.id.isExtended then x.id.bits.toNat / 2 ^ 15 else x.id.bits.toNat * 2 ^ 3 := by
  have hb := bits_lt x.id
  unfold filterBPart
  cases he : x.id.isExtended with
  | true =>
    have hf : ((x.id.bits >>> 15).setWidth 16).toNat = x.id.bits.toNat / 2 ^ 15 := by
      rw [BitVec.toNat_setWidth, BitVec.toNat_ushiftRight, Nat.shiftRight_eq_div_pow]
      omega
    simp only [if_true]
    rw [BitVec.or_comm, BitVec.or_comm ((if x.rtr = true then 1#16 else 0#16) <<< 15), ← BitVec.or_assoc]
    have h1 : ((x.id.bits >>> 15).setWidth 16 ||| 1#16 <<< 14).toNat = x.id.bits.toNat / 2 ^ 15 + 2 ^ 14 := by
      rw [or_add_width (by rw [hf]; omega) (by decide), hf]
      rfl
    cases x.rtr
    · simp only [Bool.false_eq_true, if_false]
      rw [or_add_width (by rw [h1]; omega) (by decide), h1]
      simp; omega
    · simp only [if_true]
      rw [or_add_width (by rw [h1]; omega) (by decide), h1]
      simp; omega
  | false =>
    have hp := proper_standard h he
    have hf : (x.id.bits.setWidth 16).toNat = x.id.bits.toNat := by rw [BitVec.toNat_setWidth]; omega
    have hg : (x.id.bits.setWidth 16 <<< 3).toNat = x.id.bits.toNat * 2 ^ 3 := by rw [shl_toNat (by rw [hf]; omega), hf]
    simp only [Bool.false_eq_true, if_false]
    rw [BitVec.or_comm, BitVec.or_comm ((if x.rtr = true then 1#16 else 0#16) <<< 15), ← BitVec.or_assoc]
    have h1 : (x.id.bits.setWidth 16 <<< 3 ||| 0#16 <<< 14).toNat = x.id.bits.toNat * 2 ^ 3 := by
      rw [or_add_width (by rw [hg]; omega) (by decide), hg]
      rfl
    cases x.rtr
    · simp only [Bool.false_eq_true, if_false]
      rw [or_add_width (by rw [h1]; omega) (by decide), h1]
      simp
    · simp only [if_true]
      rw [or_add_width (by rw [h1]; omega) (by decide), h1]
      simp; omega

theorem twoIds_word (a b : IdRtr) : wordOf (twoIds a b) = (filterBPart a).toNat * 2 ^ 16 + (filterBPart b).toNat := by
  have ha := (filterBPart a).isLt
  have hb := (filterBPart b).isLt
  have h1 : ((filterBPart a).setWidth 32).toNat = (filterBPart a).toNat := by rw [BitVec.toNat_setWidth]; omega
  have h2 : ((filterBPart b).setWidth 32).toNat = (filterBPart b).toNat := by rw [BitVec.toNat_setWidth]; omega
  rw [twoIds, wordOf_toBe, BitVec.or_comm, or_add (by rw [h2]; exact hb) (by rw [h1]; omega), h1, h2]
  omega

theorem cPart_word (id : Id) (h : id.Proper) : (filterCPart id).toNat = id.top 8 := by
  have hb := bits_lt id
  unfold filterCPart Id.top
  cases he : id.isExtended with
  | true =>
    simp only [if_true, BitVec.toNat_setWidth, BitVec.toNat_ushiftRight, Nat.shiftRight_eq_div_pow]
    omega
  | false =>
    have hp := proper_standard h he
    simp only [Bool.false_eq_true, if_false, BitVec.toNat_setWidth, BitVec.toNat_ushiftRight, Nat.shiftRight_eq_div_pow]
    omega

theorem or_reverse (a b c d : BitVec 32) : a ||| b ||| c ||| d = d ||| c ||| b ||| a := by
  rw [BitVec.or_comm _ d, BitVec.or_comm _ c, BitVec.or_comm a b, ← BitVec.or_assoc, ← BitVec.or_assoc]

theorem fourIds_bytes (a b c d : Id) : fourIds a b c d = [filterCPart a, filterCPart b, filterCPart c, filterCPart d] := by
  unfold fourIds
  generalize filterCPart a = x
  generalize filterCPart b = y
  generalize filterCPart c = z
  generalize filterCPart d = t
  have hx := x.isLt
  have hy := y.isLt
  have hz := z.isLt
  have ht := t.isLt
  have w : ∀ v : BitVec 8, (v.setWidth 32).toNat = v.toNat := fun v => by have := v.isLt; rw [BitVec.toNat_setWidth]; omega
  have h : (x.setWidth 32 <<< 24 ||| y.setWidth 32 <<< 16 ||| z.setWidth 32 <<< 8 ||| t.setWidth 32).toNat = t.toNat + z.toNat * 2 ^ 8 + y.toNat * 2 ^ 16 + x.toNat * 2 ^ 24 := by
    have e : x.setWidth 32 <<< 24 ||| y.setWidth 32 <<< 16 ||| z.setWidth 32 <<< 8 ||| t.setWidth 32 =
        t.setWidth 32 ||| z.setWidth 32 <<< 8 ||| y.setWidth 32 <<< 16 ||| x.setWidth 32 <<< 24 := or_reverse _ _ _ _
    have h1 : (t.setWidth 32 ||| z.setWidth 32 <<< 8).toNat = t.toNat + z.toNat * 2 ^ 8 := by rw [or_add (by rw [w]; exact ht) (by rw [w]; omega), w, w]
    have h2 : (t.setWidth 32 ||| z.setWidth 32 <<< 8 ||| y.setWidth 32 <<< 16).toNat = t.toNat + z.toNat * 2 ^ 8 + y.toNat * 2 ^ 16 := by
      rw [or_add (by rw [h1]; omega) (by rw [w]; omega), h1, w]
    rw [e, or_add (by rw [h2]; omega) (by rw [w]; omega), h2, w]
  simp only [toBe, List.cons.injEq, and_true, ← BitVec.toNat_inj, BitVec.toNat_setWidth, BitVec.toNat_ushiftRight, Nat.shiftRight_eq_div_pow, h]
  omega

/-! ### C143 -/

/-- **C143**, format A: the filter has the RTR bit in bit 31, the format in bit 30, a standard ID in bits 29 to 19 and an extended one in bits 29 to 1. So two filters are the same exactly if the
format, all 11 or 29 bits of the ID and the RTR bit are. -/
theorem C143_exact (i j : BitVec 16) (v w : BitVec 32) (r q : Bool) :
    wordOf (filterAStandard i r) = r.toNat * 2 ^ 31 + i.toNat % 2 ^ 11 * 2 ^ 19 ∧ wordOf (filterAExtended v r) = r.toNat * 2 ^ 31 + 2 ^ 30 + v.toNat % 2 ^ 29 * 2 ∧
    (filterAStandard i r = filterAStandard j q ↔ i.toNat % 2 ^ 11 = j.toNat % 2 ^ 11 ∧ r = q) ∧
    (filterAExtended v r = filterAExtended w q ↔ v.toNat % 2 ^ 29 = w.toNat % 2 ^ 29 ∧ r = q) ∧ filterAStandard i r ≠ filterAExtended v q := by
  have s1 := standard_word i r
  have s2 := standard_word j q
  have e1 := extended_word v r
  have e2 := extended_word w q
  have e3 := extended_word v q
  have hr : r = q ↔ r.toNat = q.toNat := by cases r <;> cases q <;> decide
  have hr1 := bool_le r
  have hq1 := bool_le q
  refine ⟨s1, e1, ⟨fun h => ?_, ?_⟩, ⟨fun h => ?_, ?_⟩, fun h => ?_⟩
  · rw [hr]; rw [h] at s1; omega
  · rintro ⟨h, rfl⟩
    refine (toBe_inj _ _).mpr ?_
    rw [← wordOf_toBe, ← wordOf_toBe]
    exact s1.trans (by rw [h]; exact s2.symm)
  · rw [hr]; rw [h] at e1; omega
  · rintro ⟨h, rfl⟩
    refine (toBe_inj _ _).mpr ?_
    rw [← wordOf_toBe, ← wordOf_toBe]
    exact e1.trans (by rw [h]; exact e2.symm)
  · rw [h] at s1; omega

example : filterAExtended 0x107d5529#32 false = [0x60#8, 0xfa#8, 0xaa#8, 0x52#8] ∧ filterAStandard 0x123#16 true = [0x89#8, 0x18#8, 0#8, 0#8] := by decide

/-- **C143**, format B (part: the documentation says that the 11 most significant bits of an extended ID must match). Two filters are the same exactly if both RTR bits, both formats, all 11 bits of
standard IDs and the 14 most significant bits of extended IDs are. -/
theorem C143_two_ids_partial (a b c d : IdRtr) (ha : a.id.Proper) (hb : b.id.Proper) (hc : c.id.Proper) (hd : d.id.Proper) :
    twoIds a b = twoIds c d ↔ Alike 11 14 a c ∧ Alike 11 14 b d := by
  have part : ∀ x y : IdRtr, x.id.Proper → y.id.Proper → ((filterBPart x).toNat = (filterBPart y).toNat ↔ Alike 11 14 x y) := by
    intro x y hx hy
    rw [bPart_word x hx, bPart_word y hy]
    unfold Alike Id.top
    have h1 := bits_lt x.id
    have h2 := bits_lt y.id
    have hr : x.rtr = y.rtr ↔ x.rtr.toNat = y.rtr.toNat := by cases x.rtr <;> cases y.rtr <;> decide
    rw [hr]
    have r1 := bool_le x.rtr
    have r2 := bool_le y.rtr
    cases hxe : x.id.isExtended <;> cases hye : y.id.isExtended
    · have p1 := proper_standard hx hxe
      have p2 := proper_standard hy hye
      simp; omega
    · have p1 := proper_standard hx hxe
      simp; omega
    · have p2 := proper_standard hy hye
      simp; omega
    · simp; omega
  rw [← part a c ha hc, ← part b d hb hd]
  have l1 := (filterBPart b).isLt
  have l2 := (filterBPart d).isLt
  constructor
  · intro h
    have := congrArg wordOf h
    rw [twoIds_word, twoIds_word] at this
    omega
  · rintro ⟨h1, h2⟩
    unfold twoIds
    rw [BitVec.eq_of_toNat_eq h1, BitVec.eq_of_toNat_eq h2]

/-- An extended and a standard ID. -/
example : (⟨Id.extended 0x107d5529#32, false⟩ : IdRtr).id.Proper ∧ (⟨Id.standard 0x123#16, true⟩ : IdRtr).id.Proper ∧
    twoIds ⟨Id.extended 0x107d5529#32, false⟩ ⟨Id.standard 0x123#16, true⟩ = twoIds ⟨Id.extended 0x107d0000#32, false⟩ ⟨Id.standard 0x123#16, true⟩ ∧
    twoIds ⟨Id.extended 0x107d5529#32, false⟩ ⟨Id.standard 0x123#16, true⟩ = [0x60#8, 0xfa#8, 0x89#8, 0x18#8] :=
  ⟨.inr ⟨_, rfl⟩, .inl ⟨_, rfl⟩, by decide, by decide⟩

/-- **C143**, format B, the negation: extended IDs with the same 11 most significant bits and the same RTR bit make different filters. -/
theorem C143_two_ids_counterexample : ∃ a b c : IdRtr, a.id.Proper ∧ b.id.Proper ∧ c.id.Proper ∧ Alike 11 11 a b ∧ twoIds a c ≠ twoIds b c :=
  ⟨⟨Id.extended 0#32, false⟩, ⟨Id.extended 0x8000#32, false⟩, ⟨Id.standard 0#16, false⟩, .inr ⟨_, rfl⟩, .inr ⟨_, rfl⟩, .inl ⟨_, rfl⟩, by unfold Alike; decide, by decide⟩

/-- **C143**, format C: the filter is the 8 most significant bits of the four IDs, one byte each, whatever their formats. -/
theorem C143_four_ids (a b c d : Id) (ha : a.Proper) (hb : b.Proper) (hc : c.Proper) (hd : d.Proper) : (fourIds a b c d).map BitVec.toNat = [a.top 8, b.top 8, c.top 8, d.top 8] := by
  rw [fourIds_bytes]
  simp only [List.map_cons, List.map_nil, cPart_word _ ha, cPart_word _ hb, cPart_word _ hc, cPart_word _ hd]

example : fourIds (Id.extended 0x107d5529#32) (Id.standard 0x123#16) (Id.extended 0x1fffffff#32) (Id.standard 7#16) = [0x83#8, 0x24#8, 0xff#8, 0#8] := by decide

/-! ### C144 -/

/-- **C144**: in every configuration, the number of messages of each block is the greatest number of buffers that fit into it (into 256 bytes of half a block), blocks that there are not have none, and
the total is what fits into all of them. All buffers are within the memory that the driver clears. -/
theorem C144_messages (b : Blocks) :
    let space := min 512 b.bufferBytes
    b.messagesPerBuffer.length = 4 ∧ b.totalMessages = (b.bufferSizes.map fun s => space / s.bytes).sum ∧ b.bufferSizes.length * space = b.bufferBytes ∧
    ∀ k : Nat, (∀ s, b.bufferSizes[k]? = some s → ∃ n, b.messagesPerBuffer[k]? = some n ∧ n * s.bytes ≤ space ∧ space < (n + 1) * s.bytes) ∧
      (b.bufferSizes[k]? = none → k < 4 → b.messagesPerBuffer[k]? = some 0) := by
  have most : ∀ s : BufferSize, s.capacityPerBlock * s.bytes ≤ 512 ∧ 512 < (s.capacityPerBlock + 1) * s.bytes := by intro s; cases s <;> decide
  have mostHalf : ∀ s : BufferSize, s.capacityPerBlock / 2 * s.bytes ≤ 256 ∧ 256 < (s.capacityPerBlock / 2 + 1) * s.bytes := by intro s; cases s <;> decide
  have total : ∀ (l : List BufferSize), l.length ≤ 4 → ((l.map BufferSize.capacityPerBlock ++ List.replicate 4 0).take 4).sum = (l.map fun s => 512 / s.bytes).sum := by
    intro l hl
    have he : l.map BufferSize.capacityPerBlock = l.map fun s => 512 / s.bytes := List.map_congr_left fun s _ => by cases s <;> rfl
    rw [he, List.take_append, List.take_of_length_le (by simpa using hl), List.sum_append, List.take_replicate]
    simp
  have general : ∀ (l : List BufferSize), l.length ≤ 4 → ∀ k : Nat,
      (∀ s, l[k]? = some s → ∃ n, ((l.map BufferSize.capacityPerBlock ++ List.replicate 4 0).take 4)[k]? = some n ∧ n * s.bytes ≤ 512 ∧ 512 < (n + 1) * s.bytes) ∧
      (l[k]? = none → k < 4 → ((l.map BufferSize.capacityPerBlock ++ List.replicate 4 0).take 4)[k]? = some 0) := by
    intro l hl k
    refine ⟨fun s hs => ⟨s.capacityPerBlock, ?_, most s⟩, fun hn hk => ?_⟩
    · have hk : k < l.length := by
        rcases Nat.lt_or_ge k l.length with h | h
        · exact h
        · rw [List.getElem?_eq_none h] at hs; cases hs
      rw [List.getElem?_take_of_lt (by omega), List.getElem?_append_left (by simpa using hk), List.getElem?_map, hs]
      rfl
    · have hk2 : l.length ≤ k := by simpa using hn
      rw [List.getElem?_take_of_lt hk, List.getElem?_append_right (by simpa using hk2), List.getElem?_replicate]
      rw [if_pos (by simp; omega)]
  cases b with
  | half s =>
    refine ⟨rfl, by cases s <;> rfl, by simp [Blocks.bufferSizes, Blocks.bufferBytes], fun k => ⟨fun t ht => ?_, fun hn hk => ?_⟩⟩
    · cases k with
      | zero => cases ht; exact ⟨_, rfl, mostHalf _⟩
      | succ k => simp [Blocks.bufferSizes] at ht
    · match k with
      | 0 => simp [Blocks.bufferSizes] at hn
      | 1 | 2 | 3 => rfl
  | one s => exact ⟨by simp [Blocks.messagesPerBuffer, Blocks.bufferSizes], total [s] (by simp), by simp [Blocks.bufferSizes, Blocks.bufferBytes], general [s] (by simp)⟩
  | two ss => exact ⟨by simp [Blocks.messagesPerBuffer, Blocks.bufferSizes], total ss.toList (by simp), by simp [Blocks.bufferSizes, Blocks.bufferBytes], general ss.toList (by simp)⟩
  | three ss => exact ⟨by simp [Blocks.messagesPerBuffer, Blocks.bufferSizes], total ss.toList (by simp), by simp [Blocks.bufferSizes, Blocks.bufferBytes], general ss.toList (by simp)⟩
  | four ss => exact ⟨by simp [Blocks.messagesPerBuffer, Blocks.bufferSizes], total ss.toList (by simp), by simp [Blocks.bufferSizes, Blocks.bufferBytes], general ss.toList (by simp)⟩

example : (Blocks.three #v[.bytes8, .bytes64, .bytes16]).messagesPerBuffer = [32, 7, 21, 0] ∧ (Blocks.half .bytes16).messagesPerBuffer = [10, 0, 0, 0] := by decide

/-- **C144**: the number of a block is also the one with which `message_buffer_space` numbers buffers (C119): buffer `n` of a size is the first of the second block. -/
theorem C144_numbers (s : BufferSize) : bufferSpace s.capacityPerBlock s.bytes = some (0x80 + 512, 0x80 + 512 + s.bytes) ∧
    ∀ i < s.capacityPerBlock, bufferSpace i s.bytes = some (0x80 + s.bytes * i, 0x80 + s.bytes * i + s.bytes) := by
  cases s <;> exact ⟨by decide, by decide⟩

end Verif.Flex
