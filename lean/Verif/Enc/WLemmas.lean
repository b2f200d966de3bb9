import Verif.Enc.Lemmas

/-!
Helper lemmas: the write cursor as the sequence of the bits written.
-/

namespace Verif.Enc

/-- The `L` bytes that hold `bits`. -/
def pack (L : Nat) (bits : List Bool) : List Byte :=
  (List.range L).map fun k => BitVec.ofNat 8 (bitsVal (fun j => bits.getD (8 * k + j) false) 8)

/-- The write cursor of a buffer of `L` bytes after `bits` have been written. -/
def wcur (L : Nat) (bits : List Bool) : WriteCursor := ⟨pack L bits, bits.length / 8, bits.length % 8⟩

@[simp] theorem length_pack (L : Nat) (bits : List Bool) : (pack L bits).length = L := by simp [pack]

@[simp] theorem length_bitsOf (n x : Nat) : (bitsOf n x).length = n := by simp [bitsOf]

theorem getLsbD_ofBits (f : Nat → Bool) (j : Nat) (hj : j < 8) : (BitVec.ofNat 8 (bitsVal f 8)).getLsbD j = f j := by
  rw [← BitVec.testBit_toNat, BitVec.toNat_ofNat, Nat.mod_eq_of_lt (bitsVal_lt f 8), bitsVal_testBit]
  simp [hj]

theorem pack_getElem (L : Nat) (bits : List Bool) (k j : Nat) (hk : k < (pack L bits).length) (hj : j < 8) :
    ((pack L bits)[k]).getLsbD j = bits.getD (8 * k + j) false := by
  simp only [pack, List.getElem_map, List.getElem_range]
  rw [getLsbD_ofBits _ j hj]

theorem bitAt_pack (L : Nat) (bits : List Bool) (p : Nat) (hp : p < 8 * L) : bitAt (pack L bits) p = bits.getD p false := by
  have hk : p / 8 < (pack L bits).length := by simp; omega
  unfold bitAt
  rw [List.getD_eq_getElem?_getD, List.getElem?_eq_getElem hk, Option.getD_some, pack_getElem _ _ _ _ _ (by omega)]
  congr 1; omega

theorem new_eq_wcur (buf : List Byte) : WriteCursor.new buf = wcur buf.length [] := by
  unfold WriteCursor.new wcur
  simp only [List.length_nil, Nat.zero_div, Nat.zero_mod, WriteCursor.mk.injEq, and_true]
  apply List.ext_getElem
  · simp
  · intro k h1 h2
    apply BitVec.eq_of_getLsbD_eq
    intro j hj
    rw [pack_getElem _ _ _ _ _ hj]
    simp

theorem bitAt_set (l : List Byte) (k : Nat) (x : Byte) (p : Nat) (hk : k < l.length) :
    bitAt (l.set k x) p = if p / 8 = k then x.getLsbD (p % 8) else bitAt l p := by
  unfold bitAt
  by_cases h : p / 8 = k
  · rw [if_pos h, h, List.getD_eq_getElem?_getD, List.getElem?_set_self hk, Option.getD_some]
  · rw [if_neg h, List.getD_eq_getElem?_getD, List.getD_eq_getElem?_getD, List.getElem?_set_ne (Ne.symm h)]

theorem getD_append_bits (bits : List Bool) (n x p : Nat) : (bits ++ bitsOf n x).getD p false =
    if p < bits.length then bits.getD p false else (decide (p - bits.length < n) && x.testBit (p - bits.length)) := by
  rw [List.getD_eq_getElem?_getD, List.getD_eq_getElem?_getD]
  split
  · rename_i h
    rw [List.getElem?_append_left h]
  · rename_i h
    rw [List.getElem?_append_right (by omega), bitsOf]
    by_cases hn : p - bits.length < n
    · simp [hn]
    · simp [hn]

theorem getD_of_ge {bits : List Bool} {p : Nat} (h : bits.length ≤ p) : bits.getD p false = false := by
  rw [List.getD_eq_getElem?_getD, List.getElem?_eq_none h]
  rfl

theorem checkLength_wcur (L : Nat) (bits : List Bool) (n : Nat) (hL : bits.length ≤ 8 * L) :
    (wcur L bits).checkLength n = decide ((bits.length + n) / 8 ≤ L) := by
  unfold WriteCursor.checkLength
  simp only [wcur, length_pack]
  have h1 : decide (bits.length / 8 ≤ L) = true := by simp; omega
  rw [h1, Bool.true_and]
  apply decide_eq_decide.2
  omega

theorem writeUpToU8_wcur (L : Nat) (bits : List Bool) (v : Byte) (n : Nat) (hn : n ≤ 8) (hL : bits.length ≤ 8 * L) :
    (wcur L bits).writeUpToU8 v n =
      if bits.length + n ≤ 8 * L then some (wcur L (bits ++ bitsOf n v.toNat)) else none := by
  unfold WriteCursor.writeUpToU8
  rw [if_neg (by omega)]
  by_cases h0 : n = 0
  · subst h0
    rw [if_pos rfl, if_pos (by omega)]
    simp [bitsOf]
  rw [if_neg h0, checkLength_wcur L bits n hL]
  have hval : ∀ j, j < 8 → (v &&& mask8 n).getLsbD j = (decide (j < n) && v.toNat.testBit j) := by
    intro j hj
    rw [BitVec.getLsbD_and, mask8_getLsbD n hn j hj, BitVec.testBit_toNat, Bool.and_comm]
  generalize v &&& mask8 n = value at hval
  have hval' : ∀ j, value.getLsbD j = (decide (j < n) && v.toNat.testBit j) := by
    intro j
    by_cases hj : j < 8
    · exact hval j hj
    · rw [BitVec.getLsbD_of_ge _ _ (by omega)]
      have : ¬ j < n := by omega
      simp [this]
  have hbi : (wcur L bits).bitIndex = bits.length % 8 := rfl
  have hbw : (wcur L bits).bytesWritten = bits.length / 8 := rfl
  have hby : (wcur L bits).bytes = pack L bits := rfl
  -- what the cursor is after the update of its bytes
  have hfin : ∀ bytes' : List Byte, bytes'.length = L → bits.length + n ≤ 8 * L →
      (∀ p, p < 8 * L → bitAt bytes' p = (bits ++ bitsOf n v.toNat).getD p false) →
      WriteCursor.advanceBits { wcur L bits with bytes := bytes' } n = some (wcur L (bits ++ bitsOf n v.toNat)) := by
    intro bytes' hlen hfit hbits
    have e : bytes' = pack L (bits ++ bitsOf n v.toNat) := by
      apply bytes_ext (by simp [hlen])
      intro p hp
      rw [hbits p (by omega), bitAt_pack _ _ _ (by omega)]
    unfold WriteCursor.advanceBits WriteCursor.checkLength
    simp only [hbi, hbw, hlen]
    rw [if_pos (by simp; omega), e]
    unfold wcur
    simp only [List.length_append, length_bitsOf, Option.some.injEq, WriteCursor.mk.injEq, true_and]
    omega
  by_cases hs : bits.length % 8 ≤ 8 - n
  · -- all in the current byte
    rw [hbi, if_pos hs]
    by_cases hfit : bits.length + n ≤ 8 * L
    · rw [if_pos hfit, if_pos (by simp; omega)]
      unfold WriteCursor.updateRemaining
      simp only [hbw, hby, Nat.add_zero]
      rw [dif_pos (by simp; omega)]
      dsimp only
      apply hfin _ (by simp) hfit
      intro p hp
      rw [bitAt_set _ _ _ _ (by simp; omega), getD_append_bits]
      split
      · rename_i hk
        rw [BitVec.getLsbD_or, pack_getElem _ _ _ _ _ (by omega), BitVec.getLsbD_shiftLeft, hval']
        have ep : 8 * (bits.length / 8) + p % 8 = p := by omega
        rw [ep]
        by_cases hlt : p < bits.length
        · rw [if_pos hlt]
          have e1 : decide (p % 8 < bits.length % 8) = true := by simp; omega
          simp [e1]
        · rw [if_neg hlt, getD_of_ge (by omega)]
          have e1 : decide (p % 8 < bits.length % 8) = false := by simp; omega
          have e2 : p % 8 - bits.length % 8 = p - bits.length := by omega
          have e3 : p % 8 < 8 := by omega
          simp [e1, e2, e3]
      · rename_i hk
        rw [bitAt_pack _ _ _ hp]
        split
        · rfl
        · have e1 : decide (p - bits.length < n) = false := by simp; omega
          rw [getD_of_ge (by omega), e1]
          rfl
    · rw [if_neg hfit]
      split
      · unfold WriteCursor.updateRemaining
        simp only [hbw, hby, Nat.add_zero]
        rw [dif_neg (by simp; omega)]
      · rfl
  · -- split across two bytes
    rw [hbi, if_neg hs]
    by_cases hfit : bits.length + n ≤ 8 * L
    · rw [if_pos hfit, if_pos (by simp; omega)]
      unfold WriteCursor.updateRemaining
      simp only [hbw, hby, Nat.add_zero]
      rw [dif_pos (by simp; omega)]
      dsimp only
      rw [dif_pos (by simp; omega)]
      dsimp only
      apply hfin _ (by simp) hfit
      intro p hp
      rw [bitAt_set _ _ _ _ (by simp; omega), bitAt_set _ _ _ _ (by simp; omega), getD_append_bits]
      split
      · rename_i hk
        rw [List.getElem_set_ne (by omega), BitVec.getLsbD_or, pack_getElem _ _ _ _ _ (by omega), BitVec.getLsbD_ushiftRight, hval',
          getD_of_ge (by omega), if_neg (by omega)]
        have e2 : 8 - bits.length % 8 + p % 8 = p - bits.length := by omega
        rw [e2]
        simp
      · split
        · rename_i hk
          rw [BitVec.getLsbD_or, pack_getElem _ _ _ _ _ (by omega), BitVec.getLsbD_shiftLeft, hval']
          have ep : 8 * (bits.length / 8) + p % 8 = p := by omega
          rw [ep]
          by_cases hlt : p < bits.length
          · rw [if_pos hlt]
            have e1 : decide (p % 8 < bits.length % 8) = true := by simp; omega
            simp [e1]
          · rw [if_neg hlt, getD_of_ge (by omega)]
            have e1 : decide (p % 8 < bits.length % 8) = false := by simp; omega
            have e2 : p % 8 - bits.length % 8 = p - bits.length := by omega
            have e3 : p % 8 < 8 := by omega
            simp [e1, e2, e3]
        · rename_i hk hk2
          rw [bitAt_pack _ _ _ hp]
          split
          · rfl
          · have e1 : decide (p - bits.length < n) = false := by simp; omega
            rw [getD_of_ge (by omega), e1]
            rfl
    · rw [if_neg hfit]
      split
      · unfold WriteCursor.updateRemaining
        simp only [hbw, hby, Nat.add_zero]
        split
        · rfl
        · rename_i heq
          split at heq
          · injection heq with heq
            subst heq
            simp only [hbw]
            rw [dif_neg (by simp; omega)]
          · cases heq
      · rfl

theorem bitsOf_add (m n x : Nat) : bitsOf (m + n) x = bitsOf m x ++ bitsOf n (x >>> m) := by
  unfold bitsOf
  rw [List.range_add, List.map_append, List.map_map]
  congr 1
  apply List.map_congr_left
  intro i _
  simp [Function.comp, Nat.testBit_shiftRight]

theorem bitsOf_mod (n m x : Nat) (h : n ≤ m) : bitsOf n (x % 2 ^ m) = bitsOf n x := by
  unfold bitsOf
  apply List.map_congr_left
  intro i hi
  have : i < n := by simpa using hi
  rw [Nat.testBit_mod_two_pow]
  have e : decide (i < m) = true := by simp; omega
  rw [e, Bool.true_and]

theorem writeWhole_wcur {w : Nat} (L : Nat) (k : Nat) : ∀ (bits : List Bool) (value : BitVec w), bits.length ≤ 8 * L →
    WriteCursor.writeWhole k (wcur L bits) value =
      if bits.length + 8 * k ≤ 8 * L then some (value >>> (8 * k), wcur L (bits ++ bitsOf (8 * k) value.toNat)) else none := by
  induction k with
  | zero =>
    intro bits value hL
    unfold WriteCursor.writeWhole
    rw [if_pos (by omega)]
    simp [bitsOf]
  | succ k ih =>
    intro bits value hL
    unfold WriteCursor.writeWhole
    rw [writeUpToU8_wcur L bits _ 8 (by omega) hL]
    by_cases h1 : bits.length + 8 ≤ 8 * L
    · rw [if_pos h1]
      dsimp only
      rw [ih _ _ (by simpa using h1)]
      simp only [List.length_append, length_bitsOf]
      by_cases h2 : bits.length + 8 * (k + 1) ≤ 8 * L
      · rw [if_pos h2, if_pos (by omega)]
        have e1 : 8 * (k + 1) = 8 + 8 * k := by omega
        have e2 : bitsOf 8 (value.setWidth 8).toNat = bitsOf 8 value.toNat := by
          rw [BitVec.toNat_setWidth, bitsOf_mod _ _ _ (Nat.le_refl _)]
        rw [e1, bitsOf_add, e2, BitVec.toNat_ushiftRight, List.append_assoc, BitVec.shiftRight_add]
      · rw [if_neg h2, if_neg (by omega)]
    · rw [if_neg h1, if_neg (by omega)]

theorem writeUpTo_wcur {w : Nat} (L : Nat) (bits : List Bool) (value : BitVec w) (n : Nat) (hn : n ≤ w) (hL : bits.length ≤ 8 * L) :
    (wcur L bits).writeUpTo value n =
      if bits.length + n ≤ 8 * L then some (wcur L (bits ++ bitsOf n value.toNat)) else none := by
  unfold WriteCursor.writeUpTo
  rw [if_neg (by omega), writeWhole_wcur L _ bits value hL]
  by_cases h1 : bits.length + 8 * (n / 8) ≤ 8 * L
  · rw [if_pos h1]
    dsimp only
    rw [writeUpToU8_wcur L _ _ (n % 8) (by omega) (by simpa using h1)]
    simp only [List.length_append, length_bitsOf]
    by_cases h2 : bits.length + n ≤ 8 * L
    · rw [if_pos h2, if_pos (by omega), BitVec.toNat_setWidth, bitsOf_mod _ _ _ (by omega), BitVec.toNat_ushiftRight,
        List.append_assoc, ← bitsOf_add]
      have : 8 * (n / 8) + n % 8 = n := by omega
      rw [this]
    · rw [if_neg h2, if_neg (by omega)]
  · rw [if_neg h1, if_neg (by omega)]

/-- `write_u<n>` appends the `n` low bits of the value if they fit and panics otherwise. -/
theorem writeU_wcur (L : Nat) (bits : List Bool) (v : BitVec 64) (n : Nat) (h1 : 1 ≤ n) (h2 : n ≤ 64) (hL : bits.length ≤ 8 * L) :
    (wcur L bits).writeU n v =
      if bits.length + n ≤ 8 * L then some (wcur L (bits ++ bitsOf n v.toNat)) else none := by
  unfold WriteCursor.writeU
  rw [if_neg (by omega)]
  by_cases h8 : n ≤ 8
  · rw [if_pos h8, writeUpToU8_wcur L bits _ n h8 hL, BitVec.toNat_setWidth, bitsOf_mod _ _ _ h8]
  rw [if_neg h8]
  by_cases h16 : n ≤ 16
  · rw [if_pos h16, writeUpTo_wcur L bits _ n h16 hL, BitVec.toNat_setWidth, bitsOf_mod _ _ _ h16]
  rw [if_neg h16]
  by_cases h32 : n ≤ 32
  · rw [if_pos h32, writeUpTo_wcur L bits _ n h32 hL, BitVec.toNat_setWidth, bitsOf_mod _ _ _ h32]
  rw [if_neg h32, writeUpTo_wcur L bits _ n h2 hL]

theorem writeBool_wcur (L : Nat) (bits : List Bool) (b : Bool) (hL : bits.length ≤ 8 * L) :
    (wcur L bits).writeBool b = if bits.length + 1 ≤ 8 * L then some (wcur L (bits ++ [b])) else none := by
  unfold WriteCursor.writeBool
  rw [writeU_wcur L bits _ 1 (by omega) (by omega) hL]
  cases b <;> rfl

theorem writeBytes_wcur (L : Nat) (bs : List Byte) : ∀ bits : List Bool, bits.length ≤ 8 * L →
    WriteCursor.writeBytes bs (wcur L bits) =
      if bits.length + 8 * bs.length ≤ 8 * L then some (wcur L (bits ++ bs.flatMap fun b => bitsOf 8 b.toNat)) else none := by
  induction bs with
  | nil =>
    intro bits hL
    unfold WriteCursor.writeBytes
    rw [if_pos (by simpa using hL)]
    simp
  | cons b bs ih =>
    intro bits hL
    unfold WriteCursor.writeBytes
    rw [writeU_wcur L bits _ 8 (by omega) (by omega) hL]
    by_cases h1 : bits.length + 8 ≤ 8 * L
    · rw [if_pos h1]
      dsimp only
      rw [ih _ (by simpa using h1)]
      have e : (b.setWidth 64).toNat = b.toNat := by
        rw [BitVec.toNat_setWidth]
        have := b.isLt
        omega
      simp only [List.length_append, length_bitsOf, List.length_cons, e, List.flatMap_cons, List.append_assoc]
      by_cases h2 : bits.length + 8 * (bs.length + 1) ≤ 8 * L
      · rw [if_pos h2, if_pos (by omega)]
      · rw [if_neg h2, if_neg (by omega)]
    · rw [if_neg h1, if_neg (by simp; omega)]

theorem length_flatMap_bits (bs : List Byte) : (bs.flatMap fun b => bitsOf 8 b.toNat).length = 8 * bs.length := by
  induction bs with
  | nil => rfl
  | cons b bs ih => simp only [List.flatMap_cons, List.length_append, ih, length_bitsOf, List.length_cons]; omega

theorem pack_append_zeros (L : Nat) (bits : List Bool) (m : Nat) : pack L (bits ++ List.replicate m false) = pack L bits := by
  apply bytes_ext (by simp)
  intro p hp
  simp only [length_pack] at hp
  rw [bitAt_pack _ _ _ hp, bitAt_pack _ _ _ hp, List.getD_eq_getElem?_getD, List.getD_eq_getElem?_getD]
  by_cases h : p < bits.length
  · rw [List.getElem?_append_left h]
  · rw [List.getElem?_append_right (by omega), List.getElem?_eq_none (l := bits) (by omega), List.getElem?_replicate]
    split <;> rfl

theorem align_wcur (L : Nat) (bits : List Bool) (hL : bits.length ≤ 8 * L) :
    (wcur L bits).align = some (wcur L (Field.append bits .align)) := by
  unfold WriteCursor.align
  have hbi : (wcur L bits).bitIndex = bits.length % 8 := rfl
  rw [hbi]
  by_cases h : bits.length % 8 = 0
  · rw [if_neg (by simpa using h)]
    simp [Field.append, h]
  · rw [if_pos h]
    unfold WriteCursor.skipBits WriteCursor.advanceBits
    rw [checkLength_wcur _ _ _ hL]
    rw [if_pos (by simp; omega), if_pos (by simp; omega)]
    unfold wcur
    simp only [Field.append, pack_append_zeros, List.length_append, List.length_replicate, Option.some.injEq, WriteCursor.mk.injEq, true_and]
    omega

theorem length_append_field (bits : List Bool) (f : Field) : bits.length ≤ (f.append bits).length := by
  cases f <;> simp [Field.append]

theorem field_write_wcur (L : Nat) (bits : List Bool) (f : Field) (hf : f.Ok) (hL : bits.length ≤ 8 * L) :
    f.write (wcur L bits) = if (f.append bits).length ≤ 8 * L then some (wcur L (f.append bits)) else none := by
  cases f with
  | uint n v =>
    simp only [Field.write, Field.append, List.length_append, length_bitsOf]
    exact writeU_wcur L bits v n hf.1 hf.2 hL
  | bool b =>
    simp only [Field.write, Field.append, List.length_append, List.length_cons, List.length_nil]
    exact writeBool_wcur L bits b hL
  | bytes bs =>
    simp only [Field.write, Field.append, List.length_append, length_flatMap_bits]
    exact writeBytes_wcur L bs bits hL
  | align =>
    rw [if_pos]
    · exact align_wcur L bits hL
    · simp only [Field.append, List.length_append, List.length_replicate]
      omega

theorem length_foldl_append (fs : List Field) : ∀ bits : List Bool, bits.length ≤ (fs.foldl Field.append bits).length := by
  induction fs with
  | nil => intro bits; exact Nat.le_refl _
  | cons f fs ih => intro bits; exact Nat.le_trans (length_append_field bits f) (ih _)

theorem writeAll_wcur (L : Nat) (fs : List Field) (hok : ∀ f ∈ fs, f.Ok) : ∀ bits : List Bool, bits.length ≤ 8 * L →
    writeAll fs (wcur L bits) =
      if (fs.foldl Field.append bits).length ≤ 8 * L then some (wcur L (fs.foldl Field.append bits)) else none := by
  induction fs with
  | nil =>
    intro bits hL
    unfold writeAll
    rw [if_pos (by simpa using hL)]
    rfl
  | cons f fs ih =>
    intro bits hL
    unfold writeAll
    rw [field_write_wcur L bits f (hok f (by simp)) hL]
    by_cases h : (f.append bits).length ≤ 8 * L
    · rw [if_pos h]
      dsimp only
      rw [ih (fun x hx => hok x (by simp [hx])) _ h]
      rfl
    · rw [if_neg h, if_neg]
      have := length_foldl_append fs (f.append bits)
      rw [List.foldl_cons]
      omega

end Verif.Enc
