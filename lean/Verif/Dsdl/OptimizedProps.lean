import Verif.Dsdl.OptimizedModel
import Verif.Dsdl.Props
import Mathlib.Data.List.Basic

/-!
C111: the list of subjects of fixed capacity and the generated type for lists of subjects are interchangeable.
-/

namespace Verif.Dsdl

open Verif.Enc

/-! ### Lemmas -/

theorem good_list : subjectIDListType.good = true := by decide +kernel

theorem list_size (ids : List SubjectId) : subjectIDListType.sizeBits (sparseList ids) = optSizeBits ids := by
  have h1 : ¬ (subjectIDListType.bitLength.minValue = subjectIDListType.bitLength.maxValue) := by decide +kernel
  have h2 : subjectIDType.bitLength.minValue = 16 ∧ subjectIDType.bitLength.maxValue = 16 := by decide +kernel
  have h3 : (arrayLengthBits 255) = 8 := by decide +kernel
  have h4 : (Variants.cons (.prim .boolean) (.fixed 8192) (.cons (.composite subjectIDType) (.var 255) (.cons (.composite emptyType) .scalar .nil))).tagBits = 8 := by decide +kernel
  unfold subjectIDListType at h1 ⊢
  rw [Message.sizeBits]
  simp only [h1, if_false, h4, sparseList, Val.choice, Variants.sizeBits, fieldSize, h3, elementSizes, Scalar.size, h2.1, h2.2, if_true, Val.len, List.length_map,
    Scalar.extent, Scalar.alignment, optSizeBits]
  have h5 : nextMultipleOf (headerBits subjectIDType.extent + 16) 8 = 16 := by decide
  rw [h5]
  omega

/-- The bits of a list of subjects. -/
def idBits (ids : List SubjectId) : List Bool := ids.flatMap fun id => bitsOf 16 id.toNat

theorem length_idBits (ids : List SubjectId) : (idBits ids).length = 16 * ids.length := by
  induction ids with
  | nil => rfl
  | cons id ids ih =>
    have : idBits (id :: ids) = bitsOf 16 id.toNat ++ idBits ids := rfl
    rw [this, List.length_append, length_bitsOf, ih, List.length_cons]
    omega

theorem id_bits (id : SubjectId) : padByte (subjectIDType.bits (.record [.num id.toNat])) = bitsOf 16 id.toNat := by
  have hlt := id.isLt
  have e : min id.toNat (2 ^ 13 - 1) = id.toNat := by omega
  have h : subjectIDType.bits (.record [.num id.toNat]) = bitsOf 13 id.toNat := by
    simp only [subjectIDType, Message.bits, Fields.append, appendField, Scalar.append, Prim.bits, Prim.code, e, List.nil_append]
  rw [h, padByte, length_bitsOf, show (16 : Nat) = 13 + 3 from rfl, bitsOf_add]
  congr 1
  have h0 : id.toNat >>> 13 = 0 := by rw [Nat.shiftRight_eq_div_pow]; omega
  rw [h0]
  decide

theorem foldl_ids (ids : List SubjectId) : ∀ acc : List Bool, acc.length % 8 = 0 →
    (ids.map fun id => Val.record [.num id.toNat]).foldl (Scalar.composite subjectIDType).append acc = acc ++ idBits ids := by
  induction ids with
  | nil => intro acc _; simp [idBits]
  | cons id ids ih =>
    intro acc h
    rw [List.map_cons, List.foldl_cons]
    have e : (Scalar.composite subjectIDType).append acc (.record [.num id.toNat]) = acc ++ bitsOf 16 id.toNat := by
      rw [Scalar.append, padByte_aligned h, id_bits]
      simp [subjectIDType, Message.extent]
    rw [e, ih _ (by rw [List.length_append, length_bitsOf]; omega), List.append_assoc]
    rfl

theorem list_bits (ids : List SubjectId) :
    subjectIDListType.bits (sparseList ids) = bitsOf 8 1 ++ bitsOf 8 ids.length ++ idBits ids := by
  have h1 : widthFor 255 = 8 := by decide +kernel
  have h2 : widthFor ((Variants.cons (.prim .boolean) (.fixed 8192) (.cons (.composite subjectIDType) (.var 255) (.cons (.composite emptyType) .scalar .nil))).count - 1) = 8 := by
    decide +kernel
  unfold subjectIDListType sparseList
  rw [Message.bits, h2]
  simp only [Variants.append, appendField, List.length_map, h1]
  have h3 : (Scalar.composite subjectIDType).align (bitsOf 8 1) = bitsOf 8 1 := by decide +kernel
  rw [h3, foldl_ids _ _ (by rw [List.length_append, length_bitsOf, length_bitsOf])]

theorem list_has (ids : List SubjectId) (h : ids.length ≤ 255) : subjectIDListType.has (sparseList ids) = true := by
  have h16 : roundUpIntegerSize 13 = 16 := by decide +kernel
  simp only [subjectIDListType, sparseList, Message.has, Variants.has, hasField, Scalar.isBool, Bool.not_false, Bool.true_and, List.length_map, h, decide_true, List.all_map,
    List.all_eq_true]
  intro id _
  have := id.isLt
  simp only [Function.comp_apply, Scalar.has, subjectIDType, Message.has, Fields.has, hasField, Prim.has, h16, Bool.and_true, decide_eq_true_eq]
  omega

theorem list_fits (ids : List SubjectId) : subjectIDListType.fits (sparseList ids) = true := by
  simp only [subjectIDListType, sparseList, Message.fits, Variants.fits, fitsField, List.all_map, List.all_eq_true]
  intro id _
  have := id.isLt
  simp only [Function.comp_apply, Scalar.fits, subjectIDType, Message.fits, Fields.fits, fitsField, Prim.fits, Bool.and_true, decide_eq_true_eq]
  omega

theorem optWriteIds_wcur (L : Nat) (ids : List SubjectId) : ∀ acc : List Bool, acc.length % 8 = 0 → acc.length + 16 * ids.length ≤ 8 * L →
    optWriteIds ids (wcur L acc) = some (wcur L (acc ++ idBits ids)) := by
  induction ids with
  | nil => intro acc _ _; simp [optWriteIds, idBits]
  | cons id ids ih =>
    intro acc h hf
    rw [List.length_cons] at hf
    rw [optWriteIds, writeAlignedU_wcur L acc 2 _ h (by omega)]
    have e : (id.setWidth 64 : BitVec 64).toNat = id.toNat := by
      rw [BitVec.toNat_setWidth]; have := id.isLt; omega
    dsimp only
    rw [e, ih _ (by rw [List.length_append, length_bitsOf]; omega) (by rw [List.length_append, length_bitsOf]; omega), List.append_assoc]
    rfl

theorem optSerialize_wcur (L : Nat) (ids : List SubjectId) (h : 16 + 16 * ids.length ≤ 8 * L) :
    optSerialize ids (wcur L []) = some (wcur L (bitsOf 8 1 ++ bitsOf 8 ids.length ++ idBits ids)) := by
  rw [optSerialize, writeAlignedU_wcur L [] 1 _ rfl (by simp; omega)]
  dsimp only
  rw [writeAlignedU_wcur L _ 1 _ (by simp [length_bitsOf]) (by simp [length_bitsOf]; omega)]
  dsimp only
  rw [optWriteIds_wcur L ids _ (by simp [length_bitsOf]) (by simp [length_bitsOf]; omega)]
  rw [bitsOf_ofNat _ _ (by decide), bitsOf_ofNat _ _ (by decide), List.nil_append, show (256 : Nat) = 2 ^ 8 from rfl, bitsOf_mod 8 8 _ (Nat.le_refl _)]
  rfl

/-- The subjects in the bytes from a position on. -/
def idsAt (bs : List Byte) : Nat → Nat → List SubjectId
  | _, 0 => []
  | q, n + 1 => BitVec.ofNat 13 (numAt bs q 13) :: idsAt bs (q + 16) n

theorem length_idsAt (bs : List Byte) (n : Nat) : ∀ q, (idsAt bs q n).length = n := by
  induction n with
  | zero => intro q; rfl
  | succ n ih => intro q; simp [idsAt, ih]

theorem optReadIds_rcur (bs : List Byte) (n : Nat) : ∀ q, q % 8 = 0 → optReadIds n (rcur bs q) = some (idsAt bs q n, rcur bs (q + 16 * n)) := by
  induction n with
  | zero => intro q _; rfl
  | succ n ih =>
    intro q hq
    obtain ⟨v, hv, hb⟩ := readAlignedU16_rcur bs q hq
    rw [optReadIds, hv]
    dsimp only
    rw [ih _ (by omega), Option.map_some, idsAt]
    have e : (v.setWidth 13 : BitVec 13) = BitVec.ofNat 13 (numAt bs q 13) := by
      apply BitVec.eq_of_getLsbD_eq
      intro i hi
      rw [BitVec.getLsbD_setWidth, BitVec.getLsbD_ofNat, hb i (by omega), numAt, bitsVal_testBit]
      simp [hi]
    rw [e, show q + 16 + 16 * n = q + 16 * (n + 1) by omega]

theorem readTimes_ids (bs : List Byte) (n : Nat) : ∀ q, q % 8 = 0 →
    readTimes (Scalar.composite subjectIDType).read n (rcur bs q) = some (.ok ((idsAt bs q n).map fun id => .record [.num id.toNat]), rcur bs (q + 16 * n)) := by
  induction n with
  | zero => intro q _; rfl
  | succ n ih =>
    intro q hq
    have hz : subjectIDType.zeroCopy = false := by decide +kernel
    have e : (Scalar.composite subjectIDType).read (rcur bs q) = some (.ok (.record [.num (numAt bs q 13)]), rcur bs (q + 16)) := by
      rw [Scalar.read, ReadCursor.readComposite, align_rcur]
      unfold subjectIDType at hz ⊢
      simp only [Message.extent, Option.map_none, Option.isSome_none, Bool.false_eq_true, if_false, Message.deserialize, hz, Fields.deserialize, List.foldl_nil, readField,
        Scalar.read, Prim.read, Prim.bits]
      rw [readUInt_rcur bs _ 13 (by decide) (by decide)]
      simp only [okRead, Option.map_some, andThen, Prim.ofWord, align_rcur]
      rw [show (q + 7) / 8 * 8 = q by omega, show (q + 13 + 7) / 8 * 8 = q + 16 by omega]
    rw [readTimes, e]
    dsimp only [andThen]
    rw [ih _ (by omega)]
    dsimp only [andThen]
    rw [idsAt, List.map_cons, BitVec.toNat_ofNat, Nat.mod_eq_of_lt (numAt_lt bs q 13), show q + 16 + 16 * n = q + 16 * (n + 1) by omega]

theorem numAt_u8 {bs : List Byte} {q : Nat} {v : Byte} (h : ∀ i, i < 8 → v.getLsbD i = bitAt bs (q + i)) : v.toNat = numAt bs q 8 := by
  apply Nat.eq_of_testBit_eq
  intro i
  rw [numAt, bitsVal_testBit]
  by_cases hi : i < 8
  · rw [← h i hi]; simp [hi, BitVec.getLsbD]
  · have := v.isLt
    simp only [hi, decide_false, Bool.false_and]
    exact Nat.testBit_lt_two_pow (Nat.lt_of_lt_of_le this (Nat.pow_le_pow_right (by decide) (by omega)))

theorem optDeserialize_rcur (N : Nat) (bs : List Byte) : optDeserialize N (rcur bs 0) =
    if numAt bs 0 8 ≠ 1 then some (.error .unionTag, rcur bs 8)
    else if N < numAt bs 8 8 then some (.error .arrayLength, rcur bs 16)
    else some (.ok (idsAt bs 16 (numAt bs 8 8)), rcur bs (16 + 16 * numAt bs 8 8)) := by
  obtain ⟨t, ht, hb⟩ := readAlignedU8_rcur bs 0 rfl
  obtain ⟨l, hl, hlb⟩ := readAlignedU8_rcur bs 8 rfl
  rw [optDeserialize, ht]
  dsimp only
  rw [numAt_u8 hb, sparseListTag]
  by_cases h1 : numAt bs 0 8 ≠ 1
  · rw [if_pos h1, if_pos h1]
  · rw [if_neg h1, if_neg h1, hl]
    dsimp only
    rw [numAt_u8 hlb]
    by_cases h2 : N < numAt bs 8 8
    · rw [if_pos h2, if_pos h2]
    · rw [if_neg h2, if_neg h2, optReadIds_rcur _ _ _ rfl]

theorem asI32_small {n : Nat} (h : n < 256) : asI32 n = n := by
  unfold asI32
  rw [BitVec.toInt_eq_toNat_cond, BitVec.toNat_ofNat]
  have : n % 2 ^ 32 = n := by omega
  rw [this, if_pos (by omega)]

theorem list_deserialize (bs : List Byte) (h : numAt bs 0 8 = 1) :
    subjectIDListType.deserialize (rcur bs 0) = some (.ok (sparseList (idsAt bs 16 (numAt bs 8 8))), rcur bs (16 + 16 * numAt bs 8 8)) := by
  have h3 : (arrayLengthBits 255) = 8 := by decide +kernel
  have h4 : (Variants.cons (.prim .boolean) (.fixed 8192) (.cons (.composite subjectIDType) (.var 255) (.cons (.composite emptyType) .scalar .nil))).tagBits = 8 := by decide +kernel
  have hlt := numAt_lt bs 8 8
  unfold subjectIDListType
  rw [Message.deserialize, h4, readUIntAligned_rcur bs 0 8 (by decide) (by decide) rfl, h]
  dsimp only
  rw [Variants.deserialize, if_neg (by decide), Variants.deserialize, if_pos rfl, readField, h3, readUInt_rcur bs _ 8 (by decide) (by decide)]
  simp only [Scalar.isBool, Bool.false_eq_true, if_false, Nat.zero_add]
  rw [asI32_small hlt, if_pos (by omega), Int.toNat_natCast, readTimes_ids _ _ _ rfl]
  rfl

theorem list_other (bs : List Byte) (h : numAt bs 0 8 ≠ 1) (ids : List SubjectId) (c : ReadCursor) :
    subjectIDListType.deserialize (rcur bs 0) ≠ some (.ok (sparseList ids), c) := by
  have h4 : (Variants.cons (.prim .boolean) (.fixed 8192) (.cons (.composite subjectIDType) (.var 255) (.cons (.composite emptyType) .scalar .nil))).tagBits = 8 := by decide +kernel
  have key : ∀ (r : Rd Val) (k : Nat), k ≠ 1 → andThen r (fun v c => some (.ok (.variant k v), c)) ≠ some (.ok (sparseList ids), c) := by
    intro r k hk e
    unfold andThen at e
    split at e
    · cases e
    · cases e
    · simp only [Option.some.injEq, Prod.mk.injEq, Except.ok.injEq, sparseList, Val.variant.injEq] at e
      exact hk e.1.1
  unfold subjectIDListType
  rw [Message.deserialize, h4, readUIntAligned_rcur bs 0 8 (by decide) (by decide) rfl]
  dsimp only
  rw [Variants.deserialize]
  split
  · exact key _ _ (by decide)
  · rw [Variants.deserialize, if_neg (by omega), Variants.deserialize]
    split
    · exact key _ _ (by decide)
    · rw [Variants.deserialize]
      intro e
      cases e

theorem holds_bytes (L : Nat) (bits : List Bool) (extra : List Byte) (h : bits.length ≤ 8 * L) : Holds ((wcur L bits).bytes ++ extra) bits := by
  have hlen : (wcur L bits).bytes.length = L := by simp [wcur]
  refine ⟨by simp only [List.length_append, hlen]; omega, fun p hp => ?_⟩
  have e : bitAt ((wcur L bits).bytes ++ extra) p = bitAt (wcur L bits).bytes p := by
    unfold bitAt
    rw [List.getD_eq_getElem?_getD, List.getElem?_append_left (by omega), ← List.getD_eq_getElem?_getD]
  rw [e]
  exact bitAt_pack _ _ _ (by omega)

theorem idsAt_take {bs : List Byte} (ids : List SubjectId) : ∀ (acc : List Bool) (n : Nat), n ≤ ids.length → Holds bs (acc ++ idBits ids) →
    idsAt bs acc.length n = ids.take n := by
  induction ids with
  | nil => intro acc n hn _; have : n = 0 := by simpa using hn
           subst this; rfl
  | cons id ids ih =>
    intro acc n hn h
    cases n with
    | zero => rfl
    | succ n =>
      have e : acc ++ idBits (id :: ids) = (acc ++ bitsOf 16 id.toNat) ++ idBits ids := by rw [List.append_assoc]; rfl
      have h1 := ih (acc ++ bitsOf 16 id.toNat) n (by rw [List.length_cons] at hn; omega) (e ▸ h)
      rw [List.length_append, length_bitsOf] at h1
      rw [idsAt, h1, List.take_succ_cons]
      have e2 : acc ++ bitsOf 13 id.toNat <+: acc ++ idBits (id :: ids) := by
        refine ⟨bitsOf 3 (id.toNat >>> 13) ++ idBits ids, ?_⟩
        rw [e, show (16 : Nat) = 13 + 3 from rfl, bitsOf_add]
        simp only [List.append_assoc]
      rw [(h.mono e2).num, Nat.mod_eq_of_lt id.isLt, BitVec.ofNat_toNat, BitVec.setWidth_eq]

/-- What is read of the bytes that were written. -/
theorem opt_round (N : Nat) (ids : List SubjectId) (buf extra : List Byte) (hb : optSizeBits ids ≤ 8 * buf.length) :
    ∃ c, optSerialize ids (WriteCursor.new buf) = some c ∧ (optDeserialize N (ReadCursor.new (c.bytes ++ extra))).map (·.1) =
      some (if N < ids.length % 256 then .error .arrayLength else .ok (ids.take (ids.length % 256))) := by
  unfold optSizeBits at hb
  rw [new_eq_wcur, optSerialize_wcur _ _ (by omega)]
  refine ⟨_, rfl, ?_⟩
  have hH := holds_bytes buf.length (bitsOf 8 1 ++ bitsOf 8 ids.length ++ idBits ids) extra
    (by simp only [List.length_append, length_bitsOf, length_idBits]; omega)
  have h1 : numAt ((wcur buf.length (bitsOf 8 1 ++ bitsOf 8 ids.length ++ idBits ids)).bytes ++ extra) 0 8 = 1 :=
    (hH.mono (F := [] ++ bitsOf 8 1) ⟨_, by rw [List.nil_append, ← List.append_assoc]⟩).num
  have h2 : numAt ((wcur buf.length (bitsOf 8 1 ++ bitsOf 8 ids.length ++ idBits ids)).bytes ++ extra) 8 8 = ids.length % 256 :=
    (hH.mono (F := bitsOf 8 1 ++ bitsOf 8 ids.length) ⟨_, rfl⟩).num
  have h3 := idsAt_take ids (bitsOf 8 1 ++ bitsOf 8 ids.length) (ids.length % 256) (Nat.mod_le _ _) hH
  rw [show (bitsOf 8 1 ++ bitsOf 8 ids.length).length = 16 by simp [length_bitsOf]] at h3
  rw [new_eq_rcur, optDeserialize_rcur, h1, h2, h3, if_neg (by decide)]
  split <;> rfl

/-! ### C111 -/

/-- Up to 255 subjects are written with the same bits, and have the same size, as the generated type has for them. -/
theorem C111_same_bytes (ids : List SubjectId) (h : ids.length ≤ 255) (buf : List Byte) (hb : optSizeBits ids ≤ 8 * buf.length) :
    optSizeBits ids = subjectIDListType.sizeBits (sparseList ids) ∧
    ∃ c, optSerialize ids (WriteCursor.new buf) = some c ∧ subjectIDListType.serialize (sparseList ids) (WriteCursor.new buf) = some c := by
  refine ⟨(list_size ids).symm, ?_⟩
  unfold optSizeBits at hb
  have hl : (subjectIDListType.bits (sparseList ids)).length = 16 + 16 * ids.length := by
    rw [list_bits]; simp only [List.length_append, length_bitsOf, length_idBits]
  rw [new_eq_wcur, optSerialize_wcur _ _ (by omega), ← list_bits]
  exact ⟨_, rfl, by
    rw [subjectIDListType.writes (sparseList ids) buf.length (subjectIDListType.bits (sparseList ids)).length (by omega) (by omega) good_list (list_has ids h) (list_fits ids) [] rfl
      (by simp), List.nil_append]⟩

/-- Any bytes that the generated type reads as a list of subjects are read as the same subjects, up to the same place, if there is space for them, and as an
error of the length if there is not. Anything else is an error of the variant. Reading does not panic. -/
theorem C111_reads_same (N : Nat) (bytes : List Byte) :
    (∀ ids c, subjectIDListType.deserialize (ReadCursor.new bytes) = some (.ok (sparseList ids), c) →
      (ids.length ≤ N → optDeserialize N (ReadCursor.new bytes) = some (.ok ids, c)) ∧
      (N < ids.length → (optDeserialize N (ReadCursor.new bytes)).map (·.1) = some (.error .arrayLength))) ∧
    ((∀ ids c, subjectIDListType.deserialize (ReadCursor.new bytes) ≠ some (.ok (sparseList ids), c)) →
      (optDeserialize N (ReadCursor.new bytes)).map (·.1) = some (.error .unionTag)) := by
  rw [new_eq_rcur, optDeserialize_rcur]
  by_cases h : numAt bytes 0 8 = 1
  · rw [if_neg (by omega), list_deserialize bytes h]
    refine ⟨fun ids c e => ?_, fun hn => absurd rfl (hn _ _)⟩
    simp only [Option.some.injEq, Prod.mk.injEq, Except.ok.injEq, sparseList, Val.variant.injEq, Val.list.injEq, true_and] at e
    obtain ⟨e, rfl⟩ := e
    have hinj : Function.Injective fun id : SubjectId => Val.record [.num id.toNat] := by
      intro a b hab
      simp only [Val.record.injEq, List.cons.injEq, Val.num.injEq, and_true] at hab
      exact BitVec.eq_of_toNat_eq hab
    have e := hinj.list_map e
    subst e
    rw [length_idsAt]
    exact ⟨fun hN => by rw [if_neg (by omega)], fun hN => by rw [if_pos hN]; rfl⟩
  · rw [if_pos h]
    exact ⟨fun ids c e => absurd e (list_other bytes h ids c), fun _ => rfl⟩

/-- A list that has space for no more than 255 subjects is read back as it was written, whatever follows it. -/
theorem C111_round_trip_partial (N : Nat) (hN : N ≤ 255) (ids : List SubjectId) (h : ids.length ≤ N) (buf extra : List Byte) (hb : optSizeBits ids ≤ 8 * buf.length) :
    ∃ c, optSerialize ids (WriteCursor.new buf) = some c ∧ (optDeserialize N (ReadCursor.new (c.bytes ++ extra))).map (·.1) = some (.ok ids) := by
  obtain ⟨c, h1, h2⟩ := opt_round N ids buf extra hb
  refine ⟨c, h1, ?_⟩
  have e : ids.length % 256 = ids.length := by omega
  rw [h2, e, if_neg (by omega), List.take_length]

/-- With space for more subjects, a list of more than 255 is always written with another length, and fewer subjects are read back. -/
theorem C111_counterexample (N : Nat) (ids : List SubjectId) (h : ids.length ≤ N) (h256 : 256 ≤ ids.length) (buf extra : List Byte) (hb : optSizeBits ids ≤ 8 * buf.length) :
    ∃ c, optSerialize ids (WriteCursor.new buf) = some c ∧
      (optDeserialize N (ReadCursor.new (c.bytes ++ extra))).map (·.1) = some (.ok (ids.take (ids.length % 256))) ∧ ids.take (ids.length % 256) ≠ ids := by
  obtain ⟨c, h1, h2⟩ := opt_round N ids buf extra hb
  have hlt : ids.length % 256 < 256 := Nat.mod_lt _ (by decide)
  refine ⟨c, h1, by rw [h2, if_neg (by omega)], fun e => ?_⟩
  have := congrArg List.length e
  rw [List.length_take] at this
  omega

/-- Two subjects in six bytes. -/
example : (optSerialize [7509#13, 8191#13] (WriteCursor.new (List.replicate 6 0))).map (·.bytes) = some [1, 2, 0x55, 0x1d, 0xff, 0x1f] := by decide +kernel

example : (optDeserialize 2 (ReadCursor.new [1, 2, 0x55, 0x1d, 0xff, 0x1f])).map (·.1) = some (.ok [7509#13, 8191#13]) ∧
    (optDeserialize 1 (ReadCursor.new [1, 2, 0x55, 0x1d, 0xff, 0x1f])).map (·.1) = some (.error .arrayLength) ∧
    (optDeserialize 2 (ReadCursor.new [2])).map (·.1) = some (.error .unionTag) := ⟨rfl, rfl, rfl⟩

/-- The generated type reads the same bytes as a list. -/
example : ∃ c, subjectIDListType.deserialize (ReadCursor.new [1, 2, 0x55, 0x1d, 0xff, 0x1f]) = some (.ok (sparseList [7509#13, 8191#13]), c) := by
  rw [new_eq_rcur, list_deserialize _ (by decide)]
  exact ⟨_, rfl⟩

/-- A list with 256 subjects. -/
example : ∃ c, optSerialize (List.replicate 256 5#13) (WriteCursor.new (List.replicate 514 0)) = some c ∧
    (optDeserialize 256 (ReadCursor.new (c.bytes ++ []))).map (·.1) = some (.ok []) := by
  have hl : (List.replicate 256 5#13).length = 256 := List.length_replicate
  obtain ⟨c, h1, h2, -⟩ := C111_counterexample 256 (List.replicate 256 5#13) (by rw [hl]) (by rw [hl]) (List.replicate 514 0) []
    (by rw [optSizeBits, hl, List.length_replicate])
  exact ⟨c, h1, by rw [h2, hl]; rfl⟩

end Verif.Dsdl
