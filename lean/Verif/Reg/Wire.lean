import Verif.Reg.Spec
import Verif.Pnp.Lemmas
import Mathlib.Data.List.GetD

/-!
Lemmas about the bytes of register messages.
-/

namespace Verif.Reg

open Verif.Dsdl Verif.Enc Verif.Node Verif.App Verif.Pnp

/-! ### Reading -/

theorem asI32_small {n : Nat} (h : n < 2 ^ 31) : asI32 n = n := by
  unfold asI32
  rw [BitVec.toInt_ofNat', Int.bmod_def, Int.emod_eq_of_lt (by omega) (by omega), if_pos (by omega)]

theorem readUInt_bytes (bs : List Byte) (i n : Nat) (h1 : 1 ≤ n) (h2 : n ≤ 8) :
    readUInt (8 * n) (rcur bs (8 * i)) = some (numberAt bs i n, rcur bs (8 * (i + n))) := by
  rw [readUInt_rcur bs _ _ (by omega) (by omega), numAt_eq, Nat.mul_add]

/-- Reading `n` numbers of `w` bytes. -/
theorem readTimes_prim (p : Prim) (w : Nat) (hp : p ≠ .boolean) (hw : p.bits = 8 * w) (h1 : 1 ≤ w) (h2 : w ≤ 8) (bs : List Byte) :
    ∀ (n i : Nat), readTimes (Scalar.prim p).read n (rcur bs (8 * i)) =
      some (.ok ((List.range n).map fun j => p.ofWord (numberAt bs (i + w * j) w)), rcur bs (8 * (i + w * n)))
  | 0, i => by simp [readTimes]
  | n + 1, i => by
    have hr : (Scalar.prim p).read (rcur bs (8 * i)) = some (.ok (p.ofWord (numberAt bs i w)), rcur bs (8 * (i + w))) := by
      simp only [Scalar.read]
      have e : p.read (rcur bs (8 * i)) = okRead p.ofWord (readUInt p.bits (rcur bs (8 * i))) := by
        cases p <;> first | exact absurd rfl hp | rfl
      rw [e, hw, readUInt_bytes bs i w h1 h2]
      rfl
    rw [readTimes, hr]
    simp only [andThen]
    rw [readTimes_prim p w hp hw h1 h2 bs n (i + w)]
    simp only [List.range_succ_eq_map, List.map_cons, List.map_map, Nat.mul_zero, Nat.add_zero]
    rw [show i + w + w * n = i + w * (n + 1) by rw [Nat.mul_succ]; omega]
    congr 4
    apply List.map_congr_left
    intro j _
    simp only [Function.comp, Nat.succ_eq_add_one]
    rw [show i + w + w * j = i + w * (j + 1) by rw [Nat.mul_succ]; omega]

/-- Reading an array that is not of `bool`. -/
theorem arrayType_deserialize (p : Prim) (w cap lb : Nat) (hp : p ≠ .boolean) (hw : p.bits = 8 * w) (h1 : 1 ≤ w) (h2 : w ≤ 8)
    (hl : arrayLengthBits cap = 8 * lb) (hl1 : 1 ≤ lb) (hl2 : lb ≤ 2) (hz : (arrayType p cap).zeroCopy = false) (bs : List Byte) (i : Nat) :
    (arrayType p cap).deserialize (rcur bs (8 * i)) =
      if numberAt bs i lb ≤ cap then
        some (.ok (.record [.list ((List.range (numberAt bs i lb)).map fun j => p.ofWord (numberAt bs (i + lb + w * j) w))]),
          rcur bs (8 * (i + lb + w * numberAt bs i lb)))
      else some (.error .arrayLength, rcur bs (8 * (i + lb))) := by
  have hb : (Scalar.prim p).isBool = false := by cases p <;> first | exact absurd rfl hp | rfl
  have hlt : numberAt bs i lb < 2 ^ 31 :=
    Nat.lt_of_lt_of_le (numberAt_lt bs i lb) (Nat.pow_le_pow_right (by omega) (by omega))
  unfold arrayType at hz ⊢
  simp only [Message.deserialize, hz, Bool.false_eq_true, if_false, Fields.deserialize, List.foldl_nil, readField, hb, hl,
    readUInt_bytes bs i lb hl1 (by omega), asI32_small hlt, Int.ofNat_le, Int.toNat_natCast]
  by_cases h : numberAt bs i lb ≤ cap
  · rw [if_pos h, if_pos h, readTimes_prim p w hp hw h1 h2]
    simp only [andThen]
  · rw [if_neg h, if_neg h]
    simp only [andThen]

/-- Reading a composite that is not delimited, at a whole byte. -/
theorem readSealed (m : Message) (hm : m.extent = none) (bs : List Byte) (i : Nat) :
    (Scalar.composite m).read (rcur bs (8 * i)) = (m.deserialize (rcur bs (8 * i))).map fun r => (r.1, r.2.align) := by
  simp only [Scalar.read, ReadCursor.readComposite, hm, Option.map_none, Option.isSome_none, Bool.false_eq_true, if_false, align_bytes]

/-- What the values of an array are. -/
def listVal (p : Prim) (bs : List Byte) (i w n : Nat) : Val := .record [.list ((List.range n).map fun j => p.ofWord (numberAt bs (i + w * j) w))]

theorem arrayType_read (p : Prim) (w cap lb : Nat) (hp : p ≠ .boolean) (hw : p.bits = 8 * w) (h1 : 1 ≤ w) (h2 : w ≤ 8)
    (hl : arrayLengthBits cap = 8 * lb) (hl1 : 1 ≤ lb) (hl2 : lb ≤ 2) (hz : (arrayType p cap).zeroCopy = false) (bs : List Byte) (i : Nat) :
    (Scalar.composite (arrayType p cap)).read (rcur bs (8 * i)) =
      if numberAt bs i lb ≤ cap then some (.ok (listVal p bs (i + lb) w (numberAt bs i lb)), rcur bs (8 * (i + lb + w * numberAt bs i lb)))
      else some (.error .arrayLength, rcur bs (8 * (i + lb))) := by
  rw [readSealed _ rfl, arrayType_deserialize p w cap lb hp hw h1 h2 hl hl1 hl2 hz]
  split
  · rw [Option.map_some, align_bytes]
    rfl
  · rw [Option.map_some, align_bytes]

/-- Reading an array of at most 2048 `bool`. -/
theorem bits_deserialize (bs : List Byte) (i : Nat) :
    (2048 < numberAt bs i 2 → (arrayType .boolean 2048).deserialize (rcur bs (8 * i)) = none) ∧
    (numberAt bs i 2 ≤ 2048 → ∃ a c, (arrayType .boolean 2048).deserialize (rcur bs (8 * i)) = some (.ok (.record [.bits a]), c) ∧
      a.bytes.length = 256 ∧ a.bitLength = numberAt bs i 2 ∧ bitsA a = (List.range (numberAt bs i 2)).map (bit bs (i + 2))) := by
  have hz : (arrayType .boolean 2048).zeroCopy = false := by decide +kernel
  have hl : arrayLengthBits 2048 = 8 * 2 := by decide +kernel
  have hr := readUInt_bytes bs i 2 (by omega) (by omega)
  unfold arrayType at hz ⊢
  simp only [Message.deserialize, hz, Bool.false_eq_true, if_false, Fields.deserialize, List.foldl_nil, readField, Scalar.isBool, if_true, hl,
    hr, BitArray.deserialize, BitArray.new]
  constructor
  · intro h
    rw [if_neg (by omega)]
    rfl
  · intro h
    rw [if_pos (by omega)]
    obtain ⟨a, g1, g2, g3, g4⟩ := deserializeInPlace_rcur bs ⟨List.replicate ((2048 + 7) / 8) 0, numberAt bs i 2⟩ (8 * (i + 2))
      (by rw [List.length_replicate]; show _ ≤ 8 * 256; omega)
    obtain ⟨c, g1⟩ : ∃ c, BitArray.deserializeInPlace ⟨List.replicate ((2048 + 7) / 8) 0, numberAt bs i 2⟩ (rcur bs (8 * (i + 2))) = some (a, c) := ⟨_, g1⟩
    refine ⟨a, c, ?_, ?_, g2, ?_⟩
    · simp only [g1, okRead, Option.map_some, andThen]
    · rw [g3, List.length_replicate]
    · unfold bitsA
      rw [g2]
      apply List.map_congr_left
      intro j hj
      rw [g4 j (by simpa using hj)]
      unfold bitAt bit byte
      rw [show (8 * (i + 2) + j) / 8 = i + 2 + j / 8 by omega, show (8 * (i + 2) + j) % 8 = j % 8 by omega]

theorem Kind.facts (k : Kind) : k.prim ≠ .boolean ∧ k.prim.bits = 8 * k.bytes ∧ 1 ≤ k.bytes ∧ k.bytes ≤ 8 ∧
    arrayLengthBits k.capacity = 8 * k.lengthBytes ∧ 1 ≤ k.lengthBytes ∧ k.lengthBytes ≤ 2 ∧ (arrayType k.prim k.capacity).zeroCopy = false ∧
    k.capacity = k.limit ∧ k.width = 8 * k.bytes ∧ kindOf k.variant = some k ∧ 4 ≤ k.variant ∧ k.tag.toNat = k.variant := by
  cases k <;> decide +kernel

theorem Kind.ofVal_ofWord (k : Kind) (n : Nat) : k.ofVal (k.prim.ofWord n) = BitVec.ofNat k.width n := by
  cases k <;> first
    | rfl
    | exact BitVec.ofInt_toInt

theorem Kind.ofVal_list (k : Kind) (bs : List Byte) (i : Nat) (n : Nat) :
    Value.ofVal (.variant k.variant (listVal k.prim bs i k.bytes n)) =
      some (.numbers k ((List.range n).map fun j => BitVec.ofNat k.width (numberAt bs (i + k.bytes * j) k.bytes))) := by
  have h : Value.ofVal (.variant k.variant (listVal k.prim bs i k.bytes n)) = (kindOf k.variant).map fun k' =>
      Value.numbers k' (((List.range n).map fun j => k.prim.ofWord (numberAt bs (i + k.bytes * j) k.bytes)).map k'.ofVal) := by
    cases k <;> rfl
  rw [h, k.facts.2.2.2.2.2.2.2.2.2.2.1, Option.map_some, List.map_map]
  congr 3
  funext j
  exact k.ofVal_ofWord _

/-- Reading a variant that holds numbers. -/
theorem Kind.read (k : Kind) (bs : List Byte) (i : Nat) :
    (Scalar.composite (arrayType k.prim k.capacity)).read (rcur bs (8 * i)) =
      if numberAt bs i k.lengthBytes ≤ k.limit then
        some (.ok (listVal k.prim bs (i + k.lengthBytes) k.bytes (numberAt bs i k.lengthBytes)),
          rcur bs (8 * (i + k.lengthBytes + k.bytes * numberAt bs i k.lengthBytes)))
      else some (.error .arrayLength, rcur bs (8 * (i + k.lengthBytes))) := by
  obtain ⟨h1, h2, h3, h4, h5, h6, h7, h8, h9, -⟩ := k.facts
  rw [← h9]
  exact arrayType_read k.prim k.bytes k.capacity k.lengthBytes h1 h2 h3 h4 h5 h6 h7 h8 bs i

theorem slice_vals (bs : List Byte) (i n : Nat) :
    ((List.range n).map fun j => (Prim.uint 8 true).ofWord (numberAt bs (i + 1 * j) 1)) = (slice bs i n).map fun x => Val.num x.toNat := by
  unfold slice
  rw [List.map_map]
  apply List.map_congr_left
  intro j _
  simp [Prim.ofWord, numberAt]

/-- What reading a value gives. -/
def ReadsAs (r : Rd Val) : Decoded → Prop
  | .content c => ∃ w v cur, r = some (.ok w, cur) ∧ Value.ofVal w = some v ∧ v.content = c ∧ v.valid
  | .malformed => ∃ e cur, r = some (.error e, cur)
  | .bitOverflow => r = none

theorem value_deserialize (bs : List Byte) (i : Nat) : ReadsAs (valueType.deserialize (rcur bs (8 * i))) (contentAt bs i) := by
  have htag : (Variants.tagBits (match valueType with | .union _ _ v => v | _ => .nil)) = 8 := by decide +kernel
  have hr : readUIntAligned 8 (rcur bs (8 * i)) = some ((byte bs i).toNat, rcur bs (8 * (i + 1))) := by
    rw [readUIntAligned_rcur bs _ 8 (by omega) (by omega) (by omega)]
    have := numAt_eq bs i 1
    simp only [numberAt, Nat.mul_zero, Nat.add_zero] at this
    rw [← this]
    rfl
  have hk := fun k : Kind => k.read bs (i + 1)
  have hu := arrayType_read (.uint 8 true) 1 256 2 (by decide) rfl (by omega) (by omega) (by decide +kernel) (by omega) (by omega) (by decide +kernel)
    bs (i + 1)
  have hb := bits_deserialize bs (i + 1)
  have hsb := readSealed (arrayType .boolean 2048) rfl bs (i + 1)
  have he : (Scalar.composite emptyType).read (rcur bs (8 * (i + 1))) = some (.ok (.record []), rcur bs (8 * (i + 1))) := by
    have hz : emptyType.zeroCopy = true := by decide +kernel
    rw [readSealed _ rfl]
    unfold emptyType at hz ⊢
    simp only [Message.deserialize, hz, if_true, Fields.memSize, zeroCopy_slice, okRead, Option.map_some, Nat.add_zero, align_bytes, Fields.load]
  unfold valueType at htag ⊢
  simp only at htag
  simp only [Message.deserialize, htag, hr]
  unfold contentAt
  generalize (byte bs i).toNat = t
  have hkind : ∀ k : Kind, ReadsAs
      (andThen (readField (Scalar.composite (arrayType k.prim k.capacity)) (Scalar.composite (arrayType k.prim k.capacity)).read (rcur bs (8 * (i + 1))) .scalar)
        fun v c => some (.ok (.variant k.variant v), c))
      (if numberAt bs (i + 1) k.lengthBytes ≤ k.limit then
        .content (.numbers k ((List.range (numberAt bs (i + 1) k.lengthBytes)).map fun j =>
          BitVec.ofNat k.width (numberAt bs (i + 1 + k.lengthBytes + k.bytes * j) k.bytes)))
      else .malformed) := by
    intro k
    simp only [readField, hk k]
    split
    · simp only [andThen, ReadsAs]
      refine ⟨_, _, _, rfl, k.ofVal_list _ _ _, rfl, ?_⟩
      simp only [Value.valid, Value.content, Content.fits, List.length_map, List.length_range, decide_eq_true_eq]
      assumption
    · simp only [andThen, ReadsAs]
      exact ⟨_, _, rfl⟩
  have hbytes : ∀ (t : Nat) (f : List Byte → Value) (g : List Byte → Content),
      (∀ l, Value.ofVal (.variant t (.record [.list l])) = some (f (l.map byteOf))) → (∀ b, (f b).content = g b) →
      (∀ b, b.length ≤ 256 → (f b).valid) →
      ReadsAs (andThen (readField (Scalar.composite (arrayType (.uint 8 true) 256)) (Scalar.composite (arrayType (.uint 8 true) 256)).read
          (rcur bs (8 * (i + 1))) .scalar) fun v c => some (.ok (.variant t v), c))
        (if numberAt bs (i + 1) 2 ≤ 256 then .content (g (slice bs (i + 3) (numberAt bs (i + 1) 2))) else .malformed) := by
    intro t f g h1 h2 h3
    simp only [readField, hu]
    split
    · simp only [andThen, ReadsAs]
      refine ⟨_, _, _, rfl, h1 _, ?_, ?_⟩
      · rw [h2, slice_vals, map_byteOf]
      · apply h3
        rw [List.length_map, List.length_map, List.length_range]
        assumption
    · simp only [andThen, ReadsAs]
      exact ⟨_, _, rfl⟩
  have hbits : ReadsAs (andThen (readField (Scalar.composite (arrayType .boolean 2048)) (Scalar.composite (arrayType .boolean 2048)).read
          (rcur bs (8 * (i + 1))) .scalar) fun v c => some (.ok (.variant 3 v), c))
        (if numberAt bs (i + 1) 2 ≤ 2048 then .content (.bits ((List.range (numberAt bs (i + 1) 2)).map (bit bs (i + 3)))) else .bitOverflow) := by
    simp only [readField, hsb]
    split
    · obtain ⟨a, c, g1, g2, g3, g4⟩ := hb.2 (by assumption)
      rw [g1]
      simp only [Option.map_some, andThen, ReadsAs]
      refine ⟨_, _, _, rfl, rfl, ?_, g2, ?_⟩
      · simp only [Value.content, g4]
      · rw [g3]; assumption
    · rw [hb.1 (by omega)]
      rfl
  by_cases ht : t < 15
  · have : t = 0 ∨ t = 1 ∨ t = 2 ∨ t = 3 ∨ t = 4 ∨ t = 5 ∨ t = 6 ∨ t = 7 ∨ t = 8 ∨ t = 9 ∨ t = 10 ∨ t = 11 ∨ t = 12 ∨ t = 13 ∨ t = 14 := by omega
    rcases this with rfl | rfl | rfl | rfl | rfl | rfl | rfl | rfl | rfl | rfl | rfl | rfl | rfl | rfl | rfl
    · simp only [Variants.deserialize, readField, if_true, he, andThen, ReadsAs]
      exact ⟨_, _, _, rfl, rfl, rfl, rfl⟩
    · exact hbytes 1 Value.string Content.string (fun _ => rfl) (fun _ => rfl) (fun _ h => decide_eq_true h)
    · exact hbytes 2 Value.unstructured Content.unstructured (fun _ => rfl) (fun _ => rfl) (fun _ h => decide_eq_true h)
    · exact hbits
    · exact hkind .integer64
    · exact hkind .integer32
    · exact hkind .integer16
    · exact hkind .integer8
    · exact hkind .natural64
    · exact hkind .natural32
    · exact hkind .natural16
    · exact hkind .natural8
    · exact hkind .real64
    · exact hkind .real32
    · exact hkind .real16
  · have e : ∀ k, k < 15 → ¬ t = k := by omega
    simp only [Variants.deserialize, e 0 (by omega), e 1 (by omega), e 2 (by omega), e 3 (by omega), e 4 (by omega), e 5 (by omega), e 6 (by omega),
      e 7 (by omega), e 8 (by omega), e 9 (by omega), e 10 (by omega), e 11 (by omega), e 12 (by omega), e 13 (by omega), e 14 (by omega), if_false,
      Nat.reduceAdd]
    split
    · omega
    · omega
    · omega
    · omega
    · rw [List.getElem?_eq_none (by simp only [List.length_cons, List.length_nil]; omega)]
      exact ⟨_, _, rfl⟩

/-- Reading a value as the last field of a struct. -/
theorem value_read (bs : List Byte) (i : Nat) : ReadsAs ((Scalar.composite valueType).read (rcur bs (8 * i))) (contentAt bs i) := by
  have h := value_deserialize bs i
  rw [readSealed valueType rfl]
  cases hc : contentAt bs i with
  | content c =>
    rw [hc] at h
    obtain ⟨w, v, cur, g1, g2⟩ := h
    exact ⟨w, v, _, by rw [g1]; rfl, g2⟩
  | malformed =>
    rw [hc] at h
    obtain ⟨e, cur, g⟩ := h
    exact ⟨e, _, by rw [g]; rfl⟩
  | bitOverflow =>
    rw [hc] at h
    show Option.map _ _ = none
    rw [show valueType.deserialize (rcur bs (8 * i)) = none from h]
    rfl

/-- Reading a name. -/
theorem name_read (bs : List Byte) (i : Nat) : (Scalar.composite nameType).read (rcur bs (8 * i)) =
    some (.ok (.record [.list ((slice bs (i + 1) (byte bs i).toNat).map fun x => Val.num x.toNat)]), rcur bs (8 * (i + 1 + (byte bs i).toNat))) := by
  have h1 : numberAt bs i 1 = (byte bs i).toNat := by simp [numberAt]
  have h2 := (byte bs i).isLt
  unfold nameType
  rw [arrayType_read (.uint 8 true) 1 255 1 (by decide) rfl (by omega) (by omega) (by decide +kernel) (by omega) (by omega) (by decide +kernel), h1,
    if_pos (by omega), listVal, slice_vals, Nat.one_mul]

/-- Reading an access request. -/
theorem parse_request (p : List Byte) :
    match requestValue p with
    | .content c => ∃ v, parse accessRequestType AccessRequest.ofVal p = .ok ⟨requestName p, v⟩ ∧ v.content = c ∧ v.valid
    | .malformed => parse accessRequestType AccessRequest.ofVal p = .error
    | .bitOverflow => parse accessRequestType AccessRequest.ofVal p = .panic := by
  have hz : accessRequestType.zeroCopy = false := by decide +kernel
  have hn := name_read p 0
  have hv := value_read p (0 + 1 + (byte p 0).toNat)
  have e : ReadCursor.new p = rcur p (8 * 0) := rfl
  unfold parse
  unfold accessRequestType at hz ⊢
  simp only [Message.deserialize, hz, Bool.false_eq_true, if_false, Fields.deserialize, List.foldl_nil, readField, e, hn, andThen]
  unfold requestValue
  rw [show 1 + (byte p 0).toNat = 0 + 1 + (byte p 0).toNat by omega]
  cases hc : contentAt p (0 + 1 + (byte p 0).toNat) with
  | content c =>
    rw [hc] at hv
    obtain ⟨w, v, cur, g1, g2, g3, g4⟩ := hv
    refine ⟨v, ?_, g3, g4⟩
    simp only [g1, AccessRequest.ofVal, g2, Option.map_some, map_byteOf]
    rfl
  | malformed =>
    rw [hc] at hv
    obtain ⟨er, cur, g1⟩ := hv
    simp only [g1]
  | bitOverflow =>
    rw [hc] at hv
    rw [show Scalar.read _ _ = none from hv]

/-- Reading a list request. -/
theorem parse_list (p : List Byte) : parse listRequestType listRequestOfVal p = .ok (BitVec.ofNat 16 (numberAt p 0 2)) := by
  have hz : listRequestType.zeroCopy = true := by decide +kernel
  have e : ReadCursor.new p = rcur p (8 * 0) := rfl
  unfold parse
  unfold listRequestType at hz ⊢
  have hm : (Fields.data (.prim (.uint 16 true)) .scalar .nil).memSize = 2 := by decide +kernel
  simp only [Message.deserialize, hz, if_true, hm, e, zeroCopy_slice, okRead, Option.map_some, Fields.load, Scalar.load, Prim.bits, Prim.ofWord]
  rw [show (16 / 8 : Nat) = 2 from rfl, List.take_of_length_le (by rw [length_slice]), ofLeBytes_slice]
  rfl

/-- Reading an access response. -/
theorem parse_response (p : List Byte) :
    match contentAt p 8 with
    | .content c => ∃ v, parse accessResponseType AccessResponse.ofVal p =
        .ok ⟨BitVec.ofNat 64 (numberAt p 0 7), bit p 7 0, bit p 7 1, v⟩ ∧ v.content = c ∧ v.valid
    | .malformed => parse accessResponseType AccessResponse.ofVal p = .error
    | .bitOverflow => parse accessResponseType AccessResponse.ofVal p = .panic := by
  have hz : accessResponseType.zeroCopy = false := by decide +kernel
  have ht : (Scalar.composite timestampType).read (rcur p (8 * 0)) = some (.ok (.record [.num (numberAt p 0 7)]), rcur p (8 * 7)) := by
    have hz : timestampType.zeroCopy = false := by decide +kernel
    rw [readSealed _ rfl]
    unfold timestampType at hz ⊢
    have hr := readUInt_bytes p 0 7 (by omega) (by omega)
    simp only [Message.deserialize, hz, Bool.false_eq_true, if_false, Fields.deserialize, List.foldl_nil, readField, Scalar.read, Prim.read, Prim.bits, hr,
      okRead, Option.map_some, andThen, align_bytes, Prim.ofWord]
  have hv := value_read p 8
  have e : ReadCursor.new p = rcur p (8 * 0) := rfl
  have hb : ∀ k, k < 8 → bitAt p (8 * 7 + k) = bit p 7 k := by
    intro k hk
    unfold bitAt bit byte
    rw [show (8 * 7 + k) / 8 = 7 + k / 8 by omega, show (8 * 7 + k) % 8 = k % 8 by omega]
  have hb0 := hb 0 (by omega)
  have hb1 := hb 1 (by omega)
  unfold parse
  unfold accessResponseType at hz ⊢
  simp only [Message.deserialize, hz, Bool.false_eq_true, if_false, Fields.deserialize, List.foldl_nil, readField, e, ht, andThen, List.nil_append]
  have hr : ∀ q, (Scalar.prim Prim.boolean).read (rcur p q) = some (.ok (.bool (bitAt p q)), rcur p (q + 1)) := by
    intro q
    simp only [Scalar.read, Prim.read, readBool_rcur, okRead, Option.map_some]
  simp only [hr, foldl_advance, List.sum_cons, List.sum_nil]
  rw [show bitAt p (8 * 7) = bit p 7 0 from hb0, hb1]
  cases hc : contentAt p 8 with
  | content c =>
    rw [hc] at hv
    obtain ⟨w, v, cur, g1, g2, g3, g4⟩ := hv
    refine ⟨v, ?_, g3, g4⟩
    rw [show 8 * 7 + 1 + 1 + (6 + 0) = 8 * 8 by omega]
    simp only [g1, AccessResponse.ofVal, g2, Option.map_some]
  | malformed =>
    rw [hc] at hv
    obtain ⟨er, cur, g1⟩ := hv
    rw [show 8 * 7 + 1 + 1 + (6 + 0) = 8 * 8 by omega]
    simp only [g1]
  | bitOverflow =>
    rw [hc] at hv
    rw [show 8 * 7 + 1 + 1 + (6 + 0) = 8 * 8 by omega]
    rw [show Scalar.read _ _ = none from hv]

/-- Reading a list response. -/
theorem parse_listResponse (p : List Byte) : parse listResponseType listResponseOfVal p = .ok (slice p 1 (byte p 0).toNat) := by
  have hz : listResponseType.zeroCopy = false := by decide +kernel
  have hn := name_read p 0
  have e : ReadCursor.new p = rcur p (8 * 0) := rfl
  unfold parse
  unfold listResponseType at hz ⊢
  simp only [Message.deserialize, hz, Bool.false_eq_true, if_false, Fields.deserialize, List.foldl_nil, readField, e, hn, andThen, listResponseOfVal,
    map_byteOf]

/-! ### Writing -/

/-- The bits of bytes. -/
def flat (bytes : List Byte) : List Bool := bytes.flatMap fun b => bitsOf 8 b.toNat

theorem flat_append (a b : List Byte) : flat (a ++ b) = flat a ++ flat b := List.flatMap_append

theorem padByte_flat (b : List Byte) : padByte (flat b) = flat b := padByte_aligned (by unfold flat; rw [length_flatMap_bits]; omega)

theorem padByte_flat_append (b : List Byte) (l : List Bool) : padByte (flat b ++ l) = flat b ++ padByte l := by
  unfold padByte
  have : (flat b).length = 8 * b.length := length_flatMap_bits b
  rw [List.append_assoc, List.length_append, this]
  congr 4
  omega

theorem flat_numberBytes (n x : Nat) : flat (numberBytes n x) = bitsOf (8 * n) x := numberBytes_flat n x

theorem foldl_prim (p : Prim) (vs : List Val) : ∀ acc, vs.foldl (Scalar.prim p).append acc = acc ++ vs.flatMap fun v => bitsOf p.bits (p.code v) := by
  induction vs with
  | nil => intro acc; simp
  | cons v vs ih => intro acc; rw [List.foldl_cons, ih]; simp [Scalar.append]

theorem length_bitBytes (l : List Bool) : (bitBytes l).length = (l.length + 7) / 8 := by simp [bitBytes]

theorem bitBytes_bitAt (l : List Bool) (p : Nat) : bitAt (bitBytes l) p = l.getD p false := by
  unfold bitAt bitBytes
  by_cases h : p / 8 < (l.length + 7) / 8
  · rw [List.getD_eq_getElem?_getD, List.getElem?_map, List.getElem?_range h]
    simp only [Option.map_some, Option.getD_some, BitVec.getLsbD_ofNat, bitsVal_testBit]
    rw [show 8 * (p / 8) + p % 8 = p by omega]
    have : p % 8 < 8 := by omega
    simp [this]
  · rw [List.getD_eq_default _ _ (by simp; omega), List.getD_eq_default _ _ (by omega)]
    simp

theorem bitBytes_flat (l : List Bool) : flat (bitBytes l) = padByte l := by
  have hl : (flat (bitBytes l)).length = (padByte l).length := by
    unfold flat
    rw [length_flatMap_bits, length_bitBytes, length_padByte]
    unfold roundUp
    omega
  apply List.ext_getElem hl
  intro i h1 h2
  have e1 : (flat (bitBytes l))[i] = (flat (bitBytes l)).getD i false := by simp [h1]
  have e2 : (padByte l)[i] = (padByte l).getD i false := by simp [h2]
  rw [e1, e2]
  unfold flat
  rw [flatMap_getD, bitBytes_bitAt]
  unfold padByte
  by_cases hi : i < l.length
  · rw [List.getD_append _ _ _ _ hi]
  · rw [List.getD_eq_default _ _ (by omega), List.getD_append_right _ _ _ _ (by omega)]
    rw [List.getD_eq_getElem?_getD, List.getElem?_replicate]
    split <;> rfl

/-- The bits of an array that is not of `bool`. -/
theorem arrayType_bits (p : Prim) (cap : Nat) (vs : List Val) :
    (arrayType p cap).bits (.record [.list vs]) = bitsOf (widthFor cap) vs.length ++ vs.flatMap fun v => bitsOf p.bits (p.code v) := by
  have h : (Scalar.prim p).align [] = [] := by unfold Scalar.align padByte; split <;> rfl
  simp only [arrayType, Message.bits, Fields.append, appendField, foldl_prim, h, List.nil_append]

theorem doSerialize_all (t : Message) (v : Val) (bytes : List Byte) (hg : t.good = true) (h1 : t.has v = true) (h2 : t.fits v = true)
    (hb : t.bits v = flat bytes) (hl : bytes.length < 2 ^ 32) (alloc : Bool) :
    doSerialize (.of t.writer v) alloc = if bytes.length ≤ 64 ∨ alloc = true then .bytes bytes else .outOfMemory := by
  unfold flat at hb
  have hsize := C67_size_partial t v hg h1 h2
  rw [hb, length_flatMap_bits] at hsize
  obtain ⟨g1, g2⟩ := C67_payload_partial t v hg h1 h2 (by rw [hb, length_flatMap_bits]; omega) alloc
  have hm := doSerialize_memory (p := .of t.writer v) (alloc := alloc)
  have hs' : (Payload.of t.writer v).sizeBits = t.sizeBits v := rfl
  rw [hs'] at hm
  cases hs : doSerialize (.of t.writer v) alloc with
  | panic => exact absurd hs g1
  | outOfMemory =>
    have := hm.1 hs
    rw [if_neg (by rintro (h | h) <;> simp_all; omega)]
  | bytes b =>
    obtain ⟨g3, g4⟩ := g2 b hs
    rw [if_pos]
    · congr 1
      rw [hb, length_flatMap_bits] at g3
      apply bytes_ext
      · rw [g3]; omega
      · intro p _
        rw [g4, hb, flatMap_getD]
    · by_cases ha : alloc = true
      · exact .inr ha
      · left
        by_contra hc
        have := hm.2 ⟨by omega, by simpa using ha⟩
        rw [this] at hs
        cases hs

theorem Kind.has_toVal (k : Kind) (x : BitVec k.width) : k.prim.has (k.toVal x) = true ∧ k.prim.fits (k.toVal x) = true ∧
    bitsOf k.prim.bits (k.prim.code (k.toVal x)) = bitsOf (8 * k.bytes) x.toNat := by
  have hx := x.isLt
  have h1 := x.toInt_lt
  have h2 := x.le_toInt
  have ht : x.toNat = (x.toInt % 2 ^ k.width).toNat := by
    have := BitVec.toNat_ofInt (n := k.width) x.toInt
    rw [BitVec.ofInt_toInt] at this
    rw [this]
    norm_cast
  cases k
  all_goals simp only [Kind.width] at x hx h1 h2 ht
  all_goals simp only [Kind.prim, Kind.toVal, Prim.has, Prim.fits, Prim.bits, Prim.code, roundUpIntegerSize, Kind.bytes, Kind.width]
  all_goals refine ⟨?_, ?_, ?_⟩
  all_goals first
    | trivial
    | rfl
    | (apply decide_eq_true; first | exact ⟨h2, h1⟩ | exact hx)
    | (rw [Nat.min_eq_left (by omega)])
    | (rw [ht, min_eq_left (by omega), max_eq_right h2])

theorem flatMap_kind (k : Kind) (vs : List (BitVec k.width)) :
    (vs.map k.toVal).flatMap (fun v => bitsOf k.prim.bits (k.prim.code v)) = flat (vs.flatMap fun x => numberBytes k.bytes x.toNat) := by
  unfold flat
  rw [List.flatMap_map, List.flatMap_assoc]
  congr 1
  funext x
  rw [(k.has_toVal x).2.2]
  exact (numberBytes_flat _ _).symm

theorem flatMap_bytes (b : List Byte) :
    (b.map fun x => Val.num x.toNat).flatMap (fun v => bitsOf (Prim.uint 8 true).bits ((Prim.uint 8 true).code v)) = flat b := by
  unfold flat
  rw [List.flatMap_map]
  congr 1
  funext x
  have := x.isLt
  simp only [Prim.bits, Prim.code]
  rw [Nat.min_eq_left (by omega)]

/-- The bits of a composite in a variant. -/
theorem variant_bits (m : Message) (hm : m.extent = none) (t : Nat) (v : Val) (b : List Byte) (h : padByte (m.bits v) = flat b) :
    appendField (.composite m) (Scalar.composite m).append (bitsOf 8 t) v .scalar = flat (BitVec.ofNat 8 t :: b) := by
  have e : bitsOf 8 t = flat [BitVec.ofNat 8 t] := by
    unfold flat
    have := numberBytes_flat 1 t
    simpa [numberBytes] using this.symm
  simp only [appendField, Scalar.append, hm, Option.isSome_none, Bool.false_eq_true, if_false, List.append_nil, h]
  rw [e, padByte_flat, ← flat_append]
  rfl

theorem bytes_has (cap : Nat) (b : List Byte) (h : b.length ≤ cap) :
    (arrayType (.uint 8 true) cap).has (.record [.list (b.map fun x => .num x.toNat)]) = true ∧
      (arrayType (.uint 8 true) cap).fits (.record [.list (b.map fun x => .num x.toNat)]) = true := by
  simp only [arrayType, Message.has, Message.fits, Fields.has, Fields.fits, hasField, fitsField, Scalar.isBool, Bool.not_false, Bool.true_and, Bool.and_true,
    List.length_map, List.all_map, Bool.and_eq_true, decide_eq_true_eq, List.all_eq_true, Function.comp, Scalar.has, Scalar.fits, Prim.has, Prim.fits,
    roundUpIntegerSize]
  exact ⟨⟨h, fun x _ => decide_eq_true x.isLt⟩, fun x _ => x.isLt⟩

theorem value_writes (v : Value) (h : v.valid) :
    valueType.has v.val = true ∧ valueType.fits v.val = true ∧ valueType.bits v.val = flat v.content.encode := by
  have hc : widthFor ((match valueType with | .union _ _ v => v | _ => .nil).count - 1) = 8 := by decide +kernel
  have hw : widthFor 256 = 8 * 2 := by decide
  have hw2 : widthFor 2048 = 8 * 2 := by decide
  unfold valueType at hc ⊢
  simp only at hc
  have hbytes : ∀ b : List Byte, padByte ((arrayType (.uint 8 true) 256).bits (.record [.list (b.map fun x => .num x.toNat)])) =
      flat (numberBytes 2 b.length ++ b) := by
    intro b
    rw [arrayType_bits, flatMap_bytes, List.length_map, hw, ← flat_numberBytes, ← flat_append, padByte_flat]
  have hbits : ∀ a : BitArray, padByte ((arrayType .boolean 2048).bits (.record [.bits a])) = flat (numberBytes 2 (bitsA a).length ++ bitBytes (bitsA a)) := by
    intro a
    have hl : (bitsA a).length = a.bitLength := by simp [bitsA]
    simp only [arrayType, Message.bits, Fields.append, appendField, List.nil_append, hw2, hl]
    rw [← flat_numberBytes, padByte_flat_append, flat_append, bitBytes_flat]
  have hnums : ∀ (k : Kind) (vs : List (BitVec k.width)), padByte ((arrayType k.prim k.capacity).bits (.record [.list (vs.map k.toVal)])) =
      flat (numberBytes k.lengthBytes vs.length ++ vs.flatMap fun x => numberBytes k.bytes x.toNat) := by
    intro k vs
    have hk : widthFor k.capacity = 8 * k.lengthBytes := by cases k <;> decide +kernel
    rw [arrayType_bits, flatMap_kind, List.length_map, hk, ← flat_numberBytes, ← flat_append, padByte_flat]
  have harray : ∀ b : List Byte, b.length ≤ 256 → (arrayType (.uint 8 true) 256).has (.record [.list (b.map fun x => .num x.toNat)]) = true ∧
      (arrayType (.uint 8 true) 256).fits (.record [.list (b.map fun x => .num x.toNat)]) = true := fun b h => bytes_has 256 b h
  have hkinds : ∀ (k : Kind) (vs : List (BitVec k.width)), vs.length ≤ k.capacity → (arrayType k.prim k.capacity).has (.record [.list (vs.map k.toVal)]) = true ∧
      (arrayType k.prim k.capacity).fits (.record [.list (vs.map k.toVal)]) = true := by
    intro k vs h
    have hb : (Scalar.prim k.prim).isBool = false := by cases k <;> rfl
    simp only [arrayType, Message.has, Message.fits, Fields.has, Fields.fits, hasField, fitsField, hb, Bool.not_false, Bool.true_and, Bool.and_true,
      List.length_map, List.all_map, Bool.and_eq_true, decide_eq_true_eq, List.all_eq_true, Function.comp, Scalar.has, Scalar.fits]
    exact ⟨⟨h, fun x _ => (k.has_toVal x).1⟩, fun x _ => (k.has_toVal x).2.1⟩
  cases v with
  | empty => decide +kernel
  | string b =>
    have h : b.length ≤ 256 := of_decide_eq_true h
    exact ⟨(harray b h).1, (harray b h).2, by
      simp only [Value.val, Message.bits, hc]
      exact variant_bits _ rfl 1 _ _ (hbytes b)⟩
  | unstructured b =>
    have h : b.length ≤ 256 := of_decide_eq_true h
    exact ⟨(harray b h).1, (harray b h).2, by
      simp only [Value.val, Message.bits, hc]
      exact variant_bits _ rfl 2 _ _ (hbytes b)⟩
  | bit a =>
    obtain ⟨h1, h2⟩ : a.bytes.length = 256 ∧ a.bitLength ≤ 2048 := h
    have e1 : (arrayType .boolean 2048).has (.record [.bits a]) = true := by
      simp only [arrayType, Message.has, Fields.has, hasField, Scalar.isBool, Bool.true_and, Bool.and_true]
      exact decide_eq_true ⟨by omega, h1⟩
    have e2 : (arrayType .boolean 2048).fits (.record [.bits a]) = true := by
      simp only [arrayType, Message.fits, Fields.fits, fitsField, Bool.and_true]
      exact decide_eq_true h2
    exact ⟨e1, e2, by
      simp only [Value.val, Message.bits, hc]
      exact variant_bits _ rfl 3 _ _ (hbits a)⟩
  | numbers k vs =>
    have h : vs.length ≤ k.limit := of_decide_eq_true h
    have e := hkinds k vs (by rw [k.facts.2.2.2.2.2.2.2.2.1]; exact h)
    have hn := hnums k vs
    simp only [Value.val, Message.has, Message.fits, Message.bits, hc]
    cases k
    all_goals refine ⟨e.1, e.2, ?_⟩
    · exact variant_bits _ rfl 4 _ _ hn
    · exact variant_bits _ rfl 5 _ _ hn
    · exact variant_bits _ rfl 6 _ _ hn
    · exact variant_bits _ rfl 7 _ _ hn
    · exact variant_bits _ rfl 8 _ _ hn
    · exact variant_bits _ rfl 9 _ _ hn
    · exact variant_bits _ rfl 10 _ _ hn
    · exact variant_bits _ rfl 11 _ _ hn
    · exact variant_bits _ rfl 12 _ _ hn
    · exact variant_bits _ rfl 13 _ _ hn
    · exact variant_bits _ rfl 14 _ _ hn

/-! ### Whole messages -/

theorem numberBytes_one (x : Nat) : numberBytes 1 x = [BitVec.ofNat 8 x] := by simp [numberBytes]

theorem encode_length (v : Value) (h : v.valid) : v.content.encode.length ≤ 259 := by
  cases v with
  | empty => simp [Value.content, Content.encode]
  | string b =>
    have h : b.length ≤ 256 := of_decide_eq_true h
    simp only [Value.content, Content.encode, List.length_append, length_numberBytes, List.length_cons, List.length_nil]
    omega
  | unstructured b =>
    have h : b.length ≤ 256 := of_decide_eq_true h
    simp only [Value.content, Content.encode, List.length_append, length_numberBytes, List.length_cons, List.length_nil]
    omega
  | bit a =>
    obtain ⟨-, h⟩ := h
    have hl : (bitsA a).length = a.bitLength := by simp [bitsA]
    simp only [Value.content, Content.encode, List.length_append, length_numberBytes, List.length_cons, List.length_nil, length_bitBytes, hl]
    omega
  | numbers k vs =>
    have h : vs.length ≤ k.limit := of_decide_eq_true h
    have hl : (vs.flatMap fun x => numberBytes k.bytes x.toNat).length = vs.length * k.bytes := by
      simp only [List.length_flatMap, length_numberBytes, List.map_const', List.sum_replicate, nsmul_eq_mul, Nat.cast_id]
    have hb : k.limit * k.bytes = 256 ∧ k.lengthBytes ≤ 2 := by cases k <;> decide
    have := Nat.mul_le_mul_right k.bytes h
    simp only [Value.content, Content.encode, List.length_append, length_numberBytes, List.length_cons, List.length_nil, hl]
    omega

theorem name_bits (name : List Byte) : nameType.bits (.record [.list (name.map fun x => .num x.toNat)]) = flat ([BitVec.ofNat 8 name.length] ++ name) := by
  have hw : widthFor 255 = 8 * 1 := by decide
  unfold nameType
  rw [arrayType_bits, flatMap_bytes, List.length_map, hw, ← flat_numberBytes, ← flat_append, numberBytes_one]

/-- A composite that is not delimited, after whole bytes. -/
theorem append_sealed (m : Message) (hm : m.extent = none) (acc : List Byte) (v : Val) (b : List Byte) (h : m.bits v = flat b) :
    appendField (.composite m) (Scalar.composite m).append (flat acc) v .scalar = flat (acc ++ b) := by
  simp only [appendField, Scalar.append, hm, Option.isSome_none, Bool.false_eq_true, if_false, List.append_nil, h]
  rw [padByte_flat, padByte_flat, ← flat_append]

theorem accessRequest_writes (name : List Byte) (hn : name.length ≤ 255) (v : Value) (h : v.valid) (alloc : Bool) :
    doSerialize (.of accessRequestType.writer (AccessRequest.val ⟨name, v⟩)) alloc =
      if (requestBytes name v.content).length ≤ 64 ∨ alloc = true then .bytes (requestBytes name v.content) else .outOfMemory := by
  obtain ⟨h1, h2, h3⟩ := value_writes v h
  obtain ⟨n1, n2⟩ := bytes_has 255 name hn
  have hl := encode_length v h
  apply doSerialize_all
  · decide +kernel
  · simp only [accessRequestType, AccessRequest.val, Message.has, Fields.has, hasField, Scalar.has]
    rw [h1, show nameType.has _ = true from n1]
    rfl
  · simp only [accessRequestType, AccessRequest.val, Message.fits, Fields.fits, fitsField, Scalar.fits]
    rw [h2, show nameType.fits _ = true from n2]
    rfl
  · simp only [accessRequestType, AccessRequest.val, Message.bits, Fields.append]
    rw [show ([] : List Bool) = flat [] from rfl, append_sealed nameType rfl _ _ _ (name_bits name), append_sealed valueType rfl _ _ _ h3]
    simp [requestBytes]
  · simp only [requestBytes, List.length_append, List.length_cons, List.length_nil]
    omega

theorem accessResponse_writes (a : Access) (v : Value) (h : v.valid) (alloc : Bool) :
    doSerialize (.of accessResponseType.writer (AccessResponse.val ⟨0, a.isMutable, a.persistent, v⟩)) alloc =
      if (responseBytes a v.content).length ≤ 64 ∨ alloc = true then .bytes (responseBytes a v.content) else .outOfMemory := by
  obtain ⟨h1, h2, h3⟩ := value_writes v h
  have hl := encode_length v h
  have t1 : timestampType.has (.record [.num (BitVec.toNat (0 : BitVec 64))]) = true := by decide +kernel
  have t2 : timestampType.fits (.record [.num (BitVec.toNat (0 : BitVec 64))]) = true := by decide +kernel
  have t3 : timestampType.bits (.record [.num (BitVec.toNat (0 : BitVec 64))]) = flat (List.replicate 7 0) := by decide +kernel
  apply doSerialize_all
  · decide +kernel
  · simp only [accessResponseType, AccessResponse.val, Message.has, Fields.has, hasField, Scalar.has, Prim.has]
    rw [h1, show timestampType.has _ = true from t1]
    rfl
  · simp only [accessResponseType, AccessResponse.val, Message.fits, Fields.fits, fitsField, Scalar.fits, Prim.fits]
    rw [h2, show timestampType.fits _ = true from t2]
    rfl
  · simp only [accessResponseType, AccessResponse.val, Message.bits, Fields.append]
    rw [show ([] : List Bool) = flat [] from rfl, append_sealed timestampType rfl _ _ _ t3]
    have hf : appendField (.prim .boolean) (Scalar.prim .boolean).append
        (appendField (.prim .boolean) (Scalar.prim .boolean).append (flat ([] ++ List.replicate 7 0)) (.bool a.isMutable) .scalar) (.bool a.persistent) .scalar ++
          List.replicate 6 false = flat (List.replicate 7 0 ++ [(if a.isMutable then 1 else 0) + (if a.persistent then 2 else 0)]) := by
      cases a with | mk m p => cases m <;> cases p <;> decide +kernel
    rw [hf, append_sealed valueType rfl _ _ _ h3]
    rfl
  · simp only [responseBytes, List.length_append, List.length_cons, List.length_nil, List.length_replicate]
    omega

theorem listResponse_writes (name : List Byte) (hn : name.length ≤ 255) (alloc : Bool) :
    doSerialize (.of listResponseType.writer (listResponseVal name)) alloc =
      if (listResponseBytes name).length ≤ 64 ∨ alloc = true then .bytes (listResponseBytes name) else .outOfMemory := by
  obtain ⟨n1, n2⟩ := bytes_has 255 name hn
  apply doSerialize_all
  · decide +kernel
  · simp only [listResponseType, listResponseVal, Message.has, Fields.has, hasField, Scalar.has]
    rw [show nameType.has _ = true from n1]
    rfl
  · simp only [listResponseType, listResponseVal, Message.fits, Fields.fits, fitsField, Scalar.fits]
    rw [show nameType.fits _ = true from n2]
    rfl
  · simp only [listResponseType, listResponseVal, Message.bits, Fields.append]
    rw [show ([] : List Bool) = flat [] from rfl, append_sealed nameType rfl _ _ _ (name_bits name)]
    rfl
  · simp only [listResponseBytes, List.length_append, List.length_cons, List.length_nil]
    omega

/-! ### Reading what was written -/

/-- The bytes `b` are in `p` from byte `i` on. -/
def At (p : List Byte) (i : Nat) (b : List Byte) : Prop := ∀ k, k < b.length → byte p (i + k) = b.getD k 0

theorem At.append {p : List Byte} {i : Nat} {a b : List Byte} (h : At p i (a ++ b)) : At p i a ∧ At p (i + a.length) b := by
  constructor
  · intro k hk
    rw [h k (by rw [List.length_append]; omega), List.getD_append _ _ _ _ hk]
  · intro k hk
    rw [Nat.add_assoc, h (a.length + k) (by rw [List.length_append]; omega), List.getD_append_right _ _ _ _ (by omega), Nat.add_sub_cancel_left]

theorem at_middle (pre b post : List Byte) : At (pre ++ b ++ post) pre.length b := by
  intro k hk
  unfold byte
  rw [List.append_assoc, List.getD_append_right _ _ _ _ (by omega), Nat.add_sub_cancel_left, List.getD_append _ _ _ _ hk]

theorem At.number {p : List Byte} : ∀ {n i x : Nat}, At p i (numberBytes n x) → x < 256 ^ n → numberAt p i n = x
  | 0, _, x, _, h => by
    simp only [numberAt]
    omega
  | n + 1, i, x, h, hx => by
    have h' := At.append (a := [BitVec.ofNat 8 x]) (b := numberBytes n (x / 256)) (p := p) (i := i) h
    have h0 := h'.1 0 (by simp)
    simp only [Nat.add_zero, List.getD_cons_zero] at h0
    rw [numberAt, h0, show numberAt p (i + 1) n = x / 256 from At.number h'.2 (by rw [Nat.pow_succ] at hx; omega), BitVec.toNat_ofNat]
    omega

theorem At.slice {p : List Byte} {i : Nat} {b : List Byte} (h : At p i b) : slice p i b.length = b := by
  unfold Pnp.slice
  apply List.ext_getElem (by simp)
  intro k h1 h2
  rw [List.getElem_map, List.getElem_range, h k h2]
  simp [h2]

theorem At.bit {p : List Byte} {i : Nat} {l : List Bool} (h : At p i (bitBytes l)) {j : Nat} (hj : j < l.length) : bit p i j = l.getD j false := by
  rw [← bitBytes_bitAt]
  unfold Reg.bit bitAt
  rw [h _ (by rw [length_bitBytes]; omega)]

theorem At.numbers {p : List Byte} {w : Nat} : ∀ {i : Nat} {vs : List Nat}, At p i (vs.flatMap fun x => numberBytes w x) → (∀ x ∈ vs, x < 256 ^ w) →
    (List.range vs.length).map (fun j => numberAt p (i + w * j) w) = vs
  | _, [], _, _ => rfl
  | i, x :: vs, h, hx => by
    rw [List.flatMap_cons] at h
    have h' := h.append
    rw [length_numberBytes] at h'
    rw [List.length_cons, List.range_succ_eq_map, List.map_cons, List.map_map, Nat.mul_zero, Nat.add_zero, h'.1.number (hx x (by simp))]
    congr 1
    rw [← At.numbers h'.2 fun y hy => hx y (by simp [hy])]
    rw [List.length_map, List.length_range]
    apply List.map_congr_left
    intro j _
    simp only [Function.comp, Nat.succ_eq_add_one]
    rw [show i + w + w * j = i + w * (j + 1) by rw [Nat.mul_succ]; omega]

/-- A content that fits is read back, wherever it is in a payload. -/
theorem contentAt_encode (c : Content) (hc : c.fits = true) {p : List Byte} {i : Nat} (h : At p i c.encode) : contentAt p i = .content c := by
  have htag : ∀ (t : Byte) (rest : List Byte), At p i ([t] ++ rest) → byte p i = t := by
    intro t rest h
    have := h 0 (by simp)
    simpa using this
  cases c with
  | empty => simp [contentAt, htag 0 [] h]
  | string b =>
    have hb : b.length ≤ 256 := of_decide_eq_true hc
    simp only [Content.encode, List.append_assoc] at h
    have ht := htag 1 _ h
    have h1 := h.append.2.append
    rw [length_numberBytes] at h1
    have hn : numberAt p (i + 1) 2 = b.length := h1.1.number (by omega)
    simp only [contentAt, ht, BitVec.reduceToNat, hn, hb, if_true]
    rw [show slice p (i + 3) b.length = b from h1.2.slice]
  | unstructured b =>
    have hb : b.length ≤ 256 := of_decide_eq_true hc
    simp only [Content.encode, List.append_assoc] at h
    have ht := htag 2 _ h
    have h1 := h.append.2.append
    rw [length_numberBytes] at h1
    have hn : numberAt p (i + 1) 2 = b.length := h1.1.number (by omega)
    simp only [contentAt, ht, BitVec.reduceToNat, hn, hb, if_true]
    rw [show slice p (i + 3) b.length = b from h1.2.slice]
  | bits l =>
    have hb : l.length ≤ 2048 := of_decide_eq_true hc
    simp only [Content.encode, List.append_assoc] at h
    have ht := htag 3 _ h
    have h1 := h.append.2.append
    rw [length_numberBytes] at h1
    have hn : numberAt p (i + 1) 2 = l.length := h1.1.number (by omega)
    simp only [contentAt, ht, BitVec.reduceToNat, hn, hb, if_true]
    congr 2
    apply List.ext_getElem (by simp)
    intro j g1 g2
    rw [List.getElem_map, List.getElem_range, show bit p (i + 3) j = _ from h1.2.bit g2]
    simp [g2]
  | numbers k vs =>
    have hb : vs.length ≤ k.limit := of_decide_eq_true hc
    simp only [Content.encode, List.append_assoc] at h
    have ht := htag k.tag _ h
    have h1 := h.append.2.append
    rw [length_numberBytes] at h1
    have hlim : k.limit < 256 ^ k.lengthBytes ∧ 256 ^ k.bytes = 2 ^ k.width := by cases k <;> decide
    have hn : numberAt p (i + 1) k.lengthBytes = vs.length := h1.1.number (by omega)
    have h2 : At p (i + 1 + k.lengthBytes) ((vs.map BitVec.toNat).flatMap fun x => numberBytes k.bytes x) := by
      rw [List.flatMap_map]
      exact h1.2
    have h3 := h2.numbers (by
      intro x hx
      obtain ⟨y, -, rfl⟩ := List.mem_map.1 hx
      rw [hlim.2]
      exact y.isLt)
    have h4 : (List.range vs.length).map (fun j => BitVec.ofNat k.width (numberAt p (i + 1 + k.lengthBytes + k.bytes * j) k.bytes)) = vs := by
      have := congrArg (List.map (BitVec.ofNat k.width)) h3
      rw [List.map_map, List.map_map, List.length_map] at this
      simpa [Function.comp_def] using this
    have h5 : contentAt p i = if numberAt p (i + 1) k.lengthBytes ≤ k.limit then
        .content (.numbers k ((List.range (numberAt p (i + 1) k.lengthBytes)).map fun j =>
          BitVec.ofNat k.width (numberAt p (i + 1 + k.lengthBytes + k.bytes * j) k.bytes)))
      else .malformed := by
      unfold contentAt
      rw [ht]
      cases k <;> rfl
    rw [h5, hn, if_pos hb, h4]

end Verif.Reg
