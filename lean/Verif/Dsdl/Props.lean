import Verif.Dsdl.Total
import Verif.Node.Props

/-!
C67 to C71: the serialization functions that the compiler generates from DSDL definitions.
-/

namespace Verif.Dsdl

open Verif.Enc Verif.Bls

/-! ### Data types for examples -/

/-- A `uint` field. -/
abbrev u (bits : Nat) : Scalar := .prim (.uint bits true)

/-- The fields of a struct, all scalar. -/
def scalars (l : List Scalar) : Fields := l.foldr (fun s rest => .data s .scalar rest) .nil

/-- `uavcan.node.Health.1.0`: a Rust enum. -/
def health : Message := .enum none false 2 [0, 1, 2, 3]

/-- `uavcan.node.Mode.1.0`: a Rust enum. -/
def mode : Message := .enum none false 3 [0, 1, 2, 3, 7]

/-- `uavcan.node.Heartbeat.1.0`. -/
def heartbeat : Message := .struct (some 96) false (scalars [u 32, .composite health, .composite mode, u 8])

/-- `{uint3; int12; void1; Heartbeat[<=2]; uint5; bool[<=10]}`. -/
def mixed : Message :=
  .struct none false (.data (u 3) .scalar (.data (.prim (.int 12)) .scalar (.padding 1 (.data (.composite heartbeat) (.var 2) (.data (u 5) .scalar
    (.data (.prim .boolean) (.var 10) .nil))))))

/-! ### C67: the format -/

/-- **C67.** For a type without the disagreements below (`good`) and a value of it whose numbers are in range (`fits`), with a size below 4 GiB:
`serialize` into any buffer that is large enough, whatever it contained, does not panic, and afterwards the buffer contains the bits of the value
as the DSDL specification prescribes them (`Message.bits`; position `p` is bit `p % 8` of byte `p / 8`) and zeros.

Missing: the types and values that `good` and `fits` exclude. The counterexamples below show what happens for them. -/
theorem C67_wire_format_partial (m : Message) (v : Val) (hg : m.good = true) (hv : m.has v = true) (hf : m.fits v = true)
    (hs : (m.bits v).length < 2 ^ 35) (buf : List Byte) (hb : (m.bits v).length ≤ 8 * buf.length) :
    ∃ c, m.serialize v (WriteCursor.new buf) = some c ∧ c.bitsWritten = (m.bits v).length ∧ c.bytes.length = buf.length ∧
      ∀ p, bitAt c.bytes p = (m.bits v).getD p false := by
  refine ⟨wcur buf.length (m.bits v), ?_, ?_, by simp [wcur], fun p => ?_⟩
  · rw [new_eq_wcur, m.writes v buf.length (m.bits v).length hb (by omega) hg hv hf [] rfl (by simp)]
    rfl
  · simp only [WriteCursor.bitsWritten, wcur]
    omega
  · by_cases hp : p < 8 * buf.length
    · exact bitAt_pack _ _ _ hp
    · rw [bitAt_of_ge (by simp only [wcur, length_pack]; omega), getD_of_ge (by omega)]

/-- **C67.** The size that the type announces is the number of bytes that the value takes, for the same types and values. -/
theorem C67_size_partial (m : Message) (v : Val) (hg : m.good = true) (hv : m.has v = true) (hf : m.fits v = true) :
    (m.sizeBits v + 7) / 8 = ((m.bits v).length + 7) / 8 := by
  have := m.sized v hg hv hf
  unfold roundUp at this
  omega

/-- **C67.** The payload that a node makes for a value (to publish it, or to send it as a request or response) is the value in the format of the
specification, zero up to the next byte, and nothing else. -/
theorem C67_payload_partial (m : Message) (v : Val) (hg : m.good = true) (hv : m.has v = true) (hf : m.fits v = true)
    (hs : (m.bits v).length < 2 ^ 35) (alloc : Bool) :
    Node.doSerialize (.of m.writer v) alloc ≠ .panic ∧
    ∀ b, Node.doSerialize (.of m.writer v) alloc = .bytes b → b.length = ((m.bits v).length + 7) / 8 ∧ ∀ p, bitAt b p = (m.bits v).getD p false := by
  have hw : WritesBits m.writer v (m.bits v) := by
    refine ⟨(C67_size_partial m v hg hv hf).symm, fun buf c hc => ?_⟩
    rw [new_eq_wcur, writeAll_wcur _ _ (bools_ok _) [] (by simp), foldl_bools] at hc
    simp only [List.nil_append] at hc
    split at hc
    · rename_i hfit
      rw [← hc]
      simp only [Message.writer]
      rw [new_eq_wcur, m.writes v buf.length (m.bits v).length hfit (by omega) hg hv hf [] rfl (by simp)]
      rfl
    · cases hc
  exact (Node.C64_payload m.writer v (m.bits v) hw alloc).2

/-- A heartbeat. -/
def aHeartbeat : Val := .record [.num 0x12345678, .tag 2, .tag 3, .num 0xab]

example : heartbeat.good = true ∧ heartbeat.has aHeartbeat = true ∧ heartbeat.fits aHeartbeat = true ∧
    (heartbeat.serialize aHeartbeat (WriteCursor.new (List.replicate 7 0xff))).map (·.bytes) = some [0x78, 0x56, 0x34, 0x12, 2, 3, 0xab] := by
  decide +kernel

/-- A value of the struct with fields of many types. -/
def aMixed : Val := .record [.num 5, .int 1234, .list [aHeartbeat, aHeartbeat], .num 0x1f, .bits ⟨[0b10110101, 0b11], 10⟩]

example : mixed.good = true ∧ mixed.has aMixed = true ∧ mixed.fits aMixed = true ∧
    (mixed.serialize aMixed (WriteCursor.new (List.replicate 30 0xff))).map (·.bytes) = some (pack 30 (mixed.bits aMixed)) := by
  decide +kernel

/-! #### Types and values for which the generated code does not agree with the specification -/

/-- A delimited struct with a `uint7`. -/
def small : Message := .struct (some 64) false (scalars [u 7])

/-- A struct with an array of two delimited composites has a size without the delimiter headers: `serialize` into a buffer of the announced size
panics. -/
theorem C67_counterexample_array_of_delimited :
    let m : Message := .struct none false (.data (.composite small) (.fixed 2) .nil)
    let v : Val := .record [.list [.record [.num 1], .record [.num 2]]]
    m.valid = true ∧ m.has v = true ∧ m.fits v = true ∧ m.sizeBits v = 16 ∧ (m.bits v).length = 80 ∧
      (m.serialize v (WriteCursor.new [0, 0])).isNone = true ∧ Node.doSerialize (.of m.writer v) true = .panic := by decide +kernel

/-- A union of delimited composites of one size: the same. -/
theorem C67_counterexample_union_of_delimited :
    let m : Message := .union none false (.cons (.composite small) .scalar (.cons (.composite small) .scalar .nil))
    let v : Val := .variant 1 (.record [.num 1])
    m.valid = true ∧ m.has v = true ∧ m.fits v = true ∧ m.sizeBits v = 16 ∧ (m.bits v).length = 48 ∧
      Node.doSerialize (.of m.writer v) true = .panic := by decide +kernel

/-- `{bool; Sealed; bool; uint8[<=1]}` where `Sealed` is `{uint7}`: the bits between the first field and the composite are not in the announced
size. -/
theorem C67_counterexample_gap :
    let m : Message := .struct none false (.data (u 1) .scalar (.data (.composite (.struct none false (scalars [u 7]))) .scalar (.data (u 1) .scalar
      (.data (u 8) (.var 1) .nil))))
    let v : Val := .record [.num 1, .record [.num 1], .num 1, .list []]
    m.valid = true ∧ m.has v = true ∧ m.fits v = true ∧ m.sizeBits v = 18 ∧ (m.bits v).length = 25 ∧
      Node.doSerialize (.of m.writer v) true = .panic := by decide +kernel

/-- `{Delimited}` where `Delimited` is `{uint8}`: the struct is copied as it is in memory, without the delimiter header. -/
theorem C67_counterexample_zero_copy :
    let m : Message := .struct none false (scalars [.composite (.struct (some 64) false (scalars [u 8]))])
    let v : Val := .record [.record [.num 0xab]]
    m.valid = true ∧ m.has v = true ∧ m.fits v = true ∧ (m.serialize v (WriteCursor.new (List.replicate 5 0))).map (·.bytes) = some [0xab, 0, 0, 0, 0] ∧
      pack 5 (m.bits v) = [1, 0, 0, 0, 0xab] := by decide +kernel

/-- `{bool; Sealed[<=3]; uint8}` with an empty array: the array is not aligned, the `uint8` is written as if it was, and that panics. -/
theorem C67_counterexample_empty_array :
    let m : Message := .struct none false (.data (u 1) .scalar (.data (.composite (.struct none false (scalars [u 8]))) (.var 3) (.data (u 8) .scalar .nil)))
    let v : Val := .record [.num 1, .list [], .num 1]
    m.valid = true ∧ m.has v = true ∧ m.fits v = true ∧ (m.serialize v (WriteCursor.new (List.replicate 100 0))).isNone = true ∧
      Node.doSerialize (.of m.writer v) true = .panic := by decide +kernel

/-- A saturated `uint4` with the value 17 is written as 1 and not as 15. -/
theorem C67_counterexample_saturated :
    let m : Message := .struct none false (scalars [u 4])
    let v : Val := .record [.num 17]
    m.good = true ∧ m.has v = true ∧ (m.serialize v (WriteCursor.new [0])).map (·.bytes) = some [1] ∧ pack 1 (m.bits v) = [15] := by decide +kernel

/-- `n` variants of type `uint8`. -/
def manyVariants : Nat → Variants
  | 0 => .nil
  | n + 1 => .cons (u 8) .scalar (manyVariants n)

set_option maxRecDepth 20000 in
/-- A union with 256 variants has a tag of 16 bits; 8 bits are enough. -/
theorem C67_counterexample_tag :
    let m : Message := .union none false (manyVariants 256)
    let v : Val := .variant 1 (.num 0xab)
    m.has v = true ∧ m.fits v = true ∧ (m.serialize v (WriteCursor.new (List.replicate 3 0))).map (·.bytes) = some [1, 0, 0xab] ∧
      pack 3 (m.bits v) = [1, 0xab, 0] := by decide +kernel

/-- A bit array of 16 bits in a field `bool[<=10]` (it has space for 16) is written with a length of 16. -/
theorem C67_counterexample_too_long :
    let m : Message := .struct none false (.data (.prim .boolean) (.var 10) .nil)
    let v : Val := .record [.bits ⟨[0xff, 0xff], 16⟩]
    m.good = true ∧ m.has v = true ∧ (m.serialize v (WriteCursor.new (List.replicate 3 0))).map (·.bytes) = some [16, 0xff, 0xff] := by decide +kernel

/-! ### C68: round trip -/

/-- **C68.** For the same types and values, if the value is one that is read back (`safe`): after `serialize` into any buffer that is large enough,
`deserialize` returns an equal value, whatever comes after the buffer.

Missing: the types and values that `good`, `fits` and `safe` exclude; see the counterexamples. -/
theorem C68_round_trip_partial (m : Message) (v : Val) (hg : m.good = true) (hv : m.has v = true) (hf : m.fits v = true) (hsafe : m.safe v = true)
    (hs : m.sizeBits v ≤ 8 * (2 ^ 32 - 1)) (buf extra : List Byte) (hb : m.sizeBits v ≤ 8 * buf.length) (c : WriteCursor)
    (hc : m.serialize v (WriteCursor.new buf) = some c) :
    ∃ w r, m.deserialize (ReadCursor.new (c.bytes ++ extra)) = some (.ok w, r) ∧ Same w v := by
  have hsize := C67_size_partial m v hg hv hf
  rw [new_eq_wcur, m.writes v buf.length (m.bits v).length (by omega) (by omega) hg hv hf [] rfl (by simp), List.nil_append] at hc
  injection hc with hc
  subst hc
  have hlen : (wcur buf.length (m.bits v)).bytes.length = buf.length := by simp [wcur]
  have hH : Holds ((wcur buf.length (m.bits v)).bytes ++ extra) ([] ++ m.bits v) := by
    refine ⟨by simp only [List.length_append, hlen, List.nil_append]; omega, fun p hp => ?_⟩
    rw [List.nil_append] at hp ⊢
    have e : bitAt ((wcur buf.length (m.bits v)).bytes ++ extra) p = bitAt (wcur buf.length (m.bits v)).bytes p := by
      unfold bitAt
      rw [List.getD_eq_getElem?_getD, List.getElem?_append_left (by omega), ← List.getD_eq_getElem?_getD]
    rw [e]
    exact bitAt_pack _ _ _ (by omega)
  obtain ⟨-, w, h1, h2⟩ := m.reads v hg hv hf hsafe _ [] rfl (by rw [List.nil_append]; omega) hH
  rw [new_eq_rcur]
  exact ⟨w, _, h1, h2⟩

example : mixed.safe aMixed = true ∧ mixed.sizeBits aMixed = 223 := by decide +kernel

/-- The value in a heartbeat that was read. -/
example : (match heartbeat.deserialize (ReadCursor.new [0x78, 0x56, 0x34, 0x12, 2, 3, 0xab, 0x11, 0x22]) with
    | some (.ok (.record [.num a, .tag b, .tag c, .num d]), _) => a == 0x12345678 && b == 2 && c == 3 && d == 0xab
    | _ => false) = true := by decide +kernel

/-- An `int5` of -1 is read as 31. -/
theorem C68_counterexample_sign :
    let m : Message := .struct none false (scalars [.prim (.int 5)])
    let v : Val := .record [.int (-1)]
    m.good = true ∧ m.has v = true ∧ m.fits v = true ∧ (m.serialize v (WriteCursor.new [0])).map (·.bytes) = some [0x1f] ∧
      (match m.deserialize (ReadCursor.new [0x1f]) with
        | some (.ok (.record [.int z]), _) => z == 31
        | _ => false) = true := by decide +kernel

/-- A sealed struct `{uint8; void8}` followed by a `uint8`: the padding is not skipped, and 0 is read for the `uint8`. -/
theorem C68_counterexample_padding :
    let m : Message := .struct none false (scalars [.composite (.struct none false (.data (u 8) .scalar (.padding 8 .nil))), u 8])
    let v : Val := .record [.record [.num 1], .num 2]
    m.good = true ∧ m.has v = true ∧ m.fits v = true ∧ (m.serialize v (WriteCursor.new [0, 0, 0])).map (·.bytes) = some [1, 0, 2] ∧
      (match m.deserialize (ReadCursor.new [1, 0, 2]) with
        | some (.ok (.record [.record [.num x], .num y]), _) => x == 1 && y == 0
        | _ => false) = true := by decide +kernel

/-- `{bool[<=16]; uint8}` with 8 bits: two bytes are taken for the bits, and 0 is read for the `uint8`. -/
theorem C68_counterexample_bits :
    let m : Message := .struct none false (.data (.prim .boolean) (.var 16) (.data (u 8) .scalar .nil))
    let v : Val := .record [.bits ⟨[0xab, 0], 8⟩, .num 2]
    m.good = true ∧ m.has v = true ∧ m.fits v = true ∧ (m.serialize v (WriteCursor.new [0, 0, 0])).map (·.bytes) = some [8, 0xab, 2] ∧
      (match m.deserialize (ReadCursor.new [8, 0xab, 2]) with
        | some (.ok (.record [.bits _, .num y]), _) => y == 0
        | _ => false) = true := by decide +kernel

/-! ### C69: no panic -/

/-- **C69.** Reading bytes that come from anywhere: for a type whose bit arrays of variable length have space for every length that the length field
can hold, `deserialize` returns a value of the type or an error, and does not panic.

Missing: types with other bit arrays of variable length, see the counterexample. -/
theorem C69_no_panic_partial (m : Message) (h : m.total = true) (bytes : List Byte) :
    ∃ r c, m.deserialize (ReadCursor.new bytes) = some (r, c) ∧ ∀ v, r = .ok v → m.has v = true := by
  obtain ⟨x, q, h1, h2⟩ := m.deserialize_total h bytes 0 rfl
  rw [new_eq_rcur]
  exact ⟨x, _, h1, h2⟩

/-- A delimited composite with a length that is too great, and a tag that does not exist, are errors. -/
example : heartbeat.total = true ∧
    (match heartbeat.deserialize (ReadCursor.new [0, 0, 0, 0, 1, 4]) with
      | some (.error .unionTag, _) => true
      | _ => false) = true ∧
    (let m : Message := .struct none false (scalars [u 1, .composite heartbeat])
    match m.deserialize (ReadCursor.new [1, 3, 0, 0, 0, 1, 2]) with
      | some (.error .delimitedLength, _) => true
      | _ => false) = true := by decide +kernel

/-- `bool[<=10]` with a length of 17: reading the two bytes panics. -/
theorem C69_counterexample :
    let m : Message := .struct none false (.data (.prim .boolean) (.var 10) .nil)
    m.valid = true ∧ (m.deserialize (ReadCursor.new [17])).isNone = true := by decide +kernel

/-- `bool[<=10]` with a length of 16 is not an error: the value is longer than the type allows. -/
theorem C69_counterexample_too_long :
    let m : Message := .struct none false (.data (.prim .boolean) (.var 10) .nil)
    m.valid = true ∧ (match m.deserialize (ReadCursor.new [16, 0xff, 0xff]) with
      | some (.ok v@(.record [.bits a]), _) => a.bitLength == 16 && m.has v && !m.fits v
      | _ => false) = true := by decide +kernel

/-- An array of at most 100000 elements with the length 2^31: that is not an error, the array is empty. -/
theorem C69_counterexample_length (rest : List Byte) :
    let m : Message := .struct none false (.data (u 8) (.var (100000)) .nil)
    (m.deserialize (ReadCursor.new ([0, 0, 0, 0x80] ++ rest))).map (·.1) = some (.ok (.record [.list []])) := by
  intro m
  have h := readUInt_rcur ([0, 0, 0, 0x80] ++ rest) 0 32 (by decide) (by decide)
  have hn : numAt ([0, 0, 0, 0x80] ++ rest) 0 32 = 2 ^ 31 := by
    have e : numAt ([0, 0, 0, 0x80] ++ rest) 0 32 = numAt [0, 0, 0, 0x80] 0 32 := by
      unfold numAt
      apply bitsVal_congr
      intro i hi
      unfold bitAt
      rw [List.getD_eq_getElem?_getD, List.getD_eq_getElem?_getD, List.getElem?_append_left (by simp only [List.length_cons, List.length_nil]; omega)]
    rw [e]
    decide +kernel
  have hz : m.zeroCopy = false := by decide +kernel
  have hw : arrayLengthBits (100000) = 32 := by decide +kernel
  rw [new_eq_rcur]
  simp only [m, Message.deserialize] at hz ⊢
  rw [if_neg (by rw [hz]; decide)]
  simp only [Fields.deserialize, List.foldl_nil, readField, hw, h, hn]
  simp only [Scalar.isBool, Bool.false_eq_true, if_false]
  have ha : asI32 (2 ^ 31) = -2 ^ 31 := by decide +kernel
  rw [ha]
  rfl

/-! ### C70: implicit zero extension -/

/-- **C70.** For every type: reading bytes with any number of zero bytes after them gives the same result as reading the bytes alone, unless
the bytes end inside a delimited composite (the delimiter header promises more). So missing bytes at the end are zeros. -/
theorem C70_zero_extension (m : Message) (h : m.valid = true) (bytes : List Byte) (n : Nat) :
    (∃ c, m.deserialize (ReadCursor.new bytes) = some (.error .delimitedLength, c)) ∨
    SameResult (m.deserialize (ReadCursor.new bytes)) (m.deserialize (ReadCursor.new (bytes ++ List.replicate n 0))) := by
  have hext : Ext bytes (bytes ++ List.replicate n 0) := by
    refine ⟨by simp, fun p => ?_⟩
    unfold bitAt
    rw [List.getD_eq_getElem?_getD, List.getD_eq_getElem?_getD, List.getElem?_append]
    split
    · rfl
    · rw [List.getElem?_eq_none (by omega), List.getElem?_replicate]
      split <;> simp
  rw [new_eq_rcur, new_eq_rcur]
  rcases m.deserialize_like h hext 0 rfl with ⟨q, e⟩ | ⟨e1, e2⟩ | ⟨e, q, q', e1, e2⟩ | ⟨a, a', q, e1, e2, e3⟩
  · exact .inl ⟨_, e⟩
  · rw [e1, e2]
    exact .inr trivial
  · rw [e1, e2]
    exact .inr rfl
  · rw [e1, e2]
    exact .inr e3

/-- A heartbeat of 5 bytes: the mode and the status code are 0. -/
example : heartbeat.valid = true ∧ (match heartbeat.deserialize (ReadCursor.new [1, 0, 0, 0, 2]) with
    | some (.ok (.record [.num a, .tag b, .tag c, .num d]), _) => a == 1 && b == 2 && c == 0 && d == 0
    | _ => false) = true := by decide +kernel

/-! ### C71: the length set -/

/-- **C71.** The length of every serialized value, rounded up to bytes, is in the length set that the compiler computes for the type (and that
`_offset_` and the extent are checked against), if the type has no array of delimited composites and no union with delimited composites or
arrays of variable length.

Missing: those types. The delimiter headers and array lengths are not in their length sets. -/
theorem C71_lengths_partial (m : Message) (v : Val) (hg : m.good = true) (hr : m.request = false) (hh : m.headed = true) (hv : m.has v = true)
    (hf : m.fits v = true) : roundUp (m.bits v).length ∈ m.bitLength.expand := by
  obtain ⟨n, k, h1, h2, h3⟩ := m.len v hg hv hf
  rw [h2, h3 hh, m.bitLength_eq, hr, if_neg (by decide), mem_pad_iff m.regRaw (by decide)]
  exact ⟨n, h1, rfl⟩

example : heartbeat.headed = true ∧ heartbeat.request = false ∧ heartbeat.bitLength.expand = [56] ∧ roundUp (heartbeat.bits aHeartbeat).length = 56 := by
  decide +kernel

/-- A union with a variable-length array: the length of the array is missing. -/
theorem C71_counterexample :
    let m : Message := .union none false (.cons (u 8) (.var 1) (.cons (u 8) .scalar .nil))
    let v : Val := .variant 0 (.list [.num 1])
    m.good = true ∧ m.has v = true ∧ m.fits v = true ∧ (m.bits v).length = 24 ∧ m.bitLength.expand = [8, 16] := by decide +kernel

end Verif.Dsdl
