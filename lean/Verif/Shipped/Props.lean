import Verif.Shipped.Spec

/-!
C128 to C132: the data types that the library ships (canadensis_data_types).
-/

namespace Verif.Shipped

open Verif.Enc Verif.Dsdl

/-! ### Values for examples -/

/-- The type with this number has the path. -/
def isAt (k : Nat) (path : String) : Bool := (shipped[k]?.map (·.path)) == some path

/-- A heartbeat: after 0x12345678 s, caution, in mode maintenance, with vendor status 0xab. -/
def aHeartbeat : Val := .record [.num 0x12345678, .record [.num 2], .record [.num 3], .num 0xab]

example : isAt 159 "uavcan::node::heartbeat_1_0::Heartbeat" = true := by decide +kernel

/-- A `DataClassic`: CAN ID 0x123, of 11 bits, with one byte 0x55. -/
def aClassic : Val := .record [.variant 0 (.record [.num 0x123]), .list [.num 0x55]]

example : isAt 131 "uavcan::metatransport::can::data_classic_0_1::DataClassic" = true := by decide +kernel

/-! ### C128: the format -/

/-- The types that are not always read back: they contain a sealed type that ends with padding, and after it something else. -/
def unreadable : List String :=
  ["uavcan::metatransport::can::data_classic_0_1::DataClassic", "uavcan::metatransport::can::data_fd_0_1::DataFD",
    "uavcan::metatransport::can::manifestation_0_1::Manifestation", "uavcan::metatransport::can::frame_0_1::Frame",
    "uavcan::metatransport::can::frame_0_2::Frame", "uavcan::metatransport::udp::frame_0_1::Frame"]

/-- The types that cannot be read from all bytes: the ones with a bit array of variable length. -/
def panicking : List String :=
  ["uavcan::primitive::array::bit_1_0::Bit", "uavcan::register::value_1_0::Value", "uavcan::register::access_1_0::AccessRequest",
    "uavcan::register::access_1_0::AccessResponse"]

/-- What is checked of every type: it is one that the generator has a correct format for; it is read back or on the list; it can be read from all bytes or is on the
list; the sizes in the comments are the least and greatest number of bytes, and the extent is not less. -/
def sound (t : Entry) (_ : List Message) (m : Message) : Bool :=
  m.good && m.valid && decide (m.span.2 ≤ 8 * 2 ^ 16) && (m.readableEnd || decide (t.path ∈ unreadable)) && (m.total || decide (t.path ∈ panicking)) &&
    decide (t.bytes = ((m.span.1 + 7) / 8, (m.span.2 + 7) / 8)) && (m.extent.all fun e => decide (m.span.2 ≤ e / 8 * 8))

theorem all_sound : checkFrom sound [] shipped = true := by decide +kernel

/-- What is known about a type and its definition. -/
structure Facts (t : Entry) (i : Impl) (m : Message) : Prop where
  implements : Implements i m
  good : m.good = true
  valid : m.valid = true
  short : ∀ v, m.has v = true → m.fits v = true → (m.bits v).length ≤ 8 * 2 ^ 16
  reads : t.path ∉ unreadable → m.readableEnd = true
  total : t.path ∉ panicking → m.total = true
  bytes : t.bytes = ((m.span.1 + 7) / 8, (m.span.2 + 7) / 8)
  extent : ∀ e, m.extent = some e → m.span.2 ≤ e / 8 * 8

/-- What is known about every type. -/
theorem shipped_facts {k : Nat} {t : Entry} (ht : shipped[k]? = some t) : ∃ i m, impls[k]? = some i ∧ messages[k]? = some m ∧ Facts t i m := by
  obtain ⟨i, m, hi, hm, h⟩ := shipped_get ht
  have := shipped_check all_sound ht hm
  refine ⟨i, m, hi, hm, ?_⟩
  clear hi hm ht
  simp only [sound, Bool.and_eq_true, Bool.or_eq_true, decide_eq_true_eq] at this
  obtain ⟨⟨⟨⟨⟨⟨h1, h2⟩, h3⟩, h4⟩, h5⟩, h6⟩, h7⟩ := this
  refine ⟨h, h1, h2, fun v hv hf => Nat.le_trans (m.bits_span v hv hf).2 h3, h4.resolve_right, h5.resolve_right, h6, fun e he => ?_⟩
  rw [he] at h7
  simpa using h7

/-- **C128.** Every type in the file is what the generator writes for the definition in the comments, given the definitions before it. -/
theorem C128_up_to_date (k : Nat) (t : Entry) (ht : shipped[k]? = some t) :
    ∃ m, messages[k]? = some m ∧ t.definition.message (messages.take k) = some m ∧ t.definition.code (messages.take k) m = t.code := by
  obtain ⟨m, hm, hp, hd⟩ := check_get _ shipped [] all_upToDate k t ht
  rw [List.length_nil, Nat.zero_add, messages_eq] at hm hp hd
  simp only [upToDate, Bool.and_eq_true, decide_eq_true_eq] at hp
  exact ⟨m, hm, hd, hp.1⟩

/-- **C128.** For every type in the file and every value of it whose numbers fit: `serialize` into any buffer that is large enough, whatever it contained, does
not panic, and afterwards the buffer contains the bits of the value as the DSDL specification prescribes them for the definition in the comments, and zeros. -/
theorem C128_wire_format (k : Nat) (t : Entry) (ht : shipped[k]? = some t) :
    ∃ i m, impls[k]? = some i ∧ messages[k]? = some m ∧
      ∀ v, m.has v = true → m.fits v = true → ∀ buf : List Byte, (m.bits v).length ≤ 8 * buf.length →
        ∃ c, i.serialize v (WriteCursor.new buf) = some c ∧ c.bitsWritten = (m.bits v).length ∧ c.bytes.length = buf.length ∧
          ∀ p, bitAt c.bytes p = (m.bits v).getD p false := by
  obtain ⟨i, m, hi, hm, f⟩ := shipped_facts ht
  refine ⟨i, m, hi, hm, fun v hv hf buf hb => ?_⟩
  rw [f.implements.ser v _ hv]
  exact C67_wire_format_partial m v f.good hv hf (Nat.lt_of_le_of_lt (f.short v hv hf) (by decide)) buf hb

/-- **C128.** The size that the value announces is the number of bytes that it takes. -/
theorem C128_size (k : Nat) (t : Entry) (ht : shipped[k]? = some t) :
    ∃ i m, impls[k]? = some i ∧ messages[k]? = some m ∧
      ∀ v, m.has v = true → m.fits v = true → (i.sizeBits v + 7) / 8 = ((m.bits v).length + 7) / 8 := by
  obtain ⟨i, m, hi, hm, f⟩ := shipped_facts ht
  refine ⟨i, m, hi, hm, fun v hv hf => ?_⟩
  rw [f.implements.size v hv]
  exact C67_size_partial m v f.good hv hf

theorem payload_eq {i : Impl} {m : Message} (h : Implements i m) (v : Val) (hv : m.has v = true) :
    (Node.Payload.of i.writer v) = Node.Payload.of m.writer v := by
  simp only [Node.Payload.of, Impl.writer, Message.writer, h.size v hv, Node.Payload.mk.injEq, true_and]
  funext c
  exact h.ser v c hv

theorem bytes_of_not_panic (p : Node.Payload) (h : Node.doSerialize p true ≠ .panic) : ∃ b, Node.doSerialize p true = .bytes b := by
  unfold Node.doSerialize at h ⊢
  by_cases hl : (p.sizeBits + 7) / 8 > 64
  · simp only [if_pos hl, if_true] at h ⊢
    cases hc : p.serialize (WriteCursor.new (List.replicate ((p.sizeBits + 7) / 8) 0)) with
    | none => rw [hc] at h; exact absurd rfl h
    | some c => exact ⟨_, rfl⟩
  · simp only [if_neg hl] at h ⊢
    cases hc : p.serialize (WriteCursor.new ((List.replicate 64 0).take ((p.sizeBits + 7) / 8))) with
    | none => rw [hc] at h; exact absurd rfl h
    | some c => exact ⟨_, rfl⟩

theorem serialize_of_bytes (p : Node.Payload) (alloc : Bool) (b : List Byte) (h : Node.doSerialize p alloc = .bytes b) :
    ∃ buf c, p.serialize (WriteCursor.new buf) = some c ∧ c.bytes = b ∧ p.sizeBits ≤ 8 * buf.length := by
  unfold Node.doSerialize at h
  by_cases hl : (p.sizeBits + 7) / 8 > 64
  · simp only [if_pos hl] at h
    cases alloc with
    | false => simp at h
    | true =>
      simp only [if_true] at h
      cases hc : p.serialize (WriteCursor.new (List.replicate ((p.sizeBits + 7) / 8) 0)) with
      | none => rw [hc] at h; cases h
      | some c =>
        rw [hc] at h
        injection h with h
        exact ⟨_, c, hc, h, by rw [List.length_replicate]; omega⟩
  · simp only [if_neg hl] at h
    cases hc : p.serialize (WriteCursor.new ((List.replicate 64 0).take ((p.sizeBits + 7) / 8))) with
    | none => rw [hc] at h; cases h
    | some c =>
      rw [hc] at h
      injection h with h
      exact ⟨_, c, hc, h, by rw [List.length_take, List.length_replicate]; omega⟩

/-- **C128.** The payload that a node makes for a value, to publish it or to send it as a request or response, is the value in the format of the
specification, zero up to the next byte, and nothing else; if there is memory, there is a payload. -/
theorem C128_payload (k : Nat) (t : Entry) (ht : shipped[k]? = some t) :
    ∃ i m, impls[k]? = some i ∧ messages[k]? = some m ∧
      ∀ v, m.has v = true → m.fits v = true →
        (∃ b, Node.doSerialize (.of i.writer v) true = .bytes b) ∧ ∀ alloc, Node.doSerialize (.of i.writer v) alloc ≠ .panic ∧
          ∀ b, Node.doSerialize (.of i.writer v) alloc = .bytes b →
            b.length = ((m.bits v).length + 7) / 8 ∧ ∀ p, bitAt b p = (m.bits v).getD p false := by
  obtain ⟨i, m, hi, hm, f⟩ := shipped_facts ht
  refine ⟨i, m, hi, hm, fun v hv hf => ?_⟩
  rw [payload_eq f.implements v hv]
  have hp := C67_payload_partial m v f.good hv hf (Nat.lt_of_le_of_lt (f.short v hv hf) (by decide))
  refine ⟨?_, hp⟩
  exact bytes_of_not_panic _ (hp true).1

/-- The payload of a heartbeat. -/
example : (impls[159]?.map fun i => Node.doSerialize (.of i.writer aHeartbeat) true) = some (.bytes [0x78, 0x56, 0x34, 0x12, 2, 3, 0xab]) ∧
    (messages[159]?.map fun m => m.has aHeartbeat && m.fits aHeartbeat) = some true := by decide +kernel

/-! ### C129: round trip -/

/-- The round trip of a value that is `safeEnd`. -/
theorem round_trip {i : Impl} {m : Message} (h : Implements i m) (hg : m.good = true) (v : Val) (hv : m.has v = true) (hf : m.fits v = true)
    (hl : (m.bits v).length ≤ 8 * 2 ^ 16) (hsafe : m.safeEnd v = true) (alloc : Bool) (b : List Byte) (hb : Node.doSerialize (.of i.writer v) alloc = .bytes b)
    (extra : List Byte) : ∃ w r, i.deserialize (ReadCursor.new (b ++ extra)) = some (.ok w, r) ∧ Same w v := by
  have hsize := C67_size_partial m v hg hv hf
  rw [payload_eq h v hv] at hb
  rw [h.de]
  obtain ⟨buf, c, hc, rfl, hbuf⟩ := serialize_of_bytes _ alloc b hb
  exact C68_round_trip_end_partial m v hg hv hf hsafe (by omega) buf extra hbuf c hc

/-- **C129.** For every type in the file except the ones on the list, and every value of it whose numbers are in range: from the payload that a node makes for
it, whatever comes after it, `deserialize` returns an equal value.

Missing: the types on the list. -/
theorem C129_round_trip_partial (k : Nat) (t : Entry) (ht : shipped[k]? = some t) (hu : t.path ∉ unreadable) :
    ∃ i m, impls[k]? = some i ∧ messages[k]? = some m ∧
      ∀ v, m.has v = true → m.inRange v = true → ∀ alloc b, Node.doSerialize (.of i.writer v) alloc = .bytes b → ∀ extra,
        ∃ w r, i.deserialize (ReadCursor.new (b ++ extra)) = some (.ok w, r) ∧ Same w v := by
  obtain ⟨i, m, hi, hm, f⟩ := shipped_facts ht
  refine ⟨i, m, hi, hm, fun v hv hr alloc b hb extra => ?_⟩
  have hf := m.fits_of_inRange v hr
  exact round_trip f.implements f.good v hv hf (f.short v hv hf) (m.safeEnd_of_readable (f.reads hu) v hv hr) alloc b hb extra

/-- **C129.** The same for all types, also the ones on the list, and the values without a padded type before something else (`safeEnd`).

Missing: the other values. -/
theorem C129_safe_partial (k : Nat) (t : Entry) (ht : shipped[k]? = some t) :
    ∃ i m, impls[k]? = some i ∧ messages[k]? = some m ∧
      ∀ v, m.has v = true → m.fits v = true → m.safeEnd v = true → ∀ alloc b, Node.doSerialize (.of i.writer v) alloc = .bytes b → ∀ extra,
        ∃ w r, i.deserialize (ReadCursor.new (b ++ extra)) = some (.ok w, r) ∧ Same w v := by
  obtain ⟨i, m, hi, hm, f⟩ := shipped_facts ht
  exact ⟨i, m, hi, hm, fun v hv hf hsafe alloc b hb extra => round_trip f.implements f.good v hv hf (f.short v hv hf) hsafe alloc b hb extra⟩

/-- What `deserialize` returns for the payload that a node makes for the value of the type. -/
def sentAndRead (k : Nat) (v : Val) : Option Val :=
  match impls[k]? with
  | none => none
  | some i =>
    match Node.doSerialize (.of i.writer v) true with
    | .bytes b =>
      match i.deserialize (ReadCursor.new b) with
      | some (.ok w, _) => some w
      | _ => none
    | _ => none

example : shipped[159]?.any (fun t => t.path ∉ unreadable) = true ∧
    (messages[159]?.map fun m => m.has aHeartbeat && m.inRange aHeartbeat) = some true ∧
    (match sentAndRead 159 aHeartbeat with
      | some (.record [.num a, .record [.num b], .record [.num c], .num d]) => a == 0x12345678 && b == 2 && c == 3 && d == 0xab
      | _ => false) = true := by decide +kernel

/-- A value with 8 bits in a request to write a register: it is read back (`C68_round_trip_partial` does not cover it). -/
example :
    let v : Val := .record [.record [.list [.num 97]], .variant 3 (.record [.bits ⟨0xab :: List.replicate 255 0, 8⟩])]
    isAt 206 "uavcan::register::access_1_0::AccessRequest" = true ∧ shipped[206]?.any (fun t => t.path ∉ unreadable) = true ∧
    (messages[206]?.map fun m => m.has v && m.inRange v && !m.safe v) = some true ∧
    (match sentAndRead 206 v with
      | some (.record [.record [.list [.num n]], .variant 3 (.record [.bits a])]) => n == 97 && a.bitLength == 8 && a.bytes.head? == some 0xab
      | _ => false) = true := by decide +kernel

/-- The numbers in a value, the lengths of its lists and the numbers of its variants, in order (to a depth that is enough for the values below). -/
def parts : Nat → Val → List Nat
  | 0, _ => []
  | _ + 1, .num n => [n]
  | d + 1, .list vs => vs.length :: vs.flatMap (parts d)
  | d + 1, .record vs => vs.flatMap (parts d)
  | d + 1, .variant i v => i :: parts d v
  | _ + 1, _ => []

/-- The value is one of the type, and its numbers are in range. -/
def allowed (k : Nat) (v : Val) : Bool := (messages[k]?.map fun m => m.has v && m.inRange v) == some true

/-- A CAN frame with an ID of 11 bits: after sending and receiving it has no data. The 21 bits of padding after the ID are not skipped. -/
theorem C129_counterexample_classic : allowed 131 aClassic = true ∧ parts 9 aClassic = [0, 0x123, 1, 0x55] ∧
    (sentAndRead 131 aClassic).map (parts 9) = some [0, 0x123, 0] := by decide +kernel

/-- The same for `DataFD`, `Manifestation` and both versions of `Frame`. -/
theorem C129_counterexample_can :
    (isAt 132 "uavcan::metatransport::can::data_fd_0_1::DataFD" = true ∧
      allowed 132 aClassic = true ∧ (sentAndRead 132 aClassic).map (parts 9) = some [0, 0x123, 0]) ∧
    (isAt 135 "uavcan::metatransport::can::manifestation_0_1::Manifestation" = true ∧
      allowed 135 (.variant 2 aClassic) = true ∧ (sentAndRead 135 (.variant 2 aClassic)).map (parts 9) = some [2, 0, 0x123, 0]) ∧
    (let v : Val := .record [.record [.num 5], .variant 2 aClassic];
      isAt 136 "uavcan::metatransport::can::frame_0_1::Frame" = true ∧
      allowed 136 v = true ∧ (sentAndRead 136 v).map (parts 9) = some [5, 2, 0, 0x123, 0]) ∧
    (isAt 137 "uavcan::metatransport::can::frame_0_2::Frame" = true ∧
      allowed 137 (.variant 1 aClassic) = true ∧ (sentAndRead 137 (.variant 1 aClassic)).map (parts 9) = some [1, 0, 0x123, 0]) := by decide +kernel

/-- An endpoint of `udp::Frame`: an address with the byte `n` everywhere and the port `n`. -/
def anEndpoint (n : Nat) : Val := .record [.list (List.replicate 16 (.num n)), .list (List.replicate 6 (.num n)), .num n]

/-- A UDP frame from port 7 to port 9 with one byte of data: after sending and receiving, it is for another address and port, and without data. -/
theorem C129_counterexample_udp :
    let v : Val := .record [.record [.num 5], anEndpoint 7, anEndpoint 9, .list [.num 0x55]]
    isAt 143 "uavcan::metatransport::udp::frame_0_1::Frame" = true ∧ allowed 143 v = true ∧
    (match sentAndRead 143 v with
      | some (.record [_, .record [_, _, .num source], .record [.list ip, .list mac, .num destination], .list data]) =>
        source == 7 && ip.flatMap (parts 1) == [0, 0, 0, 0, 0, 0, 0, 0, 9, 9, 9, 9, 9, 9, 9, 9] && mac.flatMap (parts 1) == [9, 9, 9, 9, 9, 9] &&
          destination == 0x0909 && data.length == 0x0909
      | _ => false) = true := by decide +kernel

/-! ### C130: no panic -/

/-- **C130.** Reading bytes that come from anywhere: for every type in the file except four, `deserialize` returns a value of the type or an error, and does not
panic.

Missing: the four types on the list, for which `C130_counterexample` shows bytes that panic. -/
theorem C130_no_panic_partial (k : Nat) (t : Entry) (ht : shipped[k]? = some t) (hp : t.path ∉ panicking) :
    ∃ i m, impls[k]? = some i ∧ messages[k]? = some m ∧
      ∀ bytes, ∃ r c, i.deserialize (ReadCursor.new bytes) = some (r, c) ∧ ∀ v, r = .ok v → m.has v = true := by
  obtain ⟨i, m, hi, hm, f⟩ := shipped_facts ht
  refine ⟨i, m, hi, hm, fun bytes => ?_⟩
  rw [f.implements.de]
  exact C69_no_panic_partial m (f.total hp) bytes

/-- Reading the bytes as the type panics. -/
def panics (k : Nat) (bytes : List Byte) : Bool := (impls[k]?.map fun i => (i.deserialize (ReadCursor.new bytes)).isNone) == some true

/-- Every type on the list panics: the length 2049 is more than the 2048 bits that there is space for. -/
theorem C130_counterexample :
    (panicking.zip [179, 205, 206, 207]).all (fun x => isAt x.2 x.1) = true ∧
    panics 179 [1, 8] = true ∧ panics 205 [3, 1, 8] = true ∧ panics 206 [0, 3, 1, 8] = true ∧
    panics 207 [0, 0, 0, 0, 0, 0, 0, 0, 3, 1, 8] = true := by decide +kernel

/-- A union tag that does not exist is an error. -/
example : isAt 170 "uavcan::node::port::list_1_0::List" = true ∧ shipped[170]?.any (fun t => t.path ∉ panicking) = true ∧
    (impls[170]?.map fun i =>
      match i.deserialize (ReadCursor.new [3, 0, 0, 0, 7, 0, 0, 0, 0, 0]) with
      | some (.error .unionTag, _) => true
      | _ => false) = some true := by decide +kernel

/-- **C130.** The zero extension rule, for every type in the file: zeros after the bytes change nothing, except that they can repair a delimited type that is longer
than what is there. -/
theorem C130_zero_extension (k : Nat) (t : Entry) (ht : shipped[k]? = some t) :
    ∃ i m, impls[k]? = some i ∧ messages[k]? = some m ∧
      ∀ bytes n, (∃ c, i.deserialize (ReadCursor.new bytes) = some (.error .delimitedLength, c)) ∨
        SameResult (i.deserialize (ReadCursor.new bytes)) (i.deserialize (ReadCursor.new (bytes ++ List.replicate n 0))) := by
  obtain ⟨i, m, hi, hm, f⟩ := shipped_facts ht
  refine ⟨i, m, hi, hm, fun bytes n => ?_⟩
  rw [f.implements.de, f.implements.de]
  exact C70_zero_extension m f.valid bytes n

/-- A heartbeat without its last byte. -/
example : (impls[159]?.map fun i =>
    match i.deserialize (ReadCursor.new [0x78, 0x56, 0x34, 0x12, 2, 3]), i.deserialize (ReadCursor.new [0x78, 0x56, 0x34, 0x12, 2, 3, 0]) with
    | some (.ok v, _), some (.ok w, _) => (parts 9 v, parts 9 w)
    | _, _ => ([], [])) = some ([0x12345678, 2, 3, 0], [0x12345678, 2, 3, 0]) := by decide +kernel

/-! ### C131: documented sizes -/

/-- **C131.** For every type in the file and every value of it whose numbers fit: the payload that a node makes has a number of bytes in the range that the comments
on the type give, and not more than `EXTENT_BYTES`, if the type has that. -/
theorem C131_sizes (k : Nat) (t : Entry) (ht : shipped[k]? = some t) :
    ∃ i m, impls[k]? = some i ∧ messages[k]? = some m ∧
      ∀ v, m.has v = true → m.fits v = true → ∀ alloc b, Node.doSerialize (.of i.writer v) alloc = .bytes b →
        t.bytes.1 ≤ b.length ∧ b.length ≤ t.bytes.2 ∧ ∀ e, i.extentBytes = some e → b.length ≤ e := by
  obtain ⟨i, m, hi, hm, f⟩ := shipped_facts ht
  refine ⟨i, m, hi, hm, fun v hv hf alloc b hb => ?_⟩
  rw [payload_eq f.implements v hv] at hb
  have hl := ((C67_payload_partial m v f.good hv hf (Nat.lt_of_le_of_lt (f.short v hv hf) (by decide)) alloc).2 b hb).1
  have hspan := m.bits_span v hv hf
  rw [f.bytes]
  refine ⟨by dsimp only; omega, by dsimp only; omega, fun e he => ?_⟩
  rw [f.implements.extent] at he
  cases hm' : m.extent with
  | none => rw [hm'] at he; simp at he
  | some e' =>
    have := f.extent e' hm'
    rw [hm'] at he
    simp only [Option.map_some, Option.some.injEq] at he
    omega

/-- The range for the response to `GetInfo`: the least value, and one with a name and a certificate. -/
example :
    let v (n c : Nat) : Val := .record [.record [.num 1, .num 0], .record [.num 1, .num 0], .record [.num 1, .num 0], .num 0, .list (List.replicate 16 (.num 0)),
      .list (List.replicate n (.num 97)), .list [], .list (List.replicate c (.num 0))]
    isAt 154 "uavcan::node::get_info_1_0::GetInfoResponse" = true ∧ (shipped[154]?.map (·.bytes)) = some (33, 313) ∧ (impls[154]?.map fun i => i.extentBytes) = some (some 448) ∧
    allowed 154 (v 0 0) = true ∧ (impls[154]?.map fun i => (i.sizeBits (v 0 0) + 7) / 8) = some 33 ∧
    allowed 154 (v 50 222) = true ∧ (impls[154]?.map fun i => (i.sizeBits (v 50 222) + 7) / 8) = some 305 := by decide +kernel

/-! ### C132: fixed port IDs -/

/-- **C132.** Every fixed port ID is in the range of its kind, so `from_truncating` does not change it, and in the part of the range for regulated types; two types of
the same kind have the same ID only if they are versions of one type. -/
theorem C132_port_ids : (∀ p ∈ ports, if p.service then 384 ≤ p.id ∧ p.id ≤ 511 else 7168 ≤ p.id ∧ p.id ≤ 8191) ∧
    ∀ p ∈ ports, ∀ q ∈ ports, p.service = q.service → p.id = q.id → p.name = q.name := by decide +kernel

/-- **C132.** The constant for a subject is in a module with a message, the constant for a service in one with a request and a response. -/
theorem C132_kinds : ∀ p ∈ ports, p.types.map (fun k => shipped[k]?.map (·.role)) =
    if p.service then [some .request, some .response] else [some .message] := by decide +kernel

/-- The heartbeat, and two versions of one type. -/
example : ports.any (fun p => p.name = "uavcan.node.Heartbeat" && !p.service && p.id == 7509 && p.types == [159]) = true ∧
    (ports.filter fun p => p.name = "uavcan.node.port.List").map (·.id) = [7510, 7510] := by decide +kernel

end Verif.Shipped
