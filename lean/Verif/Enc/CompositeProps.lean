import Verif.Enc.Props

/-!
C44: delimited composites.  The types are arbitrary: any reader, and any writer that writes as many bits as it says.
-/

namespace Verif.Enc

/-! ### Reading -/

theorem readAlignedU8_rcur (bs : List Byte) (p : Nat) (hp : p % 8 = 0) :
    ∃ v, (rcur bs p).readAlignedU8 = some (v, rcur bs (p + 8)) ∧ ∀ i, i < 8 → v.getLsbD i = bitAt bs (p + i) := by
  unfold ReadCursor.readAlignedU8
  rw [if_pos (by simpa [ReadCursor.isAligned, rcur] using hp), advanceBytes_rcur]
  refine ⟨_, rfl, ?_⟩
  intro i hi
  have := getD_drop_bit bs p 0 i hi
  have e : 8 * (p / 8 + 0) + i = p + i := by omega
  rw [e] at this
  exact this

theorem readAlignedU16_rcur (bs : List Byte) (p : Nat) (hp : p % 8 = 0) :
    ∃ v, (rcur bs p).readAlignedU16 = some (v, rcur bs (p + 16)) ∧ ∀ i, i < 16 → v.getLsbD i = bitAt bs (p + i) := by
  obtain ⟨x, hx, hxb⟩ := readAlignedU8_rcur bs p hp
  obtain ⟨y, hy, hyb⟩ := readAlignedU8_rcur bs (p + 8) (by omega)
  unfold ReadCursor.readAlignedU16
  rw [hx]
  dsimp only
  rw [hy]
  refine ⟨_, rfl, ?_⟩
  intro i hi
  rw [BitVec.getLsbD_or, show (BitVec.shiftLeft (y.setWidth 16) 8) = (y.setWidth 16 <<< 8) from rfl, BitVec.getLsbD_shiftLeft,
    BitVec.getLsbD_setWidth, BitVec.getLsbD_setWidth]
  by_cases h : i < 8
  · rw [hxb i h]
    simp [h, hi]
  · rw [hyb (i - 8) (by omega), BitVec.getLsbD_of_ge x i (by omega)]
    have e : p + 8 + (i - 8) = p + i := by omega
    have e2 : i - 8 < 16 := by omega
    simp [h, hi, e, e2]

theorem readAlignedU32_rcur (bs : List Byte) (p : Nat) (hp : p % 8 = 0) :
    ∃ v, (rcur bs p).readAlignedU32 = some (v, rcur bs (p + 32)) ∧ v.toNat = bitsVal (fun i => bitAt bs (p + i)) 32 := by
  obtain ⟨x, hx, hxb⟩ := readAlignedU16_rcur bs p hp
  obtain ⟨y, hy, hyb⟩ := readAlignedU16_rcur bs (p + 16) (by omega)
  unfold ReadCursor.readAlignedU32
  rw [hx]
  dsimp only
  rw [hy]
  refine ⟨_, rfl, ?_⟩
  apply toNat_eq_bitsVal _ (Nat.le_refl _)
  intro i hi
  rw [BitVec.getLsbD_or, show (BitVec.shiftLeft (y.setWidth 32) 16) = (y.setWidth 32 <<< 16) from rfl, BitVec.getLsbD_shiftLeft,
    BitVec.getLsbD_setWidth, BitVec.getLsbD_setWidth]
  by_cases h : i < 16
  · rw [hxb i h]
    simp [h, hi]
  · rw [hyb (i - 16) (by omega), BitVec.getLsbD_of_ge x i (by omega)]
    have e : p + 16 + (i - 16) = p + i := by omega
    have e2 : i - 16 < 32 := by omega
    simp [h, hi, e, e2]

/-- The first multiple of 8 that is at least `p`. -/
def roundUp (p : Nat) : Nat := (p + 7) / 8 * 8

/-- What `read_composite` does for a delimited type, at any position. -/
theorem readComposite_rcur {α : Type} (bs : List Byte) (p : Nat) (t : Reader α) (ht : t.extentBytes.isSome = true) :
    (rcur bs p).readComposite t =
      let start := roundUp p + 32
      let length := bitsVal (fun i => bitAt bs (roundUp p + i)) 32
      if bs.length - start / 8 < length then some (.error .delimitedLength, rcur bs start)
      else (t.deserialize (ReadCursor.new ((bs.drop (start / 8)).take length))).map fun r => (r.1, rcur bs (start + 8 * length)) := by
  unfold ReadCursor.readComposite
  have hq : roundUp p % 8 = 0 := by unfold roundUp; omega
  obtain ⟨v, hv, hval⟩ := readAlignedU32_rcur bs (roundUp p) hq
  rw [align_rcur, show (p + 7) / 8 * 8 = roundUp p from rfl]
  dsimp only
  rw [if_pos ht, hv]
  dsimp only
  rw [hval]
  generalize bitsVal (fun i => bitAt bs (roundUp p + i)) 32 = length
  have hlen : (rcur bs (roundUp p + 32)).bytes.length = bs.length - (roundUp p + 32) / 8 := by simp [rcur]
  rw [hlen]
  have halign : ∀ q, q % 8 = 0 → (rcur bs q).align = rcur bs q := by
    intro q hq
    rw [align_rcur]
    congr 1; omega
  split
  · rw [Option.map_some, halign _ (by omega)]
  · rename_i hle
    unfold ReadCursor.fork
    have hbi : (rcur bs (roundUp p + 32)).bitIndex = 0 := by simp only [rcur]; omega
    rw [if_neg (by simpa using hbi), if_neg (by rw [hlen]; exact hle)]
    dsimp only
    have e : ({ bytes := (rcur bs (roundUp p + 32)).bytes.drop length,
                bitIndex := (rcur bs (roundUp p + 32)).bitIndex } : ReadCursor) =
        rcur bs (roundUp p + 32 + 8 * length) := by
      unfold rcur
      simp only [List.drop_drop, ReadCursor.mk.injEq]
      constructor
      · congr 1; omega
      · omega
    rw [e, Option.map_map]
    unfold ReadCursor.new
    congr 1
    funext r
    simp only [Function.comp]
    rw [halign _ (by omega)]

/-- **C44.** Reading a delimited composite after any fields, from any bytes: let `start` be the position after the length header (which is at the
next byte boundary) and `length` the header.
If fewer than `length` bytes remain, the result is the error `DelimitedLength`.
Otherwise the result is that of the inner type on exactly these `length` bytes; it panics only if the inner type does; and the cursor, which
does not depend on the inner type, is exactly after them: fields read with it are those at the position `start + 8 * length`. -/
theorem C44_read (bs : List Byte) (before : List Shape) (hb : ∀ s ∈ before, s.Ok) (vs : List Value) (c : ReadCursor)
    (hc : readAll before (ReadCursor.new bs) = some (vs, c)) :
    ∃ start length : Nat, start = roundUp (shapesAt (bitAt bs) 0 before).2 + 32 ∧
      length = bitsVal (fun i => bitAt bs (start - 32 + i)) 32 ∧
      (bs.length - start / 8 < length → ∀ {α : Type} (t : Reader α), t.extentBytes.isSome = true →
        ∃ c', c.readComposite t = some (.error .delimitedLength, c')) ∧
      (length ≤ bs.length - start / 8 → ∃ c' : ReadCursor,
        (∀ {α : Type} (t : Reader α), t.extentBytes.isSome = true →
          c.readComposite t = (t.deserialize (ReadCursor.new ((bs.drop (start / 8)).take length))).map fun r => (r.1, c')) ∧
        ∀ after : List Shape, (∀ s ∈ after, s.Ok) →
          (readAll after c').map (·.1) = some (shapesAt (bitAt bs) (start + 8 * length) after).1) := by
  rw [new_eq_rcur, readAll_rcur bs before hb 0] at hc
  injection hc with hc
  have hc2 : rcur bs (shapesAt (bitAt bs) 0 before).2 = c := congrArg Prod.snd hc
  generalize (shapesAt (bitAt bs) 0 before).2 = p at hc2
  subst hc2
  refine ⟨roundUp p + 32, bitsVal (fun i => bitAt bs (roundUp p + i)) 32, rfl, by rw [Nat.add_sub_cancel], ?_, ?_⟩
  · intro hlt α t ht
    rw [readComposite_rcur bs p t ht]
    dsimp only
    rw [if_pos hlt]
    exact ⟨_, rfl⟩
  · intro hle
    refine ⟨rcur bs (roundUp p + 32 + 8 * bitsVal (fun i => bitAt bs (roundUp p + i)) 32), ?_, ?_⟩
    · intro α t ht
      rw [readComposite_rcur bs p t ht]
      dsimp only
      rw [if_neg (by omega)]
    · intro after ha
      rw [readAll_rcur bs after ha]
      rfl

/-- A delimited type with the fields of these shapes. -/
def fieldsReader (extent : Nat) (ss : List Shape) : Reader (List Value) :=
  ⟨some extent, fun c => (readAll ss c).map fun r => (.ok r.1, r.2)⟩

/-- The value of a successful reading. -/
def okValue {α : Type} (r : Option (Except DeserializeError α × ReadCursor)) : Option α :=
  match r with
  | some (.ok v, _) => some v
  | _ => none

/-- One byte, then a composite of two bytes, then another byte: a type that reads four bytes sees two zeros, and the last byte is read
correctly with any type. -/
example : okValue ((ReadCursor.new [2, 0, 0, 0, 0x11, 0x22, 0x33]).readComposite (fieldsReader 8 [.uint 32])) = some [.uint 0x2211] ∧
    okValue ((ReadCursor.new [2, 0, 0, 0, 0x11, 0x22, 0x33]).readComposite (fieldsReader 8 [.uint 8])) = some [.uint 0x11] := by
  decide +kernel

example : ∃ c', (ReadCursor.new [8, 0, 0, 0, 1, 2, 3]).readComposite (fieldsReader 8 [.uint 32]) = some (.error .delimitedLength, c') := by
  obtain ⟨start, length, hs, hl, herr, -⟩ := C44_read [8, 0, 0, 0, 1, 2, 3] [] (by simp) [] (ReadCursor.new [8, 0, 0, 0, 1, 2, 3]) rfl
  have h1 : start = 32 := by rw [hs]; rfl
  subst h1
  have h2 : length = 8 := by rw [hl]; decide
  subst h2
  exact herr (by decide) _ rfl

/-! ### Writing -/

/-- A serializer that keeps its promise: at a byte boundary, `serialize` has the same effect as writing certain bits one by one, and there
are as many bytes of them as `size_bits` says. (The generated code rounds `size_bits` up to whole bytes.) -/
structure Lawful {α : Type} (w : Writer α) (bits : α → List Bool) : Prop where
  size : ∀ v, ((bits v).length + 7) / 8 = (w.sizeBits v + 7) / 8
  serialize : ∀ (v : α) (buf : List Byte) (fs : List Field) (c : WriteCursor), (∀ f ∈ fs, f.Ok) →
    writeAll fs (WriteCursor.new buf) = some c → c.bitsWritten % 8 = 0 → w.serialize v c = writeAll ((bits v).map Field.bool) c

theorem foldl_bools (bits : List Bool) : ∀ acc : List Bool, (bits.map Field.bool).foldl Field.append acc = acc ++ bits := by
  induction bits with
  | nil => intro acc; simp
  | cons b bits ih =>
    intro acc
    rw [List.map_cons, List.foldl_cons, ih]
    simp [Field.append]

theorem bools_ok (bits : List Bool) : ∀ f ∈ bits.map Field.bool, f.Ok := by
  intro f hf
  obtain ⟨b, -, rfl⟩ := List.mem_map.1 hf
  exact True.intro

theorem Lawful.serialize_wcur {α : Type} {w : Writer α} {bits : α → List Bool} (h : Lawful w bits) (v : α) (L : Nat) (acc : List Bool)
    (ha : acc.length % 8 = 0) (hL : acc.length ≤ 8 * L) :
    w.serialize v (wcur L acc) = if acc.length + (bits v).length ≤ 8 * L then some (wcur L (acc ++ bits v)) else none := by
  have hreach : writeAll (acc.map Field.bool) (WriteCursor.new (List.replicate L 0)) = some (wcur L acc) := by
    rw [new_eq_wcur, writeAll_wcur _ _ (bools_ok acc) [] (by simp), foldl_bools, List.nil_append, List.length_replicate, if_pos hL]
  have hal : (wcur L acc).bitsWritten % 8 = 0 := by
    simp only [WriteCursor.bitsWritten, wcur]
    omega
  rw [h.serialize v _ _ _ (bools_ok acc) hreach hal, writeAll_wcur _ _ (bools_ok (bits v)) acc hL, foldl_bools, List.length_append]

/-- Value `v` is serialized to the bits `bits`: into an empty buffer that is long enough exactly those bits are written, and the announced size is
right when rounded up to bytes. This is less than `Lawful`: it is about one value, an empty buffer, and success only. -/
structure WritesBits {α : Type} (w : Writer α) (v : α) (bits : List Bool) : Prop where
  size : (bits.length + 7) / 8 = (w.sizeBits v + 7) / 8
  serialize : ∀ buf c, writeAll (bits.map Field.bool) (WriteCursor.new buf) = some c → w.serialize v (WriteCursor.new buf) = some c

theorem WritesBits.serialize_wcur {α : Type} {w : Writer α} {v : α} {bits : List Bool} (h : WritesBits w v bits) (L : Nat)
    (hL : bits.length ≤ 8 * L) : w.serialize v (WriteCursor.new (List.replicate L 0)) = some (wcur L bits) := by
  apply h.serialize
  rw [new_eq_wcur, List.length_replicate, writeAll_wcur L _ (bools_ok _) [] (by simp), foldl_bools]
  simp [hL]

theorem Lawful.writesBits {α : Type} {w : Writer α} {bits : α → List Bool} (h : Lawful w bits) (v : α) : WritesBits w v (bits v) where
  size := h.size v
  serialize buf c hc := by
    rw [new_eq_wcur] at hc ⊢
    rw [writeAll_wcur _ _ (bools_ok _) [] (by simp), foldl_bools] at hc
    rw [h.serialize_wcur v _ [] rfl (by simp)]
    simpa using hc

/-- The bits of a delimited composite. -/
def compositeBits (size : Nat) (bits : List Bool) : List Bool :=
  bitsOf 32 ((size + 7) / 8) ++ bits ++ List.replicate ((8 - bits.length % 8) % 8) false

theorem writeComposite_wcur {α : Type} {w : Writer α} {bits : α → List Bool} (h : Lawful w bits) (hd : w.extentBytes.isSome = true) (v : α)
    (hsize : (w.sizeBits v + 7) / 8 < 2 ^ 32) (L : Nat) (acc : List Bool) (hL : acc.length ≤ 8 * L) :
    (wcur L acc).writeComposite w v =
      if (Field.append acc .align).length + 32 + (bits v).length ≤ 8 * L then
        some (wcur L (Field.append acc .align ++ compositeBits (w.sizeBits v) (bits v))) else none := by
  unfold WriteCursor.writeComposite
  rw [align_wcur L acc hL]
  dsimp only
  have hAl : (Field.append acc .align).length ≤ 8 * L ∧ (Field.append acc .align).length % 8 = 0 := by
    simp only [Field.append, List.length_append, List.length_replicate]
    omega
  generalize Field.append acc .align = A at hAl
  rw [if_pos hd, if_neg (by omega), writeU_wcur L A _ 32 (by omega) (by omega) hAl.1]
  have hnat : (BitVec.ofNat 64 ((w.sizeBits v + 7) / 8)).toNat = (w.sizeBits v + 7) / 8 := by
    rw [BitVec.toNat_ofNat]
    omega
  rw [hnat]
  by_cases h1 : A.length + 32 ≤ 8 * L
  · rw [if_pos h1]
    dsimp only
    have hlen : (A ++ bitsOf 32 ((w.sizeBits v + 7) / 8)).length = A.length + 32 := by simp
    rw [h.serialize_wcur v L _ (by rw [hlen]; omega) (by rw [hlen]; exact h1), hlen]
    by_cases h2 : A.length + 32 + (bits v).length ≤ 8 * L
    · rw [if_pos h2, if_pos h2]
      dsimp only
      rw [align_wcur L _ (by rw [List.length_append, hlen]; exact h2)]
      unfold compositeBits
      have hmod : (A ++ bitsOf 32 ((w.sizeBits v + 7) / 8) ++ bits v).length % 8 = (bits v).length % 8 := by
        rw [List.length_append, hlen]
        omega
      simp only [Field.append]
      rw [hmod]
      simp only [List.append_assoc]
    · rw [if_neg h2, if_neg h2]
  · rw [if_neg h1, if_neg (by omega)]

theorem length_compositeBits (size : Nat) (bits : List Bool) (h : (bits.length + 7) / 8 = (size + 7) / 8) :
    (compositeBits size bits).length = 32 + 8 * ((size + 7) / 8) := by
  simp only [compositeBits, List.length_append, length_bitsOf, List.length_replicate]
  omega

/-- Writing a delimited composite panics exactly if its header and its bits do not fit. -/
theorem C44_write_fits {α : Type} (w : Writer α) (bits : α → List Bool) (h : Lawful w bits) (hd : w.extentBytes.isSome = true) (v : α)
    (hsize : (w.sizeBits v + 7) / 8 < 2 ^ 32) (buf : List Byte) (fs : List Field) (hok : ∀ f ∈ fs, f.Ok) (c : WriteCursor)
    (hc : writeAll fs (WriteCursor.new buf) = some c) :
    c.writeComposite w v = none ↔ 8 * buf.length < roundUp c.bitsWritten + 32 + w.sizeBits v := by
  rw [new_eq_wcur, writeAll_wcur _ _ hok [] (by simp)] at hc
  split at hc
  case isFalse => cases hc
  rename_i hfit
  injection hc with hc
  subst hc
  rw [writeComposite_wcur h hd v hsize _ _ hfit]
  have hs := h.size v
  have e : (Field.append (List.foldl Field.append [] fs) .align).length = roundUp (wcur buf.length (List.foldl Field.append [] fs)).bitsWritten := by
    simp only [Field.append, List.length_append, List.length_replicate, roundUp, WriteCursor.bitsWritten, wcur]
    omega
  have e8 : roundUp (wcur buf.length (List.foldl Field.append [] fs)).bitsWritten % 8 = 0 := by unfold roundUp; omega
  rw [e]
  split
  · constructor
    · intro h'; cases h'
    · intro h'; omega
  · constructor
    · intro _; omega
    · intro _; rfl

/-- **C44.** After any fields, a delimited composite is written (by any serializer that keeps its promise), then any fields.
Then the fields before are read back; `read_composite` of any delimited type gives to that type exactly the bytes of the composite
(`inner`: the bits that were written, padded with zeros to whole bytes), whatever it reads; and the fields after are read back. -/
theorem C44_roundtrip {α : Type} (w : Writer α) (bits : α → List Bool) (h : Lawful w bits) (hd : w.extentBytes.isSome = true) (v : α)
    (hsize : (w.sizeBits v + 7) / 8 < 2 ^ 32) (buf : List Byte) (before after : List Field) (hb : ∀ f ∈ before, f.Ok) (ha : ∀ f ∈ after, f.Ok)
    (c1 c2 c3 : WriteCursor) (h1 : writeAll before (WriteCursor.new buf) = some c1) (h2 : c1.writeComposite w v = some c2)
    (h3 : writeAll after c2 = some c3) :
    ∃ (r1 r2 : ReadCursor) (inner : List Byte),
      inner.length = (w.sizeBits v + 7) / 8 ∧ (∀ p, bitAt inner p = (bits v).getD p false) ∧
      readAll (before.map Field.shape) (ReadCursor.new c3.bytes) = some (before.map Field.expected, r1) ∧
      (∀ {β : Type} (t : Reader β), t.extentBytes.isSome = true →
        r1.readComposite t = (t.deserialize (ReadCursor.new inner)).map fun r => (r.1, r2)) ∧
      (readAll (after.map Field.shape) r2).map (·.1) = some (after.map Field.expected) := by
  have hshape : ∀ fs : List Field, (∀ f ∈ fs, f.Ok) → ∀ s ∈ fs.map Field.shape, s.Ok := by
    intro fs hfs s hs
    obtain ⟨f, hf, rfl⟩ := List.mem_map.1 hs
    have := hfs f hf
    cases f <;> simp_all [Field.shape, Shape.Ok, Field.Ok]
  rw [new_eq_wcur, writeAll_wcur _ _ hb [] (by simp)] at h1
  split at h1
  case isFalse => cases h1
  rename_i hfit1
  injection h1 with h1
  subst h1
  generalize hB : before.foldl Field.append [] = B at *
  rw [writeComposite_wcur h hd v hsize _ _ hfit1] at h2
  split at h2
  case isFalse => cases h2
  rename_i hfit2
  injection h2 with h2
  subst h2
  -- the sequence up to the end of the composite, as fields
  have hfoldA : (before ++ [Field.align] ++ (compositeBits (w.sizeBits v) (bits v)).map Field.bool).foldl Field.append [] =
      Field.append B .align ++ compositeBits (w.sizeBits v) (bits v) := by
    rw [List.foldl_append, foldl_bools, List.foldl_append, hB]
    rfl
  generalize hA : Field.append B .align = A at *
  have hAlen : A.length = roundUp B.length := by
    rw [← hA]
    simp only [Field.append, List.length_append, List.length_replicate, roundUp]
    omega
  have hlenC := length_compositeBits (w.sizeBits v) (bits v) (h.size v)
  have hszv := h.size v
  have hA8 : A.length % 8 = 0 := by rw [hAlen]; unfold roundUp; omega
  generalize hC : compositeBits (w.sizeBits v) (bits v) = C at *
  rw [writeAll_wcur _ _ ha _ (by rw [List.length_append, hlenC]; omega)] at h3
  split at h3
  case isFalse => cases h3
  rename_i hfit3
  injection h3 with h3
  subst h3
  generalize hT : after.foldl Field.append (A ++ C) = T at *
  have hbitsT : ∀ p, bitAt (wcur buf.length T).bytes p = T.getD p false := by
    intro p
    by_cases hp : p < 8 * buf.length
    · exact bitAt_pack _ _ _ hp
    · simp only [wcur]
      rw [bitAt_of_ge (by simp; omega), getD_of_ge (by omega)]
  -- the bits of the composite within the whole
  have hpre : ∀ (fs : List Field) (acc : List Bool) (p : Nat), p < acc.length → (fs.foldl Field.append acc).getD p false = acc.getD p false := by
    intro fs
    induction fs with
    | nil => intro acc p _; rfl
    | cons y fs ih2 =>
      intro acc p hp
      rw [List.foldl_cons, ih2 _ _ (Nat.lt_of_lt_of_le hp (length_append_field acc y)), (append_getD acc y p).2, if_neg (by omega)]
  have hTC : ∀ i, i < C.length → T.getD (A.length + i) false = C.getD i false := by
    intro i hi
    rw [← hT, hpre after (A ++ C) _ (by rw [List.length_append]; omega), List.getD_eq_getElem?_getD,
      List.getElem?_append_right (by omega), List.getD_eq_getElem?_getD]
    congr 2; omega
  have hTle : A.length + C.length ≤ T.length := by
    have := length_foldl_append after (A ++ C)
    rw [hT, List.length_append] at this
    exact this
  have hBT : ∀ p, p < B.length → T.getD p false = B.getD p false := by
    intro p hp
    have hBA : B.length ≤ A.length := by rw [hAlen]; unfold roundUp; omega
    rw [← hT, hpre after (A ++ C) _ (by rw [List.length_append]; omega), List.getD_eq_getElem?_getD,
      List.getElem?_append_left (by omega), ← List.getD_eq_getElem?_getD, ← hA, (append_getD B .align p).2, if_neg (by omega)]
  -- reading
  have hread1 := readAll_rcur (wcur buf.length T).bytes (before.map Field.shape) (hshape before hb) 0
  have hsh1 := shapesAt_foldl before [] (bitAt (wcur buf.length T).bytes) (by
    intro p hp
    rw [hbitsT, hB]
    rw [hB] at hp
    exact hBT p hp)
  rw [List.length_nil, hB] at hsh1
  rw [hsh1] at hread1
  have hlen32 : bitsVal (fun i => bitAt (wcur buf.length T).bytes (roundUp B.length + i)) 32 = (w.sizeBits v + 7) / 8 := by
    apply Nat.eq_of_testBit_eq
    intro i
    rw [bitsVal_testBit]
    by_cases hi : i < 32
    · have hg := getD_append_bits [] 32 ((w.sizeBits v + 7) / 8) i
      rw [hbitsT, ← hAlen, hTC i (by omega), ← hC]
      unfold compositeBits
      rw [List.append_assoc, List.getD_eq_getElem?_getD, List.getElem?_append_left (by simpa using hi), ← List.getD_eq_getElem?_getD]
      simp only [List.nil_append, List.length_nil, Nat.not_lt_zero, if_false, Nat.sub_zero] at hg
      rw [hg]
      simp [hi]
    · have : ((w.sizeBits v + 7) / 8).testBit i = false := by
        apply Nat.testBit_lt_two_pow
        exact Nat.lt_of_lt_of_le hsize (Nat.pow_le_pow_right (by omega) (by omega))
      simp [hi, this]
  refine ⟨rcur (wcur buf.length T).bytes B.length,
    rcur (wcur buf.length T).bytes (roundUp B.length + 32 + 8 * ((w.sizeBits v + 7) / 8)),
    ((wcur buf.length T).bytes.drop ((roundUp B.length + 32) / 8)).take ((w.sizeBits v + 7) / 8), ?_, ?_, ?_, ?_, ?_⟩
  · rw [List.length_take, List.length_drop]
    simp only [wcur, length_pack]
    omega
  · intro p
    have hinner : bitAt (((wcur buf.length T).bytes.drop ((roundUp B.length + 32) / 8)).take ((w.sizeBits v + 7) / 8)) p =
        if p < 8 * ((w.sizeBits v + 7) / 8) then bitAt (wcur buf.length T).bytes (roundUp B.length + 32 + p) else false := by
      unfold bitAt
      rw [List.getD_eq_getElem?_getD]
      split
      · rw [List.getElem?_take_of_lt (by omega), List.getElem?_drop, ← List.getD_eq_getElem?_getD]
        have e1 : (roundUp B.length + 32) / 8 + p / 8 = (roundUp B.length + 32 + p) / 8 := by omega
        have e2 : p % 8 = (roundUp B.length + 32 + p) % 8 := by omega
        rw [e1, e2]
      · rw [List.getElem?_take_eq_none (by omega)]
        simp
    rw [hinner]
    split
    · rw [hbitsT, ← hAlen, Nat.add_assoc, hTC _ (by omega), ← hC]
      unfold compositeBits
      rw [List.append_assoc, List.getD_eq_getElem?_getD, List.getElem?_append_right (by simp), length_bitsOf]
      have e : 32 + p - 32 = p := by omega
      rw [e, List.getD_eq_getElem?_getD]
      by_cases hp : p < (bits v).length
      · rw [List.getElem?_append_left hp]
      · rw [List.getElem?_append_right (by omega), List.getElem?_eq_none (l := bits v) (by omega), List.getElem?_replicate]
        split <;> rfl
    · rw [getD_of_ge (by omega)]
  · rw [new_eq_rcur]
    exact hread1
  · intro β t ht
    rw [readComposite_rcur _ _ t ht]
    dsimp only
    rw [hlen32]
    have : (wcur buf.length T).bytes.length = buf.length := by simp [wcur]
    rw [this, if_neg (by omega)]
  · rw [readAll_rcur _ _ (hshape after ha)]
    have := shapesAt_foldl after (A ++ C) (bitAt (wcur buf.length T).bytes) (by
      intro p _
      rw [hbitsT, hT])
    rw [List.length_append, hlenC, hAlen, ← Nat.add_assoc] at this
    rw [this]
    rfl

/-- The serializer of fields keeps its promise for valid fields. -/
theorem fieldsWriter_lawful (extent : Nat) : Lawful (α := { fs : List Field // ∀ f ∈ fs, f.Ok })
    ⟨some extent, fun fs => (encode fs.val).length, fun fs => writeAll fs.val⟩ (fun fs => encode fs.val) := by
  refine ⟨fun _ => rfl, ?_⟩
  intro v buf fs c hok hc ha
  rw [new_eq_wcur, writeAll_wcur _ _ hok [] (by simp)] at hc
  split at hc
  case isFalse => cases hc
  rename_i hfit
  injection hc with hc
  subst hc
  generalize List.foldl Field.append [] fs = B at *
  have hB8 : B.length % 8 = 0 := by
    simp only [WriteCursor.bitsWritten, wcur] at ha
    omega
  show writeAll v.val (wcur buf.length B) = _
  rw [writeAll_wcur _ _ v.property _ hfit, writeAll_wcur _ _ (bools_ok _) _ hfit, foldl_bools]
  have key : ∀ (gs : List Field) (acc : List Bool), gs.foldl Field.append (B ++ acc) = B ++ gs.foldl Field.append acc := by
    intro gs
    induction gs with
    | nil => intro acc; rfl
    | cons g gs ih =>
      intro acc
      rw [List.foldl_cons, List.foldl_cons, ← ih]
      congr 1
      cases g <;> simp [Field.append]
      omega
  have := key v.val []
  rw [List.append_nil] at this
  rw [this]
  rfl

/-- **C44**, versions: a composite written with the fields `gs` and read as a type with the fields `hs`: the reader sees the
fields of its own type in the bits that were written, followed by zeros (so a field that the writer does not have reads as zero, and
what the reader does not know is skipped), and the fields after the composite are read back. -/
theorem C44_versions (extent extent' : Nat) (gs : { fs : List Field // ∀ f ∈ fs, f.Ok }) (hs : List Shape) (hhs : ∀ s ∈ hs, s.Ok)
    (hsize : ((encode gs.val).length + 7) / 8 < 2 ^ 32) (buf : List Byte) (before after : List Field) (hb : ∀ f ∈ before, f.Ok)
    (ha : ∀ f ∈ after, f.Ok) (c1 c2 c3 : WriteCursor) (h1 : writeAll before (WriteCursor.new buf) = some c1)
    (h2 : c1.writeComposite ⟨some extent, fun fs : { fs : List Field // ∀ f ∈ fs, f.Ok } => (encode fs.val).length, fun fs => writeAll fs.val⟩ gs = some c2)
    (h3 : writeAll after c2 = some c3) :
    ∃ r1 r2 : ReadCursor,
      readAll (before.map Field.shape) (ReadCursor.new c3.bytes) = some (before.map Field.expected, r1) ∧
      r1.readComposite (fieldsReader extent' hs) = some (.ok (shapesAt (fun p => (encode gs.val).getD p false) 0 hs).1, r2) ∧
      (readAll (after.map Field.shape) r2).map (·.1) = some (after.map Field.expected) := by
  obtain ⟨r1, r2, inner, -, hbits, hr1, hr2, hr3⟩ :=
    C44_roundtrip _ _ (fieldsWriter_lawful extent) rfl gs hsize buf before after hb ha c1 c2 c3 h1 h2 h3
  refine ⟨r1, r2, hr1, ?_, hr3⟩
  rw [hr2 (fieldsReader extent' hs) rfl]
  have : bitAt inner = fun p => (encode gs.val).getD p false := funext hbits
  simp only [fieldsReader, new_eq_rcur, readAll_rcur inner hs hhs 0, Option.map_some, this]

/-- The delimited type of these valid fields. -/
abbrev demoWriter : Writer { fs : List Field // ∀ f ∈ fs, f.Ok } := ⟨some 64, fun fs => (encode fs.val).length, fun fs => writeAll fs.val⟩

/-- A composite of two fields between other fields, read back with the same type and with a type that has one more field. -/
example : ∃ c1 c2 c3 : WriteCursor, writeAll [.uint 3 5] (WriteCursor.new (List.replicate 9 0xff)) = some c1 ∧
    c1.writeComposite demoWriter ⟨[.uint 12 0xabc, .bool true], by simp [Field.Ok]⟩ = some c2 ∧ writeAll [.uint 16 0x1234] c2 = some c3 ∧
    c3.bytes = [5, 2, 0, 0, 0, 0xbc, 0x1a, 0x34, 0x12] ∧
    ∃ r1 r2 r3 : ReadCursor, r1.readComposite (fieldsReader 64 [.uint 12, .bool]) = some (.ok [.uint 0xabc, .bool true], r2) ∧
      r1.readComposite (fieldsReader 64 [.uint 12, .bool, .uint 32]) = some (.ok [.uint 0xabc, .bool true, .uint 0], r3) := by
  have h1 : writeAll [.uint 3 5] (WriteCursor.new (List.replicate 9 0xff)) = some ⟨[5, 0, 0, 0, 0, 0, 0, 0, 0], 0, 3⟩ := by decide +kernel
  have h2 : WriteCursor.writeComposite ⟨[5, 0, 0, 0, 0, 0, 0, 0, 0], 0, 3⟩ demoWriter ⟨[.uint 12 0xabc, .bool true], by simp [Field.Ok]⟩ =
      some ⟨[5, 2, 0, 0, 0, 0xbc, 0x1a, 0, 0], 7, 0⟩ := by decide +kernel
  have h3 : writeAll [.uint 16 0x1234] ⟨[5, 2, 0, 0, 0, 0xbc, 0x1a, 0, 0], 7, 0⟩ = some ⟨[5, 2, 0, 0, 0, 0xbc, 0x1a, 0x34, 0x12], 9, 0⟩ := by
    decide +kernel
  refine ⟨_, _, _, h1, h2, h3, rfl, ?_⟩
  obtain ⟨r1, r2, hr1, hr, -⟩ := C44_versions 64 64 ⟨[.uint 12 0xabc, .bool true], by simp [Field.Ok]⟩ [.uint 12, .bool] (by simp [Shape.Ok])
    (by decide +kernel) (List.replicate 9 0xff) [.uint 3 5] [.uint 16 0x1234] (by simp [Field.Ok]) (by simp [Field.Ok]) _ _ _ h1 h2 h3
  obtain ⟨r1', r3, hr1', hr', -⟩ := C44_versions 64 64 ⟨[.uint 12 0xabc, .bool true], by simp [Field.Ok]⟩ [.uint 12, .bool, .uint 32] (by simp [Shape.Ok])
    (by decide +kernel) (List.replicate 9 0xff) [.uint 3 5] [.uint 16 0x1234] (by simp [Field.Ok]) (by simp [Field.Ok]) _ _ _ h1 h2 h3
  have e : r1' = r1 := by
    rw [hr1] at hr1'
    injection hr1' with h
    exact (congrArg Prod.snd h).symm
  subst e
  have e1 : (shapesAt (fun p => (encode [.uint 12 0xabc, .bool true]).getD p false) 0 [.uint 12, .bool]).1 = [.uint 0xabc, .bool true] := by
    decide +kernel
  have e2 : (shapesAt (fun p => (encode [.uint 12 0xabc, .bool true]).getD p false) 0 [.uint 12, .bool, .uint 32]).1 =
      [.uint 0xabc, .bool true, .uint 0] := by
    decide +kernel
  refine ⟨r1', r2, r3, ?_, ?_⟩
  · rw [hr, e1]
  · rw [hr', e2]

end Verif.Enc
