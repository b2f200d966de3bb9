import Verif.Basic

/-!
Model of the serialization cursors of `canadensis_encoding`.

A panic (failed assertion, index out of bounds, shift or subtraction overflow in a checked build) is `none`.
Bytes are `BitVec 8`; a `u16`, `u32` or `u64` is `BitVec 16`, `BitVec 32`, `BitVec 64`; sizes are `Nat`.
Floating point fields are their bit patterns (`to_bits`/`from_bits` of f16, f32, f64 are trusted to be inverse);
they are written and read as 16, 32 and 64 bit integers.
-/

namespace Verif.Enc

/-- `((1u16 << bits) - 1) as u8`: canadensis_encoding/src/cursor/serialize.rs:98, deserialize.rs:77. -/
def mask8 (bits : Nat) : Byte := ((1#16 <<< bits) - 1#16).setWidth 8

/-- `value << shift` in a checked build: panics if the shift is not less than the width
(used in canadensis_encoding/src/cursor/deserialize.rs:95, 107, 111, 122, 127). -/
def shl? {w : Nat} (x : BitVec w) (shift : Nat) : Option (BitVec w) :=
  if shift < w then some (x <<< shift) else none

/-! ### Reading -/

/-- canadensis_encoding/src/cursor/deserialize.rs:18-30 `ReadCursor`: the bytes not yet read and the index of the
next bit in the first of them. -/
structure ReadCursor where
  bytes : List Byte
  bitIndex : Nat
deriving DecidableEq, Repr

namespace ReadCursor

/-- canadensis_encoding/src/cursor/deserialize.rs:34-39 `new` -/
def new (bytes : List Byte) : ReadCursor := ⟨bytes, 0⟩

/-- canadensis_encoding/src/cursor/deserialize.rs:48-54 `as_bytes` -/
def asBytes (c : ReadCursor) : Option (List Byte) := if c.bitIndex = 0 then some c.bytes else none

/-- canadensis_encoding/src/cursor/deserialize.rs:180-182 `read_current` -/
def readCurrent (c : ReadCursor) : Byte := c.bytes.getD 0 0

/-- canadensis_encoding/src/cursor/deserialize.rs:185-187 `read_next` -/
def readNext (c : ReadCursor) : Byte := c.bytes.getD 1 0

/-- canadensis_encoding/src/cursor/deserialize.rs:201-207 `advance_bytes` -/
def advanceBytes (c : ReadCursor) (n : Nat) : ReadCursor := { c with bytes := c.bytes.drop (min n c.bytes.length) }

/-- canadensis_encoding/src/cursor/deserialize.rs:190-195 `advance_bits` -/
def advanceBits (c : ReadCursor) (bits : Nat) : ReadCursor :=
  let extended := c.bitIndex + bits
  { c with bitIndex := extended % 8 }.advanceBytes (extended / 8)

/-- canadensis_encoding/src/cursor/deserialize.rs:217-219 `is_aligned_to_8_bits` -/
def isAligned (c : ReadCursor) : Bool := c.bitIndex == 0

/-- canadensis_encoding/src/cursor/deserialize.rs:210-214 `align_to_8_bits` -/
def align (c : ReadCursor) : ReadCursor := if c.bitIndex ≠ 0 then c.advanceBits (8 - c.bitIndex) else c

/-- canadensis_encoding/src/cursor/deserialize.rs:57-82 `read_up_to_u8` -/
def readUpToU8 (c : ReadCursor) (bits : Nat) : Option (Byte × ReadCursor) :=
  if 8 < bits then none
  else if bits = 0 then some (0, c)
  else
    let value :=
      if c.bitIndex ≤ 8 - bits then c.readCurrent >>> c.bitIndex
      else (c.readNext <<< (8 - c.bitIndex)) ||| (c.readCurrent >>> c.bitIndex)
    some (value &&& mask8 bits, c.advanceBits bits)

/-- The loop over whole bytes of `read_up_to_u32` and `read_up_to_u64`:
canadensis_encoding/src/cursor/deserialize.rs:106-109, 121-124. -/
def readWhole {w : Nat} : Nat → ReadCursor → BitVec w → Nat → Option (BitVec w × Nat × ReadCursor)
  | 0, c, value, shift => some (value, shift, c)
  | k + 1, c, value, shift =>
    match c.readUpToU8 8 with
    | none => none
    | some (b, c) =>
      match shl? (b.setWidth w) shift with
      | none => none
      | some x => readWhole k c (value ||| x) (shift + 8)

/-- The final `value |= uN::from(self.read_up_to_u8(bits % 8)) << shift_bits`:
canadensis_encoding/src/cursor/deserialize.rs:95, 111, 127. -/
def readRest {w : Nat} (c : ReadCursor) (bits : Nat) (value : BitVec w) (shift : Nat) : Option (BitVec w × ReadCursor) :=
  match c.readUpToU8 bits with
  | none => none
  | some (b, c) =>
    match shl? (b.setWidth w) shift with
    | none => none
    | some x => some (value ||| x, c)

/-- canadensis_encoding/src/cursor/deserialize.rs:85-97 `read_up_to_u16` -/
def readUpToU16 (c : ReadCursor) (bits : Nat) : Option (BitVec 16 × ReadCursor) :=
  if 16 < bits then none
  else if 8 < bits then
    match c.readUpToU8 8 with
    | none => none
    | some (b, c) => c.readRest (bits % 8) (b.setWidth 16) 8
  else c.readRest (bits % 8) 0 0

/-- canadensis_encoding/src/cursor/deserialize.rs:100-113 `read_up_to_u32` -/
def readUpToU32 (c : ReadCursor) (bits : Nat) : Option (BitVec 32 × ReadCursor) :=
  if 32 < bits then none
  else
    match readWhole (bits / 8) c 0 0 with
    | none => none
    | some (value, shift, c) => c.readRest (bits % 8) value shift

/-- canadensis_encoding/src/cursor/deserialize.rs:115-130 `read_up_to_u64` -/
def readUpToU64 (c : ReadCursor) (bits : Nat) : Option (BitVec 64 × ReadCursor) :=
  if 64 < bits then none
  else
    match readWhole (bits / 8) c 0 0 with
    | none => none
    | some (value, shift, c) => if bits ≠ 64 then c.readRest (bits % 8) value shift else some (value, c)

/-- The functions `read_u1` to `read_u64`: canadensis_encoding/src/cursor/deserialize.rs:342-662.  Up to 8 bits use `read_up_to_u8`,
9 to 15 bits `read_up_to_u16`, 16 bits `read_up_to_u32(16) as u16`, 17 to 31 bits `read_up_to_u32`,
32 bits `read_up_to_u64(32) as u32`, and 33 to 64 bits `read_up_to_u64`.
Simplification: one function with the width as parameter; the result is extended to 64 bits.  There is no function for
the width 0 or a width above 64. -/
def readU (c : ReadCursor) (n : Nat) : Option (BitVec 64 × ReadCursor) :=
  if n = 0 ∨ 64 < n then none
  else if n ≤ 8 then (c.readUpToU8 n).map fun r => (r.1.setWidth 64, r.2)
  else if n ≤ 15 then (c.readUpToU16 n).map fun r => (r.1.setWidth 64, r.2)
  else if n = 16 then (c.readUpToU32 n).map fun r => ((r.1.setWidth 16).setWidth 64, r.2)
  else if n ≤ 31 then (c.readUpToU32 n).map fun r => (r.1.setWidth 64, r.2)
  else if n = 32 then (c.readUpToU64 n).map fun r => ((r.1.setWidth 32).setWidth 64, r.2)
  else c.readUpToU64 n

/-- canadensis_encoding/src/cursor/deserialize.rs:305-307 `read_bool` -/
def readBool (c : ReadCursor) : Option (Bool × ReadCursor) := (c.readU 1).map fun r => (r.1 == 1, r.2)

/-- canadensis_encoding/src/cursor/deserialize.rs:270-274 `read_bytes`, with the length of the slice to be filled. -/
def readBytes : Nat → ReadCursor → Option (List Byte × ReadCursor)
  | 0, c => some ([], c)
  | n + 1, c =>
    match c.readU 8 with
    | none => none
    | some (b, c) => (readBytes n c).map fun r => (b.setWidth 8 :: r.1, r.2)

/-- canadensis_encoding/src/cursor/deserialize.rs:136-141 `read_aligned_u8` -/
def readAlignedU8 (c : ReadCursor) : Option (Byte × ReadCursor) :=
  if c.isAligned then some (c.readCurrent, c.advanceBytes 1) else none

/-- canadensis_encoding/src/cursor/deserialize.rs:148-153 `read_aligned_u16` -/
def readAlignedU16 (c : ReadCursor) : Option (BitVec 16 × ReadCursor) :=
  match c.readAlignedU8 with
  | none => none
  | some (lsb, c) => c.readAlignedU8.map fun r => (BitVec.shiftLeft (r.1.setWidth 16) 8 ||| lsb.setWidth 16, r.2)

/-- canadensis_encoding/src/cursor/deserialize.rs:160-165 `read_aligned_u32` -/
def readAlignedU32 (c : ReadCursor) : Option (BitVec 32 × ReadCursor) :=
  match c.readAlignedU16 with
  | none => none
  | some (lsbs, c) => c.readAlignedU16.map fun r => (BitVec.shiftLeft (r.1.setWidth 32) 16 ||| lsbs.setWidth 32, r.2)

/-- canadensis_encoding/src/cursor/deserialize.rs:172-177 `read_aligned_u64` -/
def readAlignedU64 (c : ReadCursor) : Option (BitVec 64 × ReadCursor) :=
  match c.readAlignedU32 with
  | none => none
  | some (lsbs, c) => c.readAlignedU32.map fun r => (BitVec.shiftLeft (r.1.setWidth 64) 32 ||| lsbs.setWidth 64, r.2)

/-- canadensis_encoding/src/cursor/deserialize.rs:325-338 `fork`: the forked cursor and this one. -/
def fork (c : ReadCursor) (n : Nat) : Option (ReadCursor × ReadCursor) :=
  if c.bitIndex ≠ 0 then none
  else if c.bytes.length < n then none
  else some (⟨c.bytes.take n, 0⟩, { c with bytes := c.bytes.drop n })

end ReadCursor

/-- canadensis_encoding/src/lib.rs:98-108 `DeserializeError` -/
inductive DeserializeError where
  | arrayLength
  | unionTag
  | delimitedLength
deriving DecidableEq, Repr

/-- canadensis_encoding/src/lib.rs:19-23, 48-54 `DataType` and `Deserialize` of a type: whether it is delimited (`EXTENT_BYTES` is `Some`) and
its `deserialize`, an arbitrary function of the cursor (`none`: it panics). -/
structure Reader (α : Type) where
  extentBytes : Option Nat
  deserialize : ReadCursor → Option (Except DeserializeError α × ReadCursor)

/-- canadensis_encoding/src/cursor/deserialize.rs:282-302 `read_composite` -/
def ReadCursor.readComposite {α : Type} (c : ReadCursor) (t : Reader α) : Option (Except DeserializeError α × ReadCursor) :=
  let c := c.align
  let status :=
    if t.extentBytes.isSome then
      match c.readAlignedU32 with
      | none => none
      | some (length, c) =>
        if c.bytes.length < length.toNat then some (.error .delimitedLength, c)
        else
          match c.fork length.toNat with
          | none => none
          | some (forked, c) => (t.deserialize forked).map fun r => (r.1, c)
    else t.deserialize c
  status.map fun r => (r.1, r.2.align)

/-- canadensis_encoding/src/lib.rs:57-76 `deserialize_zero_copy` of a type of `size` bytes: its bytes and the cursor. -/
def ReadCursor.zeroCopy (c : ReadCursor) (size : Nat) : Option (List Byte × ReadCursor) :=
  match c.asBytes with
  | none => none
  | some bytes =>
    let n := min size bytes.length
    some (bytes.take n ++ List.replicate (size - n) 0, c.advanceBytes n)

/-! ### Writing -/

/-- canadensis_encoding/src/cursor/serialize.rs:8-24 `WriteCursor`: the whole buffer, the number of complete bytes
written, and the index of the next bit. -/
structure WriteCursor where
  bytes : List Byte
  bytesWritten : Nat
  bitIndex : Nat
deriving DecidableEq, Repr

namespace WriteCursor

/-- canadensis_encoding/src/cursor/serialize.rs:28-36 `new` -/
def new (bytes : List Byte) : WriteCursor := ⟨bytes.map fun _ => 0, 0, 0⟩

/-- `self.remaining_bytes()[i] = f(self.remaining_bytes()[i])`, with the panics of both indexings:
canadensis_encoding/src/cursor/serialize.rs:44-46, 105, 113, 114, 128. -/
def updateRemaining (c : WriteCursor) (i : Nat) (f : Byte → Byte) : Option WriteCursor :=
  if h : c.bytesWritten + i < c.bytes.length then
    some { c with bytes := c.bytes.set (c.bytesWritten + i) (f c.bytes[c.bytesWritten + i]) }
  else none

/-- canadensis_encoding/src/cursor/serialize.rs:49-51 `is_aligned_to_8_bits` -/
def isAligned (c : WriteCursor) : Bool := c.bitIndex == 0

/-- canadensis_encoding/src/cursor/serialize.rs:169-173 `check_length`: `false` if it panics
(`bytes.len() - bytes_written` panics if negative). -/
def checkLength (c : WriteCursor) (bits : Nat) : Bool :=
  decide (c.bytesWritten ≤ c.bytes.length) && decide ((c.bitIndex + bits) / 8 ≤ c.bytes.length - c.bytesWritten)

/-- canadensis_encoding/src/cursor/serialize.rs:177-183 `advance_bits` -/
def advanceBits (c : WriteCursor) (bits : Nat) : Option WriteCursor :=
  if c.checkLength bits then
    some { c with bitIndex := (c.bitIndex + bits) % 8, bytesWritten := c.bytesWritten + (c.bitIndex + bits) / 8 }
  else none

/-- canadensis_encoding/src/cursor/serialize.rs:185-188 `skip_bits` -/
def skipBits (c : WriteCursor) (bits : Nat) : Option WriteCursor :=
  if c.checkLength bits then c.advanceBits bits else none

/-- canadensis_encoding/src/cursor/serialize.rs:191-195 `align_to_8_bits` -/
def align (c : WriteCursor) : Option WriteCursor :=
  if c.bitIndex ≠ 0 then c.skipBits (8 - c.bitIndex) else some c

/-- canadensis_encoding/src/cursor/serialize.rs:90-118 `write_up_to_u8` -/
def writeUpToU8 (c : WriteCursor) (value : Byte) (bits : Nat) : Option WriteCursor :=
  if 8 < bits then none
  else if bits = 0 then some c
  else if c.checkLength bits then
    let value := value &&& mask8 bits
    if c.bitIndex ≤ 8 - bits then
      match c.updateRemaining 0 (· ||| (value <<< c.bitIndex)) with
      | none => none
      | some c => c.advanceBits bits
    else
      match c.updateRemaining 0 (· ||| (value <<< c.bitIndex)) with
      | none => none
      | some c' =>
        match c'.updateRemaining 1 (· ||| (value >>> (8 - c.bitIndex))) with
        | none => none
        | some c => c.advanceBits bits
  else none

/-- The loops over whole bytes of `write_up_to_u16`, `write_up_to_u32`, `write_up_to_u64`: the rest of the value and the cursor.
canadensis_encoding/src/cursor/serialize.rs:57-60, 69-72, 81-84. -/
def writeWhole {w : Nat} : Nat → WriteCursor → BitVec w → Option (BitVec w × WriteCursor)
  | 0, c, value => some (value, c)
  | k + 1, c, value =>
    match c.writeUpToU8 (value.setWidth 8) 8 with
    | none => none
    | some c => writeWhole k c (value >>> 8)

/-- canadensis_encoding/src/cursor/serialize.rs:54-87 `write_up_to_u64`, `write_up_to_u32`, `write_up_to_u16`, which are the same except for
the type of the value (`w` bits). -/
def writeUpTo {w : Nat} (c : WriteCursor) (value : BitVec w) (bits : Nat) : Option WriteCursor :=
  if w < bits then none
  else
    match writeWhole (bits / 8) c value with
    | none => none
    | some (value, c) => c.writeUpToU8 (value.setWidth 8) (bits % 8)

/-- The functions `write_u1` to `write_u64`: canadensis_encoding/src/cursor/serialize.rs:267-589.
Simplification: one function with the width as parameter, whose argument is extended to 64 bits; the functions of at most 8 bits take a
`u8`, of at most 16 bits a `u16`, of at most 32 bits a `u32`. -/
def writeU (c : WriteCursor) (n : Nat) (value : BitVec 64) : Option WriteCursor :=
  if n = 0 ∨ 64 < n then none
  else if n ≤ 8 then c.writeUpToU8 (value.setWidth 8) n
  else if n ≤ 16 then c.writeUpTo (value.setWidth 16) n
  else if n ≤ 32 then c.writeUpTo (value.setWidth 32) n
  else c.writeUpTo value n

/-- canadensis_encoding/src/cursor/serialize.rs:257-259 `write_bool` -/
def writeBool (c : WriteCursor) (value : Bool) : Option WriteCursor := c.writeU 1 (if value then 1 else 0)

/-- canadensis_encoding/src/cursor/serialize.rs:216-220 `write_bytes` -/
def writeBytes : List Byte → WriteCursor → Option WriteCursor
  | [], c => some c
  | b :: bs, c =>
    match c.writeU 8 (b.setWidth 64) with
    | none => none
    | some c => writeBytes bs c

/-- canadensis_encoding/src/cursor/serialize.rs:227-232 `write_aligned_bytes` -/
def writeAlignedBytes (c : WriteCursor) (bs : List Byte) : Option WriteCursor :=
  if c.bytes.length < c.bytesWritten then none
  else if c.bytes.length - c.bytesWritten < bs.length then none
  else
    { c with bytes := c.bytes.take c.bytesWritten ++ bs ++ c.bytes.drop (c.bytesWritten + bs.length) }.advanceBits
      (8 * bs.length)

/-- canadensis_encoding/src/cursor/serialize.rs:125-165 `write_aligned_u8`, `write_aligned_u16`, `write_aligned_u32`, `write_aligned_u64`
of `n` bytes: the assertion that the cursor is aligned, then the little-endian bytes of the value are copied. -/
def writeAlignedU (c : WriteCursor) (n : Nat) (value : BitVec 64) : Option WriteCursor :=
  if c.isAligned then
    c.writeAlignedBytes ((List.range n).map fun i => (value >>> (8 * i)).setWidth 8)
  else none

/-- canadensis_encoding/src/cursor/serialize.rs:262-264 `bits_written` -/
def bitsWritten (c : WriteCursor) : Nat := c.bytesWritten * 8 + c.bitIndex

end WriteCursor

/-- canadensis_encoding/src/lib.rs:19-23, 26-37 `DataType` and `Serialize` of a type: `EXTENT_BYTES`, `size_bits` and `serialize`, arbitrary functions. -/
structure Writer (α : Type) where
  extentBytes : Option Nat
  sizeBits : α → Nat
  serialize : α → WriteCursor → Option WriteCursor

/-- canadensis_encoding/src/cursor/serialize.rs:235-254 `write_composite` -/
def WriteCursor.writeComposite {α : Type} (c : WriteCursor) (t : Writer α) (value : α) : Option WriteCursor :=
  match c.align with
  | none => none
  | some c =>
    let headed :=
      if t.extentBytes.isSome then
        let size := (t.sizeBits value + 7) / 8
        if 2 ^ 32 ≤ size then none else c.writeU 32 (BitVec.ofNat 64 size)
      else some c
    match headed with
    | none => none
    | some c =>
      match t.serialize value c with
      | none => none
      | some c => c.align

/-! ### Bit arrays -/

/-- canadensis_encoding/src/bits.rs:13-16 `BitArray<BYTES>`; `BYTES` is the length of `bytes`. -/
structure BitArray where
  bytes : List Byte
  bitLength : Nat
deriving DecidableEq, Repr

namespace BitArray

/-- canadensis_encoding/src/bits.rs:20-26 `new` -/
def new (cap bitLength : Nat) : Option BitArray :=
  if bitLength ≤ cap * 8 then some ⟨List.replicate cap 0, bitLength⟩ else none

/-- canadensis_encoding/src/bits.rs:38-43 `get` with :114-120 `split_index` -/
def get (a : BitArray) (i : Nat) : Option Bool :=
  if i < a.bitLength then
    match a.bytes[i / 8]? with
    | none => none
    | some byte => some ((byte >>> (i % 8)) &&& 1 == 1)
  else none

/-- canadensis_encoding/src/bits.rs:46-55 `set` with :114-120 `split_index` -/
def set (a : BitArray) (i : Nat) (value : Bool) : Option BitArray :=
  if i < a.bitLength then
    match a.bytes[i / 8]? with
    | none => none
    | some byte =>
      let mask : Byte := 1#8 <<< (i % 8)
      some { a with bytes := a.bytes.set (i / 8) (if value then byte ||| mask else byte &&& ~~~mask) }
  else none

/-- canadensis_encoding/src/bits.rs:58-64 `fill` -/
def fill (a : BitArray) (value : Bool) : BitArray :=
  { a with bytes := a.bytes.map fun _ => if value then 0xff else 0x00 }

/-- The loop of `serialize`: canadensis_encoding/src/bits.rs:74-76. -/
def serializeLoop (a : BitArray) : List Nat → WriteCursor → Option WriteCursor
  | [], c => some c
  | i :: is, c =>
    match a.get i with
    | none => none
    | some b =>
      match c.writeBool b with
      | none => none
      | some c => serializeLoop a is c

/-- canadensis_encoding/src/bits.rs:70-78 `serialize` -/
def serialize (a : BitArray) (c : WriteCursor) : Option WriteCursor :=
  if a.bitLength = a.bytes.length * 8 ∧ c.isAligned then c.writeAlignedBytes a.bytes
  else serializeLoop a (List.range a.bitLength) c

/-- `self.bytes.fill_with(|| cursor.read_aligned_u8())` for `n` bytes: canadensis_encoding/src/bits.rs:84. -/
def fillBytes : Nat → ReadCursor → Option (List Byte × ReadCursor)
  | 0, c => some ([], c)
  | n + 1, c =>
    match c.readAlignedU8 with
    | none => none
    | some (b, c) => (fillBytes n c).map fun r => (b :: r.1, r.2)

/-- The loop of `deserialize_in_place`: canadensis_encoding/src/bits.rs:86-88. -/
def deserializeLoop : List Nat → BitArray → ReadCursor → Option (BitArray × ReadCursor)
  | [], a, c => some (a, c)
  | i :: is, a, c =>
    match c.readBool with
    | none => none
    | some (b, c) =>
      match a.set i b with
      | none => none
      | some a => deserializeLoop is a c

/-- canadensis_encoding/src/bits.rs:82-90 `deserialize_in_place` -/
def deserializeInPlace (a : BitArray) (c : ReadCursor) : Option (BitArray × ReadCursor) :=
  if a.bitLength % 8 = 0 ∧ c.isAligned then
    (fillBytes a.bytes.length c).map fun r => ({ a with bytes := r.1 }, r.2)
  else deserializeLoop (List.range a.bitLength) a c

/-- canadensis_encoding/src/bits.rs:95-99 `deserialize` -/
def deserialize (cap bitLength : Nat) (c : ReadCursor) : Option (BitArray × ReadCursor) :=
  match new cap bitLength with
  | none => none
  | some a => a.deserializeInPlace c

/-- canadensis_encoding/src/bits.rs:102-107 `iter` with :144-161: the values produced (`none` if `get` panics). -/
def iter (a : BitArray) : Option (List Bool) := (List.range a.bitLength).mapM a.get

/-- canadensis_encoding/src/bits.rs:204-218 `eq`; the arrays can have different capacities. -/
def eq (a b : BitArray) : Option Bool :=
  if a.bitLength = b.bitLength then
    match a.iter, b.iter with
    | some l, some r => some ((l.zip r).all fun p => p.1 == p.2)
    | _, _ => none
  else some false

/-- The loop of `compare`: canadensis_encoding/src/bits.rs:241-249. -/
def compareBits : List (Bool × Bool) → Ordering
  | [] => .eq
  | (true, false) :: _ => .gt
  | (false, true) :: _ => .lt
  | _ :: rest => compareBits rest

/-- canadensis_encoding/src/bits.rs:234-251 `compare` -/
def compare (a b : BitArray) : Option Ordering :=
  match Ord.compare a.bitLength b.bitLength with
  | .eq =>
    match a.iter, b.iter with
    | some l, some r => some (compareBits (l.zip r))
    | _, _ => none
  | o => some o

end BitArray

end Verif.Enc
