import Verif.Enc.Model
import Verif.Bls.Model

/-!
Model of the DSDL compiler: what `canadensis_dsdl_frontend` computes about the lengths of a data type, and the serialization functions
that `canadensis_codegen_rust` generates for it.

The generator is a function from a data type to Rust text; the model is a function from a data type to what that text does when it runs
(`size_bits`, `serialize`, `deserialize`), on the cursors of `Verif.Enc.Model` and the length sets of `Verif.Bls.Model`.

Left out: names, comments, constants (except those of a struct that becomes an enum), deprecation, the DSDL parser, `_offset_` and
assertions, and the checks that only reject a definition.
-/

namespace Verif.Dsdl

open Verif.Enc Verif.Bls

/-! ### Data types -/

/-- `PrimitiveType` (canadensis_dsdl_frontend/src/types.rs L288-305). The cast mode of floating point types does not matter: a value of the Rust
type always fits. -/
inductive Prim where
  | boolean
  | utf8
  | byte
  | int (bits : Nat)
  | uint (bits : Nat) (saturated : Bool)
  | float16
  | float32
  | float64
deriving DecidableEq, Repr

/-- Whether a field is a scalar, an array of fixed length, or an array of variable length: the cases of `ResolvedType`
(canadensis_dsdl_frontend/src/types.rs L494-506). -/
inductive Arity where
  | scalar
  | fixed (len : Nat)
  | var (maxLen : Nat)
deriving DecidableEq, Repr

mutual
/-- `ResolvedScalarType` (canadensis_dsdl_frontend/src/types.rs L570-578) without `Void`. DSDL does not
allow data fields of that type; the compiler accepts them (`C87_counterexample_void`), and the code generated for them is left out. -/
inductive Scalar where
  | prim (p : Prim)
  | composite (m : Message)
/-- The fields of a `Struct` in order (canadensis_dsdl_frontend/src/compiled.rs L92-95, L106-183; `FieldKind`). -/
inductive Fields where
  | nil
  | padding (bits : Nat) (rest : Fields)
  | data (s : Scalar) (a : Arity) (rest : Fields)
/-- The variants of a `Union` in order (canadensis_dsdl_frontend/src/compiled.rs L97-104, L188-216). -/
inductive Variants where
  | nil
  | cons (s : Scalar) (a : Arity) (rest : Variants)
/-- `Message` (canadensis_dsdl_frontend/src/compiled.rs L30-90). `extent` is the number of bits of a delimited type and `none` for a sealed type.
`request` is whether it is the request of a service; those are finished by another function of the compiler. `enum` is a struct with one
unsigned integer field of `bits` bits for which a Rust enum is generated (canadensis_codegen_rust/src/struct_as_enum.rs); `values` are the
values of its constants. -/
inductive Message where
  | struct (extent : Option Nat) (request : Bool) (fields : Fields)
  | union (extent : Option Nat) (request : Bool) (variants : Variants)
  | enum (extent : Option Nat) (request : Bool) (bits : Nat) (values : List Nat)
end

/-- `Message::extent` (canadensis_dsdl_frontend/src/compiled.rs L51-53). -/
def Message.extent : Message → Option Nat
  | .struct e _ _ => e
  | .union e _ _ => e
  | .enum e _ _ _ => e

/-- Whether the message is the request of a service (canadensis_dsdl_frontend/src/compile.rs L459-510). -/
def Message.request : Message → Bool
  | .struct _ r _ => r
  | .union _ r _ => r
  | .enum _ r _ _ => r

/-! ### Lengths -/

/-- `PrimitiveType::bit_length` (canadensis_dsdl_frontend/src/types.rs L322-331). -/
def Prim.bits : Prim → Nat
  | .boolean => 1
  | .utf8 => 8
  | .byte => 8
  | .int bits => bits
  | .uint bits _ => bits
  | .float16 => 16
  | .float32 => 32
  | .float64 => 64

/-- `bit_length` (canadensis_dsdl_frontend/src/types.rs L137-139). -/
def bitLength (value : Nat) : Nat := if value = 0 then 0 else value.log2 + 1

/-- `array_length_bits` and `round_up_length` (canadensis_dsdl_frontend/src/types.rs L131-142). -/
def arrayLengthBits (maxItems : Nat) : Nat := (max (bitLength maxItems) 8).nextPowerOfTwo

/-- `ResolvedScalarType::alignment` and `ResolvedType::alignment` (canadensis_dsdl_frontend/src/types.rs L519-526, L591-596, COMPOSITE_ALIGNMENT = 8). -/
def Scalar.alignment : Scalar → Nat
  | .prim _ => 1
  | .composite _ => 8

/-- `ResolvedScalarType::extent` (canadensis_dsdl_frontend/src/types.rs L601-607). -/
def Scalar.extent : Scalar → Option Nat
  | .prim _ => none
  | .composite m => m.extent

/-- `ResolvedType::implicit_field` and `ResolvedScalarType::implicit_field`: the bits of the delimiter header or length field
(canadensis_dsdl_frontend/src/types.rs L529-543, L610-618). -/
def implicitBits (s : Scalar) : Arity → Option Nat
  | .scalar => if s.extent.isSome then some 32 else none
  | .fixed _ => none
  | .var maxLen => some (arrayLengthBits maxLen)

/-- `ResolvedType::size` (canadensis_dsdl_frontend/src/types.rs L510-518), given the size of the scalar. -/
def Arity.size (inner : BitLengthSet) : Arity → BitLengthSet
  | .scalar => inner
  | .fixed len => inner.repeatTimes len
  | .var maxLen => inner.repeatRange maxLen

/-- The total length of a field with its implicit field (canadensis_dsdl_frontend/src/compile.rs L310-325). The alignment computed there is the
maximum of the alignment of the type and 1. -/
def fieldTotal (s : Scalar) (size : BitLengthSet) (a : Arity) : BitLengthSet :=
  match implicitBits s a with
  | some bits => (a.size size).concatenate [.single bits]
  | none => a.size size

/-- The length of the struct before a field: no field yet (`State::Message`) stands for 0 (canadensis_dsdl_frontend/src/compile.rs L576-590,
L892-900). -/
def lengthSoFar : Option BitLengthSet → BitLengthSet
  | none => .single 0
  | some l => l

/-- `add_padding_field` (canadensis_dsdl_frontend/src/compile.rs L512-556). -/
def afterPadding (bits : Nat) : Option BitLengthSet → BitLengthSet
  | none => .single bits
  | some l => l.concatenate [.single bits]

/-- `add_field` in a struct: `update_struct_length` (canadensis_dsdl_frontend/src/compile.rs L567-590, L599-623). -/
def afterData (s : Scalar) (size : BitLengthSet) (a : Arity) (l : Option BitLengthSet) : BitLengthSet :=
  (((lengthSoFar l).padToAlignment s.alignment).concatenate [fieldTotal s size a]).padToAlignment s.alignment

/-- `always_aligned` of a field: `true` for the first, otherwise whether the length before is a whole number of bytes
(canadensis_dsdl_frontend/src/compile.rs L577, L585, L604, L618). -/
def alwaysAligned : Option BitLengthSet → Bool
  | none => true
  | some l => l.isByteAligned

/-- `variants.map(size).reduce(|a, b| a.unite([b])).unwrap_or(single(0))` (canadensis_dsdl_frontend/src/compile.rs L998-1002). -/
def reduceUnite : List BitLengthSet → BitLengthSet
  | [] => .single 0
  | x :: xs => xs.foldl (fun a b => a.unite [b]) x

/-- The number of variants (canadensis_dsdl_frontend/src/compile.rs L994). -/
def Variants.count : Variants → Nat
  | .nil => 0
  | .cons _ _ rest => rest.count + 1

/-- `calculate_discriminant_bits` (canadensis_dsdl_frontend/src/compile.rs L981-989). -/
def Variants.tagBits (vs : Variants) : Nat := arrayLengthBits vs.count

mutual
/-- `ResolvedScalarType::size` (canadensis_dsdl_frontend/src/types.rs L581-589). -/
def Scalar.size : Scalar → BitLengthSet
  | .prim p => .single p.bits
  | .composite m => m.bitLength
/-- The length of a struct after its fields: the state of the compiler after `add_field` and `add_padding_field` for each of them
(canadensis_dsdl_frontend/src/compile.rs L512-653). -/
def Fields.lengthFrom : Fields → Option BitLengthSet → Option BitLengthSet
  | .nil, l => l
  | .padding bits rest, l => rest.lengthFrom (some (afterPadding bits l))
  | .data s a rest, l => rest.lengthFrom (some (afterData s s.size a l))
/-- The sizes of the variants: `variants.iter().map(|variant| variant.ty().size())` (canadensis_dsdl_frontend/src/compile.rs L996-998). -/
def Variants.sizes : Variants → List BitLengthSet
  | .nil => []
  | .cons s a rest => a.size s.size :: rest.sizes
/-- `Message::bit_length` as set by `finish` and, for a request, by `handle_service_response_marker`, which does not pad
(canadensis_dsdl_frontend/src/compile.rs L459-492, L712-780); `make_union_bit_length` (L993-1005). -/
def Message.bitLength : Message → BitLengthSet
  | .struct _ request fields =>
    let l := lengthSoFar (fields.lengthFrom none)
    if request then l else l.padToAlignment 8
  | .union _ request variants =>
    let l := (BitLengthSet.single variants.tagBits).concatenate [reduceUnite variants.sizes]
    if request then l else l.padToAlignment 8
  | .enum _ request bits _ =>
    let l := afterData (.prim (.uint bits true)) (.single bits) .scalar none
    if request then l else l.padToAlignment 8
end

/-! ### Values -/

/-- A value of a generated Rust type. The model is untyped; `Message.Has` in `Verif.Dsdl.Spec` says which values are of which type
(canadensis_codegen_rust/src/lib.rs L581-635: `to_rust_type`, `scalar_to_rust_type`).

* `bool`, and `bits` for an array of `bool`;
* `num` for an unsigned integer, and for a floating point number as its bit pattern;
* `int` for a signed integer;
* `list` for an array, `record` for a struct with its fields in order, `variant i v` for variant `i` of a union, and `tag d` for the variant of
an enum with discriminant `d`. -/
inductive Val where
  | bool (b : Bool)
  | num (n : Nat)
  | int (z : Int)
  | bits (a : BitArray)
  | list (vs : List Val)
  | record (vs : List Val)
  | variant (i : Nat) (v : Val)
  | tag (d : Nat)

/-- `round_up_integer_size` (canadensis_codegen_rust/src/lib.rs L637-645). -/
def roundUpIntegerSize (bits : Nat) : Nat := if bits ≤ 8 then 8 else if bits ≤ 16 then 16 else if bits ≤ 32 then 32 else 64

/-- The number handed to a write function for a primitive value, extended to 64 bits: the value, `as u<n>` for a signed integer, `to_bits` for a
floating point number (canadensis_codegen_rust/src/impl_serialize.rs L505-527, L536-551; canadensis_encoding/src/cursor/serialize.rs L199-213, L257-259).
`none` if the value is not of the type, which the Rust compiler excludes. -/
def Prim.word : Prim → Val → Option (BitVec 64)
  | .boolean, .bool b => some (if b then 1 else 0)
  | .int _, .int z => some (BitVec.ofInt 64 z)
  | .boolean, _ => none
  | .int _, _ => none
  | _, .num n => some (BitVec.ofNat 64 n)
  | _, _ => none

/-- What is made of the number that a read function returned: `as i<n>` reinterprets it in the width of the Rust type, without extending the
sign of a narrower field (canadensis_codegen_rust/src/impl_deserialize.rs L208-229, L254-259). -/
def Prim.ofWord : Prim → Nat → Val
  | .boolean, x => .bool (x == 1)
  | .int bits, x => .int (BitVec.ofNat (roundUpIntegerSize bits) x).toInt
  | _, x => .num x

/-! ### `size_bits` -/

/-- `next_multiple_of` (std). -/
def nextMultipleOf (n k : Nat) : Nat := (n + k - 1) / k * k

/-- The bits of a delimiter header, if there is one (canadensis_codegen_rust/src/size_bits.rs L141-144, L176-179). -/
def headerBits (extent : Option Nat) : Nat := if extent.isSome then 32 else 0

/-- The values in an array and their number: `len()` and `iter()` of an array, a `heapless::Vec` or a `BitArray`
(canadensis_codegen_rust/src/size_bits.rs L145-163). -/
def Val.len : Val → Nat
  | .list vs => vs.length
  | .bits a => a.bitLength
  | _ => 0

/-- `iter()` of an array (canadensis_codegen_rust/src/size_bits.rs L155-163). -/
def Val.elements : Val → List Val
  | .list vs => vs
  | _ => []

/-- `WriteArrayElementSizes` (canadensis_codegen_rust/src/size_bits.rs L132-165): `one` is the size of an element by `WriteScalarSize`. -/
def elementSizes (s : Scalar) (size : BitLengthSet) (one : Val → Nat) (v : Val) : Nat :=
  if size.minValue = size.maxValue then v.len * nextMultipleOf (headerBits s.extent + size.minValue) s.alignment
  else (v.elements.map one).sum

/-- `WriteFieldSize` (canadensis_codegen_rust/src/size_bits.rs L86-125). -/
def fieldSize (s : Scalar) (size : BitLengthSet) (one : Val → Nat) (v : Val) : Arity → Nat
  | .scalar => one v
  | .fixed _ => elementSizes s size one v
  | .var maxLen => arrayLengthBits maxLen + elementSizes s size one v

/-- The fields of a struct value. -/
def Val.fields : Val → List Val
  | .record vs => vs
  | _ => []

/-- The number of the variant of a union value and what it holds (0 and the value itself if it is not a union). -/
def Val.choice : Val → Nat × Val
  | .variant i v => (i, v)
  | v => (0, v)

mutual
/-- `WriteScalarSize` (canadensis_codegen_rust/src/size_bits.rs L172-213). -/
def Scalar.sizeBits : Scalar → Val → Nat
  | .prim p, _ => p.bits
  | .composite m, v =>
    headerBits m.extent +
      if m.bitLength.minValue = m.bitLength.maxValue then nextMultipleOf m.bitLength.minValue 8 else nextMultipleOf (m.sizeBits v) 8
/-- The sum over the fields in `write_complex_size_expression` (canadensis_codegen_rust/src/size_bits.rs L30-50). -/
def Fields.sizeBits : Fields → List Val → Nat
  | .nil, _ => 0
  | .padding bits rest, vs => bits + rest.sizeBits vs
  | .data s a rest, vs => fieldSize s s.size s.sizeBits (vs.headD (.bool false)) a + rest.sizeBits vs.tail
/-- The match over the variants in `write_complex_size_expression` (canadensis_codegen_rust/src/size_bits.rs L51-76). -/
def Variants.sizeBits : Variants → Nat → Val → Nat
  | .nil, _, _ => 0
  | .cons s a _, 0, v => fieldSize s s.size s.sizeBits v a
  | .cons _ _ rest, i + 1, v => rest.sizeBits i v
/-- `size_bits` of a generated type: `SizeBitsExpr` (canadensis_codegen_rust/src/size_bits.rs L12-79). The size of an enum made from a struct is always
fixed; for a type of variable size the expression for it would not compile. -/
def Message.sizeBits : Message → Val → Nat
  | .struct e r fields, v =>
    let l := (Message.struct e r fields).bitLength
    if l.minValue = l.maxValue then l.minValue else fields.sizeBits v.fields
  | .union e r variants, v =>
    let l := (Message.union e r variants).bitLength
    if l.minValue = l.maxValue then l.minValue else variants.tagBits + variants.sizeBits v.choice.1 v.choice.2
  | .enum e r bits values, _ => (Message.enum e r bits values).bitLength.minValue
end

/-! ### Zero-copy types -/

/-- `scalar_supports_zero_copy` for a primitive type (canadensis_codegen_rust/src/lib.rs L470-481). -/
def Prim.zeroCopy : Prim → Bool
  | .boolean => false
  | .int bits => bits == 8 || bits == 16 || bits == 32 || bits == 64
  | .uint bits _ => bits == 8 || bits == 16 || bits == 32 || bits == 64
  | _ => true

/-- `type_supports_zero_copy` (canadensis_codegen_rust/src/lib.rs L459-465), given the answer for the scalar. -/
def Arity.zeroCopy (inner : Bool) : Arity → Bool
  | .scalar => inner
  | .fixed _ => inner
  | .var _ => false

mutual
/-- `scalar_supports_zero_copy` (canadensis_codegen_rust/src/lib.rs L467-483). -/
def Scalar.zeroCopy : Scalar → Bool
  | .prim p => p.zeroCopy
  | .composite m => m.nestedZeroCopy
/-- The loop over the fields in `message_supports_zero_copy` (canadensis_codegen_rust/src/lib.rs L491-505). -/
def Fields.nestedZeroCopy : Fields → Option BitLengthSet → Bool
  | .nil, _ => true
  | .padding _ _, _ => false
  | .data s a rest, l => alwaysAligned l && a.zeroCopy s.zeroCopy && rest.nestedZeroCopy (some (afterData s s.size a l))
/-- `message_supports_zero_copy` (canadensis_codegen_rust/src/lib.rs L485-508): for the type of a field. An enum made from a struct is a struct
here. -/
def Message.nestedZeroCopy : Message → Bool
  | .struct e r fields => (Message.struct e r fields).bitLength.isFixedSize && fields.nestedZeroCopy none
  | .union _ _ _ => false
  | .enum e r bits values => (Message.enum e r bits values).bitLength.isFixedSize && (Prim.uint bits true).zeroCopy
end

/-- The loop over the fields in `GeneratedType::supports_zero_copy` (canadensis_codegen_rust/src/lib.rs L415-425). -/
def Fields.zeroCopy : Fields → Bool
  | .nil => true
  | .padding _ _ => false
  | .data s a rest => a.zeroCopy s.zeroCopy && rest.zeroCopy

/-- `GeneratedType::supports_zero_copy` (canadensis_codegen_rust/src/lib.rs L403-430): for the generated type itself. -/
def Message.zeroCopy : Message → Bool
  | .struct e r fields => (Message.struct e r fields).bitLength.isFixedSize && fields.zeroCopy
  | _ => false

/-- The little-endian bytes of a number. -/
def leBytes (n : Nat) (x : BitVec 64) : List Byte := (List.range n).map fun i => (x >>> (8 * i)).setWidth 8

/-- The bytes of every element, one after the other (`none` if one is not of the type). -/
def imageEach (one : Val → Option (List Byte)) : List Val → Option (List Byte)
  | [] => some []
  | v :: vs =>
    match one v, imageEach one vs with
    | some b, some bs => some (b ++ bs)
    | _, _ => none

mutual
/-- `zerocopy::IntoBytes::as_bytes` of a `#[repr(C, packed)]` struct on a little-endian machine: the bytes of its fields one after the other
(canadensis_codegen_rust/src/lib.rs L786-789; zerocopy is not in /repo). `none` for values that are not of the type, and for a union or an enum in a
zero-copy struct: that code does not compile. -/
def Scalar.image : Scalar → Val → Option (List Byte)
  | .prim p, v => (p.word v).map (leBytes (p.bits / 8))
  | .composite m, v => m.image v
/-- The bytes of the fields of a `#[repr(C, packed)]` struct (canadensis_codegen_rust/src/lib.rs L786-789). -/
def Fields.image : Fields → List Val → Option (List Byte)
  | .nil, [] => some []
  | .data s a rest, v :: vs =>
    let first :=
      match a, v with
      | .scalar, v => s.image v
      | .fixed _, .list es => imageEach s.image es
      | _, _ => none
    match first, rest.image vs with
    | some b, some bs => some (b ++ bs)
    | _, _ => none
  | _, _ => none
/-- The bytes of a `#[repr(C, packed)]` struct (canadensis_codegen_rust/src/lib.rs L786-789). -/
def Message.image : Message → Val → Option (List Byte)
  | .struct _ _ fields, .record vs => fields.image vs
  | _, _ => none
end

mutual
/-- `size_of` of the Rust type of a field in a zero-copy struct, in bytes (canadensis_codegen_rust/src/lib.rs L786-789). -/
def Scalar.memSize : Scalar → Nat
  | .prim p => p.bits / 8
  | .composite m => m.memSize
/-- `size_of` of the fields of a zero-copy struct (canadensis_codegen_rust/src/lib.rs L786-789). -/
def Fields.memSize : Fields → Nat
  | .nil => 0
  | .padding _ rest => rest.memSize
  | .data s a rest => (match a with | .scalar => s.memSize | .fixed len => len * s.memSize | .var _ => 0) + rest.memSize
/-- `size_of` of a zero-copy struct (canadensis_codegen_rust/src/lib.rs L786-789). -/
def Message.memSize : Message → Nat
  | .struct _ _ fields => fields.memSize
  | _ => 0
end

/-- The number with the given little-endian bytes. -/
def ofLeBytes : List Byte → Nat
  | [] => 0
  | b :: bs => b.toNat + 256 * ofLeBytes bs

/-- Loads `n` values one after the other. -/
def loadEach (one : List Byte → Val × List Byte) : Nat → List Byte → List Val × List Byte
  | 0, bs => ([], bs)
  | n + 1, bs =>
    let r := one bs
    let rs := loadEach one n r.2
    (r.1 :: rs.1, rs.2)

mutual
/-- `zerocopy::FromBytes` of the type of a field: the value in the first bytes, and the bytes after it
(canadensis_encoding/src/lib.rs L57-76; zerocopy is not in /repo). -/
def Scalar.load : Scalar → List Byte → Val × List Byte
  | .prim p, bs => (p.ofWord (ofLeBytes (bs.take (p.bits / 8))), bs.drop (p.bits / 8))
  | .composite m, bs => m.load bs
/-- The fields of a `#[repr(C, packed)]` struct from its bytes (canadensis_encoding/src/lib.rs L57-76). -/
def Fields.load : Fields → List Byte → List Val × List Byte
  | .nil, bs => ([], bs)
  | .padding _ rest, bs => rest.load bs
  | .data s a rest, bs =>
    let first :=
      match a with
      | .scalar => s.load bs
      | .fixed len => let r := loadEach s.load len bs; (.list r.1, r.2)
      | .var _ => (.list [], bs)
    let others := rest.load first.2
    (first.1 :: others.1, others.2)
/-- A `#[repr(C, packed)]` struct from its bytes (canadensis_encoding/src/lib.rs L57-76). -/
def Message.load : Message → List Byte → Val × List Byte
  | .struct _ _ fields, bs => let r := fields.load bs; (.record r.1, r.2)
  | _, bs => (.record [], bs)
end

/-! ### `serialize` -/

/-- `CallWriteAligned` (canadensis_codegen_rust/src/impl_serialize.rs L505-528). -/
def writeUIntAligned (bits : Nat) (x : BitVec 64) (c : WriteCursor) : Option WriteCursor :=
  if bits = 8 ∨ bits = 16 ∨ bits = 32 ∨ bits = 64 then c.writeAlignedU (bits / 8) x else c.writeU bits x

/-- The statement for a primitive field: `WriteAlignedField` and `WriteUnalignedField` (canadensis_codegen_rust/src/impl_serialize.rs L187-228, L310-348). -/
def Prim.write (aligned : Bool) : Prim → BitVec 64 → WriteCursor → Option WriteCursor
  | .boolean, x, c => c.writeBool (x == 1)
  | .float16, x, c => c.writeU 16 x
  | .float32, x, c => c.writeU 32 x
  | .float64, x, c => c.writeU 64 x
  | p, x, c => if aligned then writeUIntAligned p.bits x c else c.writeU p.bits x

/-- Writes every element with the same function: the loops of `WriteArrayElements` (canadensis_codegen_rust/src/impl_serialize.rs L423-497). -/
def writeEach (one : Val → WriteCursor → Option WriteCursor) : List Val → WriteCursor → Option WriteCursor
  | [], c => some c
  | v :: vs, c =>
    match one v c with
    | none => none
    | some c => writeEach one vs c

/-- Whether an array of the type is written with `write_bytes` (canadensis_codegen_rust/src/impl_serialize.rs L454-457). -/
def Scalar.isByte : Scalar → Bool
  | .prim .utf8 => true
  | .prim .byte => true
  | .prim (.uint 8 _) => true
  | _ => false

/-- The byte in an element of a byte array. -/
def Val.toByte : Val → Byte
  | .num n => BitVec.ofNat 8 n
  | _ => 0

/-- `WriteArrayElements` (canadensis_codegen_rust/src/impl_serialize.rs L423-497), for an array that is not of `bool`. -/
def writeElements (s : Scalar) (one : Val → WriteCursor → Option WriteCursor) (vs : List Val) (c : WriteCursor) : Option WriteCursor :=
  if s.isByte then WriteCursor.writeBytes (vs.map Val.toByte) c else writeEach one vs c

/-- The write of the length of an array (canadensis_codegen_rust/src/impl_serialize.rs L241-248, L265-272, L363-370, L386-393). -/
def writeLength (aligned : Bool) (maxLen len : Nat) (c : WriteCursor) : Option WriteCursor :=
  if aligned then writeUIntAligned (arrayLengthBits maxLen) (BitVec.ofNat 64 len) c else c.writeU (arrayLengthBits maxLen) (BitVec.ofNat 64 len)

/-- The statements for a field of any type: `WriteAlignedField` (`aligned`) and `WriteUnalignedField`
(canadensis_codegen_rust/src/impl_serialize.rs L181-297, L304-416). `one aligned` writes a value of the scalar type; in arrays the unaligned
functions are used. `none` also for a value that is not of the type. -/
def writeField (s : Scalar) (one : Bool → Val → WriteCursor → Option WriteCursor) (aligned : Bool) (v : Val) (c : WriteCursor) :
    Arity → Option WriteCursor
  | .scalar => one aligned v c
  | .fixed _ =>
    match v with
    | .bits a => a.serialize c
    | .list vs => writeElements s (one false) vs c
    | _ => none
  | .var maxLen =>
    match v with
    | .bits a =>
      match writeLength aligned maxLen a.bitLength c with
      | none => none
      | some c => a.serialize c
    | .list vs =>
      match writeLength aligned maxLen vs.length c with
      | none => none
      | some c => writeElements s (one false) vs c
    | _ => none

mutual
/-- The statement for one scalar value (canadensis_codegen_rust/src/impl_serialize.rs L183-229, L306-350, L425-497). -/
def Scalar.write : Scalar → Bool → Val → WriteCursor → Option WriteCursor
  | .prim p, aligned, v, c =>
    match p.word v with
    | none => none
    | some x => p.write aligned x c
  | .composite m, _, v, c => c.writeComposite ⟨m.extent.map (· / 8), m.sizeBits, m.serialize⟩ v
/-- The statements for the fields of a struct: `SerializeField` (canadensis_codegen_rust/src/impl_serialize.rs L107-132). The length so far decides which
functions are used. -/
def Fields.serialize : Fields → Option BitLengthSet → List Val → WriteCursor → Option WriteCursor
  | .nil, _, [], c => some c
  | .padding bits rest, l, vs, c =>
    match c.skipBits bits with
    | none => none
    | some c => rest.serialize (some (afterPadding bits l)) vs c
  | .data s a rest, l, v :: vs, c =>
    match writeField s s.write (alwaysAligned l) v c a with
    | none => none
    | some c => rest.serialize (some (afterData s s.size a l)) vs c
  | _, _, _, _ => none
/-- The statement for the value of variant `i` of a union: `SerializeVariant` and `WriteVariant` (canadensis_codegen_rust/src/impl_serialize.rs L136-174). -/
def Variants.serialize : Variants → Nat → Val → WriteCursor → Option WriteCursor
  | .nil, _, _, _ => none
  | .cons s a _, 0, v, c => writeField s s.write true v c a
  | .cons _ _ rest, i + 1, v, c => rest.serialize i v c
/-- The generated `serialize` (canadensis_codegen_rust/src/impl_serialize.rs L16-97). The discriminant of a union is written with the aligned function if there
is one for its width (L62-75, L101-103). -/
def Message.serialize : Message → Val → WriteCursor → Option WriteCursor
  | .struct e r fields, .record vs, c =>
    if (Message.struct e r fields).zeroCopy then
      match fields.image vs with
      | none => none
      | some bytes => c.writeAlignedBytes bytes
    else fields.serialize none vs c
  | .union _ _ variants, .variant i v, c =>
    match writeUIntAligned variants.tagBits (BitVec.ofNat 64 i) c with
    | none => none
    | some c => variants.serialize i v c
  | .enum _ _ bits values, .tag d, c => if d ∈ values then writeUIntAligned bits (BitVec.ofNat 64 d) c else none
  | _, _, _ => none
end

/-- The generated `Serialize` implementation of a type (canadensis_codegen_rust/src/impl_serialize.rs L16-97, impl_data_type.rs L11-42). -/
def Message.writer (m : Message) : Writer Val := ⟨m.extent.map (· / 8), m.sizeBits, m.serialize⟩

/-! ### `deserialize` -/

/-- The result of reading: `none` for a panic, otherwise a value or an error, and the cursor. -/
abbrev Rd (α : Type) := Option (Except DeserializeError α × ReadCursor)

/-- The operator `?` and sequencing. -/
def andThen {α β : Type} (r : Rd α) (f : α → ReadCursor → Rd β) : Rd β :=
  match r with
  | none => none
  | some (.error e, c) => some (.error e, c)
  | some (.ok a, c) => f a c

/-- A read that cannot fail with an error. -/
def okRead {α β : Type} (f : α → β) (r : Option (α × ReadCursor)) : Rd β := r.map fun x => (.ok (f x.1), x.2)

/-- `CallReadAligned` (canadensis_codegen_rust/src/impl_deserialize.rs L231-247). -/
def readUIntAligned (bits : Nat) (c : ReadCursor) : Option (Nat × ReadCursor) :=
  if bits = 8 then c.readAlignedU8.map fun r => (r.1.toNat, r.2)
  else if bits = 16 then c.readAlignedU16.map fun r => (r.1.toNat, r.2)
  else if bits = 32 then c.readAlignedU32.map fun r => (r.1.toNat, r.2)
  else if bits = 64 then c.readAlignedU64.map fun r => (r.1.toNat, r.2)
  else (c.readU bits).map fun r => (r.1.toNat, r.2)

/-- `CallRead` (canadensis_codegen_rust/src/impl_deserialize.rs L250-259). -/
def readUInt (bits : Nat) (c : ReadCursor) : Option (Nat × ReadCursor) := (c.readU bits).map fun r => (r.1.toNat, r.2)

/-- The same read `n` times: the array literal and the loop in `ReadUnalignedField` (canadensis_codegen_rust/src/impl_deserialize.rs L157-164, L178-190). -/
def readTimes (one : ReadCursor → Rd Val) : Nat → ReadCursor → Rd (List Val)
  | 0, c => some (.ok [], c)
  | n + 1, c => andThen (one c) fun v c => andThen (readTimes one n c) fun vs c => some (.ok (v :: vs), c)

/-- Whether the type is `bool` (canadensis_codegen_rust/src/impl_deserialize.rs L132-155). -/
def Scalar.isBool : Scalar → Bool
  | .prim .boolean => true
  | _ => false

/-- `length` in `let length = cursor.read_u<n>() as _; if length <= max { .. for _ in 0..length`: nothing fixes the type of `length`, so it is
`i32` (canadensis_codegen_rust/src/impl_deserialize.rs L170-182). With a maximum of 2^31 or more the literal does not fit and the code does not
compile. -/
def asI32 (x : Nat) : Int := (BitVec.ofNat 32 x).toInt

/-- The expression for a field of any type: `ReadUnalignedField` (canadensis_codegen_rust/src/impl_deserialize.rs L128-202). The capacity of a bit array is
the number of bytes of its length (canadensis_codegen_rust/src/lib.rs L594-596). Pushing to a `heapless::Vec` does not fail: its capacity is `maxLen`. -/
def readField (s : Scalar) (one : ReadCursor → Rd Val) (c : ReadCursor) : Arity → Rd Val
  | .scalar => one c
  | .fixed len =>
    if s.isBool then okRead Val.bits (BitArray.deserialize ((len + 7) / 8) len c)
    else andThen (readTimes one len c) fun vs c => some (.ok (.list vs), c)
  | .var maxLen =>
    match readUInt (arrayLengthBits maxLen) c with
    | none => none
    | some (length, c) =>
      if s.isBool then okRead Val.bits (BitArray.deserialize ((maxLen + 7) / 8) length c)
      else if asI32 length ≤ maxLen then andThen (readTimes one (asI32 length).toNat c) fun vs c => some (.ok (.list vs), c)
      else some (.error .arrayLength, c)

/-- The reads of a primitive type (canadensis_codegen_rust/src/impl_deserialize.rs L213-226). -/
def Prim.read (p : Prim) (c : ReadCursor) : Rd Val :=
  match p with
  | .boolean => okRead Val.bool c.readBool
  | p => okRead p.ofWord (readUInt p.bits c)

mutual
/-- `ReadUnalignedScalar` (canadensis_codegen_rust/src/impl_deserialize.rs L208-229). -/
def Scalar.read : Scalar → ReadCursor → Rd Val
  | .prim p, c => p.read c
  | .composite m, c => c.readComposite ⟨m.extent.map (· / 8), m.deserialize⟩
/-- The fields of the struct literal in `deserialize_struct` (canadensis_codegen_rust/src/impl_deserialize.rs L50-77): padding is skipped before the next data
field. -/
def Fields.deserialize : Fields → List Nat → ReadCursor → Rd (List Val)
  | .nil, _, c => some (.ok [], c)
  | .padding bits rest, pending, c => rest.deserialize (pending ++ [bits]) c
  | .data s a rest, pending, c =>
    andThen (readField s s.read (pending.foldl ReadCursor.advanceBits c) a) fun v c =>
      andThen (rest.deserialize [] c) fun vs c => some (.ok (v :: vs), c)
/-- The match on the discriminant in `deserialize_enum` (canadensis_codegen_rust/src/impl_deserialize.rs L83-122), from variant number `k` on. -/
def Variants.deserialize : Variants → Nat → Nat → ReadCursor → Rd Val
  | .nil, _, _, c => some (.error .unionTag, c)
  | .cons s a rest, k, tag, c =>
    if tag = k then andThen (readField s s.read c a) fun v c => some (.ok (.variant k v), c) else rest.deserialize (k + 1) tag c
/-- The generated `deserialize` (canadensis_codegen_rust/src/impl_deserialize.rs L17-122; `deserialize_zero_copy`: canadensis_encoding/src/lib.rs L57-76). -/
def Message.deserialize : Message → ReadCursor → Rd Val
  | .struct e r fields, c =>
    if (Message.struct e r fields).zeroCopy then okRead (fun bytes => Val.record (fields.load bytes).1) (c.zeroCopy fields.memSize)
    else andThen (fields.deserialize [] c) fun vs c => some (.ok (.record vs), c)
  | .union _ _ variants, c =>
    match readUIntAligned variants.tagBits c with
    | none => none
    | some (tag, c) => variants.deserialize 0 tag c
  | .enum _ _ bits values, c =>
    match readUIntAligned bits c with
    | none => none
    | some (d, c) => if d ∈ values then some (.ok (.tag d), c) else some (.error .unionTag, c)
end

/-- The generated `Deserialize` implementation of a type (canadensis_codegen_rust/src/impl_deserialize.rs L17-38). -/
def Message.reader (m : Message) : Reader Val := ⟨m.extent.map (· / 8), m.deserialize⟩

end Verif.Dsdl
