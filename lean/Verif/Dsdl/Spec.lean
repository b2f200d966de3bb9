import Verif.Dsdl.Model
import Verif.Enc.BitArrayProps
import Mathlib.Data.List.Forall2

/-!
Specification of the DSDL serialization format, from the Cyphal specification and without the length sets of the compiler: which values a type
has, and the bits of a value.
-/

namespace Verif.Dsdl

open Verif.Enc Verif.Bls

/-! ### The values of a type -/

/-- A value of the Rust type of a primitive type. -/
def Prim.has : Prim → Val → Bool
  | .boolean, .bool _ => true
  | .int bits, .int z => decide (-2 ^ (roundUpIntegerSize bits - 1) ≤ z ∧ z < 2 ^ (roundUpIntegerSize bits - 1))
  | .uint bits _, .num n => decide (n < 2 ^ roundUpIntegerSize bits)
  | .utf8, .num n => decide (n < 2 ^ 8)
  | .byte, .num n => decide (n < 2 ^ 8)
  | .float16, .num n => decide (n < 2 ^ 16)
  | .float32, .num n => decide (n < 2 ^ 32)
  | .float64, .num n => decide (n < 2 ^ 64)
  | _, _ => false

/-- A value of the Rust type of a field: an array of `bool` is a bit array with space for the greatest length in bytes. -/
def hasField (isBool : Bool) (one : Val → Bool) (v : Val) : Arity → Bool
  | .scalar => one v
  | .fixed len =>
    match v with
    | .bits a => isBool && decide (a.bitLength = len ∧ a.bytes.length = (len + 7) / 8)
    | .list vs => !isBool && decide (vs.length = len) && vs.all one
    | _ => false
  | .var maxLen =>
    match v with
    | .bits a => isBool && decide (a.bitLength ≤ 8 * a.bytes.length ∧ a.bytes.length = (maxLen + 7) / 8)
    | .list vs => !isBool && decide (vs.length ≤ maxLen) && vs.all one
    | _ => false

mutual
/-- A value of the Rust type of a scalar. -/
def Scalar.has : Scalar → Val → Bool
  | .prim p, v => p.has v
  | .composite m, v => m.has v
/-- Values of the Rust types of the fields of a struct. -/
def Fields.has : Fields → List Val → Bool
  | .nil, [] => true
  | .padding _ rest, vs => rest.has vs
  | .data s a rest, v :: vs => hasField s.isBool s.has v a && rest.has vs
  | _, _ => false
/-- A value of the Rust type of variant `i`. -/
def Variants.has : Variants → Nat → Val → Bool
  | .nil, _, _ => false
  | .cons s a _, 0, v => hasField s.isBool s.has v a
  | .cons _ _ rest, i + 1, v => rest.has i v
/-- A value of the generated Rust type. -/
def Message.has : Message → Val → Bool
  | .struct _ _ fields, .record vs => fields.has vs
  | .union _ _ variants, .variant i v => variants.has i v
  | .enum _ _ _ values, .tag d => decide (d ∈ values)
  | _, _ => false
end

/-! ### The serialized representation -/

/-- The least `b` of 8, 16, 32 and 64 such that `n` fits in `b` bits (64 if none). -/
def widthFor (n : Nat) : Nat := if n < 2 ^ 8 then 8 else if n < 2 ^ 16 then 16 else if n < 2 ^ 32 then 32 else 64

/-- The number that is serialized for a primitive value. A number that does not fit is replaced by the nearest one that fits if the type is
saturated, and truncated otherwise. Signed integers are always saturated; their representation is two's complement. -/
def Prim.code : Prim → Val → Nat
  | .boolean, .bool b => if b then 1 else 0
  | .int bits, .int z => ((max (-2 ^ (bits - 1)) (min z (2 ^ (bits - 1) - 1))) % 2 ^ bits).toNat
  | .uint bits true, .num n => min n (2 ^ bits - 1)
  | _, .num n => n
  | _, _ => 0

/-- Zeros up to the next byte. -/
def padByte (acc : List Bool) : List Bool := acc ++ List.replicate ((8 - acc.length % 8) % 8) false

/-- Composites start and end at a whole byte. -/
def Scalar.align (s : Scalar) (acc : List Bool) : List Bool := if s.alignment = 8 then padByte acc else acc

/-- A field after the bits `acc`: an array starts at the alignment of its elements; the number of elements of an array of variable length comes
first. `one` appends a scalar. -/
def appendField (s : Scalar) (one : List Bool → Val → List Bool) (acc : List Bool) (v : Val) : Arity → List Bool
  | .scalar => one acc v
  | .fixed _ =>
    match v with
    | .bits a => acc ++ bitsA a
    | .list vs => vs.foldl one (s.align acc)
    | _ => acc
  | .var maxLen =>
    match v with
    | .bits a => acc ++ bitsOf (widthFor maxLen) a.bitLength ++ bitsA a
    | .list vs => vs.foldl one (s.align acc ++ bitsOf (widthFor maxLen) vs.length)
    | _ => acc

mutual
/-- A scalar after the bits `acc`. A delimited composite has its size in bytes before it. -/
def Scalar.append : Scalar → List Bool → Val → List Bool
  | .prim p, acc, v => acc ++ bitsOf p.bits (p.code v)
  | .composite m, acc, v =>
    let body := padByte (m.bits v)
    padByte acc ++ (if m.extent.isSome then bitsOf 32 (body.length / 8) else []) ++ body
/-- The fields of a struct after the bits `acc`; padding is zero. -/
def Fields.append : Fields → List Bool → List Val → List Bool
  | .nil, acc, _ => acc
  | .padding bits rest, acc, vs => rest.append (acc ++ List.replicate bits false) vs
  | .data s a rest, acc, v :: vs => rest.append (appendField s s.append acc v a) vs
  | .data _ _ _, acc, [] => acc
/-- The value of variant `i` of a union after the bits `acc`. -/
def Variants.append : Variants → Nat → List Bool → Val → List Bool
  | .nil, _, acc, _ => acc
  | .cons s a _, 0, acc, v => appendField s s.append acc v a
  | .cons _ _ rest, i + 1, acc, v => rest.append i acc v
/-- The bits of a value. A union starts with the number of the variant; there are as many bits for it as the greatest number needs. -/
def Message.bits : Message → Val → List Bool
  | .struct _ _ fields, .record vs => fields.append [] vs
  | .union _ _ variants, .variant i v => variants.append i (bitsOf (widthFor (variants.count - 1)) i) v
  | .enum _ _ bits _, .tag d => bitsOf bits d
  | _, _ => []
end

/-! ### Types and values without the disagreements

The generated code does not agree with the specification for every type and value (see the counterexamples in `Verif.Dsdl.Props`). These
predicates exclude the ones for which it does not. -/

/-- The widths that DSDL has. -/
def Prim.ok : Prim → Bool
  | .int bits => decide (1 ≤ bits ∧ bits ≤ 64)
  | .uint bits _ => decide (1 ≤ bits ∧ bits ≤ 64)
  | _ => true

/-- Lengths that fit. -/
def Arity.ok : Arity → Bool
  | .var maxLen => decide (maxLen < 2 ^ 64)
  | _ => true

/-- An array of composites that may be empty: no element makes the generated code align the cursor. -/
def mayBeEmpty (s : Scalar) : Arity → Bool
  | .scalar => false
  | .fixed len => decide (s.alignment = 8 ∧ len = 0)
  | .var _ => decide (s.alignment = 8)

mutual
/-- No delimiter header is missing in the length set: there are no arrays of delimited composites. -/
def Scalar.headed : Scalar → Bool
  | .prim _ => true
  | .composite m => m.headed
/-- No delimiter header of a field is missing in the length set. -/
def Fields.headed : Fields → Bool
  | .nil => true
  | .padding _ rest => rest.headed
  | .data s a rest => s.headed && (decide (a = .scalar) || s.extent.isNone) && rest.headed
/-- No delimiter header or array length of a variant is missing in the length set. -/
def Variants.headed : Variants → Bool
  | .nil => true
  | .cons s a rest => s.headed && (implicitBits s a).isNone && s.extent.isNone && rest.headed
/-- No delimiter header or array length is missing in the length set. -/
def Message.headed : Message → Bool
  | .struct _ _ fields => fields.headed
  | .union _ _ variants => variants.headed
  | .enum _ _ _ _ => true
end

/-- Composite fields are at whole bytes, whatever the values of the fields before. -/
def Fields.noGaps : Fields → Option BitLengthSet → Bool
  | .nil, _ => true
  | .padding bits rest, l => rest.noGaps (some (afterPadding bits l))
  | .data s a rest, l => (decide (s.alignment = 1) || alwaysAligned l) && rest.noGaps (some (afterData s s.size a l))

mutual
/-- No delimited composite and no enum, at any depth. -/
def Scalar.plain : Scalar → Bool
  | .prim _ => true
  | .composite m => m.extent.isNone && m.plain
/-- No delimited composite and no enum, at any depth. -/
def Fields.plain : Fields → Bool
  | .nil => true
  | .padding _ rest => rest.plain
  | .data s _ rest => s.plain && rest.plain
/-- No delimited composite and no enum, at any depth. -/
def Message.plain : Message → Bool
  | .struct _ _ fields => fields.plain
  | _ => false
end

mutual
/-- A type without disagreements. -/
def Scalar.good : Scalar → Bool
  | .prim p => p.ok
  | .composite m => !m.request && m.good
/-- Fields without disagreements: an array of composites that may be empty is at a whole byte. -/
def Fields.good : Fields → Option BitLengthSet → Bool
  | .nil, _ => true
  | .padding bits rest, l => decide (1 ≤ bits ∧ bits ≤ 64) && rest.good (some (afterPadding bits l))
  | .data s a rest, l =>
    s.good && a.ok && (!mayBeEmpty s a || alwaysAligned l) && rest.good (some (afterData s s.size a l))
/-- Variants without disagreements. -/
def Variants.good : Variants → Bool
  | .nil => true
  | .cons s a rest => s.good && a.ok && rest.good
/-- A type without disagreements: if its size is fixed, the size includes all delimiter headers; if not, no space is left before composite
fields; a zero-copy type has no delimited composite in it; a union does not have exactly 256 variants (or 2^16, or 2^32). -/
def Message.good : Message → Bool
  | .struct e r fields =>
    fields.good none && (if (Message.struct e r fields).bitLength.isFixedSize then fields.headed else fields.noGaps none)
      && (!(Message.struct e r fields).zeroCopy || fields.plain)
  | .union e r variants =>
    variants.good && (if (Message.union e r variants).bitLength.isFixedSize then variants.headed else true)
      && decide (variants.count < 2 ^ 64) && decide (widthFor (variants.count - 1) = widthFor variants.count)
  | .enum _ _ bits values => decide (1 ≤ bits ∧ bits ≤ 64) && values.all fun d => decide (d < 2 ^ bits)
end

/-- The number fits in the type; any number will do if the type is truncated. -/
def Prim.fits : Prim → Val → Bool
  | .int bits, .int z => decide (-2 ^ (bits - 1) ≤ z ∧ z < 2 ^ (bits - 1))
  | .uint bits true, .num n => decide (n < 2 ^ bits)
  | _, _ => true

/-- The numbers in a field fit; a bit array is not longer than the type allows. -/
def fitsField (one : Val → Bool) (v : Val) : Arity → Bool
  | .scalar => one v
  | .fixed _ =>
    match v with
    | .list vs => vs.all one
    | _ => true
  | .var maxLen =>
    match v with
    | .bits a => decide (a.bitLength ≤ maxLen)
    | .list vs => vs.all one
    | _ => true

mutual
/-- Every number in the value fits. -/
def Scalar.fits : Scalar → Val → Bool
  | .prim p, v => p.fits v
  | .composite m, v => m.fits v
/-- Every number in the fields fits. -/
def Fields.fits : Fields → List Val → Bool
  | .padding _ rest, vs => rest.fits vs
  | .data s a rest, v :: vs => fitsField s.fits v a && rest.fits vs
  | _, _ => true
/-- Every number in the value of variant `i` fits. -/
def Variants.fits : Variants → Nat → Val → Bool
  | .nil, _, _ => true
  | .cons s a _, 0, v => fitsField s.fits v a
  | .cons _ _ rest, i + 1, v => rest.fits i v
/-- Every number in the value fits. -/
def Message.fits : Message → Val → Bool
  | .struct _ _ fields, .record vs => fields.fits vs
  | .union _ _ variants, .variant i v => variants.fits i v
  | _, _ => true
end

/-! ### Values that are read back -/

/-- The bits that a struct ends with: its padding fields after the last data field. -/
def Fields.tail : Fields → Nat → Nat
  | .nil, pending => pending
  | .padding bits rest, pending => rest.tail (pending + bits)
  | .data _ _ rest, _ => rest.tail 0

/-- The padding at the end of a message. -/
def Message.tail : Message → Nat
  | .struct _ _ fields => fields.tail 0
  | _ => 0

/-- The number is in the range of the type, and not negative if the width of the type is not one of the Rust types. -/
def Prim.safe : Prim → Val → Bool
  | .int bits, .int z => decide (roundUpIntegerSize bits = bits ∨ 0 ≤ z)
  | .uint bits _, .num n => decide (n < 2 ^ bits)
  | _, _ => true

/-- The elements are read back; a bit array of variable length is full or not a whole number of bytes long; a list has less than 2^31 elements (more do
not compile). -/
def safeField (one : Val → Bool) (v : Val) : Arity → Bool
  | .scalar => one v
  | .fixed _ =>
    match v with
    | .list vs => vs.all one
    | _ => true
  | .var _ =>
    match v with
    | .bits a => decide (a.bitLength % 8 ≠ 0 ∨ a.bitLength = 8 * a.bytes.length)
    | .list vs => decide (vs.length < 2 ^ 31) && vs.all one
    | _ => true

mutual
/-- The value is read back. For a sealed composite the padding at the end may not reach over a byte. -/
def Scalar.safe : Scalar → Val → Bool
  | .prim p, v => p.safe v
  | .composite m, v => m.safe v && (m.extent.isSome || decide ((padByte (m.bits v)).length < (m.bits v).length - m.tail + 8))
/-- The fields are read back. -/
def Fields.safe : Fields → List Val → Bool
  | .padding _ rest, vs => rest.safe vs
  | .data s a rest, v :: vs => safeField s.safe v a && rest.safe vs
  | _, _ => true
/-- The value of variant `i` is read back. -/
def Variants.safe : Variants → Nat → Val → Bool
  | .nil, _, _ => true
  | .cons s a _, 0, v => safeField s.safe v a
  | .cons _ _ rest, i + 1, v => rest.safe i v
/-- The value is read back. -/
def Message.safe : Message → Val → Bool
  | .struct _ _ fields, .record vs => fields.safe vs
  | .union _ _ variants, .variant i v => variants.safe i v
  | _, _ => true
end

/-- Equal values: bit arrays are equal if they have the same capacity and the same bits (the unused bits of the last byte do not matter), everything
else if all parts are equal. -/
inductive Same : Val → Val → Prop
  | refl (v : Val) : Same v v
  | bits {a b : BitArray} : a.bytes.length = b.bytes.length → bitsA a = bitsA b → Same (.bits a) (.bits b)
  | list {vs ws : List Val} : List.Forall₂ Same vs ws → Same (.list vs) (.list ws)
  | record {vs ws : List Val} : List.Forall₂ Same vs ws → Same (.record vs) (.record ws)
  | variant {v w : Val} (i : Nat) : Same v w → Same (.variant i v) (.variant i w)

/-! ### Types that are read without panicking -/

mutual
/-- All composites are structs, at any depth (a zero-copy struct with anything else in it does not compile). -/
def Scalar.flat : Scalar → Bool
  | .prim _ => true
  | .composite m => m.flat
/-- All composites are structs, at any depth. -/
def Fields.flat : Fields → Bool
  | .nil => true
  | .padding _ rest => rest.flat
  | .data s _ rest => s.flat && rest.flat
/-- All composites are structs, at any depth. -/
def Message.flat : Message → Bool
  | .struct _ _ fields => fields.flat
  | _ => false
end

/-- A bit array of variable length has space for every length that fits in the length field. -/
def Arity.roomy (isBool : Bool) : Arity → Bool
  | .var maxLen => !isBool || decide (2 ^ widthFor maxLen ≤ 8 * ((maxLen + 7) / 8) + 1)
  | _ => true

mutual
/-- Reading never panics. -/
def Scalar.total : Scalar → Bool
  | .prim p => p.ok
  | .composite m => m.total
/-- Reading the fields never panics. -/
def Fields.total : Fields → Bool
  | .nil => true
  | .padding _ rest => rest.total
  | .data s a rest => s.total && a.ok && a.roomy s.isBool && rest.total
/-- Reading the variants never panics. -/
def Variants.total : Variants → Bool
  | .nil => true
  | .cons s a rest => s.total && a.ok && a.roomy s.isBool && rest.total
/-- Reading never panics. -/
def Message.total : Message → Bool
  | .struct e r fields => fields.total && (!(Message.struct e r fields).zeroCopy || fields.flat)
  | .union _ _ variants => variants.total && decide (variants.count < 2 ^ 64)
  | .enum _ _ bits _ => decide (1 ≤ bits ∧ bits ≤ 64)
end

/-! ### Widths -/

mutual
/-- The widths and lengths are ones that DSDL has. -/
def Scalar.valid : Scalar → Bool
  | .prim p => p.ok
  | .composite m => m.valid
/-- The widths and lengths are ones that DSDL has. -/
def Fields.valid : Fields → Bool
  | .nil => true
  | .padding _ rest => rest.valid
  | .data s a rest => s.valid && a.ok && rest.valid
/-- The widths and lengths are ones that DSDL has. -/
def Variants.valid : Variants → Bool
  | .nil => true
  | .cons s a rest => s.valid && a.ok && rest.valid
/-- The widths and lengths are ones that DSDL has. -/
def Message.valid : Message → Bool
  | .struct _ _ fields => fields.valid
  | .union _ _ variants => variants.valid && decide (variants.count < 2 ^ 64)
  | .enum _ _ bits _ => decide (1 ≤ bits ∧ bits ≤ 64)
end

/-- Two results of reading are the same: both panic, both are the same error, or both are equal values. -/
def SameResult : Rd Val → Rd Val → Prop
  | none, none => True
  | some (.error e, _), some (.error e', _) => e = e'
  | some (.ok v, _), some (.ok w, _) => Same v w
  | _, _ => False

end Verif.Dsdl
