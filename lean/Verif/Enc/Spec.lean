import Verif.Enc.Model

/-!
Specification of the serialization format: a byte string is a sequence of bits, least significant bit of each byte first, followed by
infinitely many zeros; a field is a piece of that sequence.
-/

namespace Verif.Enc

/-- Bit `p` of a byte string: bit `p % 8` of byte `p / 8`; zero after the end. -/
def bitAt (bytes : List Byte) (p : Nat) : Bool := (bytes.getD (p / 8) 0).getLsbD (p % 8)

/-- The number with the `n` bits `f 0` (least significant), `f 1`, ... -/
def bitsVal (f : Nat → Bool) : Nat → Nat
  | 0 => 0
  | n + 1 => (if f 0 then 1 else 0) + 2 * bitsVal (fun i => f (i + 1)) n

/-- What can be written one after the other. -/
inductive Field where
  /-- an unsigned integer field of `n` bits (`write_u<n>`) -/
  | uint (n : Nat) (value : BitVec 64)
  | bool (value : Bool)
  /-- an array of bytes (`write_bytes`) -/
  | bytes (value : List Byte)
  /-- padding to a whole byte (`align_to_8_bits`) -/
  | align
deriving DecidableEq, Repr

/-- The widths for which there are functions. -/
def Field.Ok : Field → Prop
  | .uint n _ => 1 ≤ n ∧ n ≤ 64
  | _ => True

/-- Writes a field with the function of the cursor for it. -/
def Field.write (c : WriteCursor) : Field → Option WriteCursor
  | .uint n v => c.writeU n v
  | .bool b => c.writeBool b
  | .bytes bs => WriteCursor.writeBytes bs c
  | .align => c.align

/-- Writes fields one after the other. -/
def writeAll : List Field → WriteCursor → Option WriteCursor
  | [], c => some c
  | f :: fs, c =>
    match f.write c with
    | none => none
    | some c => writeAll fs c

/-- The bits of a number, least significant first. -/
def bitsOf (n : Nat) (x : Nat) : List Bool := (List.range n).map x.testBit

/-- The bit sequence after the field. -/
def Field.append (acc : List Bool) : Field → List Bool
  | .uint n v => acc ++ bitsOf n v.toNat
  | .bool b => acc ++ [b]
  | .bytes bs => acc ++ bs.flatMap fun b => bitsOf 8 b.toNat
  | .align => acc ++ List.replicate ((8 - acc.length % 8) % 8) false

/-- The bit sequence of a list of fields. -/
def encode (fs : List Field) : List Bool := fs.foldl Field.append []

/-- What can be read one after the other. -/
inductive Shape where
  | uint (n : Nat)
  | bool
  | bytes (n : Nat)
  | align
deriving DecidableEq, Repr

/-- The widths for which there are functions. -/
def Shape.Ok : Shape → Prop
  | .uint n => 1 ≤ n ∧ n ≤ 64
  | _ => True

/-- What is read. -/
inductive Value where
  | uint (v : Nat)
  | bool (b : Bool)
  | bytes (bs : List Byte)
  | align
deriving DecidableEq, Repr

/-- Reads a field with the function of the cursor for it. -/
def Shape.read (c : ReadCursor) : Shape → Option (Value × ReadCursor)
  | .uint n => (c.readU n).map fun r => (.uint r.1.toNat, r.2)
  | .bool => c.readBool.map fun r => (.bool r.1, r.2)
  | .bytes n => (ReadCursor.readBytes n c).map fun r => (.bytes r.1, r.2)
  | .align => some (.align, c.align)

/-- Reads fields one after the other. -/
def readAll : List Shape → ReadCursor → Option (List Value × ReadCursor)
  | [], c => some ([], c)
  | s :: ss, c =>
    match s.read c with
    | none => none
    | some (v, c) => (readAll ss c).map fun r => (v :: r.1, r.2)

/-- The field at position `p` of an infinite bit sequence, and the position after it. -/
def Shape.at (f : Nat → Bool) (p : Nat) : Shape → Value × Nat
  | .uint n => (.uint (bitsVal (fun i => f (p + i)) n), p + n)
  | .bool => (.bool (f p), p + 1)
  | .bytes n => (.bytes ((List.range n).map fun k => BitVec.ofNat 8 (bitsVal (fun i => f (p + 8 * k + i)) 8)), p + 8 * n)
  | .align => (.align, (p + 7) / 8 * 8)

/-- The fields from position `p` on, and the position after them. -/
def shapesAt (f : Nat → Bool) : Nat → List Shape → List Value × Nat
  | p, [] => ([], p)
  | p, s :: ss =>
    let r := s.at f p
    let rest := shapesAt f r.2 ss
    (r.1 :: rest.1, rest.2)

/-- The shape of a field. -/
def Field.shape : Field → Shape
  | .uint n _ => .uint n
  | .bool _ => .bool
  | .bytes bs => .bytes bs.length
  | .align => .align

/-- What should be read back for a field: an integer modulo 2^n, anything else unchanged. -/
def Field.expected : Field → Value
  | .uint n v => .uint (v.toNat % 2 ^ n)
  | .bool b => .bool b
  | .bytes bs => .bytes bs
  | .align => .align

end Verif.Enc
