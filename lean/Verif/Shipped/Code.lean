import Verif.Dsdl.Model

/-!
The Rust of `canadensis_data_types/src/generated.rs`: the data types that the project ships, made by `canadensis_codegen_rust` and checked in.

The types below are the syntax of as much Rust as that file contains (and as the generator can write for structs and unions), and the functions
say what that Rust does on the cursors of `Verif.Enc.Model`. The table of all the types in the file is in `Verif.Shipped.Table`.

Left out: comments, constants, attributes other than `#[repr(C, packed)]`, and the test functions. That the Rust compiler accepts the file is assumed:
a place that does not exist or a value of another type is `none`, the same as a panic.
-/

namespace Verif.Shipped

open Verif.Enc Verif.Dsdl

/-! ### Syntax -/

/-- A Rust type without arrays (canadensis_codegen_rust/src/lib.rs L616-635). `type n` is the generated type with number `n` in the table; the file has
its path, `crate::...`. -/
inductive Elem where
  | bool
  | unsigned (bits : Nat)
  | signed (bits : Nat)
  | f16
  | f32
  | f64
  | type (n : Nat)
deriving DecidableEq, Repr

/-- The Rust type of a field or of the content of a variant: `T`, `[T; n]`, `::heapless::Vec<T, n>` and `::canadensis_encoding::bits::BitArray<n>`
(canadensis_codegen_rust/src/lib.rs L580-614). -/
inductive Ty where
  | one (e : Elem)
  | array (e : Elem) (len : Nat)
  | vec (e : Elem) (capacity : Nat)
  | bitArray (bytes : Nat)
deriving DecidableEq, Repr

/-- Where a value is: `self.name`, `inner` (the content of the variant, in an arm of `match self`), and `value` (the element, in a loop)
(canadensis_codegen_rust/src/impl_serialize.rs L114, L143, L166, L428). -/
inductive Place where
  | self (name : String)
  | inner
  | value
deriving DecidableEq, Repr

/-- An argument of a write function: a literal, `p`, `p as u<bits>` and `(p).len() as u<bits>`
(canadensis_codegen_rust/src/impl_serialize.rs L62-75, L243-246, L515-527). -/
inductive Num where
  | lit (n : Nat)
  | get (p : Place)
  | cast (p : Place) (bits : Nat)
  | len (p : Place) (bits : Nat)
deriving DecidableEq, Repr

/-- A statement of `serialize` (canadensis_codegen_rust/src/impl_serialize.rs):
* `cursor.write_aligned_bytes(::zerocopy::IntoBytes::as_bytes(self))` (L41-44);
* `cursor.write_bool(p)`, `cursor.write_f16(p)`, `cursor.write_f32(p)`, `cursor.write_f64(p)`;
* `cursor.write_aligned_u<bits>(n)` and `cursor.write_u<bits>(n)` (L505-551);
* `cursor.skip_<bits>()` (L130);
* `cursor.write_composite(&p)`, `cursor.write_bytes(&(p)[..])` and `(p).serialize(cursor)` (of a bit array);
* `for value in (p).iter() { s }` (L423-497). -/
inductive Stmt where
  | alignedBytes
  | writeBool (p : Place)
  | writeF16 (p : Place)
  | writeF32 (p : Place)
  | writeF64 (p : Place)
  | writeAligned (bits : Nat) (n : Num)
  | write (bits : Nat) (n : Num)
  | skip (bits : Nat)
  | writeComposite (p : Place)
  | writeBytes (p : Place)
  | writeBits (p : Place)
  | forEach (p : Place) (s : Stmt)
deriving DecidableEq, Repr

/-- The body of `serialize`: statements, or `match self { Type::Variant(inner) => { .. } .. }` (canadensis_codegen_rust/src/impl_serialize.rs L38-86). -/
inductive Block where
  | seq (stmts : List Stmt)
  | matchSelf (arms : List (String × List Stmt))
deriving DecidableEq, Repr

/-- A term of the sum in `size_bits` (canadensis_codegen_rust/src/size_bits.rs): a literal, `(p).len() * <size>_usize.next_multiple_of(<multiple>)` (L146-152),
`(p).size_bits().next_multiple_of(<multiple>)` (L191-196), and `(p).iter().map(|element| [32 +] (element).size_bits().next_multiple_of(<multiple>)).sum::<usize>()`
(L156-163), which is in no type of the file. -/
inductive Term where
  | lit (n : Nat)
  | lenTimes (p : Place) (size multiple : Nat)
  | sizeOf (p : Place) (multiple : Nat)
  | sumOf (p : Place) (header : Bool) (multiple : Nat)
deriving DecidableEq, Repr

/-- The body of `size_bits`: a sum, or `<tag> + match self { Type::Variant(inner) => .. }` (canadensis_codegen_rust/src/size_bits.rs L12-79). -/
inductive SizeBlock where
  | sum (terms : List Term)
  | matchSelf (tag : Nat) (arms : List (String × List Term))
deriving DecidableEq, Repr

/-- A read of one value: `cursor.read_bool()`, `cursor.read_f16()`, .., `cursor.read_u<bits>() as _`, `cursor.read_composite()?`
(canadensis_codegen_rust/src/impl_deserialize.rs L208-229, L250-259). -/
inductive Get where
  | bool
  | f16
  | f32
  | f64
  | num (bits : Nat)
  | composite
deriving DecidableEq, Repr

/-- The expression for a field (canadensis_codegen_rust/src/impl_deserialize.rs L128-202): one read; an array of reads; the length, its comparison with
`max` and the loop that fills a vector; a bit array with a fixed length; a bit array with a length before it. -/
inductive Expr where
  | one (g : Get)
  | array (gs : List Get)
  | vec (lengthBits max : Nat) (g : Get)
  | bits (len : Nat)
  | bitsVar (lengthBits : Nat)
deriving DecidableEq, Repr

/-- A field in the struct literal of `deserialize`: `name: { cursor.skip_<bits>(); .. expr }` (canadensis_codegen_rust/src/impl_deserialize.rs L53-69). -/
structure Init where
  name : String
  skips : List Nat
  expr : Expr
deriving DecidableEq, Repr

/-- The body of `deserialize` (canadensis_codegen_rust/src/impl_deserialize.rs L41-122): `Ok(Self::deserialize_zero_copy(cursor))`; a struct literal;
`match cursor.read_aligned_u<bits>() as _ { 0 => Ok(Type::Variant({ .. })), .., _ => Err(UnionTag) }`. -/
inductive Reading where
  | zeroCopy
  | struct (inits : List Init)
  | matchTag (bits : Nat) (arms : List (Nat × String × Expr))
deriving DecidableEq, Repr

/-- The declaration of the type: the fields of a struct, and whether it has the attribute `#[repr(C, packed)]` and derives `IntoBytes` and `FromBytes`
(canadensis_codegen_rust/src/lib.rs L786-789); or the variants of an enum. -/
inductive Shape where
  | struct (packed : Bool) (fields : List (String × Ty))
  | enum (variants : List (String × Ty))
deriving DecidableEq, Repr

/-- A generated type: its declaration, `EXTENT_BYTES` and the three functions. -/
structure Code where
  shape : Shape
  extentBytes : Option Nat
  sizeBits : SizeBlock
  serialize : Block
  deserialize : Reading
deriving DecidableEq, Repr

/-! ### What the Rust does -/

/-- What other code can do with a generated type: `EXTENT_BYTES`, `size_bits`, `serialize`, `deserialize`
(canadensis_encoding/src/lib.rs L19-54), and its bytes in memory: `as_bytes`, the inverse, and `size_of`, if it is packed. -/
structure Impl where
  extentBytes : Option Nat
  sizeBits : Val → Nat
  serialize : Val → WriteCursor → Option WriteCursor
  deserialize : ReadCursor → Rd Val
  image : Val → Option (List Byte)
  load : List Byte → Val × List Byte
  memSize : Nat

/-- The `Serialize` implementation, for `write_composite` (canadensis_encoding/src/cursor/serialize.rs L235-254). -/
def Impl.writer (i : Impl) : Writer Val := ⟨i.extentBytes, i.sizeBits, i.serialize⟩

/-- The `Deserialize` implementation, for `read_composite` (canadensis_encoding/src/cursor/deserialize.rs L282-302). -/
def Impl.reader (i : Impl) : Reader Val := ⟨i.extentBytes, i.deserialize⟩

/-- What the names in a function stand for: the fields of `self`, the content of the variant and its type, the element and its type. The functions `serialize`, e.g. `canadensis_data_types/src/generated.rs` L9246-9251 and `canadensis_data_types/src/generated.rs` L9923-9944. -/
structure Scope where
  fields : List ((String × Ty) × Val)
  inner : Option (Ty × Val)
  value : Option (Ty × Val)

/-- The type and the value of a place. The functions `serialize`, e.g. `canadensis_data_types/src/generated.rs` L9246-9251 and `canadensis_data_types/src/generated.rs` L9923-9944. -/
def Place.eval (s : Scope) : Place → Option (Ty × Val)
  | .self name => (s.fields.find? fun f => f.1.1 = name).map fun f => (f.1.2, f.2)
  | .inner => s.inner
  | .value => s.value

/-- The type of the elements of an array or a vector. The functions `serialize`, e.g. `canadensis_data_types/src/generated.rs` L9246-9251 and `canadensis_data_types/src/generated.rs` L9923-9944. -/
def Ty.elem : Ty → Option Elem
  | .array e _ => some e
  | .vec e _ => some e
  | _ => none

/-- The implementation of the type of a composite value. The functions `serialize`, e.g. `canadensis_data_types/src/generated.rs` L9246-9251 and `canadensis_data_types/src/generated.rs` L9923-9944. -/
def implOf (env : List Impl) : Ty → Option Impl
  | .one (.type n) => env[n]?
  | _ => none

/-- The value of an argument, extended to 64 bits. `as u<bits>` keeps the lowest bits of the two's complement representation (of a signed integer)
or of the length. The functions `serialize`, e.g. `canadensis_data_types/src/generated.rs` L9246-9251 and `canadensis_data_types/src/generated.rs` L9923-9944. -/
def Num.eval (s : Scope) : Num → Option (BitVec 64)
  | .lit n => some (BitVec.ofNat 64 n)
  | .get p =>
    match p.eval s with
    | some (_, .num n) => some (BitVec.ofNat 64 n)
    | _ => none
  | .cast p bits =>
    match p.eval s with
    | some (_, .int z) => some (((BitVec.ofInt 64 z).setWidth bits).setWidth 64)
    | _ => none
  | .len p bits =>
    match p.eval s with
    | some (_, .list vs) => some (((BitVec.ofNat 64 vs.length).setWidth bits).setWidth 64)
    | some (_, .bits a) => some (((BitVec.ofNat 64 a.bitLength).setWidth bits).setWidth 64)
    | _ => none

/-- `cursor.write_f<bits>(p)`: the bits of the number (canadensis_encoding/src/cursor/serialize.rs L199-213). -/
def writeFloat (s : Scope) (bits : Nat) (p : Place) (c : WriteCursor) : Option WriteCursor :=
  match p.eval s with
  | some (_, .num n) => c.writeU bits (BitVec.ofNat 64 n)
  | _ => none

/-- A statement of `serialize`. `image` is `as_bytes(self)`. The functions `serialize`, e.g. `canadensis_data_types/src/generated.rs` L9246-9251 and `canadensis_data_types/src/generated.rs` L9923-9944. -/
def Stmt.run (env : List Impl) (image : Option (List Byte)) : Stmt → Scope → WriteCursor → Option WriteCursor
  | .alignedBytes, _, c =>
    match image with
    | none => none
    | some bytes => c.writeAlignedBytes bytes
  | .writeBool p, s, c =>
    match p.eval s with
    | some (_, .bool b) => c.writeBool b
    | _ => none
  | .writeF16 p, s, c => writeFloat s 16 p c
  | .writeF32 p, s, c => writeFloat s 32 p c
  | .writeF64 p, s, c => writeFloat s 64 p c
  | .writeAligned bits n, s, c =>
    match n.eval s with
    | none => none
    | some x => c.writeAlignedU (bits / 8) x
  | .write bits n, s, c =>
    match n.eval s with
    | none => none
    | some x => c.writeU bits x
  | .skip bits, _, c => c.skipBits bits
  | .writeComposite p, s, c =>
    match p.eval s with
    | none => none
    | some (ty, v) =>
      match implOf env ty with
      | none => none
      | some i => c.writeComposite i.writer v
  | .writeBytes p, s, c =>
    match p.eval s with
    | some (_, .list vs) => WriteCursor.writeBytes (vs.map Val.toByte) c
    | _ => none
  | .writeBits p, s, c =>
    match p.eval s with
    | some (_, .bits a) => a.serialize c
    | _ => none
  | .forEach p body, s, c =>
    match p.eval s with
    | some (ty, .list vs) => writeEach (fun v c => body.run env image { s with value := ty.elem.map fun e => (.one e, v) } c) vs c
    | _ => none

/-- Statements in order. The functions `serialize`, e.g. `canadensis_data_types/src/generated.rs` L9246-9251 and `canadensis_data_types/src/generated.rs` L9923-9944. -/
def runAll (env : List Impl) (image : Option (List Byte)) : List Stmt → Scope → WriteCursor → Option WriteCursor
  | [], _, c => some c
  | st :: sts, s, c =>
    match st.run env image s c with
    | none => none
    | some c => runAll env image sts s c

/-- The fields of `self` in a struct. E.g. `canadensis_data_types/src/generated.rs` L9246-9251. -/
def structScope (fields : List (String × Ty)) (vs : List Val) : Scope := ⟨fields.zip vs, none, none⟩

/-- An arm of `match self` in a union: the content and its type. E.g. `canadensis_data_types/src/generated.rs` L9923-9944. -/
def variantScope (ty : Ty) (v : Val) : Scope := ⟨[], some (ty, v), none⟩

/-- The arm with the name of the variant. E.g. `canadensis_data_types/src/generated.rs` L9923-9944. -/
def arm {α : Type} (arms : List (String × α)) (name : String) : Option α := (arms.find? fun a => a.1 = name).map (·.2)

/-- `serialize`. The functions `serialize`, e.g. `canadensis_data_types/src/generated.rs` L9246-9251 and `canadensis_data_types/src/generated.rs` L9923-9944. -/
def Block.run (env : List Impl) (image : Option (List Byte)) (shape : Shape) : Block → Val → WriteCursor → Option WriteCursor
  | .seq stmts, v, c =>
    match shape, v with
    | .struct _ fields, .record vs => runAll env image stmts (structScope fields vs) c
    | _, _ => none
  | .matchSelf arms, v, c =>
    match shape, v with
    | .enum variants, .variant i v =>
      match variants[i]? with
      | none => none
      | some (name, ty) =>
        match arm arms name with
        | none => none
        | some stmts => runAll env image stmts (variantScope ty v) c
    | _, _ => none

/-- A term of `size_bits`. The functions `size_bits`, e.g. `canadensis_data_types/src/generated.rs` L9243-9245 and L9911-9922. -/
def Term.eval (env : List Impl) (s : Scope) : Term → Nat
  | .lit n => n
  | .lenTimes p size multiple =>
    match p.eval s with
    | none => 0
    | some (_, v) => v.len * nextMultipleOf size multiple
  | .sizeOf p multiple =>
    match p.eval s with
    | none => 0
    | some (ty, v) =>
      match implOf env ty with
      | none => 0
      | some i => nextMultipleOf (i.sizeBits v) multiple
  | .sumOf p header multiple =>
    match p.eval s with
    | none => 0
    | some (ty, v) =>
      match ty.elem.bind fun e => implOf env (.one e) with
      | none => 0
      | some i => (v.elements.map fun v => (if header then 32 else 0) + nextMultipleOf (i.sizeBits v) multiple).sum

/-- A sum of terms. The functions `size_bits`, e.g. `canadensis_data_types/src/generated.rs` L9243-9245 and L9911-9922. -/
def sumTerms (env : List Impl) (s : Scope) (terms : List Term) : Nat := (terms.map (Term.eval env s)).sum

/-- `size_bits`. The functions `size_bits`, e.g. `canadensis_data_types/src/generated.rs` L9243-9245 and L9911-9922. -/
def SizeBlock.eval (env : List Impl) (shape : Shape) : SizeBlock → Val → Nat
  | .sum terms, v =>
    match shape with
    | .struct _ fields => sumTerms env (structScope fields v.fields) terms
    | .enum _ => sumTerms env ⟨[], none, none⟩ terms
  | .matchSelf tag arms, v =>
    match shape, v with
    | .enum variants, .variant i v =>
      match variants[i]? with
      | none => 0
      | some (name, ty) =>
        match arm arms name with
        | none => 0
        | some terms => tag + sumTerms env (variantScope ty v) terms
    | _, _ => 0

/-- The width of the type that `read_u<bits>` returns (canadensis_encoding/src/cursor/deserialize.rs L322-663). -/
def returnWidth (bits : Nat) : Nat := roundUpIntegerSize bits

/-- One read, for a place of a given type: `as _` converts to that type. The functions `deserialize`, e.g. `canadensis_data_types/src/generated.rs` L9253-9267. -/
def Get.run (env : List Impl) (e : Elem) (c : ReadCursor) : Get → Rd Val
  | .bool => okRead Val.bool c.readBool
  | .f16 => okRead Val.num (readUInt 16 c)
  | .f32 => okRead Val.num (readUInt 32 c)
  | .f64 => okRead Val.num (readUInt 64 c)
  | .num bits =>
    match e with
    | .unsigned to => okRead (fun x => Val.num (if to < returnWidth bits then x % 2 ^ to else x)) (readUInt bits c)
    | .signed to => okRead (fun x => Val.int (BitVec.ofNat to x).toInt) (readUInt bits c)
    | _ => none
  | .composite =>
    match implOf env (.one e) with
    | none => none
    | some i => c.readComposite i.reader

/-- The elements of an array literal in order. The functions `deserialize`, e.g. `canadensis_data_types/src/generated.rs` L9253-9267. -/
def getAll (env : List Impl) (e : Elem) : List Get → ReadCursor → Rd (List Val)
  | [], c => some (.ok [], c)
  | g :: gs, c => andThen (g.run env e c) fun v c => andThen (getAll env e gs c) fun vs c => some (.ok (v :: vs), c)

/-- The expression for a field. The length of a vector is an `i32` (see `asI32`); what does not fit into a vector is dropped (`let _ = elements.push(..)`). The functions `deserialize`, e.g. `canadensis_data_types/src/generated.rs` L9253-9267. -/
def Expr.run (env : List Impl) (ty : Ty) (c : ReadCursor) : Expr → Rd Val
  | .one g =>
    match ty with
    | .one e => g.run env e c
    | _ => none
  | .array gs =>
    match ty with
    | .array e _ => andThen (getAll env e gs c) fun vs c => some (.ok (.list vs), c)
    | _ => none
  | .vec lengthBits max g =>
    match ty with
    | .vec e capacity =>
      match readUInt lengthBits c with
      | none => none
      | some (length, c) =>
        if asI32 length ≤ max then
          andThen (readTimes (g.run env e ·) (asI32 length).toNat c) fun vs c => some (.ok (.list (vs.take capacity)), c)
        else some (.error .arrayLength, c)
    | _ => none
  | .bits len =>
    match ty with
    | .bitArray bytes => okRead Val.bits (BitArray.deserialize bytes len c)
    | _ => none
  | .bitsVar lengthBits =>
    match ty with
    | .bitArray bytes =>
      match readUInt lengthBits c with
      | none => none
      | some (length, c) => okRead Val.bits (BitArray.deserialize bytes length c)
    | _ => none

/-- The type of a field. The functions `deserialize`, e.g. `canadensis_data_types/src/generated.rs` L9253-9267. -/
def fieldTy (fields : List (String × Ty)) (name : String) : Option Ty := (fields.find? fun f => f.1 = name).map (·.2)

/-- The fields of a struct literal, in the order in which they are written. The functions `deserialize`, e.g. `canadensis_data_types/src/generated.rs` L9253-9267. -/
def initAll (env : List Impl) (fields : List (String × Ty)) : List Init → ReadCursor → Rd (List (String × Val))
  | [], c => some (.ok [], c)
  | i :: is, c =>
    match fieldTy fields i.name with
    | none => none
    | some ty =>
      andThen (i.expr.run env ty (i.skips.foldl ReadCursor.advanceBits c)) fun v c =>
        andThen (initAll env fields is c) fun vs c => some (.ok ((i.name, v) :: vs), c)

/-- The value of a struct literal: the fields in the order of the declaration (`none` if one is missing, which does not compile). The functions `deserialize`, e.g. `canadensis_data_types/src/generated.rs` L9253-9267. -/
def literal (fields : List (String × Ty)) (inits : List (String × Val)) : Option (List Val) := fields.mapM fun f => arm inits f.1

/-- The arms of the `match` on the tag: the first one with the number, and the variant with its name. E.g. `canadensis_data_types/src/generated.rs` L9946-9994. -/
def matchArms (env : List Impl) (variants : List (String × Ty)) (tag : Nat) (c : ReadCursor) : List (Nat × String × Expr) → Rd Val
  | [] => some (.error .unionTag, c)
  | (k, name, e) :: arms =>
    if tag = k then
      match fieldTy variants name with
      | none => none
      | some ty => andThen (e.run env ty c) fun v c => some (.ok (.variant (variants.findIdx fun f => f.1 = name) v), c)
    else matchArms env variants tag c arms

/-- `deserialize` (`deserialize_zero_copy`: canadensis_encoding/src/lib.rs L57-76). -/
def Reading.run (env : List Impl) (shape : Shape) (load : List Byte → Val × List Byte) (memSize : Nat) (c : ReadCursor) : Reading → Rd Val
  | .zeroCopy => okRead (fun bytes => (load bytes).1) (c.zeroCopy memSize)
  | .struct inits =>
    match shape with
    | .struct _ fields =>
      andThen (initAll env fields inits c) fun vs c =>
        match literal fields vs with
        | none => none
        | some vs => some (.ok (.record vs), c)
    | _ => none
  | .matchTag bits arms =>
    match shape with
    | .enum variants =>
      match readUIntAligned bits c with
      | none => none
      | some (tag, c) => matchArms env variants tag c arms
    | _ => none

/-! ### Bytes of packed structs -/

/-- The bytes of a value in memory on a little-endian machine; `none` for types that do not implement `IntoBytes`
(canadensis_codegen_rust/src/lib.rs L786-789; zerocopy is not in /repo). -/
def Elem.image (env : List Impl) : Elem → Val → Option (List Byte)
  | .unsigned bits, .num n => some (leBytes (bits / 8) (BitVec.ofNat 64 n))
  | .signed bits, .int z => some (leBytes (bits / 8) (BitVec.ofInt 64 z))
  | .f16, .num n => some (leBytes 2 (BitVec.ofNat 64 n))
  | .f32, .num n => some (leBytes 4 (BitVec.ofNat 64 n))
  | .f64, .num n => some (leBytes 8 (BitVec.ofNat 64 n))
  | .type k, v =>
    match env[k]? with
    | none => none
    | some i => i.image v
  | _, _ => none

/-- The bytes of a field in memory: those of the elements of an array one after the other. (crate `zerocopy`, not in /repo, as used in `canadensis_data_types/src/generated.rs` L48-74.) -/
def Ty.image (env : List Impl) : Ty → Val → Option (List Byte)
  | .one e, v => e.image env v
  | .array e _, .list vs => imageEach (e.image env) vs
  | _, _ => none

/-- The bytes of the fields of a packed struct, one after the other. (crate `zerocopy`, not in /repo, as used in `canadensis_data_types/src/generated.rs` L48-74.) -/
def imageFields (env : List Impl) : List (String × Ty) → List Val → Option (List Byte)
  | [], [] => some []
  | (_, ty) :: fields, v :: vs =>
    match ty.image env v, imageFields env fields vs with
    | some b, some bs => some (b ++ bs)
    | _, _ => none
  | _, _ => none

/-- `as_bytes` of a type: only of packed structs. (crate `zerocopy`, not in /repo, as used in `canadensis_data_types/src/generated.rs` L48-74.) -/
def Shape.image (env : List Impl) : Shape → Val → Option (List Byte)
  | .struct true fields, .record vs => imageFields env fields vs
  | _, _ => none

/-- A value from the first bytes, and the bytes after it (`FromBytes`, canadensis_encoding/src/lib.rs L57-76). -/
def Elem.load (env : List Impl) : Elem → List Byte → Val × List Byte
  | .unsigned bits, bs => (.num (ofLeBytes (bs.take (bits / 8))), bs.drop (bits / 8))
  | .signed bits, bs => (.int (BitVec.ofNat bits (ofLeBytes (bs.take (bits / 8)))).toInt, bs.drop (bits / 8))
  | .f16, bs => (.num (ofLeBytes (bs.take 2)), bs.drop 2)
  | .f32, bs => (.num (ofLeBytes (bs.take 4)), bs.drop 4)
  | .f64, bs => (.num (ofLeBytes (bs.take 8)), bs.drop 8)
  | .type k, bs =>
    match env[k]? with
    | none => (.record [], bs)
    | some i => i.load bs
  | .bool, bs => (.record [], bs)

/-- A field from the first bytes. (crate `zerocopy`, not in /repo, as used in `canadensis_data_types/src/generated.rs` L48-74.) -/
def Ty.load (env : List Impl) : Ty → List Byte → Val × List Byte
  | .one e, bs => e.load env bs
  | .array e len, bs => let r := loadEach (e.load env) len bs; (.list r.1, r.2)
  | _, bs => (.list [], bs)

/-- The fields of a packed struct from its bytes. (crate `zerocopy`, not in /repo, as used in `canadensis_data_types/src/generated.rs` L48-74.) -/
def loadFields (env : List Impl) : List (String × Ty) → List Byte → List Val × List Byte
  | [], bs => ([], bs)
  | (_, ty) :: fields, bs =>
    let r := ty.load env bs
    let rs := loadFields env fields r.2
    (r.1 :: rs.1, rs.2)

/-- A packed struct from its bytes. (crate `zerocopy`, not in /repo, as used in `canadensis_data_types/src/generated.rs` L48-74.) -/
def Shape.load (env : List Impl) : Shape → List Byte → Val × List Byte
  | .struct true fields, bs => let r := loadFields env fields bs; (.record r.1, r.2)
  | _, bs => (.record [], bs)

/-- `size_of` in bytes. (crate `zerocopy`, not in /repo, as used in `canadensis_data_types/src/generated.rs` L48-74.) -/
def Elem.memSize (env : List Impl) : Elem → Nat
  | .unsigned bits => bits / 8
  | .signed bits => bits / 8
  | .f16 => 2
  | .f32 => 4
  | .f64 => 8
  | .type k =>
    match env[k]? with
    | none => 0
    | some i => i.memSize
  | .bool => 1

/-- `size_of` of a field of a packed struct. (crate `zerocopy`, not in /repo, as used in `canadensis_data_types/src/generated.rs` L48-74.) -/
def Ty.memSize (env : List Impl) : Ty → Nat
  | .one e => e.memSize env
  | .array e len => len * e.memSize env
  | _ => 0

/-- `size_of` of a packed struct. (crate `zerocopy`, not in /repo, as used in `canadensis_data_types/src/generated.rs` L48-74.) -/
def Shape.memSize (env : List Impl) : Shape → Nat
  | .struct true fields => (fields.map fun f => f.2.memSize env).sum
  | _ => 0

/-! ### A type and a file -/

/-- A generated type, with the types before it. -/
def Code.impl (env : List Impl) (code : Code) : Impl where
  extentBytes := code.extentBytes
  sizeBits := code.sizeBits.eval env code.shape
  serialize v := code.serialize.run env (code.shape.image env v) code.shape v
  deserialize c := code.deserialize.run env code.shape (code.shape.load env) (code.shape.memSize env) c
  image := code.shape.image env
  load := code.shape.load env
  memSize := code.shape.memSize env

/-- The types of a file, in an order such that every type is after the types of its fields. (The items of `canadensis_data_types/src/generated.rs`.) -/
def implsFrom (env : List Impl) : List Code → List Impl
  | [] => env
  | code :: rest => implsFrom (env ++ [code.impl env]) rest

end Verif.Shipped
