import Verif.Shipped.Code

/-!
What `canadensis_codegen_rust` writes for a DSDL definition, as the Rust of `Verif.Shipped.Code`.
`Verif.Dsdl.Model` says directly what the generated functions do; this is the text between.
-/

namespace Verif.Shipped

open Verif.Enc Verif.Dsdl Verif.Bls

/-! ### Definitions -/

/-- The type of a field without arrays: a primitive type, or the definition with number `n`. (`canadensis_dsdl_frontend/src/types.rs` L570-577.) -/
inductive Kind where
  | prim (p : Prim)
  | type (n : Nat)
deriving DecidableEq, Repr

/-- A field of a struct. The name is that of the Rust field (what becomes of the names is in `Verif.Front.Inner`). (`canadensis_dsdl_frontend/src/compiled.rs`, L106-165 (`Field`, `FieldKind`).) -/
inductive Member where
  | padding (bits : Nat)
  | data (name : String) (k : Kind) (a : Arity)
deriving DecidableEq, Repr

/-- The fields of a struct or the variants of a union. (`canadensis_dsdl_frontend/src/compiled.rs`, L86-104 (`MessageKind`).) -/
inductive Body where
  | struct (members : List Member)
  | union (variants : List (String × Kind × Arity))
deriving DecidableEq, Repr

/-- A DSDL definition: a message, a request or a response. `extent` is in bits, `none` if it is sealed. (`canadensis_dsdl_frontend/src/compiled.rs`, L30-84 (`Message`, `Extent`).) -/
structure Definition where
  extent : Option Nat
  request : Bool
  body : Body
deriving DecidableEq, Repr

/-- The compiled type of a field (canadensis_dsdl_frontend/src/types.rs L570-578). -/
def Kind.scalar (types : List Message) : Kind → Option Scalar
  | .prim p => some (.prim p)
  | .type n => (types[n]?).map Scalar.composite

/-- The compiled fields (canadensis_dsdl_frontend/src/compiled.rs L92-95). -/
def fieldsOf (types : List Message) : List Member → Option Fields
  | [] => some .nil
  | .padding bits :: ms => (fieldsOf types ms).map (.padding bits)
  | .data _ k a :: ms =>
    match k.scalar types, fieldsOf types ms with
    | some s, some rest => some (.data s a rest)
    | _, _ => none

/-- The compiled variants (canadensis_dsdl_frontend/src/compiled.rs L97-104). -/
def variantsOf (types : List Message) : List (String × Kind × Arity) → Option Variants
  | [] => some .nil
  | (_, k, a) :: vs =>
    match k.scalar types, variantsOf types vs with
    | some s, some rest => some (.cons s a rest)
    | _, _ => none

/-- The compiled definition (canadensis_dsdl_frontend/src/compiled.rs L30-90), with the compiled definitions that it uses. -/
def Definition.message (types : List Message) (d : Definition) : Option Message :=
  match d.body with
  | .struct ms => (fieldsOf types ms).map (.struct d.extent d.request)
  | .union vs => (variantsOf types vs).map (.union d.extent d.request)

/-- The names of the fields or variants. (`canadensis_codegen_rust/src/impl_deserialize.rs` L56-71.) -/
def Body.names : Body → List String
  | .struct ms => ms.filterMap fun
    | .padding _ => none
    | .data name _ _ => some name
  | .union vs => vs.map (·.1)

/-! ### The declaration -/

/-- `scalar_to_rust_type` (canadensis_codegen_rust/src/lib.rs L616-635). -/
def Kind.elem : Kind → Elem
  | .type n => .type n
  | .prim .boolean => .bool
  | .prim .byte => .unsigned 8
  | .prim .utf8 => .unsigned 8
  | .prim (.int bits) => .signed (roundUpIntegerSize bits)
  | .prim (.uint bits _) => .unsigned (roundUpIntegerSize bits)
  | .prim .float16 => .f16
  | .prim .float32 => .f32
  | .prim .float64 => .f64

/-- Whether it is `bool`, whose arrays are bit arrays (canadensis_codegen_rust/src/lib.rs L586-597). -/
def Kind.isBool (k : Kind) : Bool := k = .prim .boolean

/-- `to_rust_type` (canadensis_codegen_rust/src/lib.rs L580-614). -/
def rustTy (k : Kind) : Arity → Ty
  | .scalar => .one k.elem
  | .fixed len => if k.isBool then .bitArray ((len + 7) / 8) else .array k.elem len
  | .var maxLen => if k.isBool then .bitArray ((maxLen + 7) / 8) else .vec k.elem maxLen

/-- The fields of the struct (canadensis_codegen_rust/src/lib.rs L510-528); padding is only a comment. -/
def rustFields : List Member → List (String × Ty)
  | [] => []
  | .padding _ :: ms => rustFields ms
  | .data name k a :: ms => (name, rustTy k a) :: rustFields ms

/-! ### `serialize` -/

/-- Whether there is an aligned write function (canadensis_codegen_rust/src/impl_serialize.rs L101-103, L507-515). -/
def haveAligned (bits : Nat) : Bool := bits = 8 || bits = 16 || bits = 32 || bits = 64

/-- `CallWriteAligned` and `CallWrite` (canadensis_codegen_rust/src/impl_serialize.rs L505-551). -/
def callWrite (aligned : Bool) (bits : Nat) (n : Num) : Stmt := if aligned && haveAligned bits then .writeAligned bits n else .write bits n

/-- The statement for one value: `WriteAlignedField` (`aligned`), `WriteUnalignedField` and the bodies of the loops in `WriteArrayElements`
(canadensis_codegen_rust/src/impl_serialize.rs L183-229, L306-350, L423-497). -/
def writeOne (aligned : Bool) (p : Place) : Kind → Stmt
  | .type _ => .writeComposite p
  | .prim .boolean => .writeBool p
  | .prim .byte => callWrite aligned 8 (.get p)
  | .prim .utf8 => callWrite aligned 8 (.get p)
  | .prim (.int bits) => callWrite aligned bits (.cast p (roundUpIntegerSize bits))
  | .prim (.uint bits _) => callWrite aligned bits (.get p)
  | .prim .float16 => .writeF16 p
  | .prim .float32 => .writeF32 p
  | .prim .float64 => .writeF64 p

/-- Whether arrays are written with `write_bytes` (canadensis_codegen_rust/src/impl_serialize.rs L454-457). -/
def Kind.isByte : Kind → Bool
  | .prim .utf8 => true
  | .prim .byte => true
  | .prim (.uint 8 _) => true
  | _ => false

/-- The statement for the elements of an array: `WriteArrayElements`, and `serialize` for a bit array
(canadensis_codegen_rust/src/impl_serialize.rs L230-236, L423-497). -/
def writeMany (p : Place) (k : Kind) : Stmt :=
  if k.isBool then .writeBits p else if k.isByte then .writeBytes p else .forEach p (writeOne false .value k)

/-- The statements for a field (canadensis_codegen_rust/src/impl_serialize.rs L181-297, L304-416). -/
def writeStmts (aligned : Bool) (p : Place) (k : Kind) : Arity → List Stmt
  | .scalar => [writeOne aligned p k]
  | .fixed _ => [writeMany p k]
  | .var maxLen => [callWrite aligned (arrayLengthBits maxLen) (.len p (roundUpIntegerSize (arrayLengthBits maxLen))), writeMany p k]

/-- The statements for the fields (canadensis_codegen_rust/src/impl_serialize.rs L107-132). Which functions are used depends on the lengths of the
fields before. -/
def fieldStmts (types : List Message) : List Member → Option BitLengthSet → List Stmt
  | [], _ => []
  | .padding bits :: ms, l => .skip bits :: fieldStmts types ms (some (afterPadding bits l))
  | .data name k a :: ms, l =>
    writeStmts (alwaysAligned l) (.self name) k a ++
      fieldStmts types ms ((k.scalar types).map fun s => afterData s s.size a l)

/-- The arms for the variants from number `i` on (canadensis_codegen_rust/src/impl_serialize.rs L49-83, L136-174). -/
def variantArms (tagBits : Nat) : List (String × Kind × Arity) → Nat → List (String × List Stmt)
  | [], _ => []
  | (name, k, a) :: vs, i => (name, callWrite true tagBits (.lit i) :: writeStmts true .inner k a) :: variantArms tagBits vs (i + 1)

/-! ### `size_bits` -/

/-- `WriteScalarSize` (canadensis_codegen_rust/src/size_bits.rs L172-213). -/
def sizeOne (p : Place) : Scalar → List Term
  | .prim q => [.lit q.bits]
  | .composite m =>
    (if m.extent.isSome then [.lit 32] else []) ++
      [if m.bitLength.minValue = m.bitLength.maxValue then .lit (nextMultipleOf m.bitLength.minValue 8) else .sizeOf p 8]

/-- `WriteArrayElementSizes` (canadensis_codegen_rust/src/size_bits.rs L132-165). -/
def sizeMany (p : Place) (s : Scalar) : Term :=
  if s.size.minValue = s.size.maxValue then .lenTimes p (headerBits s.extent + s.size.minValue) s.alignment
  else .sumOf p s.extent.isSome 8

/-- `WriteFieldSize` (canadensis_codegen_rust/src/size_bits.rs L86-125). -/
def sizeTerms (p : Place) (s : Scalar) : Arity → List Term
  | .scalar => sizeOne p s
  | .fixed _ => [sizeMany p s]
  | .var maxLen => [.lit (arrayLengthBits maxLen), sizeMany p s]

/-- The terms for the fields (canadensis_codegen_rust/src/size_bits.rs L30-50). -/
def fieldTerms (types : List Message) : List Member → List Term
  | [] => []
  | .padding bits :: ms => .lit bits :: fieldTerms types ms
  | .data name k a :: ms =>
    (match k.scalar types with
    | none => []
    | some s => sizeTerms (.self name) s a) ++ fieldTerms types ms

/-- The arms for the variants (canadensis_codegen_rust/src/size_bits.rs L51-76). -/
def variantTerms (types : List Message) (vs : List (String × Kind × Arity)) : List (String × List Term) :=
  vs.map fun (name, k, a) =>
    (name, match k.scalar types with
      | none => []
      | some s => sizeTerms .inner s a)

/-! ### `deserialize` -/

/-- `ReadUnalignedScalar` (canadensis_codegen_rust/src/impl_deserialize.rs L208-229). -/
def readOne : Kind → Get
  | .type _ => .composite
  | .prim .boolean => .bool
  | .prim .byte => .num 8
  | .prim .utf8 => .num 8
  | .prim (.int bits) => .num bits
  | .prim (.uint bits _) => .num bits
  | .prim .float16 => .f16
  | .prim .float32 => .f32
  | .prim .float64 => .f64

/-- `ReadUnalignedField` (canadensis_codegen_rust/src/impl_deserialize.rs L128-202). -/
def readExpr (k : Kind) : Arity → Expr
  | .scalar => .one (readOne k)
  | .fixed len => if k.isBool then .bits len else .array (List.replicate len (readOne k))
  | .var maxLen => if k.isBool then .bitsVar (arrayLengthBits maxLen) else .vec (arrayLengthBits maxLen) maxLen (readOne k)

/-- The fields of the struct literal: padding is skipped before the next field (canadensis_codegen_rust/src/impl_deserialize.rs L50-77). -/
def fieldInits : List Member → List Nat → List Init
  | [], _ => []
  | .padding bits :: ms, pending => fieldInits ms (pending ++ [bits])
  | .data name k a :: ms, pending => ⟨name, pending, readExpr k a⟩ :: fieldInits ms []

/-- The arms of the `match` on the tag from number `i` on (canadensis_codegen_rust/src/impl_deserialize.rs L83-122). -/
def tagArms : List (String × Kind × Arity) → Nat → List (Nat × String × Expr)
  | [], _ => []
  | (name, k, a) :: vs, i => (i, name, readExpr k a) :: tagArms vs (i + 1)

/-! ### The type -/

/-- The generated type (canadensis_codegen_rust/src/lib.rs L403-430, L765-830; impl_data_type.rs L11-42; impl_serialize.rs L16-97;
impl_deserialize.rs L17-122). `m` is the compiled definition. -/
def Definition.code (types : List Message) (m : Message) (d : Definition) : Code :=
  let l := m.bitLength
  match d.body with
  | .struct ms =>
    { shape := .struct m.zeroCopy (rustFields ms)
      extentBytes := d.extent.map (· / 8)
      sizeBits := .sum (if l.minValue = l.maxValue then [.lit l.minValue] else fieldTerms types ms ++ [.lit 0])
      serialize := .seq (if m.zeroCopy then [.alignedBytes] else fieldStmts types ms none)
      deserialize := if m.zeroCopy then .zeroCopy else .struct (fieldInits ms []) }
  | .union vs =>
    let tagBits := arrayLengthBits vs.length
    { shape := .enum (vs.map fun v => (v.1, rustTy v.2.1 v.2.2))
      extentBytes := d.extent.map (· / 8)
      sizeBits := if l.minValue = l.maxValue then .sum [.lit l.minValue] else .matchSelf tagBits (variantTerms types vs)
      serialize := .matchSelf (variantArms tagBits vs 0)
      deserialize := .matchTag tagBits (tagArms vs 0) }

end Verif.Shipped
