import Verif.Front.Compile

/-!
Model of how `canadensis_codegen_rust` goes from a compiled type to a generated Rust type. What the generated functions do is modelled in `Verif.Dsdl.Model`, for
types given by their members. Here are the steps before: the choice between a struct and an enum, and the nested types.

Left out: names and comments. Whether the comments of a type have the line `[canadensis(enum)]` is given by a function on names
(`has_enum_directive`, canadensis_codegen_rust/src/struct_as_enum.rs L31-38).
-/

namespace Verif.Front

open Verif.Dsdl (Arity)

/-- `PrimitiveType` without what the generated code does not depend on (canadensis_dsdl_frontend/src/types.rs L288-305). -/
def Prim.generated : Prim → Verif.Dsdl.Prim
  | .boolean => .boolean
  | .utf8 => .utf8
  | .byte => .byte
  | .int bits => .int bits
  | .uint bits mode => .uint bits (mode == .saturated)
  | .float16 _ => .float16
  | .float32 _ => .float32
  | .float64 _ => .float64

/-- The check that a constant has the type of the field (canadensis_codegen_rust/src/struct_as_enum.rs L75-90). -/
def enumConstant (bits : Nat) (c : Constant) : Bool :=
  match c.ty with
  | .uint b _ => b == bits
  | _ => false

/-- The loop over the constants: each has the type of the field, and no value is used twice. Gives the values (canadensis_codegen_rust/src/struct_as_enum.rs L72-107). -/
def enumValues (bits : Nat) : Constants → List ℤ → Outcome (List ℤ)
  | [], used => .ok used
  | (_, c) :: cs, used =>
    if enumConstant bits c then
      match c.value with
      | .int z => if used.contains z then .error else enumValues bits cs (used ++ [z])
      | _ => .panic
    else .error

/-- The discriminants of the variants, `value.try_into::<u32>().expect(..)` (canadensis_codegen_rust/src/struct_as_enum.rs L109-125). -/
def enumDiscriminants : List ℤ → Outcome (List Nat)
  | [] => .ok []
  | z :: zs => if 0 ≤ z ∧ z < 2 ^ 32 then (enumDiscriminants zs).bind fun ds => .ok (z.toNat :: ds) else .panic

/-- `generate_enum_from_struct` (canadensis_codegen_rust/src/struct_as_enum.rs L40-144). -/
def enumFromStruct (extent : Option Nat) (request : Bool) (fields : List CField) (constants : Constants) : Outcome Verif.Dsdl.Message :=
  match fields with
  | [.data _ (.prim (.uint bits _)) .scalar _] =>
    (enumValues bits constants []).bind fun zs => (enumDiscriminants zs).bind fun ds => .ok (.enum extent request bits ds)
  | _ => .error

mutual
/-- The Rust type of an element: `scalar_to_rust_type` (canadensis_codegen_rust/src/lib.rs L597-635). Void is left out: DSDL has no data fields of this type. For a type with
a name it is the type generated for this name. -/
def RScalar.generate (en : TypeKey → Bool) : RScalar → Outcome Verif.Dsdl.Scalar
  | .prim p => .ok (.prim p.generated)
  | .void _ => .error
  | .composite key m => (m.generate en (en key) false).bind fun M => .ok (.composite M)
/-- The fields in `GeneratedType::new_struct` (canadensis_codegen_rust/src/lib.rs L294-320). -/
def generateFields (en : TypeKey → Bool) : List CField → Outcome Verif.Dsdl.Fields
  | [] => .ok .nil
  | .padding bits _ :: rest => (generateFields en rest).bind fun fs => .ok (.padding bits fs)
  | .data _ s a _ :: rest => (s.generate en).bind fun s => (generateFields en rest).bind fun fs => .ok (.data s a fs)
/-- The variants in `GeneratedType::new_enum` (canadensis_codegen_rust/src/lib.rs L336-375). That there are less than 2^32 of them is left out. -/
def generateVariants (en : TypeKey → Bool) : List CVariant → Outcome Verif.Dsdl.Variants
  | [] => .ok .nil
  | .mk _ s a :: rest => (s.generate en).bind fun s => (generateVariants en rest).bind fun vs => .ok (.cons s a vs)
/-- `generate_rust_type` (canadensis_codegen_rust/src/lib.rs L191-252): `asEnum` is what `has_enum_directive` gives for its comments. -/
def CMessage.generate (en : TypeKey → Bool) (asEnum request : Bool) : CMessage → Outcome Verif.Dsdl.Message
  | .struct _ extent fields _ constants =>
    if asEnum then enumFromStruct extent request fields constants
    else (generateFields en fields).bind fun fs => .ok (.struct extent request fs)
  | .union _ extent _ variants _ _ =>
    if asEnum then .error
    else (generateVariants en variants).bind fun vs => .ok (.union extent request vs)
end

end Verif.Front
