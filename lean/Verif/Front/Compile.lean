import Verif.Front.Operators

/-!
Model of the DSDL compiler (`canadensis_dsdl_frontend`: `compile.rs`, `compiled.rs`, `constants.rs`, `types/expression.rs`, `types/constant.rs`,
`types/directive.rs`, `operators/attribute.rs`), from parsed files to compiled types.

Left out: the parser, which is in `Verif.Parse` (a file is the list of its statements, or `none` if it cannot be read or parsed), spans and error messages, comments, and warnings.
Numbers of bits are unbounded, as in `Verif.Bls.Model`.
-/

namespace Verif.Front

open Verif.Bls
open Verif.Dsdl (Arity arrayLengthBits)

/-! ### Parsed files -/

/-- `ArrayLength` without its expression (canadensis_dsdl_parser/src/ast/types.rs L199-206). -/
inductive ArrayKind where
  | fixed
  | inclusive
  | exclusive
deriving DecidableEq, Repr

/-- `Expression`, `ExpressionType`, `ExpressionAtom` and `LiteralType` without spans (canadensis_dsdl_parser/src/ast/types.rs L8-106). A data type in an
expression is `scalarType` or `arrayType` (L110-126). The conversion of the parsed types into the compiler's is the identity (canadensis_dsdl_frontend/src/types.rs L191-226). -/
inductive Expr where
  | parenthesized (e : Expr)
  | scalarType (s : ScalarTy)
  | arrayType (s : ScalarTy) (kind : ArrayKind) (length : Expr)
  | set (es : List Expr)
  | number (q : ℚ)
  | string (s : String)
  | boolean (b : Bool)
  | identifier (name : String)
  | unary (op : UnOp) (e : Expr)
  | binary (op : BinOp) (l r : Expr)
  | attribute (e : Expr) (name : String)

/-- `Type` of a field (canadensis_dsdl_parser/src/ast/types.rs L110-126, L188-195). -/
inductive TypeAst where
  | scalar (s : ScalarTy)
  | array (s : ScalarTy) (kind : ArrayKind) (length : Expr)

/-- `Statement` without comments (canadensis_dsdl_parser/src/ast/types.rs L210-234). -/
inductive Statement where
  | directive (name : String) (value : Option Expr)
  | constant (ty : Prim) (name : String) (value : Expr)
  | field (ty : TypeAst) (name : String)
  | padding (bits : Nat)
  | responseMarker

/-- `DsdlFile`: its fixed port ID and what parsing it gives, `none` for an error (canadensis_dsdl_frontend/src/package.rs; compile.rs L284-285). -/
structure File where
  port : Option Nat
  statements : Option (List Statement)

/-! ### Compiled types -/

/-- `ConstantValue` (canadensis_dsdl_frontend/src/types/constant.rs L218-231), floating-point numbers as their bits. -/
inductive ConstantValue where
  | boolean (b : Bool)
  | int (z : ℤ)
  | float16 (bits : Nat)
  | float32 (bits : Nat)
  | float64 (bits : Nat)
deriving DecidableEq, Repr

/-- `Constant` (canadensis_dsdl_frontend/src/types/constant.rs L14-29). -/
structure Constant where
  ty : Prim
  dsdlValue : Value
  value : ConstantValue

/-- `Constants` (canadensis_dsdl_frontend/src/constants.rs L10). -/
abbrev Constants := List (String × Constant)

/-- `Constants::contains_key` (canadensis_dsdl_frontend/src/constants.rs L14-16). -/
def Constants.containsKey (cs : Constants) (name : String) : Bool := cs.any fun c => c.1 == name

/-- `Constants::insert` (canadensis_dsdl_frontend/src/constants.rs L21-31). -/
def Constants.insert : Constants → String → Constant → Constants
  | [], name, c => [(name, c)]
  | e :: es, name, c => if e.1 == name then (e.1, c) :: es else e :: Constants.insert es name c

/-- `Constants::get` (canadensis_dsdl_frontend/src/constants.rs L34-39). -/
def Constants.get (cs : Constants) (name : String) : Option Constant := (cs.find? fun c => c.1 == name).map (·.2)

mutual
/-- `ResolvedScalarType` (canadensis_dsdl_frontend/src/types.rs L570-577). -/
inductive RScalar where
  | prim (p : Prim)
  | void (bits : Nat)
  | composite (key : TypeKey) (inner : CMessage)
/-- `Field` (canadensis_dsdl_frontend/src/compiled.rs L106-173); the `ResolvedType` of a data field is an `RScalar` and an `Arity`. -/
inductive CField where
  | padding (bits : Nat) (aligned : Bool)
  | data (name : String) (s : RScalar) (a : Arity) (aligned : Bool)
/-- `Variant` (canadensis_dsdl_frontend/src/compiled.rs L188-208). -/
inductive CVariant where
  | mk (name : String) (s : RScalar) (a : Arity)
/-- `Message` (canadensis_dsdl_frontend/src/compiled.rs L30-41, L76-102). `extent` is `none` for `Extent::Sealed`. -/
inductive CMessage where
  | struct (deprecated : Bool) (extent : Option Nat) (fields : List CField) (bitLength : BitLengthSet) (constants : Constants)
  | union (deprecated : Bool) (extent : Option Nat) (discriminantBits : Nat) (variants : List CVariant) (bitLength : BitLengthSet)
      (constants : Constants)
end

namespace CMessage

/-- `Message::deprecated` (canadensis_dsdl_frontend/src/compiled.rs L46-48). -/
def deprecated : CMessage → Bool
  | .struct d _ _ _ _ => d
  | .union d _ _ _ _ _ => d

/-- `Message::extent` (canadensis_dsdl_frontend/src/compiled.rs L51-53). -/
def extent : CMessage → Option Nat
  | .struct _ e _ _ _ => e
  | .union _ e _ _ _ _ => e

/-- `Message::bit_length` (canadensis_dsdl_frontend/src/compiled.rs L61-63). -/
def bitLength : CMessage → BitLengthSet
  | .struct _ _ _ l _ => l
  | .union _ _ _ _ l _ => l

/-- `Message::constants` (canadensis_dsdl_frontend/src/compiled.rs L66-68). -/
def constants : CMessage → Constants
  | .struct _ _ _ _ c => c
  | .union _ _ _ _ _ c => c

end CMessage

/-- `DsdlKind` (canadensis_dsdl_frontend/src/compiled.rs L19-26). -/
inductive DsdlKind where
  | message (m : CMessage)
  | service (request response : CMessage)

/-- `CompiledDsdl` (canadensis_dsdl_frontend/src/compiled.rs L12-15). -/
structure Compiled where
  port : Option Nat
  kind : DsdlKind

/-- `Field::name` (canadensis_dsdl_frontend/src/compiled.rs L178-183). -/
def CField.name : CField → Option String
  | .padding _ _ => none
  | .data n _ _ _ => some n

/-- `Variant::name` (canadensis_dsdl_frontend/src/compiled.rs L214-216). -/
def CVariant.name : CVariant → String
  | .mk n _ _ => n

/-! ### Sizes -/

namespace RScalar

/-- `ResolvedScalarType::size` (canadensis_dsdl_frontend/src/types.rs L581-589). -/
def size : RScalar → BitLengthSet
  | .prim p => .single p.bits
  | .void bits => .single bits
  | .composite _ m => m.bitLength

/-- `ResolvedScalarType::alignment` (canadensis_dsdl_frontend/src/types.rs L591-596). -/
def alignment : RScalar → Nat
  | .composite _ _ => 8
  | _ => 1

/-- `ResolvedScalarType::implicit_field`: whether there is a delimiter header (canadensis_dsdl_frontend/src/types.rs L610-618). -/
def delimited : RScalar → Bool
  | .composite _ m => m.extent.isSome
  | _ => false

/-- `ResolvedScalarType::deprecated` (canadensis_dsdl_frontend/src/types.rs L621-627). -/
def deprecated : RScalar → Bool
  | .composite _ m => m.deprecated
  | _ => false

end RScalar

/-- `ResolvedType::implicit_field` as the number of its bits (canadensis_dsdl_frontend/src/types.rs L168-189, L529-542). -/
def implicitField (s : RScalar) : Arity → Option Nat
  | .scalar => if s.delimited then some 32 else none
  | .fixed _ => none
  | .var maxLen => some (arrayLengthBits maxLen)

/-- `ResolvedType::size` (canadensis_dsdl_frontend/src/types.rs L510-518). -/
def sizeOfType (s : RScalar) (a : Arity) : BitLengthSet := a.size s.size

/-- The total length of a field (canadensis_dsdl_frontend/src/compile.rs L308-324). The alignment computed there is that of the type, because that of an
implicit field is 1. -/
def totalLength (s : RScalar) (a : Arity) : BitLengthSet :=
  match implicitField s a with
  | some bits => (sizeOfType s a).concatenate [.single bits]
  | none => sizeOfType s a

/-- `calculate_discriminant_bits` (canadensis_dsdl_frontend/src/compile.rs L981-989). -/
def discriminantBits (variants : Nat) : Nat := arrayLengthBits variants

/-- `CVariant` as what `make_union_bit_length` needs of it: `variant.ty().size()` (canadensis_dsdl_frontend/src/compile.rs L998). -/
def CVariant.size : CVariant → BitLengthSet
  | .mk _ s a => sizeOfType s a

/-- `make_union_bit_length` (canadensis_dsdl_frontend/src/compile.rs L993-1003). -/
def unionBitLength (variants : List CVariant) : BitLengthSet :=
  (BitLengthSet.single (discriminantBits variants.length)).concatenate [Verif.Dsdl.reduceUnite (variants.map CVariant.size)]

/-! ### The state of a file -/

/-- `StructState` (canadensis_dsdl_frontend/src/compile.rs L861-867). -/
inductive StructState where
  | collecting (fields : List CField)
  | ended (fields : List CField) (extent : Option Nat)

/-- `UnionState` (canadensis_dsdl_frontend/src/compile.rs L870-879). -/
inductive UnionState where
  | collecting (variants : List CVariant)
  | usedOffset (variants : List CVariant) (length : BitLengthSet)
  | ended (variants : List CVariant) (extent : Option Nat) (length : BitLengthSet)

/-- `State` (canadensis_dsdl_frontend/src/compile.rs L843-857). -/
inductive State where
  | message
  | messageStruct (s : StructState) (length : BitLengthSet)
  | messageUnion (u : UnionState)
  | response (request : CMessage)
  | responseStruct (request : CMessage) (s : StructState) (length : BitLengthSet)
  | responseUnion (request : CMessage) (u : UnionState)

/-- `FileState` (canadensis_dsdl_frontend/src/compile.rs L422-437) without comments. The `state` is only `None` while a function matches on it, or after
an error, which ends the compilation. -/
structure FileState where
  path : List String
  constants : Constants
  deprecated : Bool
  state : State

/-- `FileState::new` (canadensis_dsdl_frontend/src/compile.rs L439-457). -/
def FileState.new (path : List String) : FileState := ⟨path, [], false, .message⟩

/-- The change of state by `CompileContext::bit_length_set` (canadensis_dsdl_frontend/src/compile.rs L75-95). -/
def State.useOffset : State → State
  | .messageUnion (.collecting vs) => .messageUnion (.usedOffset vs (unionBitLength vs))
  | .responseUnion req (.collecting vs) => .responseUnion req (.usedOffset vs (unionBitLength vs))
  | s => s

/-- The bit length that `CompileContext::bit_length_set` extracts (canadensis_dsdl_frontend/src/compile.rs L98-116). It was computed before for a union
that is collecting variants. -/
def State.offset : State → BitLengthSet
  | .message => .single 0
  | .response _ => .single 0
  | .messageStruct _ l => l
  | .responseStruct _ _ l => l
  | .messageUnion (.usedOffset _ l) => l
  | .messageUnion (.ended _ _ l) => l
  | .messageUnion (.collecting vs) => unionBitLength vs
  | .responseUnion _ (.usedOffset _ l) => l
  | .responseUnion _ (.ended _ _ l) => l
  | .responseUnion _ (.collecting vs) => unionBitLength vs

/-- `CompileContext::handle_union` (canadensis_dsdl_frontend/src/compile.rs L145-162). -/
def State.handleUnion : State → Outcome State
  | .message => .ok (.messageUnion (.collecting []))
  | .response m => .ok (.responseUnion m (.collecting []))
  | _ => .error

/-- The change of `UnionState` by `apply_sealed_or_extent` (canadensis_dsdl_frontend/src/compile.rs L924-975). UNION_MIN_VARIANTS = 2. -/
def UnionState.finish (extent : Option Nat) : UnionState → Outcome UnionState
  | .ended _ _ _ => .error
  | .collecting vs => if 2 ≤ vs.length then .ok (.ended vs extent (unionBitLength vs)) else .error
  | .usedOffset vs l => if 2 ≤ vs.length then .ok (.ended vs extent l) else .error

/-- The change of `StructState` by `apply_sealed_or_extent` (canadensis_dsdl_frontend/src/compile.rs L888-892, L909-923). -/
def StructState.finish (extent : Option Nat) : StructState → Outcome StructState
  | .ended _ _ => .error
  | .collecting fields => .ok (.ended fields extent)

/-- `apply_sealed_or_extent` (canadensis_dsdl_frontend/src/compile.rs L882-977). -/
def State.finish (extent : Option Nat) : State → Outcome State
  | .message => .ok (.messageStruct (.ended [] extent) (.single 0))
  | .response req => .ok (.responseStruct req (.ended [] extent) (.single 0))
  | .messageStruct s l => (s.finish extent).bind fun s => .ok (.messageStruct s l)
  | .responseStruct req s l => (s.finish extent).bind fun s => .ok (.responseStruct req s l)
  | .messageUnion u => (u.finish extent).bind fun u => .ok (.messageUnion u)
  | .responseUnion req u => (u.finish extent).bind fun u => .ok (.responseUnion req u)

/-- `CompileContext::handle_deprecated` (canadensis_dsdl_frontend/src/compile.rs L178-219). -/
def FileState.handleDeprecated (f : FileState) : Outcome FileState :=
  if f.deprecated then .error
  else
    match f.state with
    | .message => .ok { f with deprecated := true }
    | .messageUnion (.collecting vs) => if vs.isEmpty then .ok { f with deprecated := true } else .error
    | _ => .error

/-- `handle_service_response_marker` (canadensis_dsdl_frontend/src/compile.rs L459-510, L798-800). -/
def FileState.handleMarker (f : FileState) : Outcome FileState :=
  match f.state with
  | .messageStruct (.ended fields extent) l =>
    .ok { f with constants := [], state := .response (.struct f.deprecated extent fields l f.constants) }
  | .messageUnion (.ended vs extent l) =>
    .ok { f with constants := [], state := .response (.union f.deprecated extent (discriminantBits vs.length) vs l f.constants) }
  | _ => .error

/-- `add_padding_field` (canadensis_dsdl_frontend/src/compile.rs L512-556). -/
def State.addPadding (bits : Nat) : State → Outcome State
  | .message => .ok (.messageStruct (.collecting [.padding bits true]) (.single bits))
  | .messageStruct (.collecting fields) l =>
    .ok (.messageStruct (.collecting (fields ++ [.padding bits l.isByteAligned])) (l.concatenate [.single bits]))
  | .response req => .ok (.responseStruct req (.collecting [.padding bits true]) (.single bits))
  | .responseStruct req (.collecting fields) l =>
    .ok (.responseStruct req (.collecting (fields ++ [.padding bits l.isByteAligned])) (l.concatenate [.single bits]))
  | _ => .error

/-- `update_struct_length` (canadensis_dsdl_frontend/src/compile.rs L567-572). -/
def updateStructLength (s : RScalar) (a : Arity) (l : BitLengthSet) : BitLengthSet :=
  ((l.padToAlignment s.alignment).concatenate [totalLength s a]).padToAlignment s.alignment

/-- Adding a field to a struct that is collecting fields (canadensis_dsdl_frontend/src/compile.rs L593-618): `none` if the name is taken. -/
def pushField (s : RScalar) (a : Arity) (name : String) (fields : List CField) (l : BitLengthSet) : Option (List CField × BitLengthSet) :=
  if fields.any fun f => f.name == some name then none
  else some (fields ++ [.data name s a l.isByteAligned], updateStructLength s a l)

/-- Adding a variant to a union that is collecting variants (canadensis_dsdl_frontend/src/compile.rs L619-637): `none` if the name is taken. -/
def pushVariant (s : RScalar) (a : Arity) (name : String) (variants : List CVariant) : Option (List CVariant) :=
  if variants.any fun v => v.name == name then none else some (variants ++ [.mk name s a])

/-- `add_field` (canadensis_dsdl_frontend/src/compile.rs L558-653). -/
def State.addField (s : RScalar) (a : Arity) (name : String) : State → Outcome State
  | .message => .ok (.messageStruct (.collecting [.data name s a true]) (updateStructLength s a (.single 0)))
  | .response req => .ok (.responseStruct req (.collecting [.data name s a true]) (updateStructLength s a (.single 0)))
  | .messageStruct (.collecting fields) l =>
    (Outcome.ofOption (pushField s a name fields l)).bind fun r => .ok (.messageStruct (.collecting r.1) r.2)
  | .responseStruct req (.collecting fields) l =>
    (Outcome.ofOption (pushField s a name fields l)).bind fun r => .ok (.responseStruct req (.collecting r.1) r.2)
  | .messageUnion (.collecting vs) => (Outcome.ofOption (pushVariant s a name vs)).bind fun vs => .ok (.messageUnion (.collecting vs))
  | .responseUnion req (.collecting vs) =>
    (Outcome.ofOption (pushVariant s a name vs)).bind fun vs => .ok (.responseUnion req (.collecting vs))
  | _ => .error

/-- `FileState::finish` (canadensis_dsdl_frontend/src/compile.rs L712-794). COMPOSITE_ALIGNMENT = 8. -/
def FileState.finish (f : FileState) (port : Option Nat) : Outcome Compiled :=
  match f.state with
  | .messageStruct (.ended fields extent) l =>
    .ok ⟨port, .message (.struct f.deprecated extent fields (l.padToAlignment 8) f.constants)⟩
  | .responseStruct req (.ended fields extent) l =>
    .ok ⟨port, .service req (.struct f.deprecated extent fields (l.padToAlignment 8) f.constants)⟩
  | .messageUnion (.ended vs extent l) =>
    .ok ⟨port, .message (.union f.deprecated extent (discriminantBits vs.length) vs (l.padToAlignment 8) f.constants)⟩
  | .responseUnion req (.ended vs extent l) =>
    .ok ⟨port, .service req (.union f.deprecated extent (discriminantBits vs.length) vs (l.padToAlignment 8) f.constants)⟩
  | _ => .error

/-! ### Expressions -/

/-- What an expression is evaluated with and may change: `CompileContext` (canadensis_dsdl_frontend/src/compile.rs L56-61). `P` is the persistent context. -/
structure Cx (P : Type) where
  file : FileState
  persistent : P

/-- A lookup of a compiled type: `PersistentContext::type_by_key` (canadensis_dsdl_frontend/src/compile.rs L351-374). -/
abbrev Lookup (P : Type) := TypeKey → P → Outcome (Compiled × P)

/-- The canonical version of a key: one without a path is in the package of the file (canadensis_dsdl_frontend/src/compile.rs L131-135). -/
def canonicalKey (path : List String) (key : TypeKey) : TypeKey := if key.path.isEmpty then { key with path := path } else key

/-- `CompileContext::type_by_key` (canadensis_dsdl_frontend/src/compile.rs L129-142). -/
def typeByKey {P : Type} (lookup : Lookup P) (key : TypeKey) (cx : Cx P) : Outcome ((TypeKey × Compiled) × Cx P) :=
  let key := canonicalKey cx.file.path key
  (lookup key cx.persistent).bind fun r => .ok ((key, r.1), { cx with persistent := r.2 })

/-- `ScalarType::bit_length_set` (canadensis_dsdl_frontend/src/types.rs L265-283). -/
def ScalarTy.bitLengthSet {P : Type} (lookup : Lookup P) (s : ScalarTy) (cx : Cx P) : Outcome (BitLengthSet × Cx P) :=
  match s with
  | .versioned key =>
    (typeByKey lookup key cx).bind fun r =>
      match r.1.2.kind with
      | .message m => .ok (m.bitLength, r.2)
      | .service _ _ => .error
  | .prim p => .ok (.single p.bits, cx)
  | .void bits => .ok (.single bits, cx)

/-- `Type::bit_length_set` (canadensis_dsdl_frontend/src/types.rs L112-128). -/
def Ty.bitLengthSet {P : Type} (lookup : Lookup P) (t : Ty) (cx : Cx P) : Outcome (BitLengthSet × Cx P) :=
  match t with
  | .scalar s => s.bitLengthSet lookup cx
  | .fixedArray s len => (s.bitLengthSet lookup cx).bind fun r => .ok (r.1.repeatTimes len, r.2)
  | .variableArray s maxLen => (s.bitLengthSet lookup cx).bind fun r => .ok (r.1.repeatRange maxLen, r.2)

/-- `evaluate_type_attr` (canadensis_dsdl_frontend/src/operators/attribute.rs L89-139). -/
def typeAttribute {P : Type} (lookup : Lookup P) (t : Ty) (name : String) (cx : Cx P) : Outcome (Value × Cx P) :=
  if name = "_bit_length_" then (t.bitLengthSet lookup cx).bind fun r => .ok (.lengths r.1, r.2)
  else
    match t with
    | .scalar (.versioned key) =>
      (typeByKey lookup key cx).bind fun r =>
        match r.1.2.kind with
        | .message m =>
          match m.constants.get name with
          | some c => .ok (c.dsdlValue, r.2)
          | none => .error
        | .service _ _ => .error
    | _ => .error

/-- `attribute::evaluate` (canadensis_dsdl_frontend/src/operators/attribute.rs L10-24). -/
def evalAttribute {P : Type} (x : Externals) (lookup : Lookup P) (v : Value) (name : String) (cx : Cx P) : Outcome (Value × Cx P) :=
  match v with
  | .set s => (setAttribute x s name).bind fun v => .ok (v, cx)
  | .lengths l => (lengthsAttribute l name).bind fun v => .ok (v, cx)
  | .type t => typeAttribute lookup t name cx
  | _ => .error

/-- The length in `evaluate_array_length` (canadensis_dsdl_frontend/src/types/expression.rs L277-317). -/
def arrayLength : Value → Outcome Nat
  | .rational q => if isInteger q && decide (0 ≤ q.num) && decide (q.num < 2 ^ 64) then .ok q.num.toNat else .error
  | _ => .error

/-- The array type that `convert_type` makes from the length (canadensis_dsdl_frontend/src/types/expression.rs L344-379). -/
def arrayType (s : ScalarTy) (kind : ArrayKind) (length : Nat) : Outcome Ty :=
  match kind with
  | .fixed => .ok (.fixedArray s length)
  | .inclusive => .ok (.variableArray s length)
  | .exclusive => if 0 < length then .ok (.variableArray s (length - 1)) else .error

/-- The values of an identifier (canadensis_dsdl_frontend/src/types/expression.rs L257-273). -/
def evalIdentifier {P : Type} (name : String) (cx : Cx P) : Outcome (Value × Cx P) :=
  if name = "_offset_" then
    let state := cx.file.state.useOffset
    .ok (.lengths state.offset, { cx with file := { cx.file with state := state } })
  else
    match cx.file.constants.get name with
    | some c => .ok (c.dsdlValue, cx)
    | none => .error

mutual
/-- `evaluate_expression` and `evaluate_atom` (canadensis_dsdl_frontend/src/types/expression.rs L26-275). -/
def Expr.eval {P : Type} (x : Externals) (lookup : Lookup P) : Expr → Cx P → Outcome (Value × Cx P)
  | .parenthesized e, cx => e.eval x lookup cx
  | .scalarType s, cx => .ok (.type (.scalar s), cx)
  | .arrayType s kind length, cx =>
    (length.eval x lookup cx).bind fun r =>
      (arrayLength r.1).bind fun n => (Front.arrayType s kind n).bind fun t => .ok (.type t, r.2)
  | .set es, cx =>
    (Expr.evalSet x lookup es [] cx).bind fun r => .ok (.set r.1, r.2)
  | .number q, cx => .ok (.rational q, cx)
  | .string s, cx => .ok (.string (x.nfc s), cx)
  | .boolean b, cx => .ok (.boolean b, cx)
  | .identifier name, cx => evalIdentifier name cx
  | .unary op e, cx => (e.eval x lookup cx).bind fun r => (evalUnary op r.1).bind fun v => .ok (v, r.2)
  | .binary op l r, cx =>
    (l.eval x lookup cx).bind fun a => (r.eval x lookup a.2).bind fun b => (evalBinary x op a.1 b.1).bind fun v => .ok (v, b.2)
  | .attribute e name, cx => (e.eval x lookup cx).bind fun r => evalAttribute x lookup r.1 name r.2
/-- The elements of a set literal, each inserted as it is evaluated (canadensis_dsdl_frontend/src/types/expression.rs L242-252; types/set.rs L301-320). -/
def Expr.evalSet {P : Type} (x : Externals) (lookup : Lookup P) : List Expr → ValueSet → Cx P → Outcome (ValueSet × Cx P)
  | [], s, cx => .ok (s, cx)
  | e :: es, s, cx =>
    (e.eval x lookup cx).bind fun r =>
      match s.insert r.1 with
      | some s' => Expr.evalSet x lookup es s' r.2
      | none => .error
end

/-! ### Statements -/

/-- `convert_type` (canadensis_dsdl_frontend/src/types/expression.rs L338-381). -/
def convertType {P : Type} (x : Externals) (lookup : Lookup P) (t : TypeAst) (cx : Cx P) : Outcome (Ty × Cx P) :=
  match t with
  | .scalar s => .ok (.scalar s, cx)
  | .array s kind length =>
    (length.eval x lookup cx).bind fun r => (arrayLength r.1).bind fun n => (arrayType s kind n).bind fun t => .ok (t, r.2)

/-- `ScalarType::resolve` (canadensis_dsdl_frontend/src/types.rs L240-262). -/
def ScalarTy.resolve {P : Type} (lookup : Lookup P) (s : ScalarTy) (cx : Cx P) : Outcome (RScalar × Cx P) :=
  match s with
  | .versioned key =>
    (typeByKey lookup key cx).bind fun r =>
      match r.1.2.kind with
      | .message m => .ok (.composite r.1.1 m, r.2)
      | .service _ _ => .error
  | .prim p => .ok (.prim p, cx)
  | .void bits => .ok (.void bits, cx)

/-- `Type::resolve` (canadensis_dsdl_frontend/src/types.rs L93-109). -/
def Ty.resolve {P : Type} (lookup : Lookup P) (t : Ty) (cx : Cx P) : Outcome ((RScalar × Arity) × Cx P) :=
  match t with
  | .scalar s => (s.resolve lookup cx).bind fun r => .ok ((r.1, .scalar), r.2)
  | .fixedArray s len => (s.resolve lookup cx).bind fun r => .ok ((r.1, .fixed len), r.2)
  | .variableArray s maxLen => (s.resolve lookup cx).bind fun r => .ok ((r.1, .var maxLen), r.2)

/-- `check_type_compatibility` with `signed_int_bounds` and `unsigned_int_bounds` (canadensis_dsdl_frontend/src/types/constant.rs L101-216). -/
def checkType (x : Externals) (declared : Prim) (value : Value) : Outcome ConstantValue :=
  match declared, value with
  | .boolean, .boolean b => .ok (.boolean b)
  | .uint bits _, .string s =>
    if bits = 8 then
      match implicitInt s with
      | some n => .ok (.int n)
      | none => .error
    else .error
  | .int bits, .rational q =>
    if isInteger q && decide (-(2 ^ (bits - 1) : ℤ) ≤ q.num) && decide (q.num < 2 ^ (bits - 1)) then .ok (.int q.num) else .error
  | .uint bits _, .rational q => if isInteger q && decide (0 ≤ q.num) && decide (q.num < 2 ^ bits) then .ok (.int q.num) else .error
  | .float16 _, .rational q => (Outcome.ofOption (x.float16 q)).bind fun n => .ok (.float16 n)
  | .float32 _, .rational q => (Outcome.ofOption (x.float32 q)).bind fun n => .ok (.float32 n)
  | .float64 _, .rational q => (Outcome.ofOption (x.float64 q)).bind fun n => .ok (.float64 n)
  | _, _ => .error

/-- `Constant::evaluate` (canadensis_dsdl_frontend/src/types/constant.rs L33-59). -/
def evalConstant {P : Type} (x : Externals) (lookup : Lookup P) (ty : Prim) (name : String) (value : Expr) (cx : Cx P) : Outcome (Constant × Cx P) :=
  if x.reserved name then .error
  else (value.eval x lookup cx).bind fun r => (checkType x ty r.1).bind fun v => .ok (⟨ty, r.1, v⟩, r.2)

/-- The value of an `@extent` directive (canadensis_dsdl_frontend/src/types/directive.rs L24-66). -/
def extentValue : Value → Outcome Nat
  | .rational q =>
    if isInteger q && decide (0 ≤ q.num) && decide (q.num < 2 ^ 64) && q.num.toNat % 8 == 0 then .ok q.num.toNat else .error
  | _ => .error

/-- Changes the state of the file (canadensis_dsdl_frontend/src/compile.rs L144-176). -/
def Cx.withState {P : Type} (cx : Cx P) (s : Outcome State) : Outcome (Cx P) := s.bind fun s => .ok { cx with file := { cx.file with state := s } }

/-- `evaluate_directive` (canadensis_dsdl_frontend/src/types/directive.rs L8-119). -/
def evalDirective {P : Type} (x : Externals) (lookup : Lookup P) (name : String) (value : Option Expr) (cx : Cx P) : Outcome (Cx P) :=
  match name, value with
  | "union", none => cx.withState cx.file.state.handleUnion
  | "extent", some e => (e.eval x lookup cx).bind fun r => (extentValue r.1).bind fun n => r.2.withState (r.2.file.state.finish (some n))
  | "sealed", none => cx.withState (cx.file.state.finish none)
  | "deprecated", none => cx.file.handleDeprecated.bind fun f => .ok { cx with file := f }
  | "assert", some e =>
    (e.eval x lookup cx).bind fun r =>
      match r.1 with
      | .boolean true => .ok r.2
      | _ => .error
  | "print", some e => (e.eval x lookup cx).bind fun r => .ok r.2
  | "print", none => .ok cx
  | _, _ => .error

/-- One step of the loop in `compile_one_inner` (canadensis_dsdl_frontend/src/compile.rs L287-339); `check_deprecated_in_non_deprecated` (L379-399). -/
def Statement.run {P : Type} (x : Externals) (lookup : Lookup P) (s : Statement) (cx : Cx P) : Outcome (Cx P) :=
  match s with
  | .directive name value => evalDirective x lookup name value cx
  | .constant ty name value =>
    if cx.file.constants.containsKey name then .error
    else
      (evalConstant x lookup ty name value cx).bind fun r =>
        .ok { r.2 with file := { r.2.file with constants := r.2.file.constants.insert name r.1 } }
  | .field ty name =>
    (convertType x lookup ty cx).bind fun t =>
      (t.1.resolve lookup t.2).bind fun r =>
        if !r.2.file.deprecated && r.1.1.deprecated then .error else r.2.withState (r.2.file.state.addField r.1.1 r.1.2 name)
  | .padding bits => cx.withState (cx.file.state.addPadding bits)
  | .responseMarker => cx.file.handleMarker.bind fun f => .ok { cx with file := f }

/-- The loop in `compile_one_inner` (canadensis_dsdl_frontend/src/compile.rs L287-339). -/
def runAll {P : Type} (x : Externals) (lookup : Lookup P) : List Statement → Cx P → Outcome (Cx P)
  | [], cx => .ok cx
  | s :: rest, cx => (s.run x lookup cx).bind fun cx => runAll x lookup rest cx

/-- `compile_one` and `compile_one_inner` (canadensis_dsdl_frontend/src/compile.rs L263-345). -/
def compileFile {P : Type} (x : Externals) (lookup : Lookup P) (key : TypeKey) (file : File) (p : P) : Outcome (Compiled × P) :=
  match file.statements with
  | some statements =>
    (runAll x lookup statements ⟨.new key.path, p⟩).bind fun cx => (cx.file.finish file.port).bind fun c => .ok (c, cx.persistent)
  | none => .error

/-! ### All files -/

/-- `PersistentContext` without the warnings (canadensis_dsdl_frontend/src/compile.rs L231-238). The maps are lists of pairs with different keys, `pending`
in the order of the keys. -/
structure Persistent where
  pending : List (TypeKey × File)
  done : List (TypeKey × Compiled)

/-- `BTreeMap::get_key_value`: keys are compared without regard to case (std; canadensis_dsdl_frontend/src/type_key.rs L28-53). -/
def getKeyValue {α : Type} (m : List (TypeKey × α)) (key : TypeKey) : Option (TypeKey × α) := m.find? fun e => e.1.eq key

/-- `BTreeMap::remove`: the value, and the map without it (std). -/
def removeKey {α : Type} (m : List (TypeKey × α)) (key : TypeKey) : Option (α × List (TypeKey × α)) :=
  (getKeyValue m key).map fun e => (e.2, m.filter fun e => !e.1.eq key)

/-- `get_case_sensitive` (canadensis_dsdl_frontend/src/compile.rs L410-417). -/
def getCaseSensitive {α : Type} (m : List (TypeKey × α)) (key : TypeKey) : Option α :=
  match getKeyValue m key with
  | some e => if e.1.caseSensitiveEqual key then some e.2 else none
  | none => none

/-- Inserts a compiled type; panics if there is one with this key (canadensis_dsdl_frontend/src/compile.rs L246-247, L363-369). -/
def insertDone (p : Persistent) (key : TypeKey) (c : Compiled) : Outcome Persistent :=
  match getKeyValue p.done key with
  | some _ => .panic
  | none => .ok { p with done := p.done ++ [(key, c)] }

/-- `PersistentContext::type_by_key` (canadensis_dsdl_frontend/src/compile.rs L351-374). `fuel` bounds the depth of the recursion; every level takes a file
from `pending`, so that the number of pending files is enough (`Verif.Front.C84_depth`). -/
def Persistent.typeByKey (x : Externals) : Nat → Lookup Persistent
  | fuel, key, p =>
    match getCaseSensitive p.done key with
    | some c => .ok (c, p)
    | none =>
      match fuel with
      | 0 => .error
      | fuel + 1 =>
        match removeKey p.pending key with
        | some (file, pending) =>
          (compileFile x (Persistent.typeByKey x fuel) key file { p with pending := pending }).bind fun r =>
            (insertDone r.2 key r.1).bind fun p => .ok (r.1, p)
        | none => .error

/-- The loop of `PersistentContext::compile` (canadensis_dsdl_frontend/src/compile.rs L241-261); each round takes at least one file from `pending`. -/
def Persistent.compileAll (x : Externals) : Nat → Persistent → Outcome Persistent
  | rounds, p =>
    match p.pending with
    | [] => .ok p
    | (key, file) :: pending =>
      match rounds with
      | 0 => .error
      | rounds + 1 =>
        (compileFile x (Persistent.typeByKey x pending.length) key file { p with pending := pending }).bind fun r =>
          (insertDone r.2 key r.1).bind fun p => p.compileAll x rounds

/-- `compile` (canadensis_dsdl_frontend/src/compile.rs L35-42, L241-261), without the warnings. -/
def compile (x : Externals) (files : List (TypeKey × File)) : Outcome (List (TypeKey × Compiled)) :=
  (Persistent.compileAll x files.length ⟨files, []⟩).bind fun p => .ok p.done

end Verif.Front
