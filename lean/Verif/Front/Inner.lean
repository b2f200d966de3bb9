import Verif.Front.Names
import Verif.Front.Heck
import Verif.Front.TypesSpec

/-! # The contents of a generated Rust type: the names of its members, its constants and its extent -/

namespace Verif.Front

/-! ### Names of members -/

/-- The name of a field in `GeneratedField::data` (canadensis_codegen_rust/src/lib.rs L511-526). -/
def rustFieldName (name : String) : String := makeRustIdentifier name

/-- The name of a variant in `GeneratedVariant::new` (canadensis_codegen_rust/src/lib.rs L546-563). -/
def rustVariantName (name : String) : String := Heck.upperCamel (makeRustIdentifier name)

/-- The names of the fields of a generated struct (canadensis_codegen_rust/src/lib.rs L310-323), of the variants of the enum that is generated for a union (L348-361), or of the
variants of the enum that is generated for a struct with `asEnum` (canadensis_codegen_rust/src/struct_as_enum.rs L109-125). Only the names. -/
def CMessage.rustNames (asEnum : Bool) : CMessage → List String
  | .struct _ _ fields _ constants => if asEnum then constants.map fun c => rustVariantName c.1 else (fields.filterMap CField.name).map rustFieldName
  | .union _ _ _ variants _ _ => variants.map fun v => rustVariantName v.name

/-! ### Constants -/

/-- `round_up_integer_size` (canadensis_codegen_rust/src/lib.rs L637-645). -/
def roundUpIntegerSize (bits : Nat) : Outcome Nat :=
  if bits ≤ 8 then .ok 8 else if bits ≤ 16 then .ok 16 else if bits ≤ 32 then .ok 32 else if bits ≤ 64 then .ok 64 else .panic

/-- The Rust type of a constant, as text in the code (canadensis_codegen_rust/src/impl_constants.rs L17-27). -/
inductive RustPrim where
  | bool
  | i (bits : Nat)
  | u (bits : Nat)
  | f16
  | f32
  | f64
deriving DecidableEq, Repr

/-- A literal in the generated code. `f16` is the argument of `from_bits`; for `f32` and `f64` the bits of the number that is printed: `Display` for these types prints the shortest
decimal number that reads as the same number (std) (canadensis_codegen_rust/src/impl_constants.rs L42-58). -/
inductive Literal where
  | bool (b : Bool)
  | int (text : String)
  | f16 (bits : Nat)
  | f32 (bits : Nat)
  | f64 (bits : Nat)
deriving DecidableEq, Repr

/-- `rust_type_name` (canadensis_codegen_rust/src/impl_constants.rs L17-27). -/
def rustConstantType : Prim → Outcome RustPrim
  | .boolean => .ok .bool
  | .byte => .panic
  | .utf8 => .panic
  | .int bits => (roundUpIntegerSize bits).bind fun n => .ok (.i n)
  | .uint bits _ => (roundUpIntegerSize bits).bind fun n => .ok (.u n)
  | .float16 _ => .ok .f16
  | .float32 _ => .ok .f32
  | .float64 _ => .ok .f64

/-- `Display for PrintLiteral` (canadensis_codegen_rust/src/impl_constants.rs L44-58); `Display for BigInt` prints decimal digits after an optional `-`. -/
def ConstantValue.literal : ConstantValue → Literal
  | .boolean b => .bool b
  | .int z => .int (if z < 0 then "-" ++ toString z.natAbs else toString z.natAbs)
  | .float16 bits => .f16 bits
  | .float32 bits => .f32 bits
  | .float64 bits => .f64 bits

/-- The constants of a generated type: name, type and value of each (canadensis_codegen_rust/src/impl_constants.rs L12-40). Comments are left out. -/
def rustConstants : Constants → Outcome (List (String × RustPrim × Literal))
  | [] => .ok []
  | (name, c) :: rest => (rustConstantType c.ty).bind fun ty => (rustConstants rest).bind fun out => .ok ((makeRustIdentifier name, ty, c.value.literal) :: out)

/-! ### Extent -/

/-- `EXTENT_BYTES` (canadensis_codegen_rust/src/impl_data_type.rs L19-40): `none` for a sealed type. -/
def extentBytes : Option Nat → Outcome (Option Nat)
  | none => .ok none
  | some bits => if bits / 8 < 2 ^ 32 then .ok (some (bits / 8)) else .panic

/-! ### What these are compared with -/

/-- The keywords of Rust (The Rust Reference, edition 2021, strict and reserved). -/
def rustKeywords : List String :=
  ["as", "break", "const", "continue", "crate", "else", "enum", "extern", "false", "fn", "for", "if", "impl", "in", "let", "loop", "match", "mod", "move", "mut", "pub", "ref",
    "return", "self", "Self", "static", "struct", "super", "trait", "true", "type", "unsafe", "use", "where", "while", "async", "await", "dyn", "abstract", "become", "box", "do",
    "final", "macro", "override", "priv", "typeof", "unsized", "virtual", "yield", "try"]

/-- Letters, digits and `_`, the first not a digit: identifiers in DSDL. -/
def NameShape (s : String) : Prop := ∃ c cs, s.toList = c :: cs ∧ (c.isAlpha = true ∨ c = '_') ∧ ∀ d ∈ cs, d.isAlphanum = true ∨ d = '_'

/-- A name that can be used for a field or variant in Rust. -/
def RustName (s : String) : Prop := s ≠ "_" ∧ s ∉ rustKeywords ∧ NameShape s

/-- Words with single `_` between them, where each word begins with a letter and all letters are `letter`: for example `max_value2`, but not `max_2`. -/
def WordName (letter : Char → Bool) (s : String) : Prop :=
  ∃ ws : List (List Char), ws ≠ [] ∧ (∀ w ∈ ws, ∃ c cs, w = c :: cs ∧ letter c = true ∧ ∀ d ∈ cs, letter d = true ∨ d.isDigit = true) ∧ s.toList = (ws.intersperse ['_']).flatten

/-- What an integer literal in Rust means: digits, most significant first, after an optional `-`. -/
inductive DecimalOf : List Char → Nat → Prop
  | digit {c : Char} (h : c.isDigit = true) : DecimalOf [c] (c.toNat - 48)
  | more {l : List Char} {n : Nat} {c : Char} (before : DecimalOf l n) (h : c.isDigit = true) : DecimalOf (l ++ [c]) (10 * n + (c.toNat - 48))

/-- What an integer literal with a sign means. -/
def IntLiteral (text : String) (z : ℤ) : Prop :=
  ∃ n : Nat, (DecimalOf text.toList n ∧ z = n) ∨ ∃ digits, text.toList = '-' :: digits ∧ DecimalOf digits n ∧ z = -n

/-- The literal is of this Rust type, and means this value. -/
def Denotes (x : Externals) : RustPrim → Literal → Value → Prop
  | .bool, .bool b, v => v = .boolean b
  | .i bits, .int text, v => ∃ z : ℤ, IntLiteral text z ∧ v = .rational z ∧ -2 ^ (bits - 1) ≤ z ∧ z < 2 ^ (bits - 1)
  | .u bits, .int text, v => ∃ n : Nat, IntLiteral text n ∧ n < 2 ^ bits ∧ (v = .rational n ∨ ∃ ch : Char, v = .string (String.singleton ch) ∧ ch.toNat = n)
  | .f16, .f16 bits, v => ∃ q, v = .rational q ∧ x.float16 q = some bits
  | .f32, .f32 bits, v => ∃ q, v = .rational q ∧ x.float32 q = some bits
  | .f64, .f64 bits, v => ∃ q, v = .rational q ∧ x.float64 q = some bits
  | _, _, _ => False

/-- The types of constants have 1 to 64 bits, as the parser makes sure. -/
def ConstantWidths (file : File) : Prop :=
  ∀ ss ty name e, file.statements = some ss → Statement.constant ty name e ∈ ss → 1 ≤ ty.bits ∧ ty.bits ≤ 64

end Verif.Front
