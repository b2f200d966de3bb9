import Verif.Front.SolveSpec

/-!
What a DSDL file says, and what it means that a compiled type is the one that the file describes.
-/

namespace Verif.Front

open Verif.Dsdl (Arity)

/-! ### Statements -/

/-- A field or padding. -/
def Statement.isField : Statement → Bool
  | .field _ _ => true
  | .padding _ => true
  | _ => false

/-- `@sealed` or `@extent`. -/
def Statement.isEnd : Statement → Bool
  | .directive name _ => name == "sealed" || name == "extent"
  | _ => false

/-- `@union`. -/
def Statement.isUnion : Statement → Bool
  | .directive name _ => name == "union"
  | _ => false

/-- `@deprecated`. -/
def Statement.isDeprecated : Statement → Bool
  | .directive name _ => name == "deprecated"
  | _ => false

/-- A constant. -/
def Statement.isConstant : Statement → Bool
  | .constant _ _ _ => true
  | _ => false

/-- `---`. -/
def Statement.isMarker : Statement → Bool
  | .responseMarker => true
  | _ => false

/-! ### What the parts of a file mean -/

/-- The full name of a type in a file of the package `path`. -/
def fullName (path : List String) (key : TypeKey) : TypeKey := if key.path = [] then ⟨path, key.name, key.major, key.minor⟩ else key

/-- What the type of a field stands for: a name stands for the message type with this name. -/
def ScalarMeans (known : List (TypeKey × Compiled)) (path : List String) : ScalarTy → RScalar → Prop
  | .prim p, r => r = .prim p
  | .void bits, r => r = .void bits
  | .versioned key, r => ∃ port m, (fullName path key, ⟨port, .message m⟩) ∈ known ∧ r = .composite (fullName path key) m

/-- An expression has this value at some place in a file of the package `path`, where the constants before this place are the first ones of `cs`. What `_offset_` is
at this place is left open here. -/
def HasValue (x : Externals) (known : List (TypeKey × Compiled)) (path : List String) (cs : Constants) (e : Expr) (v : Value) : Prop :=
  ∃ f f' : FileState, f.path = path ∧ f.constants <+: cs ∧ e.eval x table ⟨f, known⟩ = .ok (v, ⟨f', known⟩)

/-- What the type of a field stands for: `T[n]` has n elements, `T[<=n]` at most n, and `T[<n]` at most n - 1. -/
def TypeMeans (x : Externals) (known : List (TypeKey × Compiled)) (path : List String) (cs : Constants) : TypeAst → RScalar → Arity → Prop
  | .scalar s, r, a => ScalarMeans known path s r ∧ a = .scalar
  | .array s kind e, r, a => ScalarMeans known path s r ∧ ∃ n : Nat, n < 2 ^ 64 ∧ HasValue x known path cs e (.rational n) ∧
    match kind with
    | .fixed => a = .fixed n
    | .inclusive => a = .var n
    | .exclusive => 0 < n ∧ a = .var (n - 1)

/-- A member of a compiled type: a field or variant, or padding. -/
inductive Member where
  | padding (bits : Nat)
  | data (name : String) (s : RScalar) (a : Arity)

/-- What a field is. -/
def CField.member : CField → Member
  | .padding bits _ => .padding bits
  | .data n s a _ => .data n s a

/-- What a variant is. -/
def CVariant.member : CVariant → Member
  | .mk n s a => .data n s a

/-- The members of a type in order. -/
def CMessage.members : CMessage → List Member
  | .struct _ _ fields _ _ => fields.map CField.member
  | .union _ _ _ variants _ _ => variants.map CVariant.member

/-- Whether it is a union. -/
def CMessage.isUnion : CMessage → Bool
  | .struct _ _ _ _ _ => false
  | .union _ _ _ _ _ _ => true

/-- A statement declares a member. -/
def Declares (x : Externals) (known : List (TypeKey × Compiled)) (path : List String) (cs : Constants) : Statement → Member → Prop
  | .padding bits, .padding b => b = bits
  | .field ty name, .data n s a => n = name ∧ TypeMeans x known path cs ty s a
  | _, _ => False

/-- `@sealed` or `@extent` declares the extent. -/
def Ends (x : Externals) (known : List (TypeKey × Compiled)) (path : List String) (cs : Constants) : Statement → Option Nat → Prop
  | .directive "sealed" none, extent => extent = none
  | .directive "extent" (some e), extent => ∃ n : Nat, n % 8 = 0 ∧ HasValue x known path cs e (.rational n) ∧ extent = some n
  | _, _ => False

/-- A directive is one of those that DSDL has. What `@assert` asserts is true. -/
def Accepts (x : Externals) (known : List (TypeKey × Compiled)) (path : List String) (cs : Constants) : Statement → Prop
  | .directive "union" none => True
  | .directive "sealed" none => True
  | .directive "deprecated" none => True
  | .directive "print" none => True
  | .directive "print" (some e) => ∃ v, HasValue x known path cs e v
  | .directive "extent" (some e) => ∃ v, HasValue x known path cs e v
  | .directive "assert" (some e) => HasValue x known path cs e (.boolean true)
  | .directive _ _ => False
  | _ => True

/-- The value of a constant as its type represents it.

* `bool`: a truth value;
* `int<n>`, `uint<n>`: an integer in the range of the type; `uint8` also the code of a character;
* floating point numbers: what rounding gives, if it is finite. -/
def Represents (x : Externals) : Prim → Value → ConstantValue → Prop
  | .boolean, v, c => ∃ b, v = .boolean b ∧ c = .boolean b
  | .int bits, v, c => ∃ z : ℤ, v = .rational z ∧ c = .int z ∧ -2 ^ (bits - 1) ≤ z ∧ z < 2 ^ (bits - 1)
  | .uint bits _, v, c =>
    (∃ n : Nat, v = .rational n ∧ c = .int n ∧ n < 2 ^ bits) ∨ (bits = 8 ∧ ∃ ch : Char, v = .string (String.singleton ch) ∧ c = .int ch.toNat ∧ ch.toNat < 128)
  | .float16 _, v, c => ∃ q n, v = .rational q ∧ x.float16 q = some n ∧ c = .float16 n
  | .float32 _, v, c => ∃ q n, v = .rational q ∧ x.float32 q = some n ∧ c = .float32 n
  | .float64 _, v, c => ∃ q n, v = .rational q ∧ x.float64 q = some n ∧ c = .float64 n
  | _, _, _ => False

/-- A statement declares a constant. -/
def DeclaresConstant (x : Externals) (known : List (TypeKey × Compiled)) (path : List String) (cs : Constants) : Statement → String × Constant → Prop
  | .constant ty name e, c => c.1 = name ∧ c.2.ty = ty ∧ HasValue x known path cs e c.2.dsdlValue ∧ Represents x ty c.2.dsdlValue c.2.value ∧ x.reserved name = false
  | _, _ => False

/-! ### Types -/

/-- The message `m` is what the statements `ss` of a file of the package `path` describe. -/
structure Describes (x : Externals) (known : List (TypeKey × Compiled)) (path : List String) (ss : List Statement) (m : CMessage) : Prop where
  /-- The members are those that the statements declare, in order. -/
  members : List.Forall₂ (Declares x known path m.constants) (ss.filter Statement.isField) m.members
  /-- The constants are those that the statements declare, in order. -/
  constants : List.Forall₂ (DeclaresConstant x known path m.constants) (ss.filter Statement.isConstant) m.constants
  /-- There is one `@sealed` or `@extent`, and it says what the extent is. -/
  extent : ∃ s, ss.filter Statement.isEnd = [s] ∧ Ends x known path m.constants s m.extent
  /-- No member comes after it. -/
  last : ss.Pairwise fun s s' => s.isEnd → ¬ s'.isField
  /-- It is a union if there is `@union`; there is at most one. -/
  union : (ss.filter Statement.isUnion).length = if m.isUnion then 1 else 0
  /-- `@union` comes before the members. -/
  first : ss.Pairwise fun s s' => s.isField → ¬ s'.isUnion
  /-- The directives are known, and what they assert is true. -/
  directives : ∀ s ∈ ss, Accepts x known path m.constants s
  /-- There is no `---`. -/
  marker : ∀ s ∈ ss, ¬ s.isMarker

/-- Whether the statements declare the type as deprecated: at most once, before any member and before `---`. -/
structure DescribesDeprecated (ss : List Statement) (deprecated : Bool) : Prop where
  count : (ss.filter Statement.isDeprecated).length = if deprecated then 1 else 0
  first : ss.Pairwise fun s s' => s.isField ∨ s.isMarker → ¬ s'.isDeprecated

/-- The names of the members. -/
def CMessage.memberNames (m : CMessage) : List String := m.members.filterMap fun
  | .data n _ _ => some n
  | .padding _ => none

/-- What every compiled message satisfies. -/
structure WellFormed (known : List (TypeKey × Compiled)) (m : CMessage) : Prop where
  /-- The names of the members are different. -/
  names : m.memberNames.Nodup
  /-- The names of the constants are different. -/
  constants : (m.constants.map Prod.fst).Nodup
  /-- A union has at least two members, none of which is padding. -/
  union : m.isUnion → 2 ≤ m.members.length ∧ ∀ mem ∈ m.members, ∃ n s a, mem = Member.data n s a
  /-- The extent is a whole number of bytes. -/
  extent : ∀ e, m.extent = some e → e % 8 = 0
  /-- A member that is another type is the type with its name. -/
  known : ∀ n key inner a, Member.data n (.composite key inner) a ∈ m.members → ∃ port, (key, ⟨port, .message inner⟩) ∈ known
  /-- A type that is not deprecated has no member of a type that is. -/
  deprecated : m.deprecated = false → ∀ n key inner a, Member.data n (.composite key inner) a ∈ m.members → inner.deprecated = false

/-- A type is what the statements of its file describe. The statements before `---` describe the request of a service, and those after it the response. -/
def DescribedBy (x : Externals) (known : List (TypeKey × Compiled)) (path : List String) (ss : List Statement) : DsdlKind → Prop
  | .message m => Describes x known path ss m ∧ DescribesDeprecated ss m.deprecated
  | .service request response => ∃ a b, ss = a ++ .responseMarker :: b ∧ Describes x known path a request ∧ Describes x known path b response ∧
    DescribesDeprecated ss request.deprecated ∧ response.deprecated = request.deprecated

/-- The messages of a type. -/
def Compiled.messages (c : Compiled) : List CMessage :=
  match c.kind with
  | .message m => [m]
  | .service request response => [request, response]

end Verif.Front
