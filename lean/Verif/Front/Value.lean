import Mathlib.Algebra.Order.Ring.Rat
import Mathlib.Algebra.Field.Rat
import Mathlib.Data.Int.Bitwise
import Verif.Dsdl.Model

/-!
Model of the values that the DSDL compiler calculates with (`canadensis_dsdl_frontend`: `types.rs`, `types/set.rs`, `types/string.rs`,
`type_key.rs`).

`BigRational` is `ℚ`. Texts are `String`; the comparison of Rust strings by their UTF-8 bytes is the comparison by code points. A `BTreeSet` is the
list of its elements in order. Spans and error messages are left out.
-/

namespace Verif.Front

open Verif.Bls

/-- How a step of the compiler ends: with a result, with a reported error, or with a panic. -/
inductive Outcome (α : Type) where
  | ok (a : α)
  | error
  | panic
deriving DecidableEq, Repr

namespace Outcome

/-- The `?` operator: errors and panics are passed on. -/
def bind {α β : Type} (x : Outcome α) (f : α → Outcome β) : Outcome β :=
  match x with
  | ok a => f a
  | error => error
  | panic => panic

/-- `ok` of an `Option`, with `error` for `None` (`ok_or_else`). -/
def ofOption {α : Type} : Option α → Outcome α
  | some a => ok a
  | none => error

end Outcome

/-! ### Types -/

/-- `CastMode` (canadensis_dsdl_parser/src/ast/types.rs L151-154). -/
inductive CastMode where
  | truncated
  | saturated
deriving DecidableEq, Repr

/-- `PrimitiveType` (canadensis_dsdl_frontend/src/types.rs L288-305; canadensis_dsdl_parser/src/ast/types.rs L130-147). -/
inductive Prim where
  | boolean
  | utf8
  | byte
  | int (bits : Nat)
  | uint (bits : Nat) (mode : CastMode)
  | float16 (mode : CastMode)
  | float32 (mode : CastMode)
  | float64 (mode : CastMode)
deriving DecidableEq, Repr

/-- `PrimitiveType::bit_length` (canadensis_dsdl_frontend/src/types.rs L322-331). -/
def Prim.bits : Prim → Nat
  | .boolean => 1
  | .utf8 => 8
  | .byte => 8
  | .int bits => bits
  | .uint bits _ => bits
  | .float16 _ => 16
  | .float32 _ => 32
  | .float64 _ => 64

/-- `TypeKey`, `TypeFullName`, `TypeVersion` (canadensis_dsdl_frontend/src/type_key.rs L17-26, L81-86; canadensis_dsdl_parser/src/ast/types.rs L169-173).
The lowercase name is computed from the name. -/
structure TypeKey where
  path : List String
  name : String
  major : Nat
  minor : Nat
deriving DecidableEq, Repr

/-- What `TypeKey` is compared by: `lowercase_name` and `version` (canadensis_dsdl_frontend/src/type_key.rs L28-47, L111-120). Identifiers are ASCII, for
which `str::to_lowercase` is `String.toLower`. -/
def TypeKey.folded (k : TypeKey) : List String × String × List Nat := (k.path.map String.toLower, k.name.toLower, [k.major, k.minor])

/-- `TypeKey::case_sensitive_equal` (canadensis_dsdl_frontend/src/type_key.rs L66-68). -/
def TypeKey.caseSensitiveEqual (a b : TypeKey) : Bool := a == b

/-- `PartialEq for TypeKey` (canadensis_dsdl_frontend/src/type_key.rs L28-36). -/
def TypeKey.eq (a b : TypeKey) : Bool := a.folded == b.folded

/-- `ScalarType` (canadensis_dsdl_frontend/src/types.rs L229-236). -/
inductive ScalarTy where
  | versioned (key : TypeKey)
  | prim (p : Prim)
  | void (bits : Nat)
deriving DecidableEq, Repr

/-- `Type` (canadensis_dsdl_frontend/src/types.rs L78-89). -/
inductive Ty where
  | scalar (s : ScalarTy)
  | fixedArray (inner : ScalarTy) (len : Nat)
  | variableArray (inner : ScalarTy) (maxLen : Nat)
deriving DecidableEq, Repr

/-- The position of a `CastMode` in its derived order (canadensis_dsdl_parser/src/ast/types.rs L151-154). -/
def CastMode.rank : CastMode → Nat
  | .truncated => 0
  | .saturated => 1

/-- The derived order of `PrimitiveType` is the lexicographic order of these lists (canadensis_dsdl_frontend/src/types.rs L287-305). -/
def Prim.rank : Prim → List Nat
  | .boolean => [0]
  | .utf8 => [1]
  | .byte => [2]
  | .int bits => [3, bits]
  | .uint bits mode => [4, bits, mode.rank]
  | .float16 mode => [5, mode.rank]
  | .float32 mode => [6, mode.rank]
  | .float64 mode => [7, mode.rank]

/-- What a `ScalarType` is compared by, lexicographically: the position of the case, then the folded name, then numbers
(canadensis_dsdl_frontend/src/types.rs L229-236). -/
def ScalarTy.rank : ScalarTy → Nat × List String × String × List Nat
  | .versioned k => (0, k.folded.1, k.folded.2.1, k.folded.2.2)
  | .prim p => (1, [], "", p.rank)
  | .void bits => (2, [], "", [bits])

/-- What a `Type` is compared by, lexicographically (canadensis_dsdl_frontend/src/types.rs L78-89). -/
def Ty.rank : Ty → List Nat × List String × String × List Nat
  | .scalar s => ([0, s.rank.1], s.rank.2.1, s.rank.2.2.1, s.rank.2.2.2)
  | .fixedArray s len => ([1, s.rank.1], s.rank.2.1, s.rank.2.2.1, s.rank.2.2.2 ++ [len])
  | .variableArray s len => ([2, s.rank.1], s.rank.2.1, s.rank.2.2.1, s.rank.2.2.2 ++ [len])

/-- The derived `Ord for Type` (canadensis_dsdl_frontend/src/types.rs L77). -/
def Ty.cmp (a b : Ty) : Ordering :=
  compareLex (compareOn fun t => t.rank.1) (compareLex (compareOn fun t => t.rank.2.1) (compareLex (compareOn fun t => t.rank.2.2.1)
    (compareOn fun t => t.rank.2.2.2))) a b

/-! ### Values -/

/-- `Value` (canadensis_dsdl_frontend/src/types.rs L24-37). The elements of a `Set` are in the order of the `BTreeSet`. -/
inductive Value where
  | rational (q : ℚ)
  | string (s : String)
  | set (xs : List Value)
  | lengths (l : BitLengthSet)
  | boolean (b : Bool)
  | type (t : Ty)

/-- `ExprType` (canadensis_dsdl_frontend/src/types.rs L341-351); `Set(None)` is `emptySet`. -/
inductive ExprType where
  | rational
  | string
  | emptySet
  | setOf (element : ExprType)
  | boolean
  | type
deriving DecidableEq, Repr

/-- `Value::ty` and `Set::ty` (canadensis_dsdl_frontend/src/types.rs L41-51; types/set.rs L30-32). -/
def Value.ty : Value → ExprType
  | .rational _ => .rational
  | .string _ => .string
  | .set [] => .emptySet
  | .set (x :: _) => .setOf x.ty
  | .lengths _ => .setOf .rational
  | .boolean _ => .boolean
  | .type _ => .type

/-- The position of the case of a value in the derived order (canadensis_dsdl_frontend/src/types.rs L24-37). -/
def Value.rank : Value → Nat
  | .rational _ => 0
  | .string _ => 1
  | .set _ => 2
  | .lengths _ => 3
  | .boolean _ => 4
  | .type _ => 5

mutual
/-- The derived `Ord for Value` (canadensis_dsdl_frontend/src/types.rs L23). -/
def Value.cmp : Value → Value → Ordering
  | .rational a, .rational b => compare a b
  | .string a, .string b => compare a b
  | .set a, .set b => Value.cmpAll a b
  | .lengths a, .lengths b => a.cmp b
  | .boolean a, .boolean b => compare a b
  | .type a, .type b => a.cmp b
  | a, b => compare a.rank b.rank
/-- `Ord for BTreeSet<Value>`: lexicographic (std; canadensis_dsdl_frontend/src/types/set.rs L11-12). -/
def Value.cmpAll : List Value → List Value → Ordering
  | [], [] => .eq
  | [], _ :: _ => .lt
  | _ :: _, [] => .gt
  | x :: xs, y :: ys => (x.cmp y).then (Value.cmpAll xs ys)
end

/-! ### Sets -/

/-- `Set` (canadensis_dsdl_frontend/src/types/set.rs L11-12). -/
abbrev ValueSet := List Value

namespace ValueSet

/-- `Set::ty` (canadensis_dsdl_frontend/src/types/set.rs L30-32). -/
def ty (s : ValueSet) : Option ExprType := s.head?.map Value.ty

/-- `BTreeSet::insert` (std): an element that is equal to one in the set is not inserted. -/
def insertValue (x : Value) : ValueSet → ValueSet
  | [] => [x]
  | y :: ys =>
    match x.cmp y with
    | .lt => x :: y :: ys
    | .eq => y :: ys
    | .gt => y :: insertValue x ys

/-- `BTreeSet::contains` (std). -/
def contains (s : ValueSet) (x : Value) : Bool := s.any fun y => x.cmp y == .eq

/-- `StringValue::implicit_int` (canadensis_dsdl_frontend/src/types/string.rs L26-31). -/
def _root_.Verif.Front.implicitInt (s : String) : Option Nat :=
  match s.toList with
  | [c] => if c.toNat < 128 then some c.toNat else none
  | _ => none

/-- `Set::insert` (canadensis_dsdl_frontend/src/types/set.rs L143-170): `none` for a value of another type. -/
def insert (s : ValueSet) (value : Value) : Option ValueSet :=
  match s.ty with
  | some ty =>
    if ty = value.ty then some (insertValue value s)
    else
      match value with
      | .string v =>
        match implicitInt v with
        | some n => if ty = .rational then some (insertValue (.rational n) s) else none
        | none => none
      | _ => none
  | none => some (insertValue value s)

/-- The loop of `FromIterator<Value> for Result<Set, TypeError>` (canadensis_dsdl_frontend/src/types/set.rs L309-311). -/
def insertAll (s : ValueSet) : List Value → Option ValueSet
  | [] => some s
  | v :: vs =>
    match s.insert v with
    | some s' => insertAll s' vs
    | none => none

/-- `FromIterator<Value> for Result<Set, TypeError>` (canadensis_dsdl_frontend/src/types/set.rs L301-320). -/
def collect (vs : List Value) : Option ValueSet := insertAll [] vs

/-- `From<BTreeSet<u64>> for Set` with the numbers in order (canadensis_dsdl_frontend/src/types/set.rs L245-254). The `unwrap` there cannot fail: all
values are rational numbers, which is what `Verif.Front.ofNats_collect` says. -/
def ofNats (ns : List Nat) : ValueSet := ns.map fun n : Nat => .rational (n : ℚ)

/-- `Set::check_element_types` (canadensis_dsdl_frontend/src/types/set.rs L191-205): whether it is `Ok`. -/
def typesMatch : Option ExprType → Option ExprType → Bool
  | some a, some b => a == b
  | _, _ => true

/-- `Set::is_compatible` (canadensis_dsdl_frontend/src/types/set.rs L178-188). -/
def isCompatible (a b : ValueSet) : Bool := typesMatch a.ty b.ty

/-- `Set::can_hold` (canadensis_dsdl_frontend/src/types/set.rs L182-184). -/
def canHold (a : ValueSet) (t : ExprType) : Bool := typesMatch a.ty (some t)

/-- `Set::is_subset` (canadensis_dsdl_frontend/src/types/set.rs L208-210). -/
def isSubset (a b : ValueSet) : Bool := a.all fun x => b.contains x

/-- `Set::is_superset` (canadensis_dsdl_frontend/src/types/set.rs L212-214). -/
def isSuperset (a b : ValueSet) : Bool := b.isSubset a

/-- `PartialEq for Set`: that of `BTreeSet`, element by element (std; canadensis_dsdl_frontend/src/types/set.rs L11). -/
def eq (a b : ValueSet) : Bool := Value.cmpAll a b == .eq

/-- `Set::union` after its check of the types (canadensis_dsdl_frontend/src/types/set.rs L217-220): the elements of both, in order. -/
def union (a b : ValueSet) : ValueSet := b.foldl (fun s x => insertValue x s) a

/-- `Set::intersection` after its check of the types (canadensis_dsdl_frontend/src/types/set.rs L223-226). -/
def intersection (a b : ValueSet) : ValueSet := a.filter fun x => b.contains x

/-- `Set::symmetric_difference` after its check of the types (canadensis_dsdl_frontend/src/types/set.rs L229-236). -/
def symmetricDifference (a b : ValueSet) : ValueSet :=
  union (a.filter fun x => !b.contains x) (b.filter fun x => !a.contains x)

end ValueSet

end Verif.Front
