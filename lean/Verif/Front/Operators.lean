import Verif.Front.Value

/-!
Model of the operators of DSDL expressions (`canadensis_dsdl_frontend`: `operators/*.rs`, the operators in `types/expression.rs`, and the minimum and
maximum in `types/set.rs`).
-/

namespace Verif.Front

open Verif.Bls

/-- The functions from other crates whose results the model does not compute.

* `nfc`: `UnicodeNormalization::nfc` of the crate `unicode-normalization`;
* `power`: `approx_exponent`, which calculates with `f64` (canadensis_dsdl_frontend/src/operators/exponent.rs L34-63), `none` for an error;
* `sortSets`: `slice::sort_unstable_by` with the comparison of `Set::sets_sorted` (canadensis_dsdl_frontend/src/types/set.rs L103-111), which is not an
order; std may then return the elements in any order (`some`) or panic (`none`);
* `float16`, `float32`, `float64`: the bits of the floating-point number that `to_f32`, `f16::from_f32` and `to_f64` make of a rational number, `none`
if it is not finite (canadensis_dsdl_frontend/src/types/constant.rs L164-191);
* `reserved`: `is_reserved_keyword`, a regular expression (canadensis_dsdl_frontend/src/types/keywords.rs L8-55). -/
structure Externals where
  nfc : String → String
  power : ℚ → ℚ → Option ℚ
  sortSets : List ValueSet → Option (List ValueSet)
  float16 : ℚ → Option Nat
  float32 : ℚ → Option Nat
  float64 : ℚ → Option Nat
  reserved : String → Bool

/-- The binary operators of `ExpressionType` (canadensis_dsdl_parser/src/ast/types.rs L28-61). -/
inductive BinOp where
  | exponent | multiply | divide | modulo | add | subtract | bitOr | bitXor | bitAnd
  | equal | notEqual | lessOrEqual | greaterOrEqual | less | greater | logicalOr | logicalAnd
deriving DecidableEq, Repr

/-! ### Rational numbers -/

/-- `calculate_rational_binary` (canadensis_dsdl_frontend/src/operators/mod.rs L196-241). -/
def rationalBinary (op : ℚ → ℚ → Outcome Value) : Value → Value → Outcome Value
  | .rational a, .rational b => op a b
  | .string a, .rational b =>
    match implicitInt a with
    | some n => op n b
    | none => .error
  | .rational a, .string b =>
    match implicitInt b with
    | some n => op a n
    | none => .error
  | .string a, .string b =>
    match implicitInt a, implicitInt b with
    | some n, some m => op n m
    | _, _ => .error
  | _, _ => .error

/-- A `BitLengthSet` is expanded into a normal set (canadensis_dsdl_frontend/src/operators/mod.rs L78-92, L165-173). -/
def Value.expanded : Value → Value
  | .lengths l => .set (ValueSet.ofNats l.expand)
  | v => v

/-- `map` and `collect` over the elements of a set: the first error or panic ends it (canadensis_dsdl_frontend/src/operators/mod.rs L48-58). -/
def mapAll {α β : Type} (f : α → Outcome β) : List α → Outcome (List β)
  | [] => .ok []
  | x :: xs => (f x).bind fun y => (mapAll f xs).bind fun ys => .ok (y :: ys)

/-- The result of an operation on the elements of a set (canadensis_dsdl_frontend/src/operators/mod.rs L46-61, L63-77). An element of a set of
rational numbers that is not a rational number panics. -/
def mapSet (f : ℚ → Outcome Value) (s : ValueSet) : Outcome Value :=
  (mapAll (fun x => match x with | .rational q => f q | _ => .panic) s).bind fun vs =>
    match ValueSet.collect vs with
    | some s' => .ok (.set s')
    | none => .error

/-- `calculate_elementwise_binary` (canadensis_dsdl_frontend/src/operators/mod.rs L34-96). The code expands a `BitLengthSet` on the left, then one on the
right, and tries again; here both are expanded first. -/
def elementwiseBinary (op : ℚ → ℚ → Outcome Value) (lhs rhs : Value) : Outcome Value :=
  match lhs.expanded, rhs.expanded with
  | .rational a, .set s => if ValueSet.canHold s .rational then mapSet (fun b => op a b) s else .error
  | .set s, .rational b => if ValueSet.canHold s .rational then mapSet (fun a => op a b) s else .error
  | l, r => rationalBinary op l r

/-- `BigRational::is_integer`. -/
def isInteger (q : ℚ) : Bool := q.den == 1

/-- `BigRational % BigRational` for a divisor other than zero: the remainder of the division that rounds toward zero (crate `num-rational`). -/
def remainder (a b : ℚ) : ℚ := a - b * ((a / b).num.tdiv (a / b).den : ℤ)

/-- `rational_exponent` (canadensis_dsdl_frontend/src/operators/exponent.rs L14-27). A negative power of zero panics (crate `num-rational`). -/
def rationalExponent (x : Externals) (base exponent : ℚ) : Outcome Value :=
  if isInteger exponent then
    if base = 0 ∧ exponent.num < 0 then .panic else .ok (.rational (base ^ exponent.num))
  else
    match x.power base exponent with
    | some q => .ok (.rational q)
    | none => .error

/-- `rational_bitwise_or`, `rational_bitwise_and`, `rational_bitwise_xor` (canadensis_dsdl_frontend/src/operators/bit_or.rs L21-37, bit_and.rs L30-46,
types/expression.rs L319-335): `BigInt` has the bit operations of two's complement. -/
def rationalBitwise (op : ℤ → ℤ → ℤ) (a b : ℚ) : Outcome Value :=
  if isInteger a && isInteger b then .ok (.rational (op a.num b.num)) else .error

/-! ### Sets -/

/-- `calculate_rational_or_set_binary` (canadensis_dsdl_frontend/src/operators/mod.rs L112-136). -/
def rationalOrSetBinary (op : ℚ → ℚ → Outcome Value) (setOp : ValueSet → ValueSet → ValueSet) (lengthsOp : BitLengthSet → BitLengthSet → Value) :
    Value → Value → Outcome Value
  | .set a, .set b => if ValueSet.isCompatible a b then .ok (.set (setOp a b)) else .error
  | .lengths a, .lengths b => .ok (lengthsOp a b)
  | l, r => rationalBinary op l r

/-- `calculate_rational_or_set_comparison` (canadensis_dsdl_frontend/src/operators/mod.rs L150-185). Both sides are expanded first, as in
`elementwiseBinary`. -/
def rationalOrSetComparison (op : ℚ → ℚ → Bool) (setOp : ValueSet → ValueSet → Bool) (lhs rhs : Value) : Outcome Value :=
  match lhs.expanded, rhs.expanded with
  | .set a, .set b => if ValueSet.isCompatible a b then .ok (.boolean (setOp a b)) else .error
  | l, r => rationalBinary (fun a b => .ok (.boolean (op a b))) l r

/-- Numbers in two `BTreeSet<u64>` (std; canadensis_dsdl_frontend/src/operators/bit_and.rs L19-26). -/
def commonNats (a b : List Nat) : List Nat := a.filter fun x => b.contains x

/-- Numbers in one of two `BTreeSet<u64>` (std; canadensis_dsdl_frontend/src/types/expression.rs L116-124). -/
def differentNats (a b : List Nat) : List Nat :=
  collectSet ((a.filter fun x => !b.contains x) ++ b.filter fun x => !a.contains x)

/-- `equal::evaluate` and `not_equal::evaluate` (canadensis_dsdl_frontend/src/operators/equal.rs L7-27, not_equal.rs L7-27). -/
def equalValues (negate : Bool) : Value → Value → Outcome Value
  | .string a, .string b => .ok (.boolean ((a == b) != negate))
  | .boolean a, .boolean b => .ok (.boolean ((a == b) != negate))
  | l, r => rationalOrSetComparison (fun a b => (a == b) != negate) (fun a b => a.eq b != negate) l r

/-- `is_u64_integer` (canadensis_dsdl_frontend/src/types/expression.rs L384-387). -/
def isU64 (q : ℚ) : Bool := isInteger q && decide (0 ≤ q.num) && decide (q.num < 2 ^ 64)

/-- The modulo operator (canadensis_dsdl_frontend/src/types/expression.rs L68-87). `BitLengthSet % 0` panics in the modulo of each leaf
(canadensis_bit_length_set/src/operator.rs). -/
def moduloValues (lhs rhs : Value) : Outcome Value :=
  match lhs, rhs with
  | .lengths l, .rational q =>
    if isU64 q then if q.num = 0 then .panic else .ok (.lengths (l.rem q.num.toNat))
    else elementwiseBinary (fun a b => if b = 0 then .panic else .ok (.rational (remainder a b))) lhs rhs
  | _, _ => elementwiseBinary (fun a b => if b = 0 then .panic else .ok (.rational (remainder a b))) lhs rhs

/-- `add::evaluate` (canadensis_dsdl_frontend/src/operators/add.rs L7-18; types/string.rs L34-38). -/
def addValues (x : Externals) (lhs rhs : Value) : Outcome Value :=
  match lhs, rhs with
  | .string a, .string b => .ok (.string (x.nfc (a ++ b)))
  | _, _ => elementwiseBinary (fun a b => .ok (.rational (a + b))) lhs rhs

/-- The binary operators after their operands were evaluated (canadensis_dsdl_frontend/src/types/expression.rs L49-229; operators/*.rs). Dividing by
zero panics (crate `num-rational`). -/
def evalBinary (x : Externals) (op : BinOp) (lhs rhs : Value) : Outcome Value :=
  match op with
  | .exponent => elementwiseBinary (rationalExponent x) lhs rhs
  | .multiply => elementwiseBinary (fun a b => .ok (.rational (a * b))) lhs rhs
  | .divide => elementwiseBinary (fun a b => if b = 0 then .panic else .ok (.rational (a / b))) lhs rhs
  | .modulo => moduloValues lhs rhs
  | .add => addValues x lhs rhs
  | .subtract => elementwiseBinary (fun a b => .ok (.rational (a - b))) lhs rhs
  | .bitOr => rationalOrSetBinary (rationalBitwise Int.lor) ValueSet.union (fun a b => .lengths (a.unite [b])) lhs rhs
  | .bitXor =>
    rationalOrSetBinary (rationalBitwise Int.xor) ValueSet.symmetricDifference (fun a b => .set (ValueSet.ofNats (differentNats a.expand b.expand))) lhs rhs
  | .bitAnd => rationalOrSetBinary (rationalBitwise Int.land) ValueSet.intersection (fun a b => .set (ValueSet.ofNats (commonNats a.expand b.expand))) lhs rhs
  | .equal => equalValues false lhs rhs
  | .notEqual => equalValues true lhs rhs
  | .lessOrEqual => rationalOrSetComparison (fun a b => decide (a ≤ b)) (fun a b => a.isSubset b) lhs rhs
  | .greaterOrEqual => rationalOrSetComparison (fun a b => decide (b ≤ a)) (fun a b => a.isSuperset b) lhs rhs
  | .less => rationalOrSetComparison (fun a b => decide (a < b)) (fun a b => a.isSubset b && !a.eq b) lhs rhs
  | .greater => rationalOrSetComparison (fun a b => decide (b < a)) (fun a b => a.isSuperset b && !a.eq b) lhs rhs
  | .logicalOr =>
    match lhs, rhs with
    | .boolean a, .boolean b => .ok (.boolean (a || b))
    | _, _ => .error
  | .logicalAnd =>
    match lhs, rhs with
    | .boolean a, .boolean b => .ok (.boolean (a && b))
    | _, _ => .error

/-! ### Unary operators -/

/-- The unary operators of `ExpressionType` (canadensis_dsdl_parser/src/ast/types.rs L20-25). -/
inductive UnOp where
  | plus | minus | not
deriving DecidableEq, Repr

/-- `unary_plus::evaluate`, `unary_minus::evaluate`, `unary_not::evaluate` (canadensis_dsdl_frontend/src/operators/unary_plus.rs L6-24, unary_minus.rs
L6-24, unary_not.rs L6-16). -/
def evalUnary : UnOp → Value → Outcome Value
  | .plus, .rational q => .ok (.rational q)
  | .minus, .rational q => .ok (.rational (-q))
  | .not, .boolean b => .ok (.boolean !b)
  | _, _ => .error

/-! ### Attributes of sets -/

/-- The elements of a set of sets: the first step of `Set::sets_sorted` (canadensis_dsdl_frontend/src/types/set.rs L92-101), `none` for its panic. -/
def innerSets : ValueSet → Option (List ValueSet)
  | [] => some []
  | .set s :: rest => (innerSets rest).map (s :: ·)
  | .lengths l :: rest => (innerSets rest).map (ValueSet.ofNats l.expand :: ·)
  | _ :: _ => none

/-- The elements of a set of strings as integers: the loop of `Set::string_as_ints_sorted` (canadensis_dsdl_frontend/src/types/set.rs L118-128). -/
def innerInts : ValueSet → Option (List Nat)
  | [] => some []
  | .string s :: rest =>
    match implicitInt s with
    | some n => (innerInts rest).map (n :: ·)
    | none => none
  | _ :: _ => none

/-- `sort_unstable` of numbers (std; canadensis_dsdl_frontend/src/types/set.rs L129). -/
def sortNats (ns : List Nat) : List Nat := ns.mergeSort (fun a b => decide (a ≤ b))

/-- `single_character_string` (canadensis_dsdl_frontend/src/types/set.rs L329-333). -/
def characterString (n : Nat) : String := String.singleton (Char.ofNat n)

/-- The value at one end of a sorted list: the first (`iter().next()`, `remove(0)`, `[0]`) or the last (`next_back()`, `pop()`, `last()`) one. -/
def endOf {α : Type} (last : Bool) (l : List α) : Option α := if last then l.getLast? else l.head?

/-- `Set::min_value` and, with `last`, `Set::max_value` (canadensis_dsdl_frontend/src/types/set.rs L38-86). `None` is an error of `evaluate_set_min` and
`evaluate_set_max` (operators/attribute.rs L52-76). -/
def extremeValue (x : Externals) (last : Bool) (s : ValueSet) : Outcome Value :=
  match s.ty with
  | some .rational => .ofOption (endOf last s)
  | some .emptySet | some (.setOf _) =>
    match (innerSets s).bind x.sortSets with
    | some sorted =>
      match endOf last sorted with
      | some v => .ok (.set v)
      | none => .panic
    | none => .panic
  | some .string =>
    match innerInts s with
    | some ns => ((endOf last (sortNats ns)).map fun n => Outcome.ok (.string (x.nfc (characterString n)))).getD .panic
    | none => .error
  | _ => .error

/-- `evaluate_set_attr` (canadensis_dsdl_frontend/src/operators/attribute.rs L27-35). -/
def setAttribute (x : Externals) (s : ValueSet) (name : String) : Outcome Value :=
  match name with
  | "min" => extremeValue x false s
  | "max" => extremeValue x true s
  | "count" => .ok (.rational s.length)
  | _ => .error

/-- `evaluate_bit_length_set_attr` (canadensis_dsdl_frontend/src/operators/attribute.rs L38-50). -/
def lengthsAttribute (l : BitLengthSet) (name : String) : Outcome Value :=
  match name with
  | "min" => .ok (.rational l.minValue)
  | "max" => .ok (.rational l.maxValue)
  | "count" => .ok (.rational l.expand.length)
  | _ => .error

end Verif.Front
