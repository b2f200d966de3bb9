import Verif.Front.Operators
import Verif.Front.SolveSpec
import Verif.Front.LenSpec
import Verif.Dsdl.Lengths
import Mathlib.Algebra.Order.AbsoluteValue.Basic

/-!
What the values of DSDL expressions are: numbers, texts, truth values, types, and sets of values. This does not use the order in which the compiler keeps the elements of a set.
-/

namespace Verif.Front

open Verif.Bls

/-- Two types are the same if they differ at most in the case of letters in names. -/
def ScalarTy.Same : ScalarTy → ScalarTy → Prop
  | .versioned a, .versioned b => SameName a b
  | a, b => a = b

/-- Two types are the same if they differ at most in the case of letters in names. -/
def Ty.Same : Ty → Ty → Prop
  | .scalar a, .scalar b => a.Same b
  | .fixedArray a n, .fixedArray b m => a.Same b ∧ n = m
  | .variableArray a n, .variableArray b m => a.Same b ∧ n = m
  | _, _ => False

mutual
/-- A value with every set of lengths in it, at any depth, as the set of these numbers. -/
def Value.flat : Value → Value
  | .set xs => .set (Value.flatAll xs)
  | .lengths l => .set (l.expand.map fun n : Nat => .rational (n : ℚ))
  | v => v
/-- `Value.flat` for each value. -/
def Value.flatAll : List Value → List Value
  | [] => []
  | x :: xs => x.flat :: Value.flatAll xs
end

mutual
/-- Two values without sets of lengths are the same. Two sets are if each element of one is in the other. -/
def Value.SameFlat : Value → Value → Prop
  | .rational a, .rational b => a = b
  | .string a, .string b => a = b
  | .boolean a, .boolean b => a = b
  | .type a, .type b => a.Same b
  | .set a, .set b => Value.EachIn a b ∧ ∀ y ∈ b, Value.SameAsOne a y
  | _, _ => False
/-- Each of some values is in a set. -/
def Value.EachIn : List Value → List Value → Prop
  | [], _ => True
  | x :: xs, b => (∃ y ∈ b, x.SameFlat y) ∧ Value.EachIn xs b
/-- A value is one of some values. -/
def Value.SameAsOne : List Value → Value → Prop
  | [], _ => False
  | x :: xs, y => x.SameFlat y ∨ Value.SameAsOne xs y
end

/-- Two values are the same. -/
def Value.Same (a b : Value) : Prop := a.flat.SameFlat b.flat

/-- The values that a set was made of. -/
def Value.elements : Value → List Value
  | .set xs => xs
  | .lengths l => l.expand.map fun n : Nat => .rational (n : ℚ)
  | _ => []

/-- The value is a set, and `v` is in it. -/
def Value.Has (s v : Value) : Prop := ∃ y ∈ s.elements, v.Same y

/-- The value is a set. -/
def Value.IsSet : Value → Prop
  | .set _ => True
  | .lengths _ => True
  | _ => False

/-- The elements of two sets have the same type. -/
def Compatible (a b : Value) : Prop := ∀ u ∈ a.elements, ∀ v ∈ b.elements, u.ty = v.ty

mutual
/-- No set of lengths is in the value. -/
def Value.Simple : Value → Prop
  | .set xs => Value.SimpleAll xs
  | .lengths _ => False
  | _ => True
/-- `Value.Simple` for each value. -/
def Value.SimpleAll : List Value → Prop
  | [] => True
  | x :: xs => x.Simple ∧ Value.SimpleAll xs
end

/-- No set of lengths is an element of the value, or of one of its elements. -/
def Value.Flat : Value → Prop
  | .lengths _ => True
  | v => v.Simple

mutual
/-- What holds for the values of all expressions (`C81_proper`): the elements of a set are in order, and have the same type. -/
def Value.Proper : Value → Prop
  | .set xs => Value.ProperAll xs ∧ (xs.Pairwise fun a b => a.cmp b = .lt) ∧ ∀ x ∈ xs, ∀ y ∈ xs, x.ty = y.ty
  | .lengths l => Verif.Dsdl.Reg l
  | _ => True
/-- `Value.Proper` for each value. -/
def Value.ProperAll : List Value → Prop
  | [] => True
  | x :: xs => x.Proper ∧ Value.ProperAll xs
end

/-! ### Numbers -/

/-- The number that a value stands for in a calculation: a text of one ASCII character stands for its code. -/
def Value.Number : Value → ℚ → Prop
  | .rational q, r => r = q
  | .string s, r => ∃ c : Char, s.toList = [c] ∧ c.toNat < 128 ∧ r = c.toNat
  | _, _ => False

/-- `r` is the result of an operator for two numbers. Where there is no such `r`, the operation is not defined. Powers other than whole ones are left to
a calculation with floating-point numbers. -/
def Calculates (x : Externals) : BinOp → ℚ → ℚ → ℚ → Prop
  | .add, a, b, r => r = a + b
  | .subtract, a, b, r => r = a - b
  | .multiply, a, b, r => r = a * b
  | .divide, a, b, r => b ≠ 0 ∧ r * b = a
  | .modulo, a, b, r => |r| < |b| ∧ 0 ≤ r * a ∧ ∃ k : ℤ, a = b * k + r
  | .exponent, a, b, r =>
    (∃ n : ℕ, b = n ∧ r = a ^ n) ∨ (∃ n : ℕ, 0 < n ∧ b = -n ∧ r * a ^ n = 1) ∨ (¬ ∃ n : ℤ, b = n) ∧ x.power a b = some r
  | .bitOr, a, b, r => ∃ m n k : ℤ, a = m ∧ b = n ∧ r = k ∧ ∀ i, k.testBit i = (m.testBit i || n.testBit i)
  | .bitAnd, a, b, r => ∃ m n k : ℤ, a = m ∧ b = n ∧ r = k ∧ ∀ i, k.testBit i = (m.testBit i && n.testBit i)
  | .bitXor, a, b, r => ∃ m n k : ℤ, a = m ∧ b = n ∧ r = k ∧ ∀ i, k.testBit i = (m.testBit i ^^ n.testBit i)
  | _, _, _, _ => False

/-- The operators whose result for two numbers is a number. -/
def BinOp.Arithmetic : BinOp → Prop
  | .exponent | .multiply | .divide | .modulo | .add | .subtract | .bitOr | .bitXor | .bitAnd => True
  | _ => False

/-- The operators that are applied to each element of a set of numbers. -/
def BinOp.Elementwise : BinOp → Prop
  | .exponent | .multiply | .divide | .modulo | .add | .subtract => True
  | _ => False

/-- What a comparison of two numbers says. -/
def BinOp.Compares : BinOp → ℚ → ℚ → Prop
  | .equal, a, b => a = b
  | .notEqual, a, b => a ≠ b
  | .lessOrEqual, a, b => a ≤ b
  | .greaterOrEqual, a, b => b ≤ a
  | .less, a, b => a < b
  | .greater, a, b => b < a
  | _, _, _ => False

/-- The operators that compare. -/
def BinOp.Comparison : BinOp → Prop
  | .equal | .notEqual | .lessOrEqual | .greaterOrEqual | .less | .greater => True
  | _ => False

/-- What a comparison of two sets says: whether they have the same elements, or one has those of the other. -/
def BinOp.ComparesSets : BinOp → Value → Value → Prop
  | .equal, A, B => ∀ v, A.Has v ↔ B.Has v
  | .notEqual, A, B => ∃ v, ¬ (A.Has v ↔ B.Has v)
  | .lessOrEqual, A, B => ∀ v, A.Has v → B.Has v
  | .greaterOrEqual, A, B => ∀ v, B.Has v → A.Has v
  | .less, A, B => (∀ v, A.Has v → B.Has v) ∧ ∃ v, B.Has v ∧ ¬ A.Has v
  | .greater, A, B => (∀ v, B.Has v → A.Has v) ∧ ∃ v, A.Has v ∧ ¬ B.Has v
  | _, _, _ => False

/-- The elements of the union, the intersection, or the symmetric difference of two sets. -/
def BinOp.Combines : BinOp → Value → Value → Value → Prop
  | .bitOr, A, B, v => A.Has v ∨ B.Has v
  | .bitAnd, A, B, v => A.Has v ∧ B.Has v
  | .bitXor, A, B, v => ¬ (A.Has v ↔ B.Has v)
  | _, _, _, _ => False

/-- The operators that combine sets. -/
def BinOp.OnSets : BinOp → Prop
  | .bitOr | .bitXor | .bitAnd => True
  | _ => False

/-- The result is a truth value, and says whether `p` holds. -/
def Says (o : Outcome Value) (p : Prop) : Prop := ∃ b, o = .ok (.boolean b) ∧ (b = true ↔ p)

/-! ### What the definitions amount to -/

theorem eachIn_iff {a b : List Value} : Value.EachIn a b ↔ ∀ x ∈ a, ∃ y ∈ b, x.SameFlat y := by
  induction a with
  | nil => simp [Value.EachIn]
  | cons x xs ih => rw [Value.EachIn, ih]; simp

theorem sameAsOne_iff {a : List Value} {y : Value} : Value.SameAsOne a y ↔ ∃ x ∈ a, x.SameFlat y := by
  induction a with
  | nil => simp [Value.SameAsOne]
  | cons x xs ih => rw [Value.SameAsOne, ih]; simp

theorem flatAll_eq (a : List Value) : Value.flatAll a = a.map Value.flat := by
  induction a with
  | nil => simp [Value.flatAll]
  | cons x xs ih => rw [Value.flatAll, ih]; simp

theorem simpleAll_iff {a : List Value} : Value.SimpleAll a ↔ ∀ x ∈ a, x.Simple := by
  induction a with
  | nil => simp [Value.SimpleAll]
  | cons x xs ih => rw [Value.SimpleAll, ih]; simp

theorem properAll_iff {a : List Value} : Value.ProperAll a ↔ ∀ x ∈ a, x.Proper := by
  induction a with
  | nil => simp [Value.ProperAll]
  | cons x xs ih => rw [Value.ProperAll, ih]; simp

/-- Two sets are the same exactly if each element of one is the same as an element of the other. -/
theorem same_set {a b : List Value} : (Value.set a).Same (.set b) ↔ (∀ x ∈ a, ∃ y ∈ b, x.Same y) ∧ ∀ y ∈ b, ∃ x ∈ a, x.Same y := by
  unfold Value.Same
  rw [Value.flat, Value.flat, Value.SameFlat, eachIn_iff, flatAll_eq, flatAll_eq]
  simp only [sameAsOne_iff, List.mem_map, exists_exists_and_eq_and, forall_exists_index, and_imp, forall_apply_eq_imp_iff₂]

theorem same_rational {a b : ℚ} : (Value.rational a).Same (.rational b) ↔ a = b := Iff.rfl

example : (Value.set [.rational 1, .rational 2]).Same (.set [.rational 2, .rational 1, .rational 1]) ∧ ¬ (Value.set [.rational 1]).Same (.set [.rational 1, .rational 2]) := by
  simp [same_set, same_rational]

-- A set of lengths is the same as the set of these numbers.
example : (Value.lengths (.single 8)).Same (.set [.rational 8]) := by
  have h : (Value.set [.rational 8]).Same (.set [.rational 8]) := by simp [same_set, same_rational]
  have e : (Value.lengths (.single 8)).flat = (Value.set [.rational 8]).flat := by
    show Value.set ((BitLengthSet.single 8).expand.map fun n => .rational (n : ℚ)) = .set [.rational 8]
    rw [show (BitLengthSet.single 8).expand = [8] by decide +kernel]
    rfl
  unfold Value.Same
  rw [e]
  exact h

end Verif.Front
