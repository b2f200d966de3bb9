import Verif.Front.PanicInv

/-!
C82: where the DSDL compiler panics.
-/

namespace Verif.Front

open Verif.Bls Verif.Dsdl

/-- C82: an operator on two numbers panics exactly if it has no result for them. -/
theorem C82_numbers (x : Externals) {op : BinOp} (hop : op.Arithmetic) {A B : Value} {a b : ℚ} (hA : A.Number a) (hB : B.Number b)
    (hs : op = .add → ¬ ∃ s t, A = .string s ∧ B = .string t) : evalBinary x op A B = .panic ↔ Undefined op a b := by
  rw [eval_number hop hA hB hs]
  exact numberOp_panic

/-- C82: an operator only panics if it has no result for numbers that are its operands, or elements of them. -/
theorem C82_operators (x : Externals) (op : BinOp) {A B : Value} (hA : A.Proper) (hB : B.Proper) (h : evalBinary x op A B = .panic) :
    ∃ a b, A.Holds a ∧ B.Holds b ∧ Undefined op a b := binary_panic hA hB h

/-- C82: compiling files with different names ends without a panic if every divisor in an expression is written as a number other than zero, every exponent as a number
that is not negative (or the base as one other than zero), and sorting sets (for the least or greatest of a set of sets) works. What is missing for the full statement
is false: see `C82_counterexample_divide` and the others. -/
theorem C82_no_panic_partial {x : Externals} (hx : SortWorks x) {files : List (TypeKey × File)} (hd : DifferentNames files) (hs : ∀ e ∈ files, e.2.Safe) :
    compile x files ≠ .panic := by
  have hk := (different_iff files).1 hd
  refine Outcome.ne_panic_bind (compileAll_panic hx files.length hk ⟨fun e he => by simp at he, hs, ?_⟩) fun p _ => by simp
  unfold Persistent.keys
  simp

/-! ### Cases -/

/-- A file with an assertion. -/
def assertFile (e : Expr) : File := ⟨none, some [.directive "assert" (some e), .directive "sealed" none]⟩

/-- **Compiling a file can panic**: `@assert 1 / 0 == 1`. -/
theorem C82_counterexample_divide : names (compile demoX [(demoKey "A", assertFile (.binary .equal (.binary .divide (.number 1) (.number 0)) (.number 1)))]) = .panic := by
  decide +kernel

/-- **Compiling a file can panic**: `@assert 1 % 0 == 1`. -/
theorem C82_counterexample_modulo : names (compile demoX [(demoKey "A", assertFile (.binary .equal (.binary .modulo (.number 1) (.number 0)) (.number 1)))]) = .panic := by
  decide +kernel

/-- **Compiling a file can panic**: `@assert _offset_ % 0 == {0}`. -/
theorem C82_counterexample_offset :
    names (compile demoX [(demoKey "A", assertFile (.binary .equal (.binary .modulo (.identifier "_offset_") (.number 0)) (.set [.number 0])))]) = .panic := by
  decide +kernel

/-- **Compiling a file can panic**: `@assert 0 ** -1 == 1`. -/
theorem C82_counterexample_exponent :
    names (compile demoX [(demoKey "A", assertFile (.binary .equal (.binary .exponent (.number 0) (.unary .minus (.number 1))) (.number 1)))]) = .panic := by
  decide +kernel

/-- **Compiling a file can panic** in the length of an array, after a file that compiles: `uint8[1 / 0] x`. -/
theorem C82_counterexample_array :
    names (compile demoX [(demoKey "A", demoLeaf),
      (demoKey "B", ⟨none, some [.field (.array (.prim (.uint 8 .saturated)) .fixed (.binary .divide (.number 1) (.number 0))) "x", .directive "sealed" none]⟩)]) = .panic := by
  decide +kernel

/-- The comparison that sets are sorted with for `min` and `max` of a set of sets (canadensis_dsdl_frontend/src/types/set.rs L103-111). -/
def compareSets (a b : ValueSet) : Ordering := if ValueSet.isSubset a b && !ValueSet.eq a b then .lt else .eq

/-- **The comparison that sets of sets are sorted with is not an order**: a set can be less than another one that is equal to it. For such a comparison, std leaves the
order of the result open, and permits a panic (`SortWorks` does not follow from the documentation of std). -/
theorem C82_counterexample_sort : ∃ a b : ValueSet, compareSets a b = .lt ∧ compareSets b a = .eq :=
  ⟨[.rational 1], [.rational 1, .rational 2], by decide +kernel, by decide +kernel⟩

-- `1 / 0` has no result, nor does `{1, 2} / 0`, and `_offset_ % 0` panics for the elements of `_offset_`.
example : BinOp.Arithmetic .divide ∧ (Value.rational 1).Number 1 ∧ (Value.rational 0).Number 0 ∧ Undefined .divide 1 0 ∧
    (Value.set [.rational 1, .rational 2]).Proper ∧ (∃ o, evalBinary demoX .divide (.set [.rational 1, .rational 2]) (.rational 0) = o ∧ o = .panic) :=
  ⟨trivial, rfl, rfl, .inl ⟨.inl rfl, rfl⟩, proper_set.2 ⟨fun x _ => by simp_all; rcases ‹_ ∨ _› with rfl | rfl <;> trivial, by
    simp; decide +kernel, fun x hx y hy => by simp at hx hy; rcases hx with rfl | rfl <;> rcases hy with rfl | rfl <;> rfl⟩, _, rfl, rfl⟩

/-- `A.1.0`: a constant, a field of another type, and an assertion like those in many files. -/
def safeFiles : List (TypeKey × File) :=
  [(demoKey "A", ⟨none, some [.constant (.uint 8 .saturated) "N" (.binary .divide (.number 12) (.number 4)), .field (.scalar (.versioned (demoKey "B"))) "b",
    .field (.array (.prim (.uint 8 .saturated)) .fixed (.binary .exponent (.identifier "N") (.number 2))) "x",
    .directive "assert" (some (.binary .equal (.binary .modulo (.identifier "_offset_") (.number 8)) (.set [.number 0]))),
    .directive "assert" (some (.binary .equal (.attribute (.identifier "_offset_") "max") (.number 80))), .directive "sealed" none]⟩),
   (demoKey "B", demoLeaf)]

-- Files whose expressions are safe; they compile.
example : DifferentNames safeFiles ∧ (∀ e ∈ safeFiles, e.2.Safe) ∧ SortWorks demoX ∧ names (compile demoX safeFiles) = .ok [demoKey "B", demoKey "A"] := by
  refine ⟨(different_iff _).2 (by decide +kernel), fun e he ss hss s hs => ?_, fun l => ⟨l, rfl, .refl _⟩, by decide +kernel⟩
  simp only [safeFiles, List.mem_cons, List.not_mem_nil, or_false] at he
  rcases he with rfl | rfl
  · cases hss
    simp only [List.mem_cons, List.not_mem_nil, or_false] at hs
    rcases hs with rfl | rfl | rfl | rfl | rfl | rfl
    · simp [Statement.Safe, Expr.Safe, SafeOperation, Expr.literal]
    · trivial
    · simp [Statement.Safe, Expr.Safe, SafeOperation, Expr.literal]
    · simp [Statement.Safe, Expr.Safe, Expr.SafeAll, SafeOperation, Expr.literal]
    · simp [Statement.Safe, Expr.Safe, SafeOperation]
    · trivial
  · cases hss
    simp only [List.mem_cons, List.not_mem_nil, or_false] at hs
    rcases hs with rfl | rfl <;> trivial

-- Files with other operations can be safe as well; the condition can fail.
example : ¬ (assertFile (.binary .equal (.binary .divide (.number 1) (.number 0)) (.number 1))).Safe := by
  intro h
  have := h _ rfl (.directive "assert" (some (.binary .equal (.binary .divide (.number 1) (.number 0)) (.number 1)))) (by simp)
  simp [Statement.Safe, Expr.Safe, SafeOperation, Expr.literal] at this

end Verif.Front
