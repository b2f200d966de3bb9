import Verif.Front.PanicProps
import Verif.Bls.WideProps
/-
C138 for the lengths of compiled types.
-/
namespace Verif.Front

open Verif.Bls

/-- What the program learns about the lengths of the only type: the greatest with and without overflow checks, whether it is fixed without, and whether it is a number of
bytes with and without. -/
def lengthsW (r : Outcome (List (TypeKey × Compiled))) : Option (Option Nat × Option Nat × Option Bool × Option Bool × Option Bool) :=
  match r with
  | .ok [(_, c)] =>
    match c.kind with
    | .message m => some (m.bitLength.maxValueW true, m.bitLength.maxValueW false, m.bitLength.isFixedSizeW false, m.bitLength.isAlignedW true true 8, m.bitLength.isAlignedW false false 8)
    | _ => none
  | _ => none

/-- `uint64[<=n] x` and `@sealed`. -/
def listFile (n : Nat) : File := ⟨none, some [.field (.array (.prim (.uint 64 .saturated)) .inclusive (.number n)) "x", .directive "sealed" none]⟩

/-- **C138** fails for types that the compiler accepts: it panics for the greatest length and for the alignment of `uint64[<=2^58] x` with overflow checks, and without them
says that every value of this type has 64 bits. -/
theorem C138_type_counterexample : lengthsW (compile demoX [(demoKey "A", listFile (2 ^ 58))]) = some (none, some 64, some true, none, some true) := by decide +kernel

example : lengthsW (compile demoX [(demoKey "A", listFile 1000)]) = some (some 64016, some 64016, some false, some true, some true) := by decide +kernel

end Verif.Front
