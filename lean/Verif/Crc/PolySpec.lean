import Mathlib.Algebra.Polynomial.Div
import Mathlib.Algebra.CharP.Two
import Mathlib.Data.ZMod.Basic
import Verif.Basic

/-!
What a CRC is: the remainder of a division of polynomials over the field of two elements.
-/

namespace Verif.Crc

open Polynomial

/-- Bits as a polynomial; the first bit is the coefficient of the greatest power. -/
noncomputable def ofBits : List Bool → (ZMod 2)[X]
  | [] => 0
  | b :: rest => (if b then X ^ rest.length else 0) + ofBits rest

/-- The bits of a number, most significant first. -/
def msbFirst {w : Nat} (v : BitVec w) : List Bool := (List.range w).map fun i => v.getLsbD (w - 1 - i)

/-- The bits of a number, least significant first. -/
def lsbFirst {w : Nat} (v : BitVec w) : List Bool := (List.range w).map fun i => v.getLsbD i

/-- All ones. -/
noncomputable def ones (w : Nat) : (ZMod 2)[X] := ofBits (List.replicate w true)

/-- The remainder of a message, with a register of `w` bits that is all ones at first, and a generator of degree `w`. -/
noncomputable def crcRemainder (w : Nat) (generator : (ZMod 2)[X]) (message : List Bool) : (ZMod 2)[X] :=
  (X ^ w * ofBits message + X ^ message.length * ones w) %ₘ generator

/-- The generator of CRC-16/CCITT: 0x1021. -/
noncomputable def generator16 : (ZMod 2)[X] := X ^ 16 + X ^ 12 + X ^ 5 + 1

/-- The generator of CRC-32C (Castagnoli): 0x1edc6f41. -/
noncomputable def generator32c : (ZMod 2)[X] :=
  X ^ 32 + X ^ 28 + X ^ 27 + X ^ 26 + X ^ 25 + X ^ 23 + X ^ 22 + X ^ 20 + X ^ 19 + X ^ 18 + X ^ 14 + X ^ 13 + X ^ 11 + X ^ 10 + X ^ 9 + X ^ 8 + X ^ 6 + 1

/-- The generator of CRC-64 (ECMA-182): 0x42f0e1eba9ea3693. -/
noncomputable def generator64 : (ZMod 2)[X] :=
  X ^ 64 + X ^ 62 + X ^ 57 + X ^ 55 + X ^ 54 + X ^ 53 + X ^ 52 + X ^ 47 + X ^ 46 + X ^ 45 + X ^ 40 + X ^ 39 + X ^ 38 + X ^ 37 + X ^ 35 + X ^ 33 + X ^ 32 +
    X ^ 31 + X ^ 29 + X ^ 27 + X ^ 24 + X ^ 23 + X ^ 22 + X ^ 21 + X ^ 19 + X ^ 17 + X ^ 13 + X ^ 12 + X ^ 10 + X ^ 9 + X ^ 7 + X ^ 4 + X + 1

end Verif.Crc
