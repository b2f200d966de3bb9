import Verif.Front.TypesSpec
import Verif.Dsdl.Spec

/-!
Which lengths in bits a compiled type may have, from its members alone: the rules of DSDL.
-/

namespace Verif.Front

open Verif.Dsdl (Arity widthFor)

/-- `n` is `k` rounded up to a multiple of `a`. -/
def PadTo (a k n : Nat) : Prop := a ∣ n ∧ k ≤ n ∧ n < k + a

/-- `n` is the sum of `k` lengths from `L`. -/
def SumOf (L : Nat → Prop) (k n : Nat) : Prop := ∃ ms : List Nat, ms.length = k ∧ (∀ m ∈ ms, L m) ∧ ms.sum = n

/-- The lengths of a field whose elements have the lengths `L`: an array of variable length has the number of its elements before them, in the least of 8, 16, 32
and 64 bits that are enough for its greatest length. -/
def TypeLen (L : Nat → Prop) : Arity → Nat → Prop
  | .scalar, n => L n
  | .fixed k, n => SumOf L k n
  | .var k, n => ∃ j m, j ≤ k ∧ SumOf L j m ∧ n = widthFor k + m

mutual
/-- The lengths of an element. A value of a delimited type has its length before it, in 32 bits, and any whole number of bytes up to the extent, because it may be
from another version of the type. -/
def RScalar.Len : RScalar → Nat → Prop
  | .prim p, n => n = p.bits
  | .void bits, n => n = bits
  | .composite _ m, n =>
    match m.extent with
    | none => m.Len n
    | some e => ∃ k, 8 ∣ k ∧ k ≤ e ∧ n = 32 + k
/-- The lengths of a struct after these fields, if the lengths before are `L`. Composite types start at a byte boundary. -/
def FieldsLen : List CField → (Nat → Prop) → Nat → Prop
  | [], L, n => L n
  | .padding bits _ :: rest, L, n => FieldsLen rest (fun n => ∃ l, L l ∧ n = l + bits) n
  | .data _ s a _ :: rest, L, n => FieldsLen rest (fun n => ∃ l p t, L l ∧ PadTo s.alignment l p ∧ TypeLen s.Len a t ∧ n = p + t) n
/-- The lengths of the variants of a union. -/
def VariantsLen : List CVariant → Nat → Prop
  | [], _ => False
  | .mk _ s a :: rest, n => TypeLen s.Len a n ∨ VariantsLen rest n
/-- The lengths of a message: a whole number of bytes. A union has the number of the variant before it, in the least of 8, 16, 32 and 64 bits that are enough for
the greatest number. -/
def CMessage.Len : CMessage → Nat → Prop
  | .struct _ _ fields _ _, n => ∃ k, FieldsLen fields (fun l => l = 0) k ∧ PadTo 8 k n
  | .union _ _ _ variants _ _, n => ∃ k, VariantsLen variants k ∧ PadTo 8 (widthFor (variants.length - 1) + k) n
end

/-- An array of variable length has less than 2^64 elements. -/
def ArityFits : Arity → Prop
  | .var k => k < 2 ^ 64
  | _ => True

mutual
/-- There are no members of delimited types in it, no unions that have arrays of variable length as variants, and no unions with exactly 2^8, 2^16 or 2^32 variants.
The lengths of arrays and the numbers of variants are less than 2^64. -/
def RScalar.Plain : RScalar → Prop
  | .prim _ => True
  | .void _ => True
  | .composite _ m => m.extent = none ∧ m.Plain
/-- See `RScalar.Plain`. -/
def PlainFields : List CField → Prop
  | [] => True
  | .padding _ _ :: rest => PlainFields rest
  | .data _ s a _ :: rest => s.Plain ∧ ArityFits a ∧ PlainFields rest
/-- See `RScalar.Plain`. -/
def PlainVariants : List CVariant → Prop
  | [] => True
  | .mk _ s a :: rest => s.Plain ∧ (∀ k, a ≠ .var k) ∧ PlainVariants rest
/-- See `RScalar.Plain`. -/
def CMessage.Plain : CMessage → Prop
  | .struct _ _ fields _ _ => PlainFields fields
  | .union _ _ _ variants _ _ => PlainVariants variants ∧ 0 < variants.length ∧ variants.length < 2 ^ 64 ∧
    variants.length ≠ 2 ^ 8 ∧ variants.length ≠ 2 ^ 16 ∧ variants.length ≠ 2 ^ 32
end

/-- Whether a field of a struct is said to start always at a byte boundary. -/
def CField.aligned : CField → Bool
  | .padding _ a => a
  | .data _ _ _ a => a

end Verif.Front
