import Verif.Crc.Poly
import Verif.Crc.Props
import Verif.Pnp.Lemmas

/-!
C80: the three CRCs are the ones of the specification. CRC-64/WE is in this directory because only plug-and-play uses it.
-/

namespace Verif.Pnp

open Polynomial Verif.Crc

/-! ### Lemmas -/

theorem generator16_eq : X ^ 16 + poly crc16Poly = generator16 := by
  have : poly crc16Poly = ∑ i ∈ Finset.range 16, if crc16Poly.getLsbD i then X ^ i else 0 := rfl
  rw [this]
  simp only [Finset.sum_range_succ, Finset.sum_range_zero, crc16Poly, generator16]
  simp
  ring

theorem generator32_eq : X ^ 32 + poly crc32Poly.reverse = generator32c := by
  have h : crc32Poly.reverse = 0x1edc6f41#32 := by decide +kernel
  have : poly (0x1edc6f41#32) = ∑ i ∈ Finset.range 32, if (0x1edc6f41#32).getLsbD i then X ^ i else 0 := rfl
  rw [h, this]
  simp only [Finset.sum_range_succ, Finset.sum_range_zero, generator32c]
  simp
  ring

theorem generator64_eq : X ^ 64 + poly (0x42f0e1eba9ea3693#64) = generator64 := by
  have : poly (0x42f0e1eba9ea3693#64) = ∑ i ∈ Finset.range 64, if (0x42f0e1eba9ea3693#64).getLsbD i then X ^ i else 0 := rfl
  rw [this]
  simp only [Finset.sum_range_succ, Finset.sum_range_zero, generator64]
  simp
  ring

theorem gplace64_byte : ∀ b : Byte, gplace 64 (byteBitsMsb b) = (b.setWidth 64) <<< 56 := by
  decide +kernel

theorem digest64_eq (v : BitVec 64) (b : Byte) : digest64 v b = (byteBitsMsb b).foldl (gfeed 0x42f0e1eba9ea3693#64) v := by
  have hs : step64 = gstep 0x42f0e1eba9ea3693#64 := by
    funext v
    unfold step64 gstep
    rw [BitVec.msb_eq_getLsbD_last]
    cases v.getLsbD 63 <;> simp
  rw [gfeed_all _ _ (by simp [byteBitsMsb]), gplace64_byte, digest64, hs]
  rfl

theorem digests64_eq (m : List Byte) : ∀ v, m.foldl digest64 v = (bitsMsb m).foldl (gfeed 0x42f0e1eba9ea3693#64) v := by
  induction m with
  | nil => intro v; rfl
  | cons b m ih =>
    intro v
    rw [List.foldl_cons, ih, digest64_eq]
    simp [bitsMsb]

/-! ### C80 -/

/-- Polynomials say which bits they were made of. -/
theorem C80_determined : ∀ (a b : List Bool), a.length = b.length → ofBits a = ofBits b → a = b := by
  have hdeg : ∀ l : List Bool, (ofBits l).degree < (l.length : WithBot ℕ) := by
    intro l
    induction l with
    | nil => simp [ofBits]
    | cons b l ih =>
      rw [ofBits, List.length_cons]
      refine (Polynomial.degree_add_le _ _).trans_lt (max_lt ?_ (ih.trans (by exact_mod_cast Nat.lt_succ_self _)))
      split
      · rw [Polynomial.degree_X_pow]; exact_mod_cast Nat.lt_succ_self _
      · rw [Polynomial.degree_zero]; exact WithBot.bot_lt_coe _
  intro a
  induction a with
  | nil =>
    intro b h _
    exact (List.length_eq_zero_iff.1 h.symm).symm
  | cons x a ih =>
    intro b h he
    cases b with
    | nil => simp at h
    | cons y b =>
      have hl : a.length = b.length := by simpa using h
      have hcoef : ∀ (z : Bool) (l : List Bool), (ofBits (z :: l)).coeff l.length = if z then 1 else 0 := by
        intro z l
        rw [ofBits, Polynomial.coeff_add, Polynomial.coeff_eq_zero_of_degree_lt (hdeg l)]
        cases z <;> simp
      have h1 := hcoef x a
      rw [he, hl, hcoef y b] at h1
      have hxy : x = y := by
        cases x <;> cases y <;> simp at h1 ⊢
      subst hxy
      rw [ofBits, ofBits, hl] at he
      rw [ih b hl (add_left_cancel he)]

/-- `Crc16CcittFalse` is CRC-16/CCITT-FALSE, for every message. -/
theorem C80_crc16 (m : List Byte) : ofBits (msbFirst (crc16 m)) = crcRemainder 16 generator16 (bitsMsb m) := by
  rw [ofBits_msbFirst, crc16, digestBytes16_eq, ← generator16_eq]
  exact gfeed_crc (by omega) crc16Poly (bitsMsb m)

/-- `Crc32c` is CRC-32C, for every message: it takes the bits of a byte least significant first, gives the remainder in this order too, and inverts it. -/
theorem C80_crc32c (m : List Byte) : ofBits (lsbFirst (crc32c m)) = crcRemainder 32 generator32c (bitsLsb m) + ones 32 := by
  have h := rfeed_crc (by omega) crc32Poly (bitsLsb m)
  have h1 : poly crc32Xor.reverse = ones 32 := by
    have : crc32Xor.reverse = BitVec.allOnes 32 := by decide +kernel
    rw [this]
    exact poly_allOnes 32
  have h0 : crc32Init = BitVec.allOnes 32 := by decide +kernel
  rw [crc32c, getCrc32, digestBytes32_eq, h0, ofBits_lsbFirst, reverse_xor, poly_xor, ← ofBits_lsbFirst, h1, ← generator32_eq]
  exact congrArg (· + ones 32) h

/-- The hash of a unique ID is made with CRC-64/WE, for every message. -/
theorem C80_crc64we (m : List Byte) : ofBits (msbFirst (crc64we m)) = crcRemainder 64 generator64 (bitsMsb m) + ones 64 := by
  rw [ofBits_msbFirst, crc64we, poly_xor, poly_allOnes, digests64_eq, ← generator64_eq]
  exact congrArg (· + ones 64) (gfeed_crc (by omega) _ (bitsMsb m))

/-- The hash of a unique ID is the lower 48 bits of its CRC-64/WE. -/
theorem C80_hash (u : UniqueId) : (hash48 u).toNat = (crc64we u.1).toNat % 2 ^ 48 := hash_eq u

-- The check values of the catalogue of CRCs: the CRCs of the ASCII digits 1 to 9.
example : crc16 [0x31, 0x32, 0x33, 0x34, 0x35, 0x36, 0x37, 0x38, 0x39] = 0x29b1 := by decide +kernel
example : crc32c [0x31, 0x32, 0x33, 0x34, 0x35, 0x36, 0x37, 0x38, 0x39] = 0xe3069283 := by decide +kernel
example : crc64we [0x31, 0x32, 0x33, 0x34, 0x35, 0x36, 0x37, 0x38, 0x39] = 0x62ec59e3f1a4f00a := by decide +kernel

-- A message of one byte, as polynomials: 0x80 is X^7.
example : ofBits (bitsMsb [0x80]) = X ^ 7 := by simp [bitsMsb, byteBitsMsb, bit, ofBits]

end Verif.Pnp
