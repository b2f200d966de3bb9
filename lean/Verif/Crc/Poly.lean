import Verif.Crc.PolySpec
import Verif.Crc.Lemmas
import Mathlib.Tactic.Ring
import Mathlib.Tactic.LinearCombination

/-!
Lemmas: the shift registers compute remainders of polynomials.
-/

namespace Verif.Crc

open Polynomial

/-- A register as a polynomial. -/
noncomputable def poly {w : Nat} (v : BitVec w) : (ZMod 2)[X] := ∑ i ∈ Finset.range w, if v.getLsbD i then X ^ i else 0

theorem two_zero (p : (ZMod 2)[X]) : p + p = 0 := CharTwo.add_self_eq_zero p

theorem ofBits_eq (f : Nat → Bool) : ∀ n, ofBits ((List.range n).map fun i => f (n - 1 - i)) = ∑ i ∈ Finset.range n, if f i then X ^ i else 0
  | 0 => by simp [ofBits]
  | n + 1 => by
    have h : (List.range (n + 1)).map (fun i => f (n + 1 - 1 - i)) = f n :: (List.range n).map fun i => f (n - 1 - i) := by
      rw [List.range_succ_eq_map, List.map_cons, List.map_map]
      congr 1
      apply List.map_congr_left
      intro i hi
      show f (n + 1 - 1 - (i + 1)) = _
      congr 1
      omega
    rw [h, ofBits, ofBits_eq f n, Finset.sum_range_succ, add_comm, List.length_map, List.length_range]

theorem ofBits_msbFirst {w : Nat} (v : BitVec w) : ofBits (msbFirst v) = poly v := ofBits_eq _ w

theorem poly_xor {w : Nat} (a b : BitVec w) : poly (a ^^^ b) = poly a + poly b := by
  unfold poly
  rw [← Finset.sum_add_distrib]
  apply Finset.sum_congr rfl
  intro i _
  rw [BitVec.getLsbD_xor]
  cases a.getLsbD i <;> cases b.getLsbD i <;> simp [two_zero]

theorem poly_zero {w : Nat} : poly (0#w) = 0 := by simp [poly]

theorem poly_twoPow {w i : Nat} (h : i < w) : poly (BitVec.twoPow w i) = X ^ i := by
  unfold poly
  rw [Finset.sum_eq_single i]
  · simp [h]
  · intro j _ hj
    simp [BitVec.getLsbD_twoPow, Ne.symm hj]
  · intro hi
    exact absurd (Finset.mem_range.2 h) hi

theorem poly_degree {w : Nat} (v : BitVec w) : (poly v).degree < (w : WithBot ℕ) := by
  unfold poly
  refine (Polynomial.degree_sum_le _ _).trans_lt ?_
  rw [Finset.sup_lt_iff (by exact WithBot.bot_lt_coe w)]
  intro i hi
  split
  · rw [Polynomial.degree_X_pow]
    exact_mod_cast Finset.mem_range.1 hi
  · rw [Polynomial.degree_zero]
    exact WithBot.bot_lt_coe w

theorem poly_shift {k : Nat} (v : BitVec (k + 1)) : poly (v <<< 1) + (if v.msb then X ^ (k + 1) else 0) = X * poly v := by
  unfold poly
  rw [Finset.sum_range_succ' , Finset.mul_sum, Finset.sum_range_succ (f := fun i => X * _)]
  have h0 : (v <<< 1).getLsbD 0 = false := by simp
  have hm : v.msb = v.getLsbD k := by simp [BitVec.msb_eq_getLsbD_last]
  rw [h0, hm]
  simp only [Bool.false_eq_true, if_false, add_zero]
  congr 1
  · apply Finset.sum_congr rfl
    intro i hi
    have hi := Finset.mem_range.1 hi
    have : (v <<< 1).getLsbD (i + 1) = v.getLsbD i := by
      rw [BitVec.getLsbD_shiftLeft]
      simp [show i < k by omega]
    rw [this]
    split
    · rw [pow_succ, mul_comm]
    · simp
  · split
    · rw [pow_succ, mul_comm]
    · simp

/-- A step multiplies with X, up to a multiple of the generator. -/
theorem poly_gstep {k : Nat} (p v : BitVec (k + 1)) : ∃ c, poly (gstep p v) = X * poly v + c * (X ^ (k + 1) + poly p) := by
  unfold gstep
  rw [poly_xor, ← poly_shift]
  cases v.msb with
  | false => exact ⟨0, by simp [poly_zero]⟩
  | true =>
    refine ⟨1, ?_⟩
    simp only [if_true]
    linear_combination -(two_zero (X ^ (k + 1)))

theorem gfeed_poly {k : Nat} (p : BitVec (k + 1)) : ∀ (bs : List Bool) (s : BitVec (k + 1)),
    (X ^ (k + 1) + poly p) ∣ (X ^ (k + 1) * ofBits bs + X ^ bs.length * poly s) - poly (bs.foldl (gfeed p) s)
  | [], s => by simp [ofBits]
  | b :: bs, s => by
    obtain ⟨q, hq⟩ := gfeed_poly p bs (gfeed p s b)
    obtain ⟨c, hc⟩ := poly_gstep p (s ^^^ (if b then BitVec.twoPow (k + 1) (k + 1 - 1) else 0#(k + 1)))
    have hb : poly (if b then BitVec.twoPow (k + 1) (k + 1 - 1) else 0#(k + 1)) = if b then X ^ k else 0 := by
      cases b
      · simp [poly_zero]
      · simp only [if_true]; exact poly_twoPow (by omega)
    rw [poly_xor, hb] at hc
    have hg : poly (gfeed p s b) = _ := hc
    rw [hg] at hq
    refine ⟨q - X ^ bs.length * c, ?_⟩
    rw [List.foldl_cons, List.length_cons, ofBits]
    cases b
    · simp only [Bool.false_eq_true, if_false] at hq ⊢
      linear_combination hq
    · simp only [if_true] at hq ⊢
      linear_combination hq

theorem generator_monic {w : Nat} (p : BitVec w) : (X ^ w + poly p).Monic := Polynomial.monic_X_pow_add (poly_degree p)

theorem generator_degree {w : Nat} (p : BitVec w) : (X ^ w + poly p).degree = (w : WithBot ℕ) := by
  rw [Polynomial.degree_add_eq_left_of_degree_lt (by rw [Polynomial.degree_X_pow]; exact poly_degree p), Polynomial.degree_X_pow]

theorem poly_allOnes (w : Nat) : poly (BitVec.allOnes w) = ones w := by
  unfold ones
  rw [← ofBits_msbFirst]
  congr 1
  apply List.ext_getElem (by simp [msbFirst])
  intro i h1 h2
  simp only [msbFirst, List.length_map, List.length_range] at h1
  simp only [msbFirst, List.getElem_map, List.getElem_range, List.getElem_replicate, BitVec.getLsbD_allOnes]
  exact decide_eq_true (by omega)

theorem gfeed_remainder {k : Nat} (p : BitVec (k + 1)) (bs : List Bool) :
    poly (bs.foldl (gfeed p) (BitVec.allOnes (k + 1))) = crcRemainder (k + 1) (X ^ (k + 1) + poly p) bs := by
  have h := gfeed_poly p bs (BitVec.allOnes (k + 1))
  unfold crcRemainder
  rw [← poly_allOnes, Polynomial.modByMonic_eq_of_dvd_sub (generator_monic p) h]
  exact ((Polynomial.modByMonic_eq_self_iff (generator_monic p)).2 (by rw [generator_degree]; exact poly_degree _)).symm

/-! ### Reflected registers -/

theorem ofBits_lsbFirst {w : Nat} (v : BitVec w) : ofBits (lsbFirst v) = poly v.reverse := by
  rw [← ofBits_msbFirst]
  congr 1
  apply List.ext_getElem (by simp [lsbFirst, msbFirst])
  intro i h1 h2
  simp only [lsbFirst, List.length_map, List.length_range] at h1
  simp only [lsbFirst, msbFirst, List.getElem_map, List.getElem_range, BitVec.getLsbD_reverse, BitVec.getMsbD]
  rw [show w - 1 - (w - 1 - i) = i by omega]
  simp [show w - 1 - i < w by omega]

theorem getLsbD_reverse' {w : Nat} (v : BitVec w) (i : Nat) (h : i < w) : v.reverse.getLsbD i = v.getLsbD (w - 1 - i) := by
  rw [BitVec.getLsbD_reverse, BitVec.getMsbD]
  simp [h]

theorem reverse_xor {w : Nat} (a b : BitVec w) : (a ^^^ b).reverse = a.reverse ^^^ b.reverse := by
  apply BitVec.eq_of_getLsbD_eq
  intro i hi
  rw [getLsbD_reverse' _ _ hi, BitVec.getLsbD_xor, BitVec.getLsbD_xor, getLsbD_reverse' _ _ hi, getLsbD_reverse' _ _ hi]

theorem reverse_rstep {k : Nat} (p v : BitVec (k + 1)) : (rstep p v).reverse = gstep p.reverse v.reverse := by
  unfold rstep gstep
  rw [reverse_xor]
  have hm : v.reverse.msb = v.getLsbD 0 := by rw [BitVec.msb_eq_getLsbD_last, getLsbD_reverse' _ _ (by omega)]; simp
  rw [hm]
  congr 1
  · apply BitVec.eq_of_getLsbD_eq
    intro i hi
    rw [getLsbD_reverse' _ _ hi, BitVec.getLsbD_ushiftRight, BitVec.getLsbD_shiftLeft]
    by_cases h0 : i = 0
    · subst h0
      simp
    · rw [getLsbD_reverse' _ _ (by omega), show 1 + (k + 1 - 1 - i) = k + 1 - 1 - (i - 1) by omega]
      simp [hi, show ¬ i < 1 by omega]
  · cases v.getLsbD 0
    · apply BitVec.eq_of_getLsbD_eq
      intro i hi
      simp only [Bool.false_eq_true, if_false]
      rw [getLsbD_reverse' _ _ hi]
      simp
    · rfl

theorem reverse_rfeed {k : Nat} (p s : BitVec (k + 1)) (b : Bool) : (rfeed p s b).reverse = gfeed p.reverse s.reverse b := by
  unfold rfeed gfeed
  rw [reverse_rstep, reverse_xor]
  congr 2
  apply BitVec.eq_of_getLsbD_eq
  intro i hi
  rw [getLsbD_reverse' _ _ hi]
  cases b
  · simp
  · simp only [if_true, BitVec.getLsbD_twoPow, Nat.add_sub_cancel]
    by_cases h : i = k
    · subst h; simp
    · simp [Ne.symm h, show 0 ≠ k - i by omega]

theorem rfeed_remainder {k : Nat} (p : BitVec (k + 1)) (bs : List Bool) :
    ofBits (lsbFirst (bs.foldl (rfeed p) (BitVec.allOnes (k + 1)))) = crcRemainder (k + 1) (X ^ (k + 1) + poly p.reverse) bs := by
  have h : ∀ (bs : List Bool) (s : BitVec (k + 1)), (bs.foldl (rfeed p) s).reverse = bs.foldl (gfeed p.reverse) s.reverse := by
    intro bs
    induction bs with
    | nil => intro s; rfl
    | cons b bs ih => intro s; rw [List.foldl_cons, List.foldl_cons, ih, reverse_rfeed]
  have ho : (BitVec.allOnes (k + 1)).reverse = BitVec.allOnes (k + 1) := by
    apply BitVec.eq_of_getLsbD_eq
    intro i hi
    rw [getLsbD_reverse' _ _ hi, BitVec.getLsbD_allOnes, BitVec.getLsbD_allOnes]
    simp [hi, show k - i < k + 1 by omega]
  rw [ofBits_lsbFirst, h, ho, gfeed_remainder]

theorem gfeed_crc {w : Nat} (hw : 0 < w) (p : BitVec w) (bs : List Bool) :
    poly (bs.foldl (gfeed p) (BitVec.allOnes w)) = crcRemainder w (X ^ w + poly p) bs := by
  obtain ⟨k, rfl⟩ : ∃ k, w = k + 1 := ⟨w - 1, by omega⟩
  exact gfeed_remainder p bs

theorem rfeed_crc {w : Nat} (hw : 0 < w) (p : BitVec w) (bs : List Bool) :
    ofBits (lsbFirst (bs.foldl (rfeed p) (BitVec.allOnes w))) = crcRemainder w (X ^ w + poly p.reverse) bs := by
  obtain ⟨k, rfl⟩ : ∃ k, w = k + 1 := ⟨w - 1, by omega⟩
  exact rfeed_remainder p bs

end Verif.Crc
