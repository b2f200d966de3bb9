import Verif.Flex.Spec

/-! Helper lemmas for the driver of the FlexCAN peripheral. -/

namespace Verif.Flex

open Verif.Can

/-! ### Words -/

theorem or_add {a b : BitVec 32} {k : Nat} (ha : a.toNat < 2 ^ k) (hb : b.toNat * 2 ^ k < 2 ^ 32) : (a ||| b <<< k).toNat = a.toNat + b.toNat * 2 ^ k := by
  rw [BitVec.toNat_or, BitVec.toNat_shiftLeft, Nat.shiftLeft_eq, Nat.mod_eq_of_lt hb, Nat.or_comm, Nat.mul_comm, ← Nat.two_pow_add_eq_or_of_lt ha]
  omega

theorem ofBool_toNat (b : Bool) : (ofBool b).toNat = b.toNat := by cases b <;> rfl

theorem and_ones (v : BitVec 32) (n : Nat) (m : BitVec 32) (hm : m.toNat = 2 ^ n - 1) : (v &&& m).toNat = v.toNat % 2 ^ n := by
  rw [BitVec.toNat_and, hm, Nat.and_two_pow_sub_one_eq_mod]

theorem bitAt_eq (v : BitVec 32) (k : Nat) : bitAt v k = decide (field v k 1 = 1) := by
  unfold bitAt field
  rw [Bool.eq_iff_iff]
  simp only [beq_iff_eq, decide_eq_true_eq]
  rw [← BitVec.toNat_inj, and_ones _ 1 1#32 rfl, BitVec.toNat_ushiftRight, Nat.shiftRight_eq_div_pow]
  rfl

theorem field8 (v : BitVec 32) (k n : Nat) (m : BitVec 32) (hm : m.toNat = 2 ^ n - 1) (hn : n ≤ 8) : (((v >>> k) &&& m).setWidth 8).toNat = field v k n := by
  rw [BitVec.toNat_setWidth, and_ones _ n m hm, BitVec.toNat_ushiftRight, Nat.shiftRight_eq_div_pow]
  unfold field
  apply Nat.mod_eq_of_lt
  have h1 : v.toNat / 2 ^ k % 2 ^ n < 2 ^ n := Nat.mod_lt _ (Nat.two_pow_pos n)
  have h2 : 2 ^ n ≤ 2 ^ 8 := Nat.pow_le_pow_right (by omega) hn
  omega

theorem and8 (v : BitVec 8) (n : Nat) (m : BitVec 8) (hm : m.toNat = 2 ^ n - 1) : ((v &&& m).setWidth 32).toNat = v.toNat % 2 ^ n := by
  rw [BitVec.toNat_setWidth, BitVec.toNat_and, hm, Nat.and_two_pow_sub_one_eq_mod]
  have := Nat.mod_le v.toNat (2 ^ n)
  have := v.isLt
  omega

theorem control_toNat (h : Header) (fits : Fits h) : h.asBits.1.toNat =
    h.timestamp.toNat + h.dlc.toNat * 2 ^ 16 + h.rtr.toNat * 2 ^ 20 + h.ide.toNat * 2 ^ 21 + h.srr.toNat * 2 ^ 22 + h.code.toNat * 2 ^ 24 + h.esi.toNat * 2 ^ 29 + h.brs.toNat * 2 ^ 30 +
      h.edl.toNat * 2 ^ 31 := by
  have t : (h.timestamp.setWidth 32).toNat = h.timestamp.toNat := by
    rw [BitVec.toNat_setWidth]; have := h.timestamp.isLt; omega
  have tl := h.timestamp.isLt
  have hd : ((h.dlc &&& 0x0f#8).setWidth 32).toNat = h.dlc.toNat := by
    rw [and8 _ 4 _ rfl]; exact Nat.mod_eq_of_lt fits.dlc
  have hc : ((h.code &&& 0x0f#8).setWidth 32).toNat = h.code.toNat := by
    rw [and8 _ 4 _ rfl]; exact Nat.mod_eq_of_lt fits.code
  have fd := fits.dlc
  have fc := fits.code
  have b1 := Bool.toNat_le h.rtr
  have b2 := Bool.toNat_le h.ide
  have b3 := Bool.toNat_le h.srr
  have b4 := Bool.toNat_le h.esi
  have b5 := Bool.toNat_le h.brs
  have b6 := Bool.toNat_le h.edl
  unfold Header.asBits
  have e1 := or_add (a := h.timestamp.setWidth 32) (b := (h.dlc &&& 0x0f#8).setWidth 32) (k := 16) (by omega) (by omega)
  have e2 := or_add (b := ofBool h.rtr) (k := 20) (a := _) (by rw [e1]; omega) (by rw [ofBool_toNat]; omega)
  have e3 := or_add (b := ofBool h.ide) (k := 21) (a := _) (by rw [e2, e1, ofBool_toNat]; omega) (by rw [ofBool_toNat]; omega)
  have e4 := or_add (b := ofBool h.srr) (k := 22) (a := _) (by rw [e3, e2, e1, ofBool_toNat, ofBool_toNat]; omega) (by rw [ofBool_toNat]; omega)
  have e5 := or_add (b := (h.code &&& 0x0f#8).setWidth 32) (k := 24) (a := _) (by rw [e4, e3, e2, e1, ofBool_toNat, ofBool_toNat, ofBool_toNat]; omega) (by omega)
  have e6 := or_add (b := ofBool h.esi) (k := 29) (a := _) (by rw [e5, e4, e3, e2, e1, ofBool_toNat, ofBool_toNat, ofBool_toNat]; omega) (by rw [ofBool_toNat]; omega)
  have e7 := or_add (b := ofBool h.brs) (k := 30) (a := _) (by rw [e6, e5, e4, e3, e2, e1]; simp only [ofBool_toNat]; omega) (by rw [ofBool_toNat]; omega)
  have e8 := or_add (b := ofBool h.edl) (k := 31) (a := _) (by rw [e7, e6, e5, e4, e3, e2, e1]; simp only [ofBool_toNat]; omega) (by rw [ofBool_toNat]; omega)
  show BitVec.toNat (_ ||| _) = _
  rw [e8, e7, e6, e5, e4, e3, e2, e1]
  simp only [ofBool_toNat]
  omega

theorem idWord_toNat (h : Header) (fits : Fits h) : h.asBits.2.toNat = (if h.ide then h.id.toNat else h.id.toNat * 2 ^ 18) + h.priority.toNat * 2 ^ 29 := by
  have fp := fits.priority
  have fi := fits.id
  have hp : ((h.priority &&& 0x7#8).setWidth 32).toNat = h.priority.toNat := by
    rw [and8 _ 3 _ rfl]; exact Nat.mod_eq_of_lt fp
  unfold Header.asBits
  cases hi : h.ide
  · rw [hi] at fi
    simp only [Bool.false_eq_true, if_false] at fi ⊢
    have e : ((h.id &&& 0x7ff#32) <<< 18).toNat = h.id.toNat * 2 ^ 18 := by
      rw [BitVec.toNat_shiftLeft, and_ones _ 11 _ rfl, Nat.shiftLeft_eq]; omega
    rw [or_add (by rw [e]; omega) (by omega), e, hp]
  · rw [hi] at fi
    simp only [if_true] at fi ⊢
    have e : (h.id &&& 0x1fffffff#32).toNat = h.id.toNat := by
      rw [and_ones _ 29 _ rfl]; omega
    rw [or_add (by rw [e]; omega) (by omega), e, hp]

theorem fromBits_asBits (h : Header) (fits : Fits h) : Header.fromBits h.asBits.1 h.asBits.2 = h := by
  have c := control_toNat h fits
  have i := idWord_toNat h fits
  generalize h.asBits.1 = w at c
  generalize h.asBits.2 = v at i
  obtain ⟨ts, dlc, rtr, ide, srr, code, esi, brs, edl, id, priority⟩ := h
  obtain ⟨fd, fc, fp, fi⟩ := fits
  simp only at c i fd fc fp fi
  have tl := ts.isLt
  have b1 := Bool.toNat_le rtr
  have b2 := Bool.toNat_le ide
  have b3 := Bool.toNat_le srr
  have b4 := Bool.toNat_le esi
  have b5 := Bool.toNat_le brs
  have b6 := Bool.toNat_le edl
  have bt : ∀ b : Bool, decide (b.toNat = 1) = b := by intro b; cases b <;> rfl
  have i21 : bitAt w 21 = ide := by
    rw [bitAt_eq, ← bt ide]; congr 1; unfold field; rw [c]; simp only [eq_iff_iff]; constructor <;> intro <;> omega
  unfold Header.fromBits
  rw [i21]
  congr 1
  · apply BitVec.eq_of_toNat_eq; rw [BitVec.toNat_setWidth, c]; omega
  · apply BitVec.eq_of_toNat_eq; rw [field8 _ _ 4 _ rfl (by omega)]; unfold field; rw [c]; omega
  · rw [bitAt_eq, ← bt rtr]; congr 1; unfold field; rw [c]; simp only [eq_iff_iff]; constructor <;> intro <;> omega
  · rw [bitAt_eq, ← bt srr]; congr 1; unfold field; rw [c]; simp only [eq_iff_iff]; constructor <;> intro <;> omega
  · apply BitVec.eq_of_toNat_eq; rw [field8 _ _ 4 _ rfl (by omega)]; unfold field; rw [c]; omega
  · rw [bitAt_eq, ← bt esi]; congr 1; unfold field; rw [c]; simp only [eq_iff_iff]; constructor <;> intro <;> omega
  · rw [bitAt_eq, ← bt brs]; congr 1; unfold field; rw [c]; simp only [eq_iff_iff]; constructor <;> intro <;> omega
  · rw [bitAt_eq, ← bt edl]; congr 1; unfold field; rw [c]; simp only [eq_iff_iff]; constructor <;> intro <;> omega
  · apply BitVec.eq_of_toNat_eq
    cases ide
    · simp only [Bool.false_eq_true, if_false] at i fi ⊢
      rw [and_ones _ 11 _ rfl, BitVec.toNat_ushiftRight, Nat.shiftRight_eq_div_pow, i]; omega
    · simp only [if_true] at i fi ⊢
      rw [and_ones _ 29 _ rfl, i]; omega
  · apply BitVec.eq_of_toNat_eq; rw [field8 _ _ 3 _ rfl (by omega)]; unfold field; rw [i]; cases ide <;> simp only [Bool.false_eq_true, if_false, if_true] at fi ⊢ <;> omega

theorem or_low (a b : BitVec 32) (n : Nat) (ha : a.toNat % 2 ^ n = 0) (hb : b.toNat < 2 ^ n) : (a ||| b).toNat = a.toNat + b.toNat := by
  obtain ⟨k, hk⟩ := Nat.dvd_of_mod_eq_zero ha
  rw [BitVec.toNat_or, hk]
  exact (Nat.two_pow_add_eq_or_of_lt hb k).symm

/-! ### Arbitration -/

/-- The number that a list of bits is. -/
def num : List Bool → Nat
  | [] => 0
  | b :: l => b.toNat * 2 ^ l.length + num l

theorem num_lt (l : List Bool) : num l < 2 ^ l.length := by
  induction l with
  | nil => simp [num]
  | cons b l ih =>
    have := Bool.toNat_le b
    simp only [num, List.length_cons, Nat.pow_succ]
    have : b.toNat * 2 ^ l.length ≤ 1 * 2 ^ l.length := Nat.mul_le_mul_right _ this
    omega

theorem num_append (a b : List Bool) : num (a ++ b) = num a * 2 ^ b.length + num b := by
  induction a with
  | nil => simp [num]
  | cons x a ih =>
    simp only [List.cons_append, num, ih, List.length_append, Nat.pow_add, Nat.add_mul, Nat.mul_assoc]
    omega

theorem bitsOf_length (n v : Nat) : (bitsOf n v).length = n := by
  induction n with
  | zero => rfl
  | succ n ih => simp [bitsOf, ih]

theorem num_bitsOf (n v : Nat) : num (bitsOf n v) = v % 2 ^ n := by
  induction n with
  | zero => simp [bitsOf, num, Nat.mod_one]
  | succ n ih =>
    rw [bitsOf, num, ih, bitsOf_length, Nat.mod_pow_succ, Nat.toNat_testBit, Nat.add_comm, Nat.mul_comm]

theorem beats_cons_iff (x y : Bool) (a b : List Bool) : Beats (x :: a) (y :: b) ↔ (x = false ∧ y = true) ∨ (x = y ∧ Beats a b) := by
  constructor
  · rintro ⟨p, ra, rb, h1, h2⟩
    cases p with
    | nil =>
      simp only [List.nil_append, List.cons.injEq] at h1 h2
      exact Or.inl ⟨h1.1, h2.1⟩
    | cons z p =>
      simp only [List.cons_append, List.cons.injEq] at h1 h2
      exact Or.inr ⟨h1.1.trans h2.1.symm, p, ra, rb, h1.2, h2.2⟩
  · rintro (⟨rfl, rfl⟩ | ⟨rfl, p, ra, rb, rfl, rfl⟩)
    · exact ⟨[], a, b, rfl, rfl⟩
    · exact ⟨x :: p, ra, rb, rfl, rfl⟩

theorem num_lt_iff : ∀ (a b : List Bool), a.length = b.length → (num a < num b ↔ Beats a b)
  | [], [], _ => by
    constructor
    · intro h; exact absurd h (Nat.lt_irrefl _)
    · rintro ⟨p, ra, rb, h1, _⟩; cases p <;> simp at h1
  | x :: a, y :: b, h => by
    have hl : a.length = b.length := by simpa using h
    rw [beats_cons_iff, ← num_lt_iff a b hl]
    have h1 := num_lt a
    have h2 := num_lt b
    rw [hl] at h1
    simp only [num, hl]
    cases x <;> cases y <;> simp <;> omega

theorem num_inj : ∀ (a b : List Bool), a.length = b.length → num a = num b → a = b
  | [], [], _, _ => rfl
  | x :: a, y :: b, h, e => by
    have hl : a.length = b.length := by simpa using h
    have h1 := num_lt a
    have h2 := num_lt b
    rw [hl] at h1
    simp only [num, hl] at e
    have : x = y ∧ num a = num b := by
      cases x <;> cases y <;> simp at e ⊢ <;> omega
    rw [this.1, num_inj a b hl this.2]

/-- More bits after two different lists of the same length decide nothing. -/
theorem beats_append (a b z z' : List Bool) (hl : a.length = b.length) (hn : a ≠ b) : Beats (a ++ z) (b ++ z') ↔ Beats a b := by
  induction a generalizing b with
  | nil => cases b with
    | nil => exact absurd rfl hn
    | cons => simp at hl
  | cons x a ih =>
    cases b with
    | nil => simp at hl
    | cons y b =>
      rw [List.cons_append, List.cons_append, beats_cons_iff, beats_cons_iff]
      by_cases hxy : x = y
      · subst hxy
        rw [ih b (by simpa using hl) (by simpa using hn)]
      · simp [hxy]

theorem beats_irrefl (a : List Bool) : ¬ Beats a a := by
  intro h
  exact absurd ((num_lt_iff a a rfl).2 h) (Nat.lt_irrefl _)

theorem beats_same_end (a b z : List Bool) (hl : a.length = b.length) : Beats (a ++ z) (b ++ z) ↔ Beats a b := by
  by_cases h : a = b
  · subst h
    exact ⟨fun k => absurd k (beats_irrefl _), fun k => absurd k (beats_irrefl _)⟩
  · exact beats_append a b z z hl h

/-- The bits of the arbitration, as many as with an extended ID. -/
def padded (h : Header) : List Bool := if h.ide then wire h else wire h ++ List.replicate 19 false

theorem padded_length (h : Header) : (padded h).length = 32 := by
  unfold padded wire
  split <;> simp [bitsOf_length]

theorem num_replicate (n : Nat) : num (List.replicate n false) = 0 := by
  induction n with
  | zero => rfl
  | succ n ih => simp [List.replicate_succ, num, ih]

theorem arbitration_num (h : Header) (hi : h.id.toNat < if h.ide then 2 ^ 29 else 2 ^ 11) (hs : h.srr = h.ide) : h.arbitrationValue.toNat = num (padded h) := by
  unfold Header.arbitrationValue padded wire
  have br := Bool.toNat_le h.rtr
  cases he : h.ide
  · rw [he] at hi
    simp only [Bool.false_eq_true, if_false] at hi ⊢
    rw [num_append, num_append, num_bitsOf, num_replicate]
    have e : (h.id <<< 21).toNat = h.id.toNat * 2 ^ 21 := by
      rw [BitVec.toNat_shiftLeft, Nat.shiftLeft_eq]; omega
    have e2 : (ofBool h.rtr <<< 20).toNat = h.rtr.toNat * 2 ^ 20 := by
      rw [BitVec.toNat_shiftLeft, Nat.shiftLeft_eq, ofBool_toNat]; omega
    rw [or_low _ _ 21 (by omega) (by omega), e, e2]
    simp only [num, List.length_cons, List.length_nil, List.length_replicate, Bool.toNat_false]
    omega
  · rw [he] at hi hs
    simp only [if_true] at hi ⊢
    rw [hs]
    have e1 : ((h.id >>> 18) <<< 21).toNat = h.id.toNat / 2 ^ 18 * 2 ^ 21 := by
      rw [BitVec.toNat_shiftLeft, BitVec.toNat_ushiftRight, Nat.shiftLeft_eq, Nat.shiftRight_eq_div_pow]; omega
    have e2 : (ofBool true <<< 20).toNat = 2 ^ 20 := by decide
    have e3 : (ofBool true <<< 19).toNat = 2 ^ 19 := by decide
    have e4 : ((h.id &&& 0x3ffff#32) <<< 1).toNat = h.id.toNat % 2 ^ 18 * 2 := by
      rw [BitVec.toNat_shiftLeft, and_ones _ 18 _ rfl, Nat.shiftLeft_eq]; omega
    have o1 := or_low ((h.id >>> 18) <<< 21) (ofBool true <<< 20) 21 (by omega) (by omega)
    have o2 := or_low _ (ofBool true <<< 19) 20 (by rw [o1]; omega) (by omega)
    have o3 := or_low _ ((h.id &&& 0x3ffff#32) <<< 1) 19 (by rw [o2, o1]; omega) (by omega)
    have o4 := or_low _ (ofBool h.rtr) 1 (by rw [o3, o2, o1]; omega) (by rw [ofBool_toNat]; omega)
    rw [o4, o3, o2, o1, e1, e2, e3, e4, ofBool_toNat]
    simp only [num_append, num_bitsOf, bitsOf_length, num, List.length_cons, List.length_nil, Bool.toNat_true]
    omega

theorem wire_head (h : Header) : ∃ a z, wire h = a ++ [h.ide] ++ z ∧ a.length = 12 ∧ (h.ide = false → z = []) := by
  unfold wire
  cases h.ide
  · exact ⟨bitsOf 11 h.id.toNat ++ [h.rtr], [], by simp, by simp [bitsOf_length], fun _ => rfl⟩
  · exact ⟨bitsOf 11 (h.id.toNat / 2 ^ 18) ++ [true], bitsOf 18 h.id.toNat ++ [h.rtr], by simp, by simp [bitsOf_length], by simp⟩

theorem beats_padded (a b : Header) : Beats (padded a) (padded b) ↔ Beats (wire a) (wire b) := by
  unfold padded
  cases ha : a.ide <;> cases hb : b.ide <;> simp only [Bool.false_eq_true, if_false, if_true]
  · exact beats_same_end _ _ _ (by unfold wire; simp [ha, hb, bitsOf_length])
  · obtain ⟨pa, za, h1, h2, h3⟩ := wire_head a
    obtain ⟨pb, zb, k1, k2, k3⟩ := wire_head b
    rw [h1, k1, h3 ha, List.append_nil, beats_append _ _ _ _ (by simp [h2, k2]) (by simp [ha, hb])]
    have := beats_append (pa ++ [a.ide]) (pb ++ [b.ide]) [] zb (by simp [h2, k2]) (by simp [ha, hb])
    rw [List.append_nil] at this
    exact this.symm
  · obtain ⟨pa, za, h1, h2, h3⟩ := wire_head a
    obtain ⟨pb, zb, k1, k2, k3⟩ := wire_head b
    rw [h1, k1, k3 hb, List.append_nil, beats_append _ _ _ _ (by simp [h2, k2]) (by simp [ha, hb])]
    have := beats_append (pa ++ [a.ide]) (pb ++ [b.ide]) za [] (by simp [h2, k2]) (by simp [ha, hb])
    rw [List.append_nil] at this
    exact this.symm

/-! ### Bytes -/

theorem shiftIndex_eq (i : Nat) : shiftIndex i = place i := by
  unfold shiftIndex place
  have h1 : (i ^^^ 3) / 4 = i / 4 := by
    have := Nat.xor_div_two_pow (a := i) (b := 3) (n := 2)
    simpa using this
  have h2 : (i ^^^ 3) % 4 = 3 - i % 4 := by
    have := Nat.xor_mod_two_pow (a := i) (b := 3) (n := 2)
    rw [show (4 : Nat) = 2 ^ 2 from rfl, this]
    have hlt : i % 2 ^ 2 < 4 := Nat.mod_lt _ (by decide)
    generalize i % 2 ^ 2 = j at hlt
    match j, hlt with
    | 0, _ => rfl
    | 1, _ => rfl
    | 2, _ => rfl
    | 3, _ => rfl
  have := Nat.div_add_mod (i ^^^ 3) 4
  omega

theorem place_lt {N i : Nat} (hN : 4 ∣ N) : place i < N ↔ i < N := by
  unfold place; omega

theorem place_inj {i j : Nat} (h : place i = place j) : i = j := by
  unfold place at h; omega

theorem writeFrom_spec {N : Nat} (hN : 4 ∣ N) : ∀ (bytes : List Byte) (i : Nat) (v : Vector Byte N), i + bytes.length ≤ N → ∃ w, writeFrom i bytes v = some w ∧
    (∀ j, (h : j < bytes.length) → w[place (i + j)]? = some bytes[j]) ∧ ∀ j, (∀ k, k < bytes.length → j ≠ place (i + k)) → w[j]? = v[j]?
  | [], i, v, _ => ⟨v, rfl, by simp, by simp⟩
  | b :: bs, i, v, hle => by
    simp only [List.length_cons] at hle
    have hp : shiftIndex i < N := by rw [shiftIndex_eq, place_lt hN]; omega
    obtain ⟨w, h1, h2, h3⟩ := writeFrom_spec hN bs (i + 1) (v.set (shiftIndex i) b hp) (by omega)
    refine ⟨w, by rw [writeFrom, dif_pos hp, h1], ?_, ?_⟩
    · intro j hj
      cases j with
      | zero =>
        rw [Nat.add_zero, h3 _ (by intro k hk e; have := place_inj e; omega), ← shiftIndex_eq]
        simp [Vector.getElem?_set_self]
      | succ j =>
        have := h2 j (by simpa using hj)
        rw [show i + (j + 1) = i + 1 + j by omega, this]
        simp
    · intro j hj
      rw [h3 j]
      · have := hj 0 (by simp)
        rw [Nat.add_zero, ← shiftIndex_eq] at this
        rw [Vector.getElem?_set_ne (h := fun e => this e.symm)]
      · intro k hk
        have := hj (k + 1) (by simpa using hk)
        rwa [show i + 1 + k = i + (k + 1) by omega]

theorem mapM_some {α β : Type} (f : α → Option β) (g : α → β) : ∀ l : List α, (∀ x ∈ l, f x = some (g x)) → l.mapM f = some (l.map g)
  | [], _ => rfl
  | x :: l, h => by
    rw [List.mapM_cons, h x (by simp), mapM_some f g l (fun y hy => h y (by simp [hy]))]
    rfl

theorem readBytes_spec {N : Nat} (hN : 4 ∣ N) (v : Vector Byte N) (n : Nat) (hn : n ≤ N) : readBytes v n = some ((List.range n).map fun i => v[place i]?.getD 0#8) := by
  unfold readBytes
  rw [Nat.min_eq_left hn, mapM_some _ (fun i => v[place i]?.getD 0#8)]
  · simp
  · intro i hi
    have : place i < N := by rw [place_lt hN]; have := List.mem_range.1 hi; omega
    rw [shiftIndex_eq]
    simp [Vector.getElem?_eq_getElem this]

theorem holds_map {N : Nat} (v : Vector Byte N) (bytes : List Byte) (h : HoldsBytes v bytes) : ((List.range bytes.length).map fun i => v[place i]?.getD 0#8) = bytes := by
  apply List.ext_getElem
  · simp
  · intro i h1 h2
    simp [h i h2]

theorem holds_length {N : Nat} (hN : 4 ∣ N) (v : Vector Byte N) (bytes : List Byte) (h : HoldsBytes v bytes) : bytes.length ≤ N := by
  apply Nat.le_of_not_lt
  intro hn
  have h1 := h N hn
  have h2 : ¬ place N < N := by rw [place_lt hN]; omega
  rw [Vector.getElem?_eq_none (by omega)] at h1
  cases h1

/-! ### `send` -/

theorem dlcFromLength_small (n : Nat) (h : n ≤ 8) : dlcFromLength n = some ⟨n, by omega⟩ := by
  match n, h with
  | 0, _ => rfl
  | 1, _ => rfl
  | 2, _ => rfl
  | 3, _ => rfl
  | 4, _ => rfl
  | 5, _ => rfl
  | 6, _ => rfl
  | 7, _ => rfl
  | 8, _ => rfl

theorem dlcLength_small (n : Nat) (h : n ≤ 8) : dlcLength ⟨n, by omega⟩ = n := by
  match n, h with
  | 0, _ => rfl
  | 1, _ => rfl
  | 2, _ => rfl
  | 3, _ => rfl
  | 4, _ => rfl
  | 5, _ => rfl
  | 6, _ => rfl
  | 7, _ => rfl
  | 8, _ => rfl

theorem dlcLength_le (d : Fin 16) : dlcLength d ≤ 8 ↔ d.val ≤ 8 := by
  revert d; decide

theorem new_small (id : Id) (data : List Byte) (h : data.length ≤ 8) : FlexFrame.new id data = some ⟨id, ⟨data.length, by omega⟩, false, data ++ List.replicate (64 - data.length) 0#8⟩ := by
  unfold FlexFrame.new
  rw [dlcFromLength_small _ h]

theorem bytes_small (id : Id) (data : List Byte) (z : List Byte) (r : Bool) (h : data.length ≤ 8) : FlexFrame.bytes ⟨id, ⟨data.length, by omega⟩, r, data ++ z⟩ = data := by
  unfold FlexFrame.bytes
  rw [dlcLength_small _ h, List.take_left]

theorem extended_bits (v : BitVec 32) (h : v.toNat < 2 ^ 29) : (Id.extended v).bits = v := by
  unfold Id.extended Id.bits
  apply BitVec.eq_of_toNat_eq
  simp only
  rw [and_ones _ 29 _ rfl, or_low _ _ 29 (by decide) (by rw [and_ones _ 29 _ rfl]; omega), and_ones _ 29 _ rfl]
  simp only [BitVec.toNat_ofNat]
  omega

theorem extended_isExtended (v : BitVec 32) : (Id.extended v).isExtended = true := by
  unfold Id.extended Id.isExtended
  simp only [bne_iff_ne, ne_eq]
  intro h
  have h2 := congrArg (fun x => x.getLsbD 31) h
  simp at h2

theorem standard_isExtended (v : BitVec 16) : (Id.standard v).isExtended = false := by
  unfold Id.standard Id.isExtended
  simp only [bne_eq_false_iff_eq]
  apply BitVec.eq_of_getLsbD_eq
  intro i hi
  simp only [BitVec.getLsbD_and, BitVec.getLsbD_ofNat]
  by_cases h31 : i = 31
  · subst h31; simp
  · have : Nat.testBit 2147483648 i = false := by
      rw [show 2147483648 = 2 ^ 31 from rfl, Nat.testBit_two_pow]
      simp; omega
    simp [this]

/-- The frame that `transmit` gives to `send`. -/
def flexOf (frame : Frame) (h : frame.data.length ≤ 8) : FlexFrame := ⟨Id.extended frame.id, ⟨frame.data.length, by omega⟩, false, frame.data ++ List.replicate (64 - frame.data.length) 0#8⟩

theorem sendHeader_flexOf (frame : Frame) (hc : Classic frame) : sendHeader (flexOf frame hc.2) =
    ⟨0#16, BitVec.ofNat 8 frame.data.length, false, true, true, 12#8, false, false, false, frame.id, 0#8⟩ := by
  unfold sendHeader flexOf dlcAsU8
  simp only [extended_isExtended, extended_bits _ hc.1]
  rfl

theorem sendHeader_fits (frame : Frame) (hc : Classic frame) : Fits (sendHeader (flexOf frame hc.2)) := by
  rw [sendHeader_flexOf frame hc]
  have h1 := hc.1
  have h2 := hc.2
  exact ⟨by simp only [BitVec.toNat_ofNat]; omega, by simp, by simp, by simpa using h1⟩

theorem store_spec (mb : Message 8) (frame : Frame) (hc : Classic frame) (removed : Option FlexFrame) :
    ∃ mb', store mb (flexOf frame hc.2) removed = (mb', .ok removed) ∧ HoldsFrame mb' frame.id frame.data := by
  have h2 := hc.2
  have h1 := hc.1
  obtain ⟨w, e1, e2, e3⟩ := writeFrom_spec (N := 8) (by decide) frame.data 0 mb.data (by omega)
  have eb : (flexOf frame hc.2).bytes = frame.data := bytes_small _ _ _ _ hc.2
  refine ⟨_, by
    unfold store Message.writeData
    rw [eb, List.take_of_length_le h2, e1]
    rfl, ?_⟩
  have c := control_toNat _ (sendHeader_fits frame hc)
  have i := idWord_toNat _ (sendHeader_fits frame hc)
  rw [sendHeader_flexOf frame hc] at c i
  simp only [BitVec.toNat_ofNat, Bool.toNat_false, Bool.toNat_true, if_true] at c i
  unfold Message.writeHeader
  rw [sendHeader_flexOf frame hc]
  constructor
  case bytes => intro j hj; have := e2 j hj; simpa using this
  all_goals
    unfold field
    simp only [c, i]
    omega

/-- What `send` reads of the header when the buffer holds a frame. -/
theorem holds_header (mb : Message 8) (id : BitVec 32) (bytes : List Byte) (h : HoldsFrame mb id bytes) : mb.readHeader.code = codeTxData ∧ mb.readHeader.ide = true ∧ mb.readHeader.srr = true ∧
    mb.readHeader.rtr = false ∧ mb.readHeader.dlc.toNat = bytes.length ∧ mb.readHeader.id = id := by
  unfold Message.readHeader Header.fromBits
  have hi : bitAt mb.controlStatus 21 = true := by rw [bitAt_eq, h.ide]; rfl
  refine ⟨?_, ?_, ?_, ?_, ?_, ?_⟩
  · apply BitVec.eq_of_toNat_eq
    simp only
    rw [field8 _ _ 4 _ rfl (by omega), h.code]; rfl
  · exact hi
  · simp only; rw [bitAt_eq, h.srr]; rfl
  · simp only; rw [bitAt_eq, h.rtr]; rfl
  · simp only; rw [field8 _ _ 4 _ rfl (by omega), h.length]
  · simp only [hi, if_true]
    apply BitVec.eq_of_toNat_eq
    rw [and_ones _ 29 _ rfl, ← h.id]
    unfold field; simp

theorem code_iff (mb : Message 8) : mb.readHeader.code = codeTxData ↔ field mb.controlStatus 24 4 = 12 := by
  unfold Message.readHeader Header.fromBits
  simp only
  rw [← BitVec.toNat_inj, field8 _ _ 4 _ rfl (by omega)]
  rfl

theorem arbitration_extended (h : Header) (he : h.ide = true) (hs : h.srr = true) (hr : h.rtr = false) (hi : h.id.toNat < 2 ^ 29) :
    h.arbitrationValue.toNat = h.id.toNat / 2 ^ 18 * 2 ^ 21 + 2 ^ 20 + 2 ^ 19 + h.id.toNat % 2 ^ 18 * 2 := by
  rw [arbitration_num h (by rw [he]; simpa using hi) (by rw [he, hs])]
  unfold padded wire
  rw [he, hr]
  simp only [if_true, num_append, num_bitsOf, bitsOf_length, num, List.length_cons, List.length_nil, Bool.toNat_true, Bool.toNat_false]
  omega

theorem id_lt (mb : Message 8) (id : BitVec 32) (bytes : List Byte) (h : HoldsFrame mb id bytes) : id.toNat < 2 ^ 29 := by
  rw [← h.id]; exact Nat.mod_lt _ (by decide)

theorem compare_lt_iff (mb : Message 8) (id : BitVec 32) (bytes : List Byte) (h : HoldsFrame mb id bytes) (frame : Frame) (hc : Classic frame) :
    mb.readHeader.comparePriority (sendHeader (flexOf frame hc.2)) = .lt ↔ frame.id.toNat < id.toNat := by
  obtain ⟨_, k1, k2, k3, _, k5⟩ := holds_header mb id bytes h
  have hi := id_lt mb id bytes h
  have h1 := hc.1
  unfold Header.comparePriority
  rw [arbitration_extended _ k1 k2 k3 (by rw [k5]; exact hi), k5, sendHeader_flexOf frame hc, arbitration_extended _ rfl rfl rfl h1]
  rw [Ordering.swap_eq_lt, Nat.compare_eq_gt]
  simp only
  omega

theorem copyOut_spec (h : Header) (data : Vector Byte 8) (bytes : List Byte) (hb : HoldsBytes data bytes) (h1 : h.ide = true) (h2 : h.rtr = false) (h3 : h.dlc.toNat = bytes.length) :
    copyOut h data = FlexFrame.new (Id.extended h.id) bytes := by
  have hl := holds_length (by decide) data bytes hb
  unfold copyOut
  simp only [h1, h2, h3, if_true, Bool.false_eq_true, if_false, if_pos hl]
  rw [readBytes_spec (by decide) _ _ hl, holds_map _ _ hb]
  rfl

theorem waits_true (flag : Nat → Bool) (h : ∀ n, flag n = true) : ∀ fuel n, waits flag fuel n = false
  | 0, _ => rfl
  | fuel + 1, n => by rw [waits, h n, if_pos rfl, waits_true flag h fuel]

theorem toFrame_spec (now : Instant) (id : BitVec 32) (hi : id.toNat < 2 ^ 29) (bytes z : List Byte) (hb : bytes.length ≤ 8) (r : Bool) :
    toFrame now ⟨Id.extended id, ⟨bytes.length, by omega⟩, r, bytes ++ z⟩ = some ⟨now, id, false, bytes⟩ := by
  unfold toFrame Frame.make
  simp only [extended_bits id hi]
  rw [if_pos hi, bytes_small _ _ _ _ hb, if_pos hb]

theorem transmit_free (env : SendEnv) (fuel : Nat) (mb : Message 8) (frame : Frame) (hc : Classic frame) (hf : field mb.controlStatus 24 4 ≠ 12) :
    ∃ mb', transmit env fuel mb frame = some (mb', some (.ok none)) ∧ HoldsFrame mb' frame.id frame.data := by
  obtain ⟨mb', e, h⟩ := store_spec mb frame hc none
  refine ⟨mb', ?_, h⟩
  unfold transmit
  rw [new_small _ _ hc.2]
  have : send env fuel mb (flexOf frame hc.2) = (mb', .ok none) := by
    unfold send
    simp only [code_iff, if_neg hf, e]
  unfold flexOf at this
  simp only [this]

theorem transmit_busy (env : SendEnv) (fuel : Nat) (mb : Message 8) (frame : Frame) (hc : Classic frame) (id : BitVec 32) (bytes : List Byte) (h : HoldsFrame mb id bytes)
    (hle : id.toNat ≤ frame.id.toNat) : transmit env fuel mb frame = some (mb, some .wouldBlock) := by
  unfold transmit
  rw [new_small _ _ hc.2]
  have : send env fuel mb (flexOf frame hc.2) = (mb, .wouldBlock) := by
    unfold send
    simp only [(holds_header mb id bytes h).1, if_true]
    have hn : ¬ mb.readHeader.comparePriority (sendHeader (flexOf frame hc.2)) = .lt := by
      rw [compare_lt_iff mb id bytes h frame hc]; omega
    split
    · rename_i k; exact absurd k hn
    · rfl
  unfold flexOf at this
  simp only [this]

theorem transmit_replace (env : SendEnv) (fuel : Nat) (mb : Message 8) (frame : Frame) (hc : Classic frame) (id : BitVec 32) (bytes : List Byte) (h : HoldsFrame mb id bytes)
    (hlt : frame.id.toNat < id.toNat) : (waits env.flag fuel 0 = false → ∃ mb', transmit env fuel mb frame = some (mb', none)) ∧
    (waits env.flag fuel 0 = true → ∃ mb', HoldsFrame mb' frame.id frame.data ∧
      transmit env fuel mb frame = some (mb', some (.ok (if env.code = 9#8 then some ⟨0#32, id, false, bytes⟩ else none)))) := by
  obtain ⟨k0, k1, k2, k3, k4, k5⟩ := holds_header mb id bytes h
  have hl := (compare_lt_iff mb id bytes h frame hc).2 hlt
  have hi := id_lt mb id bytes h
  have hb := holds_length (by decide) mb.data bytes h.bytes
  unfold transmit
  rw [new_small _ _ hc.2]
  constructor
  · intro hw
    have : send env fuel mb (flexOf frame hc.2) = (mb.writeHeader (.blank codeTxAbort), .waiting) := by
      unfold send
      simp only [k0, if_true, hl, hw, Bool.false_eq_true, if_false]
    unfold flexOf at this
    refine ⟨mb.writeHeader (.blank codeTxAbort), ?_⟩
    simp only [this]
  · intro hw
    by_cases hcode : env.code = 9#8
    · obtain ⟨mb', e, hh⟩ := store_spec (mb.writeHeader (.blank codeTxAbort)) frame hc
        (some ⟨Id.extended id, ⟨bytes.length, by omega⟩, false, bytes ++ List.replicate (64 - bytes.length) 0#8⟩)
      have hco : copyOut mb.readHeader (mb.writeHeader (.blank codeTxAbort)).data =
          some ⟨Id.extended id, ⟨bytes.length, by omega⟩, false, bytes ++ List.replicate (64 - bytes.length) 0#8⟩ := by
        rw [copyOut_spec mb.readHeader (mb.writeHeader (.blank codeTxAbort)).data bytes h.bytes k1 k3 k4, k5, new_small _ _ hb]
      have : send env fuel mb (flexOf frame hc.2) =
          (mb', .ok (some ⟨Id.extended id, ⟨bytes.length, by omega⟩, false, bytes ++ List.replicate (64 - bytes.length) 0#8⟩)) := by
        unfold send
        simp only [k0, if_true, hl, hw]
        rw [if_pos (show env.code = codeTxAbort from hcode), hco]
        exact e
      unfold flexOf at this
      refine ⟨mb', hh, ?_⟩
      simp only [this, extended_isExtended, if_true, toFrame_spec 0#32 id hi bytes _ hb, hcode]
    · obtain ⟨mb', e, hh⟩ := store_spec (mb.writeHeader (.blank codeTxAbort)) frame hc none
      have : send env fuel mb (flexOf frame hc.2) = (mb', .ok none) := by
        unfold send
        simp only [k0, if_true, hl, hw]
        rw [if_neg (show ¬ env.code = codeTxAbort from hcode)]
        exact e
      unfold flexOf at this
      refine ⟨mb', hh, ?_⟩
      simp only [this, hcode, if_false]

/-! ### Executions -/

theorem inBuffer_holds (mb : Message 8) (id : BitVec 32) (bytes : List Byte) (h : HoldsFrame mb id bytes) : inBuffer mb = [(id, bytes)] := by
  unfold inBuffer
  rw [if_pos h.code, h.length, holds_map _ _ h.bytes, h.id]
  simp

theorem complete_code (w : BitVec 32) : field (w &&& 0xf0ffffff#32 ||| 0x08000000#32) 24 4 ≠ 12 := by
  intro h
  have h1 : (w &&& 0xf0ffffff#32 ||| 0x08000000#32).getLsbD 26 = false := by simp
  rw [← BitVec.testBit_toNat, Nat.testBit_eq_decide_div_mod_eq] at h1
  unfold field at h
  simp only [decide_eq_false_iff_not] at h1
  omega

/-- What is in the buffer is a frame that `transmit` wrote, or nothing that is to be sent. -/
def Good (mb : Message 8) : Prop := field mb.controlStatus 24 4 = 12 → ∃ id bytes, HoldsFrame mb id bytes

theorem filterMap_onBus (l : List (BitVec 32 × List Byte)) : taken (l.map .onBus) = [] ∧ onBus (l.map .onBus) = l ∧ handedBack (l.map .onBus) = [] := by
  induction l with
  | nil => exact ⟨rfl, rfl, rfl⟩
  | cons x l ih => simpa [taken, onBus, handedBack] using ih

theorem taken_append (a b : List Event) : taken (a ++ b) = taken a ++ taken b := List.filterMap_append
theorem onBus_append (a b : List Event) : onBus (a ++ b) = onBus a ++ onBus b := List.filterMap_append
theorem handedBack_append (a b : List Event) : handedBack (a ++ b) = handedBack a ++ handedBack b := List.filterMap_append

theorem step_ledger (mb mb' : Message 8) (o : Op) (es : List Event) (hg : Good mb) (hc : ∀ f env fuel, o = .transmit f env fuel → Classic f) (h : o.step mb = some (mb', es)) :
    Good mb' ∧ (inBuffer mb ++ taken es).Perm (onBus es ++ (handedBack es ++ inBuffer mb')) := by
  cases o with
  | complete =>
    simp only [Op.step, Option.some.injEq, Prod.mk.injEq] at h
    obtain ⟨rfl, rfl⟩ := h
    obtain ⟨t1, t2, t3⟩ := filterMap_onBus (inBuffer mb)
    rw [t1, t2, t3]
    have hn : ∀ m : Message 8, field m.controlStatus 24 4 ≠ 12 → Good m ∧ inBuffer m = [] := by
      intro m hm
      exact ⟨fun k => absurd k hm, by unfold inBuffer; rw [if_neg hm]⟩
    split
    · obtain ⟨a, b⟩ := hn { mb with controlStatus := mb.controlStatus &&& 0xf0ffffff#32 ||| 0x08000000#32 } (complete_code _)
      exact ⟨a, by rw [b]; simp⟩
    · rename_i k
      obtain ⟨a, b⟩ := hn mb k
      exact ⟨a, by rw [b]; simp⟩
  | transmit frame env fuel =>
    have hcl := hc frame env fuel rfl
    simp only [Op.step] at h
    by_cases hf : field mb.controlStatus 24 4 = 12
    · obtain ⟨id, bytes, hh⟩ := hg hf
      by_cases hlt : frame.id.toNat < id.toNat
      · obtain ⟨r1, r2⟩ := transmit_replace env fuel mb frame hcl id bytes hh hlt
        cases hw : waits env.flag fuel 0
        · obtain ⟨m, e⟩ := r1 hw
          rw [e] at h
          simp at h
        · obtain ⟨m, k, e⟩ := r2 hw
          rw [e] at h
          by_cases hcode : env.code = 9#8
          · simp only [hcode, if_true, Option.some.injEq, Prod.mk.injEq] at h
            obtain ⟨rfl, rfl⟩ := h
            refine ⟨fun _ => ⟨_, _, k⟩, ?_⟩
            rw [inBuffer_holds _ _ _ hh, inBuffer_holds _ _ _ k]
            exact List.Perm.refl _
          · simp only [hcode, if_false, Option.some.injEq, Prod.mk.injEq] at h
            obtain ⟨rfl, rfl⟩ := h
            refine ⟨fun _ => ⟨_, _, k⟩, ?_⟩
            rw [inBuffer_holds _ _ _ hh, inBuffer_holds _ _ _ k]
            exact List.Perm.refl _
      · rw [transmit_busy env fuel mb frame hcl id bytes hh (by omega)] at h
        simp only [Option.some.injEq, Prod.mk.injEq] at h
        obtain ⟨rfl, rfl⟩ := h
        refine ⟨hg, ?_⟩
        simp [taken, onBus, handedBack]
    · obtain ⟨m, e, k⟩ := transmit_free env fuel mb frame hcl hf
      rw [e] at h
      simp only [Option.some.injEq, Prod.mk.injEq] at h
      obtain ⟨rfl, rfl⟩ := h
      have hb : inBuffer mb = [] := by unfold inBuffer; rw [if_neg hf]
      refine ⟨fun _ => ⟨_, _, k⟩, ?_⟩
      rw [hb, inBuffer_holds _ _ _ k]
      exact List.Perm.refl _

theorem run_ledger : ∀ (ops : List Op) (mb mb' : Message 8) (es : List Event), Good mb → (∀ f env fuel, Op.transmit f env fuel ∈ ops → Classic f) → runOps mb ops = some (mb', es) →
    Good mb' ∧ (inBuffer mb ++ taken es).Perm (onBus es ++ (handedBack es ++ inBuffer mb'))
  | [], mb, mb', es, hg, _, h => by
    simp only [runOps, Option.some.injEq, Prod.mk.injEq] at h
    obtain ⟨rfl, rfl⟩ := h
    exact ⟨hg, by simp [taken, onBus, handedBack]⟩
  | o :: os, mb, mb', es, hg, hc, h => by
    simp only [runOps] at h
    cases h1 : o.step mb with
    | none => rw [h1] at h; simp at h
    | some r =>
      obtain ⟨m, es1⟩ := r
      rw [h1] at h
      simp only at h
      cases h2 : runOps m os with
      | none => rw [h2] at h; simp at h
      | some r =>
        obtain ⟨m2, es2⟩ := r
        rw [h2] at h
        simp only [Option.some.injEq, Prod.mk.injEq] at h
        obtain ⟨rfl, rfl⟩ := h
        obtain ⟨g1, p1⟩ := step_ledger mb m o es1 hg (fun f env fuel e => hc f env fuel (by simp [e])) h1
        obtain ⟨g2, p2⟩ := run_ledger os m m2 es2 g1 (fun f env fuel e => hc f env fuel (by simp [e])) h2
        refine ⟨g2, ?_⟩
        rw [taken_append, onBus_append, handedBack_append]
        have q1 := p1.append_right (taken es2)
        have q2 := p2.append_left (onBus es1 ++ handedBack es1)
        rw [List.append_assoc] at q1
        refine q1.trans ?_
        simp only [List.append_assoc] at q2 ⊢
        refine q2.trans ?_
        apply List.Perm.append_left
        rw [← List.append_assoc, ← List.append_assoc (onBus es2)]
        exact List.perm_append_comm.append_right _

/-! ### `receive` -/

theorem dlc_fifo (fifo : Fifo) : dlcFromU8 (((fifo.flags >>> 16) &&& 0xf#32).setWidth 8) = some ⟨field fifo.flags 16 4, Nat.mod_lt _ (by decide)⟩ := by
  have e := field8 fifo.flags 16 4 0xf#32 rfl (by omega)
  have l : field fifo.flags 16 4 < 16 := Nat.mod_lt _ (by decide)
  unfold dlcFromU8
  rw [dif_pos (by rw [e]; exact l)]
  simp only [e]

theorem and29 (v : BitVec 32) (id : BitVec 32) (h : field v 0 29 = id.toNat) : v &&& 0x1fffffff#32 = id := by
  apply BitVec.eq_of_toNat_eq
  rw [and_ones _ 29 _ rfl, ← h]; unfold field; simp

theorem receive_data (fifo : Fifo) (hr : field fifo.flags 20 1 = 0) (id : Id) (hid : (if bitAt fifo.flags 21 then Id.extended (fifo.id &&& 0x1fffffff#32) else Id.standard ((fifo.id >>> 18).setWidth 16)) = id)
    (bytes : List Byte) (hd : field fifo.flags 16 4 = bytes.length) (hb : HoldsBytes fifo.data bytes) : receive fifo = FlexFrame.new id bytes := by
  have hl := holds_length (by decide) fifo.data bytes hb
  unfold receive Fifo.readHeader
  rw [dlc_fifo]
  simp only [hid, hd]
  rw [dlcLength_small _ hl, if_pos hl, readBytes_spec (by decide) _ _ hl, holds_map _ _ hb, bitAt_eq, hr]
  rfl

theorem dlc_round (d : Fin 16) : dlcFromU8 (dlcAsU8 d) = some d := by
  revert d; decide

theorem receive_remote (fifo : Fifo) (hr : field fifo.flags 20 1 = 1) (id : Id) (hid : (if bitAt fifo.flags 21 then Id.extended (fifo.id &&& 0x1fffffff#32) else Id.standard ((fifo.id >>> 18).setWidth 16)) = id)
    (hd : field fifo.flags 16 4 ≤ 8) : receive fifo = some ⟨id, ⟨field fifo.flags 16 4, by omega⟩, true, List.replicate 64 0#8⟩ := by
  unfold receive Fifo.readHeader
  rw [dlc_fifo]
  simp only [hid]
  rw [dlcLength_small _ hd, if_pos hd, readBytes_spec (by decide) _ _ hd, bitAt_eq, hr]
  simp [FlexFrame.newRemote, dlc_round]

theorem receive_long (fifo : Fifo) (hd : 8 < field fifo.flags 16 4) : receive fifo = none := by
  unfold receive Fifo.readHeader
  rw [dlc_fifo]
  simp only
  rw [if_neg (by rw [dlcLength_le]; simp only; omega)]

end Verif.Flex
