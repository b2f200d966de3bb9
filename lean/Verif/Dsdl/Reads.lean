import Verif.Dsdl.Writes

/-!
Helper lemmas: the generated `deserialize` returns the value whose bits are in the buffer.
-/

namespace Verif.Dsdl

open Verif.Enc Verif.Bls

/-! ### Numbers -/

/-- The number in bits `p` to `p + n` of the buffer. -/
def numAt (bs : List Byte) (p n : Nat) : Nat := bitsVal (fun i => bitAt bs (p + i)) n

theorem numAt_lt (bs : List Byte) (p n : Nat) : numAt bs p n < 2 ^ n := bitsVal_lt _ _

theorem readUInt_rcur (bs : List Byte) (p n : Nat) (h1 : 1 ≤ n) (h2 : n ≤ 64) :
    readUInt n (rcur bs p) = some (numAt bs p n, rcur bs (p + n)) := by
  unfold readUInt
  rw [readU_rcur bs p n h1 h2, Option.map_some]
  have : numAt bs p n < 2 ^ 64 := Nat.lt_of_lt_of_le (numAt_lt bs p n) (Nat.pow_le_pow_right (by omega) h2)
  simp only [BitVec.toNat_ofNat]
  show some (numAt bs p n % 2 ^ 64, _) = _
  rw [Nat.mod_eq_of_lt this]

theorem toNat_eq_numAt {w : Nat} (v : BitVec w) (bs : List Byte) (p : Nat) (h : ∀ i, i < w → v.getLsbD i = bitAt bs (p + i)) :
    v.toNat = numAt bs p w := by
  apply Nat.eq_of_testBit_eq
  intro i
  rw [BitVec.testBit_toNat, numAt, bitsVal_testBit]
  by_cases hi : i < w
  · simp only [hi, decide_true, Bool.true_and]
    exact h i hi
  · simp [hi, BitVec.getLsbD_of_ge v i (by omega)]

theorem readUIntAligned_rcur (bs : List Byte) (p n : Nat) (h1 : 1 ≤ n) (h2 : n ≤ 64) (hp : p % 8 = 0) :
    readUIntAligned n (rcur bs p) = some (numAt bs p n, rcur bs (p + n)) := by
  unfold readUIntAligned
  split
  · rename_i e
    subst e
    obtain ⟨v, hv, hb⟩ := readAlignedU8_rcur bs p hp
    rw [hv, Option.map_some, toNat_eq_numAt v bs p hb]
  split
  · rename_i e
    subst e
    obtain ⟨v, hv, hb⟩ := readAlignedU16_rcur bs p hp
    rw [hv, Option.map_some, toNat_eq_numAt v bs p hb]
  split
  · rename_i e
    subst e
    obtain ⟨v, hv, hb⟩ := readAlignedU32_rcur bs p hp
    rw [hv, Option.map_some, hb]
    rfl
  split
  · rename_i e
    subst e
    obtain ⟨v, hv, hb⟩ := readAlignedU32_rcur bs p hp
    obtain ⟨w, hw, hc⟩ := readAlignedU32_rcur bs (p + 32) (by omega)
    unfold ReadCursor.readAlignedU64
    rw [hv]
    dsimp only
    rw [hw, Option.map_some, Option.map_some]
    simp only
    rw [toNat_eq_numAt _ bs p]
    intro i hi
    have hvb : ∀ j, j < 32 → v.getLsbD j = bitAt bs (p + j) := by
      intro j hj
      rw [← BitVec.testBit_toNat, hb, bitsVal_testBit]
      simp [hj]
    have hwb : ∀ j, j < 32 → w.getLsbD j = bitAt bs (p + 32 + j) := by
      intro j hj
      rw [← BitVec.testBit_toNat, hc, bitsVal_testBit]
      simp [hj]
    have e : (BitVec.shiftLeft (w.setWidth 64) 32 ||| v.setWidth 64).getLsbD i = ((decide (32 ≤ i) && w.getLsbD (i - 32)) || v.getLsbD i) := by
      show ((w.setWidth 64 <<< 32) ||| v.setWidth 64).getLsbD i = _
      simp only [BitVec.getLsbD_or, BitVec.getLsbD_shiftLeft, BitVec.getLsbD_setWidth, hi]
      by_cases h : i < 32
      · simp [h, show ¬ 32 ≤ i by omega]
      · simp [h, show 32 ≤ i by omega, show i - 32 < 64 by omega]
    rw [e]
    by_cases h : i < 32
    · simp [show ¬ 32 ≤ i by omega, hvb i h]
    · rw [BitVec.getLsbD_of_ge v i (by omega), hwb _ (by omega)]
      simp only [show (decide (32 ≤ i)) = true by simp; omega, Bool.true_and, Bool.or_false]
      congr 1
      omega
  · have := readUInt_rcur bs p n h1 h2
    unfold readUInt at this
    exact this

/-! ### Bits in the buffer -/

/-- The buffer starts with these bits. -/
def Holds (bs : List Byte) (F : List Bool) : Prop := F.length ≤ 8 * bs.length ∧ ∀ p, p < F.length → bitAt bs p = F.getD p false

theorem Holds.mono {bs : List Byte} {F G : List Bool} (h : Holds bs G) (hp : F <+: G) : Holds bs F := by
  obtain ⟨X, rfl⟩ := hp
  refine ⟨by have := h.1; rw [List.length_append] at this; omega, fun p hpl => ?_⟩
  rw [h.2 p (by rw [List.length_append]; omega), List.getD_eq_getElem?_getD, List.getD_eq_getElem?_getD, List.getElem?_append_left hpl]

theorem Holds.num {bs : List Byte} {acc : List Bool} {n x : Nat} (h : Holds bs (acc ++ bitsOf n x)) : numAt bs acc.length n = x % 2 ^ n := by
  apply Nat.eq_of_testBit_eq
  intro i
  rw [numAt, bitsVal_testBit, Nat.testBit_mod_two_pow]
  by_cases hi : i < n
  · simp only [hi, decide_true, Bool.true_and]
    rw [h.2 _ (by rw [List.length_append, length_bitsOf]; omega), getD_append_bits, if_neg (by omega)]
    simp [show acc.length + i - acc.length = i by omega, hi]
  · simp [hi]

theorem bitAt_window (bs : List Byte) (k n p : Nat) (hp : p < 8 * n) : bitAt ((bs.drop k).take n) p = bitAt bs (8 * k + p) := by
  unfold bitAt
  simp only [List.getD_eq_getElem?_getD]
  rw [List.getElem?_take_of_lt (by omega), List.getElem?_drop, show k + p / 8 = (8 * k + p) / 8 by omega, show (8 * k + p) % 8 = p % 8 by omega]

theorem Holds.window {bs : List Byte} {base F : List Bool} (h : Holds bs (base ++ F)) (hb : base.length % 8 = 0) (n : Nat) (hn : F.length ≤ 8 * n)
    (hl : base.length / 8 + n ≤ bs.length) : Holds ((bs.drop (base.length / 8)).take n) F := by
  refine ⟨?_, fun p hp => ?_⟩
  · rw [List.length_take, List.length_drop]
    omega
  · rw [bitAt_window _ _ _ _ (by omega), h.2 _ (by rw [List.length_append]; omega), List.getD_eq_getElem?_getD, List.getD_eq_getElem?_getD,
      List.getElem?_append_right (by omega)]
    congr 2
    omega

theorem Holds.window_eq {bs bytes : List Byte} {base : List Bool} (h : Holds bs (base ++ bytes.flatMap fun b => bitsOf 8 b.toNat))
    (hb : base.length % 8 = 0) : (bs.drop (base.length / 8)).take bytes.length = bytes := by
  have hl := h.1
  rw [List.length_append, length_flatMap_bits] at hl
  have hw := h.window hb bytes.length (by rw [length_flatMap_bits]) (by omega)
  apply bytes_ext
  · rw [List.length_take, List.length_drop]; omega
  · intro p hp
    rw [List.length_take, List.length_drop] at hp
    rw [hw.2 p (by rw [length_flatMap_bits]; omega), flatMap_getD]

/-! ### Prefixes -/

theorem prefix_padByte (acc : List Bool) : acc <+: padByte acc := ⟨_, rfl⟩

theorem Scalar.prefix_align (s : Scalar) (acc : List Bool) : acc <+: s.align acc := by
  unfold Scalar.align
  split
  · exact prefix_padByte acc
  · exact List.prefix_rfl

theorem Scalar.prefix_append (s : Scalar) (acc : List Bool) (v : Val) : acc <+: s.append acc v := by
  cases s with
  | prim p => exact ⟨_, rfl⟩
  | composite m =>
    simp only [Scalar.append]
    rw [List.append_assoc]
    exact (prefix_padByte acc).trans ⟨_, rfl⟩

theorem prefix_foldl (s : Scalar) (vs : List Val) : ∀ acc, acc <+: vs.foldl s.append acc := by
  induction vs with
  | nil => intro acc; exact List.prefix_rfl
  | cons v vs ih => intro acc; exact (s.prefix_append acc v).trans (ih _)

theorem prefix_appendField (s : Scalar) (a : Arity) (acc : List Bool) (v : Val) : acc <+: appendField s s.append acc v a := by
  cases a with
  | scalar => exact s.prefix_append acc v
  | fixed len =>
    cases v <;> simp only [appendField] <;> try exact List.prefix_rfl
    · exact ⟨_, rfl⟩
    · exact (s.prefix_align acc).trans (prefix_foldl s _ _)
  | var maxLen =>
    cases v <;> simp only [appendField] <;> try exact List.prefix_rfl
    · rw [List.append_assoc]; exact ⟨_, rfl⟩
    · exact ((s.prefix_align acc).trans ⟨_, rfl⟩).trans (prefix_foldl s _ _)

theorem Fields.prefix_append : ∀ (fs : Fields) (acc : List Bool) (vs : List Val), acc <+: fs.append acc vs
  | .nil, acc, vs => by simp only [Fields.append]; exact List.prefix_rfl
  | .padding bits rest, acc, vs => by
    simp only [Fields.append]
    exact List.IsPrefix.trans ⟨_, rfl⟩ (rest.prefix_append _ vs)
  | .data s a rest, acc, [] => by simp only [Fields.append]; exact List.prefix_rfl
  | .data s a rest, acc, v :: vs => by
    simp only [Fields.append]
    exact (prefix_appendField s a acc v).trans (rest.prefix_append _ _)

theorem Variants.prefix_append : ∀ (vs : Variants) (i : Nat) (acc : List Bool) (v : Val), acc <+: vs.append i acc v
  | .nil, i, acc, v => by simp only [Variants.append]; exact List.prefix_rfl
  | .cons s a rest, 0, acc, v => by simp only [Variants.append]; exact prefix_appendField s a acc v
  | .cons s a rest, i + 1, acc, v => by simp only [Variants.append]; exact rest.prefix_append i acc v

/-! ### Primitive values -/

theorem roundUpIntegerSize_le {n : Nat} (h : n ≤ 64) : n ≤ roundUpIntegerSize n ∧ roundUpIntegerSize n ≤ 64 ∧ 8 ≤ roundUpIntegerSize n := by
  unfold roundUpIntegerSize
  repeat' split
  all_goals omega

theorem code_lt {n : Nat} (z : Int) : ((z % 2 ^ n).toNat : Int) = z % 2 ^ n :=
  Int.toNat_of_nonneg (Int.emod_nonneg _ (Int.ne_of_gt (Int.pow_pos (by decide))))

theorem ofWord_int {n : Nat} {z : Int} (h1 : 1 ≤ n) (h2 : n ≤ 64) (hl : -2 ^ (n - 1) ≤ z) (hu : z < 2 ^ (n - 1))
    (hs : roundUpIntegerSize n = n ∨ 0 ≤ z) : (BitVec.ofNat (roundUpIntegerSize n) (z % 2 ^ n).toNat).toInt = z := by
  have hr := roundUpIntegerSize_le h2
  generalize roundUpIntegerSize n = r at *
  have hpn : (2 : Int) ^ n = 2 * 2 ^ (n - 1) := by
    obtain ⟨k, rfl⟩ : ∃ k, n = k + 1 := ⟨n - 1, by omega⟩
    rw [Nat.add_sub_cancel, Int.pow_succ, Int.mul_comm]
  have hpr : (2 : Int) ^ (n - 1) ≤ 2 ^ (r - 1) := by
    have : 2 ^ (n - 1) ≤ 2 ^ (r - 1) := Nat.pow_le_pow_right (by omega) (by omega)
    exact_mod_cast this
  have hpr2 : (2 : Int) ^ r = 2 * 2 ^ (r - 1) := by
    obtain ⟨k, rfl⟩ : ∃ k, r = k + 1 := ⟨r - 1, by omega⟩
    rw [Nat.add_sub_cancel, Int.pow_succ, Int.mul_comm]
  rw [BitVec.toInt_ofNat']
  rw [code_lt]
  rcases hs with rfl | h0
  · rw [Int.bmod_def]
    have e : ((2 ^ r : Nat) : Int) = 2 ^ r := by simp
    rw [e, Int.emod_emod_of_dvd _ (Int.dvd_refl _)]
    by_cases hz : 0 ≤ z
    · rw [Int.emod_eq_of_lt hz (by omega), if_pos (by omega)]
    · have : z % 2 ^ r = z + 2 ^ r := by
        rw [← Int.add_emod_right, Int.emod_eq_of_lt (by omega) (by omega)]
      rw [this, if_neg (by omega)]
      omega
  · have e : z % 2 ^ n = z := Int.emod_eq_of_lt h0 (by omega)
    rw [e, Int.bmod_def]
    have e : ((2 ^ r : Nat) : Int) = 2 ^ r := by simp
    rw [e, Int.emod_eq_of_lt h0 (by omega), if_pos (by omega)]

theorem Prim.ofWord_ok {p : Prim} {v : Val} (ho : p.ok = true) (hh : p.has v = true) (hf : p.fits v = true) (hs : p.safe v = true) :
    p.ofWord (p.code v % 2 ^ p.bits) = v := by
  cases p <;> cases v <;> simp only [Prim.has, Bool.false_eq_true, decide_eq_true_eq] at hh
  case boolean.bool b => cases b <;> rfl
  case int.int n z =>
    simp only [Prim.ok, Prim.fits, Prim.safe, decide_eq_true_eq] at ho hf hs
    have e : max (-2 ^ (n - 1)) (min z (2 ^ (n - 1) - 1)) = z := by omega
    simp only [Prim.code, Prim.ofWord, Prim.bits, e]
    have hlt : (z % 2 ^ n).toNat < 2 ^ n := by
      have := Int.emod_lt_of_pos z (b := 2 ^ n) (Int.pow_pos (by decide))
      have h2 := code_lt (n := n) z
      have h3 : ((2 ^ n : Nat) : Int) = 2 ^ n := by simp
      omega
    rw [Nat.mod_eq_of_lt hlt, ofWord_int ho.1 ho.2 hf.1 hf.2 hs]
  case uint.num n sat x =>
    simp only [Prim.safe, decide_eq_true_eq] at hs
    have e : (Prim.uint n sat).code (.num x) = x := by
      cases sat with
      | false => rfl
      | true => simp only [Prim.code]; omega
    rw [e]
    simp only [Prim.ofWord, Prim.bits]
    rw [Nat.mod_eq_of_lt hs]
  all_goals
    simp only [Prim.code, Prim.ofWord, Prim.bits]
    rw [Nat.mod_eq_of_lt hh]

theorem Prim.read_ok {p : Prim} {v : Val} (ho : p.ok = true) (hh : p.has v = true) (hf : p.fits v = true) (hs : p.safe v = true) {bs : List Byte}
    {acc : List Bool} (h : Holds bs (acc ++ bitsOf p.bits (p.code v))) :
    p.read (rcur bs acc.length) = some (.ok v, rcur bs (acc ++ bitsOf p.bits (p.code v)).length) := by
  obtain ⟨h1, h2⟩ := Prim.bits_range ho
  have hn := h.num
  have hw := Prim.ofWord_ok ho hh hf hs
  rw [List.length_append, length_bitsOf]
  have hg : okRead p.ofWord (readUInt p.bits (rcur bs acc.length)) = some (.ok v, rcur bs (acc.length + p.bits)) := by
    rw [readUInt_rcur bs _ _ h1 h2, hn, okRead, Option.map_some, hw]
  cases p
  case boolean =>
    cases v <;> simp only [Prim.has, Bool.false_eq_true] at hh
    rename_i b
    simp only [Prim.read]
    rw [readBool_rcur]
    have := h.2 acc.length (by rw [List.length_append, length_bitsOf]; simp [Prim.bits])
    rw [getD_append_bits, if_neg (by omega)] at this
    rw [this]
    cases b <;> simp [okRead, Prim.code, Prim.bits]
  all_goals exact hg

/-! ### Arrays -/

/-- Reading a scalar of this type returns the value whose bits are there. -/
def ScalarReads (s : Scalar) (v : Val) : Prop :=
  ∀ (bs : List Byte) (acc : List Bool), (s.append acc v).length < 8 * 2 ^ 32 → Holds bs (s.append acc v) →
    ∃ w, s.read (rcur bs acc.length) = some (.ok w, rcur bs (s.append acc v).length) ∧ Same w v

theorem readTimes_ok {s : Scalar} (vs : List Val) (h : ∀ v ∈ vs, ScalarReads s v) (bs : List Byte) : ∀ acc : List Bool,
    (vs.foldl s.append acc).length < 8 * 2 ^ 32 → Holds bs (vs.foldl s.append acc) →
    ∃ ws, readTimes s.read vs.length (rcur bs acc.length) = some (.ok ws, rcur bs (vs.foldl s.append acc).length) ∧ List.Forall₂ Same ws vs := by
  induction vs with
  | nil => intro acc _ _; exact ⟨[], rfl, .nil⟩
  | cons v vs ih =>
    intro acc hlt hh
    have hp := prefix_foldl s vs (s.append acc v)
    obtain ⟨w, h1, h2⟩ := h v (by simp) bs acc (Nat.lt_of_le_of_lt hp.length_le hlt) (hh.mono hp)
    obtain ⟨ws, h3, h4⟩ := ih (fun x hx => h x (by simp [hx])) (s.append acc v) hlt hh
    refine ⟨w :: ws, ?_, .cons h2 h4⟩
    rw [List.length_cons, readTimes, h1]
    simp only [andThen]
    rw [h3]
    rfl

theorem bits_read {bs : List Byte} {acc : List Bool} {a : BitArray} (h : Holds bs (acc ++ bitsA a)) (hv : a.bitLength ≤ 8 * a.bytes.length)
    (hs : a.bitLength % 8 ≠ 0 ∨ a.bitLength = 8 * a.bytes.length) :
    ∃ b, BitArray.deserialize a.bytes.length a.bitLength (rcur bs acc.length) = some (b, rcur bs (acc ++ bitsA a).length) ∧ Same (.bits b) (.bits a) := by
  unfold BitArray.deserialize BitArray.new
  rw [if_pos (by omega)]
  dsimp only
  obtain ⟨b, h1, h2, h3, h4⟩ := deserializeInPlace_rcur bs ⟨List.replicate a.bytes.length 0, a.bitLength⟩ acc.length (by simpa using hv)
  refine ⟨b, ?_, ?_⟩
  · rw [h1, List.length_append, length_bitsA]
    congr 4
    simp only [List.length_replicate]
    split
    · omega
    · rfl
  · refine .bits (by simpa using h3) ?_
    unfold bitsA
    rw [h2]
    apply List.map_congr_left
    intro i hi
    have hi' : i < a.bitLength := by simpa using hi
    rw [h4 i hi', h.2 _ (by rw [List.length_append, length_bitsA]; omega), List.getD_eq_getElem?_getD, List.getElem?_append_right (by omega)]
    simp [bitsA, show acc.length + i - acc.length = i by omega, hi']

theorem field_read {s : Scalar} {a : Arity} {v : Val} (ha : a.ok = true) (hh : hasField s.isBool s.has v a = true)
    (hf : fitsField s.fits v a = true) (hsafe : safeField s.safe v a = true)
    (hs : ∀ w, s.has w = true → s.fits w = true → s.safe w = true → ScalarReads s w) (bs : List Byte) (acc : List Bool)
    (hne : mayBeEmpty s a = true → acc.length % 8 = 0) (hlt : (appendField s s.append acc v a).length < 8 * 2 ^ 32)
    (hH : Holds bs (appendField s s.append acc v a)) :
    ∃ w, readField s s.read (rcur bs acc.length) a = some (.ok w, rcur bs (appendField s s.append acc v a).length) ∧ Same w v := by
  cases a with
  | scalar => exact hs v hh hf hsafe bs acc hlt hH
  | fixed len =>
    cases v <;> simp only [hasField, Bool.and_eq_true, decide_eq_true_eq, Bool.false_eq_true] at hh
    case bits b =>
      simp only [appendField, readField] at hlt hH ⊢
      rw [if_pos hh.1]
      obtain ⟨b', h1, h2⟩ := bits_read hH (by omega) (by omega)
      rw [hh.2.1, hh.2.2] at h1
      exact ⟨_, by rw [h1]; rfl, h2⟩
    case list vs =>
      have hfall : vs.all s.fits = true := hf
      have hsall : vs.all s.safe = true := hsafe
      simp only [appendField, readField] at hlt hH ⊢
      have e : vs.foldl s.append (s.align acc) = vs.foldl s.append acc := by
        by_cases hv : vs = []
        · subst hv
          simp only [List.foldl_nil]
          apply Scalar.align_of_dvd
          rcases s.alignment_cases with e | e
          · rw [e]; omega
          · rw [e]
            apply hne
            simp only [List.length_nil] at hh
            simp [mayBeEmpty, e, hh.1.2.symm]
        · exact foldl_align hv
      rw [e] at hlt hH ⊢
      have hb : s.isBool = false := by simpa using hh.1.1
      rw [if_neg (by simp [hb])]
      obtain ⟨ws, h1, h2⟩ := readTimes_ok vs (fun w hw => hs w (List.all_eq_true.1 hh.2 w hw) (List.all_eq_true.1 hfall w hw)
        (List.all_eq_true.1 hsall w hw)) bs acc hlt hH
      rw [hh.1.2] at h1
      exact ⟨.list ws, by rw [h1]; rfl, .list h2⟩
  | var maxLen =>
    have hm := Arity.ok_var ha
    have hw := widthFor_range maxLen
    cases v <;> simp only [hasField, Bool.and_eq_true, decide_eq_true_eq, Bool.false_eq_true] at hh
    case bits b =>
      simp only [appendField, readField] at hlt hH ⊢
      have hb : b.bitLength ≤ maxLen := by simpa [fitsField] using hf
      have hnum := (hH.mono ⟨_, rfl⟩ : Holds bs (acc ++ bitsOf (widthFor maxLen) b.bitLength)).num
      rw [Nat.mod_eq_of_lt (Nat.lt_of_le_of_lt hb (lt_two_pow_widthFor hm))] at hnum
      rw [arrayLengthBits_eq hm, readUInt_rcur bs _ _ (by omega) hw.2, hnum]
      dsimp only
      rw [if_pos hh.1]
      have hsb : b.bitLength % 8 ≠ 0 ∨ b.bitLength = 8 * b.bytes.length := by simpa [safeField] using hsafe
      obtain ⟨b', h1, h2⟩ := bits_read hH hh.2.1 hsb
      rw [hh.2.2, List.length_append (as := acc), length_bitsOf] at h1
      exact ⟨_, by rw [h1]; rfl, h2⟩
    case list vs =>
      have hfall : vs.all s.fits = true := hf
      simp only [safeField, Bool.and_eq_true, decide_eq_true_eq] at hsafe
      have e : s.align acc = acc := by
        apply Scalar.align_of_dvd
        rcases s.alignment_cases with e | e
        · rw [e]; omega
        · rw [e]
          apply hne
          simp [mayBeEmpty, e]
      simp only [appendField, readField, e] at hlt hH ⊢
      have hb : s.isBool = false := by simpa using hh.1.1
      have hnum := (hH.mono (prefix_foldl s vs _)).num
      rw [Nat.mod_eq_of_lt (Nat.lt_of_le_of_lt hh.1.2 (lt_two_pow_widthFor hm))] at hnum
      rw [arrayLengthBits_eq hm, readUInt_rcur bs _ _ (by omega) hw.2, hnum]
      dsimp only
      have hi : asI32 vs.length = vs.length := by
        unfold asI32
        have hl := hsafe.1
        rw [BitVec.toInt_ofNat', Int.bmod_def, Int.emod_eq_of_lt (by omega) (by omega), if_pos (by omega)]
      rw [if_neg (by simp [hb]), hi, if_pos (by omega)]
      obtain ⟨ws, h1, h2⟩ := readTimes_ok vs (fun w hw => hs w (List.all_eq_true.1 hh.2 w hw) (List.all_eq_true.1 hfall w hw)
        (List.all_eq_true.1 hsafe.2 w hw)) bs _ hlt hH
      rw [List.length_append, length_bitsOf] at h1
      exact ⟨.list ws, by rw [Int.toNat_natCast, h1]; rfl, .list h2⟩

/-! ### Zero-copy structs -/

theorem ofLeBytes_lt (l : List Byte) : ofLeBytes l < 2 ^ (8 * l.length) := by
  induction l with
  | nil => simp [ofLeBytes]
  | cons b bs ih =>
    have := b.isLt
    rw [ofLeBytes, List.length_cons, Nat.mul_add, Nat.pow_add]
    omega

theorem ofLeBytes_leBytes (n : Nat) (x : BitVec 64) (y : Nat) (h : bitsOf (8 * n) x.toNat = bitsOf (8 * n) y) : ofLeBytes (leBytes n x) = y % 2 ^ (8 * n) := by
  have key : ∀ (l : List Byte) (i : Nat), (ofLeBytes l).testBit i = bitAt l i := by
    intro l
    induction l with
    | nil => intro i; simp [ofLeBytes, bitAt]
    | cons b bs ih =>
      intro i
      rw [ofLeBytes, Nat.add_comm, show (256 : Nat) = 2 ^ 8 from rfl, Nat.testBit_two_pow_mul_add _ b.isLt]
      split
      · rename_i hi
        rw [BitVec.testBit_toNat]
        simp [bitAt, show i / 8 = 0 by omega, show i % 8 = i by omega]
      · rename_i hi
        rw [ih]
        unfold bitAt
        rw [show i / 8 = (i - 8) / 8 + 1 by omega, show i % 8 = (i - 8) % 8 by omega]
        rfl
  apply Nat.eq_of_testBit_eq
  intro i
  rw [key, ← flatMap_getD, flat_leBytes, h, Nat.testBit_mod_two_pow]
  by_cases hi : i < 8 * n
  · simp [bitsOf, hi]
  · rw [getD_of_ge (by rw [length_bitsOf]; omega)]
    simp [hi]

theorem length_leBytes (n : Nat) (x : BitVec 64) : (leBytes n x).length = n := by simp [leBytes]

theorem loadEach_ok {s : Scalar} (vs : List Val) (h : ∀ v ∈ vs, ∃ bytes, s.image v = some bytes ∧ bytes.length = s.memSize ∧
      ∀ rest, s.load (bytes ++ rest) = (v, rest)) :
    ∃ bytes, imageEach s.image vs = some bytes ∧ bytes.length = vs.length * s.memSize ∧
      ∀ rest, loadEach s.load vs.length (bytes ++ rest) = (vs, rest) := by
  induction vs with
  | nil => exact ⟨[], rfl, by simp, fun rest => rfl⟩
  | cons v vs ih =>
    obtain ⟨b1, e1, l1, g1⟩ := h v (by simp)
    obtain ⟨b2, e2, l2, g2⟩ := ih fun w hw => h w (by simp [hw])
    refine ⟨b1 ++ b2, by simp [imageEach, e1, e2], ?_, fun rest => ?_⟩
    · rw [List.length_append, l1, l2, List.length_cons, Nat.succ_mul, Nat.add_comm]
    · rw [List.length_cons, loadEach, List.append_assoc, g1, g2]

theorem zeroCopy_safe {p : Prim} (hz : p.zeroCopy = true) {v : Val} (hh : p.has v = true) : p.safe v = true := by
  cases p <;> cases v <;> simp only [Prim.has, Bool.false_eq_true, decide_eq_true_eq] at hh <;>
    simp only [Prim.zeroCopy, Bool.or_eq_true, beq_iff_eq, Bool.false_eq_true] at hz <;> simp only [Prim.safe, decide_eq_true_eq]
  · left
    rcases hz with ((rfl | rfl) | rfl) | rfl <;> rfl
  · rcases hz with ((rfl | rfl) | rfl) | rfl <;> exact hh

mutual
theorem Scalar.load_ok : ∀ (s : Scalar) (v : Val), s.zeroCopy = true → s.plain = true → s.good = true → s.has v = true → s.fits v = true →
    ∃ bytes, s.image v = some bytes ∧ bytes.length = s.memSize ∧ ∀ rest, s.load (bytes ++ rest) = (v, rest)
  | .prim p, v, hz, _, hg, hh, hf => by
    simp only [Scalar.zeroCopy] at hz
    simp only [Scalar.good] at hg
    simp only [Scalar.has] at hh
    simp only [Scalar.fits] at hf
    obtain ⟨x, hx, hb⟩ := Prim.word_ok hg hh hf
    have h8 := Prim.zeroCopy_bits hz
    refine ⟨leBytes (p.bits / 8) x, by simp [Scalar.image, hx], by simp [Scalar.memSize, length_leBytes], fun rest => ?_⟩
    simp only [Scalar.load]
    rw [List.take_append_of_le_length (by rw [length_leBytes]), List.drop_append_of_le_length (by rw [length_leBytes])]
    rw [List.take_of_length_le (by rw [length_leBytes]), List.drop_eq_nil_of_le (by rw [length_leBytes]),
      ofLeBytes_leBytes _ _ (p.code v) (by rw [h8]; exact hb), h8, Prim.ofWord_ok hg hh hf (zeroCopy_safe hz hh)]
    rfl
  | .composite (.struct e r fields), v, hz, hp, hg, hh, hf => by
    simp only [Scalar.zeroCopy, Message.nestedZeroCopy, Bool.and_eq_true] at hz
    simp only [Scalar.plain, Message.plain, Message.extent, Bool.and_eq_true, Option.isNone_iff_eq_none] at hp
    simp only [Scalar.good, Message.good, Bool.and_eq_true] at hg
    simp only [Scalar.has] at hh
    simp only [Scalar.fits] at hf
    cases v <;> simp only [Message.has, Bool.false_eq_true] at hh
    rename_i vs
    simp only [Message.fits] at hf
    obtain ⟨bytes, e1, e2, e3⟩ := fields.load_ok none vs (nestedZeroCopy_fields fields none hz.2) hp.2 hg.2.1.1 hh hf
    refine ⟨bytes, by simpa only [Scalar.image, Message.image] using e1, by simpa only [Scalar.memSize, Message.memSize] using e2, fun rest => ?_⟩
    simp only [Scalar.load, Message.load, e3]
  | .composite (.union _ _ _), v, hz, _, _, _, _ => by simp [Scalar.zeroCopy, Message.nestedZeroCopy] at hz
  | .composite (.enum _ _ _ _), v, _, hp, _, _, _ => by simp [Scalar.plain, Message.plain] at hp
theorem Fields.load_ok : ∀ (fs : Fields) (l : Option BitLengthSet) (vs : List Val), fs.zeroCopy = true → fs.plain = true → fs.good l = true →
    fs.has vs = true → fs.fits vs = true →
    ∃ bytes, fs.image vs = some bytes ∧ bytes.length = fs.memSize ∧ ∀ rest, fs.load (bytes ++ rest) = (vs, rest)
  | .nil, l, vs, _, _, _, hh, _ => by
    cases vs with
    | cons v vs => simp [Fields.has] at hh
    | nil => exact ⟨[], by simp [Fields.image], by simp [Fields.memSize], fun rest => by simp [Fields.load]⟩
  | .padding _ _, _, _, hz, _, _, _, _ => by simp [Fields.zeroCopy] at hz
  | .data s a rest, l, [], _, _, _, hh, _ => by simp [Fields.has] at hh
  | .data s a rest, l, v :: vs, hz, hp, hg, hh, hf => by
    simp only [Fields.zeroCopy, Bool.and_eq_true] at hz
    simp only [Fields.plain, Bool.and_eq_true] at hp
    simp only [Fields.good, Bool.and_eq_true] at hg
    simp only [Fields.has, Bool.and_eq_true] at hh
    simp only [Fields.fits, Bool.and_eq_true] at hf
    obtain ⟨⟨⟨hgs, hga⟩, -⟩, hgr⟩ := hg
    obtain ⟨b2, e2, l2, g2⟩ := rest.load_ok _ vs hz.2 hp.2 hgr hh.2 hf.2
    cases a with
    | var maxLen => simp [Arity.zeroCopy] at hz
    | scalar =>
      obtain ⟨b1, e1, l1, g1⟩ := s.load_ok v hz.1 hp.1 hgs hh.1 hf.1
      refine ⟨b1 ++ b2, by simp [Fields.image, e1, e2], by simp [Fields.memSize, l1, l2], fun rest' => ?_⟩
      simp only [Fields.load]
      rw [List.append_assoc, g1, g2]
    | fixed len =>
      have hzs : s.zeroCopy = true := hz.1
      have hb := zeroCopy_not_bool hzs
      have h1 := hh.1
      have hf1 := hf.1
      cases v <;> simp only [hasField, hb, Bool.and_eq_true, Bool.false_eq_true, false_and] at h1
      rename_i es
      have hfall : es.all s.fits = true := hf1
      have hlen : es.length = len := by simpa using h1.1.2
      obtain ⟨b1, e1, l1, g1⟩ := loadEach_ok (s := s) es fun w hw =>
        s.load_ok w hzs hp.1 hgs (List.all_eq_true.1 h1.2 w hw) (List.all_eq_true.1 hfall w hw)
      subst hlen
      refine ⟨b1 ++ b2, by simp [Fields.image, e1, e2], by simp [Fields.memSize, l1, l2], fun rest' => ?_⟩
      simp only [Fields.load]
      rw [List.append_assoc, g1, g2]
end

theorem Fields.tail_zero : ∀ fs : Fields, fs.zeroCopy = true → fs.tail 0 = 0
  | .nil, _ => by simp [Fields.tail]
  | .padding _ _, h => by simp [Fields.zeroCopy] at h
  | .data s a rest, h => by
    simp only [Fields.zeroCopy, Bool.and_eq_true] at h
    simp only [Fields.tail]
    exact rest.tail_zero h.2

/-! ### The generated functions -/

theorem Variants.has_lt : ∀ (vs : Variants) (i : Nat) (v : Val), vs.has i v = true → i < vs.count
  | .nil, i, v, h => by simp [Variants.has] at h
  | .cons s a rest, 0, v, h => by simp [Variants.count]
  | .cons s a rest, i + 1, v, h => by
    simp only [Variants.has] at h
    have := rest.has_lt i v h
    simp only [Variants.count]
    omega

theorem foldl_advance (bs : List Byte) (pending : List Nat) : ∀ p, pending.foldl ReadCursor.advanceBits (rcur bs p) = rcur bs (p + pending.sum) := by
  induction pending with
  | nil => intro p; rfl
  | cons n ns ih => intro p; rw [List.foldl_cons, advanceBits_rcur, ih, List.sum_cons, Nat.add_assoc]

/-- Reading a message at a whole byte returns the value whose bits are there. -/
def MessageReads (m : Message) (v : Val) : Prop :=
  ∀ (bs : List Byte) (base : List Bool), base.length % 8 = 0 → (base ++ m.bits v).length < 8 * 2 ^ 32 → Holds bs (base ++ m.bits v) →
    m.tail ≤ (m.bits v).length ∧
    ∃ w, m.deserialize (rcur bs base.length) = some (.ok w, rcur bs (base.length + ((m.bits v).length - m.tail))) ∧ Same w v

theorem readComposite_ok {m : Message} {v : Val} (h : MessageReads m v)
    (ht : m.extent.isSome = true ∨ (padByte (m.bits v)).length < (m.bits v).length - m.tail + 8) :
    ScalarReads (.composite m) v := by
  intro bs acc hlt hH
  simp only [Scalar.append] at hlt hH ⊢
  simp only [Scalar.read]
  have hpad : (padByte acc).length = roundUp acc.length := length_padByte acc
  have hp8 : (padByte acc).length % 8 = 0 := by rw [hpad]; unfold roundUp; omega
  have hbody : (padByte (m.bits v)).length = roundUp (m.bits v).length := length_padByte _
  have hle : (m.bits v).length ≤ roundUp (m.bits v).length ∧ roundUp (m.bits v).length % 8 = 0 ∧
    roundUp (m.bits v).length < (m.bits v).length + 8 := by unfold roundUp; omega
  have hpre : m.bits v <+: padByte (m.bits v) := prefix_padByte _
  cases he : m.extent with
  | none =>
    rw [he] at hlt hH ht
    simp only [Option.isSome_none, Bool.false_eq_true, if_false, List.append_nil, false_or] at hlt hH ht ⊢
    have hH' : Holds bs (padByte acc ++ m.bits v) := hH.mono ((List.prefix_append_right_inj _).2 hpre)
    obtain ⟨h1, w, h2, h3⟩ := h bs (padByte acc) hp8 (by simp only [List.length_append] at hlt ⊢; omega) hH'
    refine ⟨w, ?_, h3⟩
    unfold ReadCursor.readComposite
    rw [align_rcur, show (acc.length + 7) / 8 * 8 = (padByte acc).length by rw [hpad]; rfl]
    dsimp only
    rw [if_neg (by simp), h2, Option.map_some, align_rcur, List.length_append]
    congr 3
    rw [hbody] at ht ⊢
    omega
  | some e =>
    rw [he] at hlt hH
    simp only [Option.isSome_some, if_true, Option.map_some] at hlt hH ⊢
    rw [readComposite_rcur _ _ _ rfl]
    have hnum : bitsVal (fun i => bitAt bs (roundUp acc.length + i)) 32 = (padByte (m.bits v)).length / 8 := by
      have := (hH.mono ⟨_, rfl⟩ : Holds bs (padByte acc ++ bitsOf 32 ((padByte (m.bits v)).length / 8))).num
      rw [numAt, hpad] at this
      rw [this, Nat.mod_eq_of_lt]
      simp only [List.length_append, length_bitsOf] at hlt
      omega
    dsimp only
    rw [hnum]
    have hl := hH.1
    simp only [List.length_append, length_bitsOf] at hl hlt
    rw [if_neg (by omega)]
    have hstart : (padByte acc ++ bitsOf 32 ((padByte (m.bits v)).length / 8)).length = roundUp acc.length + 32 := by
      rw [List.length_append, length_bitsOf, hpad]
    have hw := (hH.mono ((List.prefix_append_right_inj _).2 hpre)).window (by rw [hstart]; omega) ((padByte (m.bits v)).length / 8) (by omega) (by
      rw [hstart]; omega)
    rw [hstart] at hw
    obtain ⟨h1, w, h2, h3⟩ := h _ [] rfl (by rw [List.nil_append]; omega) hw
    refine ⟨w, ?_, h3⟩
    rw [new_eq_rcur]
    rw [List.length_nil] at h2
    rw [h2, Option.map_some]
    simp only [List.length_append, length_bitsOf]
    have e : roundUp acc.length + 32 + 8 * ((padByte (m.bits v)).length / 8) = (padByte acc).length + 32 + (padByte (m.bits v)).length := by omega
    rw [e]

mutual
theorem Scalar.reads : ∀ (s : Scalar) (v : Val), s.good = true → s.has v = true → s.fits v = true → s.safe v = true → ScalarReads s v
  | .prim p, v, hg, hh, hf, hs => fun bs acc _ hH => by
    simp only [Scalar.good] at hg
    simp only [Scalar.has] at hh
    simp only [Scalar.fits] at hf
    simp only [Scalar.safe] at hs
    simp only [Scalar.append, Scalar.read] at hH ⊢
    exact ⟨v, Prim.read_ok hg hh hf hs hH, .refl v⟩
  | .composite m, v, hg, hh, hf, hs => by
    simp only [Scalar.good, Bool.and_eq_true] at hg
    simp only [Scalar.has] at hh
    simp only [Scalar.fits] at hf
    simp only [Scalar.safe, Bool.and_eq_true, Bool.or_eq_true, decide_eq_true_eq] at hs
    exact readComposite_ok (m.reads v hg.2 hh hf hs.1) hs.2
theorem Fields.reads : ∀ (fs : Fields) (l : Option BitLengthSet) (vs : List Val), fs.good l = true → fs.has vs = true → fs.fits vs = true →
    fs.safe vs = true → Reg (lengthSoFar l) → ∀ (bs : List Byte) (acc : List Bool) (n0 k0 : Nat), n0 ∈ (lengthSoFar l).expand → acc.length = n0 + 8 * k0 →
    (fs.append acc vs).length < 8 * 2 ^ 32 → Holds bs (fs.append acc vs) → ∀ (pending : List Nat) (pos : Nat), pos + pending.sum = acc.length →
    ∃ ws pos', fs.deserialize pending (rcur bs pos) = some (.ok ws, rcur bs pos') ∧ List.Forall₂ Same ws vs ∧
      pos ≤ pos' ∧ pos' + fs.tail pending.sum = (fs.append acc vs).length
  | .nil, l, vs, _, hh, _, _, _, bs, acc, n0, k0, h0, ha, hlt, hH, pending, pos, hpos => by
    cases vs with
    | cons v vs => simp [Fields.has] at hh
    | nil =>
      refine ⟨[], pos, by simp only [Fields.deserialize], .nil, Nat.le_refl _, ?_⟩
      simp only [Fields.tail, Fields.append]
      exact hpos
  | .padding bits rest, l, vs, hg, hh, hf, hs, hr, bs, acc, n0, k0, h0, ha, hlt, hH, pending, pos, hpos => by
    simp only [Fields.good, Bool.and_eq_true] at hg
    simp only [Fields.has] at hh
    simp only [Fields.fits] at hf
    simp only [Fields.safe] at hs
    simp only [Fields.append, Fields.deserialize, Fields.tail] at hlt hH ⊢
    have := rest.reads (some (afterPadding bits l)) vs hg.2 hh hf hs (hr.afterPadding bits) bs _ (n0 + bits) k0 (mem_afterPadding hr bits h0) (by
      simp only [List.length_append, List.length_replicate]; omega) hlt hH (pending ++ [bits]) pos (by
      simp only [List.sum_append, List.sum_cons, List.sum_nil, List.length_append, List.length_replicate]; omega)
    simpa only [List.sum_append, List.sum_cons, List.sum_nil, Nat.add_zero] using this
  | .data s a rest, l, [], _, hh, _, _, _, _, _, _, _, _, _, _, _, _, _, _ => by simp [Fields.has] at hh
  | .data s a rest, l, v :: vs, hg, hh, hf, hs, hr, bs, acc, n0, k0, h0, ha, hlt, hH, pending, pos, hpos => by
    simp only [Fields.good, Bool.and_eq_true, Bool.or_eq_true, Bool.not_eq_true'] at hg
    simp only [Fields.has, Bool.and_eq_true] at hh
    simp only [Fields.fits, Bool.and_eq_true] at hf
    simp only [Fields.safe, Bool.and_eq_true] at hs
    simp only [Fields.append, Fields.deserialize, Fields.tail] at hlt hH ⊢
    obtain ⟨⟨⟨hgs, hga⟩, hge⟩, hgr⟩ := hg
    obtain ⟨n, k, h1, h2, h3, h4⟩ := field_len hga hh.1 hf.1 (fun w => s.len w hgs) acc
    have hi := implicit_dvd (s := s) hga
    have hpre := rest.prefix_append (appendField s s.append acc v a) vs
    have hpre2 := (prefix_appendField s a acc v).length_le
    obtain ⟨w, e1, e2⟩ := field_read hga hh.1 hf.1 hs.1 (fun w => s.reads w hgs) bs acc (fun e => by
      rcases hge with hge | hge
      · rw [e] at hge; simp at hge
      · have := alwaysAligned_zero hge hr h0
        omega) (Nat.lt_of_le_of_lt hpre.length_le hlt) (hH.mono hpre)
    obtain ⟨ws, pos', e3, e4, e5, e6⟩ := rest.reads (some (afterData s s.size a l)) vs hgr hh.2 hf.2 hs.2 (s.reg.afterData a hr) bs _ _ (k0 + k)
      (mem_afterData s.reg a hr h0 h1) (by
        rw [h3, ha]
        rcases s.alignment_cases with e | e <;> rw [e] at h2 ⊢
        · simp only [alignUp_one]; omega
        · simp only [alignUp]; omega) hlt hH [] (appendField s s.append acc v a).length (by simp)
    refine ⟨w :: ws, pos', ?_, .cons e2 e4, by omega, e6⟩
    rw [foldl_advance, hpos, e1]
    simp only [andThen]
    rw [e3]
theorem Variants.reads : ∀ (vs : Variants) (i : Nat) (v : Val), vs.good = true → vs.has i v = true → vs.fits i v = true → vs.safe i v = true →
    ∀ (bs : List Byte) (acc : List Bool), acc.length % 8 = 0 → (vs.append i acc v).length < 8 * 2 ^ 32 → Holds bs (vs.append i acc v) → ∀ k,
    ∃ w, vs.deserialize k (k + i) (rcur bs acc.length) = some (.ok (.variant (k + i) w), rcur bs (vs.append i acc v).length) ∧ Same w v
  | .nil, _, _, _, hh, _, _, _, _, _, _, _, _ => by simp [Variants.has] at hh
  | .cons s a rest, 0, v, hg, hh, hf, hs, bs, acc, ha, hlt, hH, k => by
    simp only [Variants.good, Bool.and_eq_true] at hg
    simp only [Variants.has] at hh
    simp only [Variants.fits] at hf
    simp only [Variants.safe] at hs
    simp only [Variants.append, Variants.deserialize] at hlt hH ⊢
    obtain ⟨w, e1, e2⟩ := field_read hg.1.2 hh hf hs (fun w => s.reads w hg.1.1) bs acc (fun _ => ha) hlt hH
    refine ⟨w, ?_, e2⟩
    rw [if_pos (Nat.add_zero k), e1]
    rfl
  | .cons s a rest, i + 1, v, hg, hh, hf, hs, bs, acc, ha, hlt, hH, k => by
    simp only [Variants.good, Bool.and_eq_true] at hg
    simp only [Variants.has] at hh
    simp only [Variants.fits] at hf
    simp only [Variants.safe] at hs
    simp only [Variants.append, Variants.deserialize] at hlt hH ⊢
    have := rest.reads i v hg.2 hh hf hs bs acc ha hlt hH (k + 1)
    rw [show k + 1 + i = k + (i + 1) by omega] at this
    rw [if_neg (by omega)]
    exact this
theorem Message.reads : ∀ (m : Message) (v : Val), m.good = true → m.has v = true → m.fits v = true → m.safe v = true → MessageReads m v
  | .struct e r fields, v, hg, hh, hf, hs => fun bs base hb hlt hH => by
    cases v <;> simp only [Message.has, Bool.false_eq_true] at hh
    rename_i vs
    simp only [Message.good, Bool.and_eq_true, Bool.or_eq_true, Bool.not_eq_true'] at hg
    simp only [Message.fits] at hf
    simp only [Message.safe] at hs
    obtain ⟨⟨hgf, -⟩, hgz⟩ := hg
    simp only [Message.deserialize, Message.bits, Message.tail] at hlt hH ⊢
    have e0 := fields.append_shift hb [] vs
    rw [List.append_nil] at e0
    by_cases hz : (Message.struct e r fields).zeroCopy = true
    · have hp : fields.plain = true := by
        rcases hgz with hgz | hgz
        · rw [hz] at hgz; simp at hgz
        · exact hgz
      have hz' := hz
      simp only [Message.zeroCopy, Bool.and_eq_true] at hz'
      obtain ⟨bytes, e1, e2⟩ := fields.image_ok none vs hz'.2 hp hgf hh hf
      obtain ⟨bytes', f1, f2, f3⟩ := fields.load_ok none vs hz'.2 hp hgf hh hf
      rw [e1] at f1
      injection f1 with f1
      subst f1
      have e3 := e2 [] rfl
      rw [List.nil_append] at e3
      rw [e3] at hlt hH ⊢
      have ht := fields.tail_zero hz'.2
      refine ⟨by omega, .record vs, ?_, .refl _⟩
      rw [if_pos hz]
      have hwin := hH.window_eq hb
      have hl := hH.1
      rw [List.length_append, length_flatMap_bits] at hl
      have hr : rcur bs base.length = ⟨bs.drop (base.length / 8), 0⟩ := by unfold rcur; rw [hb]
      unfold ReadCursor.zeroCopy
      have has : (rcur bs base.length).asBytes = some (bs.drop (base.length / 8)) := by rw [hr]; rfl
      rw [has]
      dsimp only
      rw [← f2, List.length_drop, Nat.min_eq_left (by omega), Nat.sub_self, hwin, advanceBytes_rcur]
      have hload := f3 []
      rw [List.append_nil] at hload
      simp only [List.replicate_zero, List.append_nil, okRead, Option.map_some, hload, length_flatMap_bits, ht, Nat.sub_zero]
    · rw [← e0] at hlt hH
      obtain ⟨ws, pos', h1, h2, h3, h4⟩ := fields.reads none vs hgf hh hf hs (.single 0) bs base 0 (base.length / 8) (mem_single 0) (by omega) hlt hH []
        base.length (by simp)
      simp only [List.sum_nil] at h4
      rw [e0, List.length_append] at h4
      refine ⟨by omega, .record ws, ?_, .record h2⟩
      rw [if_neg hz, h1]
      simp only [andThen]
      congr 3
      omega
  | .union e r variants, v, hg, hh, hf, hs => fun bs base hb hlt hH => by
    cases v <;> simp only [Message.has, Bool.false_eq_true] at hh
    rename_i i v
    simp only [Message.good, Bool.and_eq_true, decide_eq_true_eq] at hg
    simp only [Message.fits] at hf
    simp only [Message.safe] at hs
    obtain ⟨⟨⟨hgv, -⟩, hc⟩, hw⟩ := hg
    simp only [Message.deserialize, Message.bits, Message.tail] at hlt hH ⊢
    rw [hw] at hlt hH ⊢
    have hr := widthFor_range variants.count
    have hd := widthFor_dvd variants.count
    rw [← variants.append_shift hb] at hlt hH
    have hi := variants.has_lt i v hh
    have hnum := (hH.mono (variants.prefix_append i _ v)).num
    rw [Nat.mod_eq_of_lt (Nat.lt_trans hi (lt_two_pow_widthFor hc))] at hnum
    obtain ⟨w, e1, e2⟩ := variants.reads i v hgv hh hf hs bs _ (by rw [List.length_append, length_bitsOf]; omega) hlt hH 0
    rw [variants.append_shift hb, List.length_append, List.length_append, length_bitsOf] at e1
    simp only [Nat.zero_add] at e1
    refine ⟨by omega, .variant i w, ?_, .variant i e2⟩
    rw [Variants.tagBits, arrayLengthBits_eq hc, readUIntAligned_rcur bs _ _ (by omega) hr.2 hb, hnum]
    dsimp only
    rw [e1]
    rfl
  | .enum e r bits values, v, hg, hh, hf, hs => fun bs base hb hlt hH => by
    cases v <;> simp only [Message.has, Bool.false_eq_true] at hh
    rename_i d
    simp only [Message.good, Bool.and_eq_true, decide_eq_true_eq] at hg
    simp only [Message.deserialize, Message.bits, Message.tail] at hlt hH ⊢
    have hd : d ∈ values := by simpa using hh
    have hdl : d < 2 ^ bits := by simpa using List.all_eq_true.1 hg.2 d hd
    have hnum := hH.num
    rw [Nat.mod_eq_of_lt hdl] at hnum
    refine ⟨by omega, .tag d, ?_, .refl _⟩
    rw [readUIntAligned_rcur bs _ _ hg.1.1 hg.1.2 hb, hnum]
    dsimp only
    rw [if_pos hd, length_bitsOf]
    rfl
end

end Verif.Dsdl
