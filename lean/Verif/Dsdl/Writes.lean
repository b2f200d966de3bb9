import Verif.Dsdl.Sizes

/-!
Helper lemmas: the generated `serialize` writes the bits of the specification.
-/

namespace Verif.Dsdl

open Verif.Enc Verif.Bls

/-! ### Bits appended to more bits -/

theorem append_align_eq (acc : List Bool) : Field.append acc .align = padByte acc := rfl

theorem padByte_aligned {acc : List Bool} (h : acc.length % 8 = 0) : padByte acc = acc := by
  unfold padByte
  rw [h]
  simp

theorem padByte_shift {base : List Bool} (h : base.length % 8 = 0) (acc : List Bool) : padByte (base ++ acc) = base ++ padByte acc := by
  unfold padByte
  rw [List.length_append, List.append_assoc]
  congr 3
  omega

theorem align_shift (s : Scalar) {base : List Bool} (h : base.length % 8 = 0) (acc : List Bool) : s.align (base ++ acc) = base ++ s.align acc := by
  unfold Scalar.align
  split
  · exact padByte_shift h acc
  · rfl

theorem Scalar.append_shift (s : Scalar) {base : List Bool} (h : base.length % 8 = 0) (acc : List Bool) (v : Val) :
    s.append (base ++ acc) v = base ++ s.append acc v := by
  cases s with
  | prim p => simp only [Scalar.append, List.append_assoc]
  | composite m => simp only [Scalar.append, padByte_shift h, List.append_assoc]

theorem foldl_shift (s : Scalar) {base : List Bool} (h : base.length % 8 = 0) (vs : List Val) : ∀ acc : List Bool,
    vs.foldl s.append (base ++ acc) = base ++ vs.foldl s.append acc := by
  induction vs with
  | nil => intro acc; rfl
  | cons v vs ih => intro acc; rw [List.foldl_cons, s.append_shift h, ih, List.foldl_cons]

theorem appendField_shift (s : Scalar) (a : Arity) {base : List Bool} (h : base.length % 8 = 0) (acc : List Bool) (v : Val) :
    appendField s s.append (base ++ acc) v a = base ++ appendField s s.append acc v a := by
  cases a with
  | scalar => exact s.append_shift h acc v
  | fixed len =>
    cases v <;> simp only [appendField, List.append_assoc]
    rw [align_shift s h, foldl_shift s h]
  | var maxLen =>
    cases v <;> simp only [appendField, List.append_assoc]
    rw [align_shift s h, List.append_assoc, foldl_shift s h]

theorem Fields.append_shift : ∀ (fs : Fields) {base : List Bool}, base.length % 8 = 0 → ∀ (acc : List Bool) (vs : List Val),
    fs.append (base ++ acc) vs = base ++ fs.append acc vs
  | .nil, base, h, acc, vs => by simp only [Fields.append]
  | .padding bits rest, base, h, acc, vs => by simp only [Fields.append]; rw [List.append_assoc, rest.append_shift h]
  | .data s a rest, base, h, acc, [] => by simp only [Fields.append]
  | .data s a rest, base, h, acc, v :: vs => by simp only [Fields.append]; rw [appendField_shift s a h, rest.append_shift h]

theorem Variants.append_shift : ∀ (vs : Variants) {base : List Bool}, base.length % 8 = 0 → ∀ (i : Nat) (acc : List Bool) (v : Val),
    vs.append i (base ++ acc) v = base ++ vs.append i acc v
  | .nil, base, h, i, acc, v => by simp only [Variants.append]
  | .cons s a rest, base, h, 0, acc, v => by simp only [Variants.append]; rw [appendField_shift s a h]
  | .cons s a rest, base, h, i + 1, acc, v => by simp only [Variants.append]; rw [rest.append_shift h]

theorem Scalar.grow (s : Scalar) (acc : List Bool) (v : Val) : acc.length ≤ (s.append acc v).length := by
  cases s with
  | prim p => simp only [Scalar.append, List.length_append]; omega
  | composite m => simp only [Scalar.append, List.length_append, length_padByte]; unfold roundUp; omega

theorem foldl_grow (s : Scalar) (vs : List Val) : ∀ acc : List Bool, acc.length ≤ (vs.foldl s.append acc).length := by
  induction vs with
  | nil => intro acc; exact Nat.le_refl _
  | cons v vs ih => intro acc; exact Nat.le_trans (s.grow acc v) (ih _)

theorem align_grow (s : Scalar) (acc : List Bool) : acc.length ≤ (s.align acc).length := by
  unfold Scalar.align
  split
  · rw [length_padByte]; unfold roundUp; omega
  · exact Nat.le_refl _

theorem appendField_grow (s : Scalar) (a : Arity) (acc : List Bool) (v : Val) : acc.length ≤ (appendField s s.append acc v a).length := by
  cases a with
  | scalar => exact s.grow acc v
  | fixed len =>
    cases v <;> simp only [appendField, List.length_append] <;> try omega
    exact Nat.le_trans (align_grow s acc) (foldl_grow s _ _)
  | var maxLen =>
    cases v <;> simp only [appendField, List.length_append] <;> try omega
    refine Nat.le_trans ?_ (foldl_grow s _ _)
    rw [List.length_append]
    have := align_grow s acc
    omega

theorem Fields.grow : ∀ (fs : Fields) (acc : List Bool) (vs : List Val), acc.length ≤ (fs.append acc vs).length
  | .nil, acc, vs => by simp only [Fields.append]; exact Nat.le_refl _
  | .padding bits rest, acc, vs => by
    simp only [Fields.append]
    have := rest.grow (acc ++ List.replicate bits false) vs
    rw [List.length_append] at this
    omega
  | .data s a rest, acc, [] => by simp only [Fields.append]; exact Nat.le_refl _
  | .data s a rest, acc, v :: vs => by
    simp only [Fields.append]
    exact Nat.le_trans (appendField_grow s a acc v) (rest.grow _ _)

theorem Variants.grow : ∀ (vs : Variants) (i : Nat) (acc : List Bool) (v : Val), acc.length ≤ (vs.append i acc v).length
  | .nil, i, acc, v => by simp only [Variants.append]; exact Nat.le_refl _
  | .cons s a rest, 0, acc, v => by simp only [Variants.append]; exact appendField_grow s a acc v
  | .cons s a rest, i + 1, acc, v => by simp only [Variants.append]; exact rest.grow i acc v

/-! ### Numbers -/

theorem flat_leBytes (n : Nat) (v : BitVec 64) : (leBytes n v).flatMap (fun b : Byte => bitsOf 8 b.toNat) = bitsOf (8 * n) v.toNat := by
  unfold leBytes
  induction n with
  | zero => rfl
  | succ n ih =>
    rw [List.range_succ, List.map_append, List.flatMap_append, ih]
    have h8 : 8 * (n + 1) = 8 * n + 8 := by omega
    rw [h8, bitsOf_add]
    congr 1
    simp only [List.map_cons, List.map_nil, List.flatMap_cons, List.flatMap_nil, List.append_nil, BitVec.toNat_setWidth, BitVec.toNat_ushiftRight]
    exact bitsOf_mod 8 8 _ (Nat.le_refl 8)

theorem writeAlignedU_wcur (L : Nat) (acc : List Bool) (n : Nat) (x : BitVec 64) (ha : acc.length % 8 = 0) (hfit : acc.length + 8 * n ≤ 8 * L) :
    (wcur L acc).writeAlignedU n x = some (wcur L (acc ++ bitsOf (8 * n) x.toNat)) := by
  unfold WriteCursor.writeAlignedU
  have hal : (wcur L acc).isAligned = true := by simp [WriteCursor.isAligned, wcur, ha]
  rw [if_pos hal, writeAlignedBytes_wcur _ _ _ ha (by omega)]
  rw [if_pos (by simpa using hfit)]
  have := flat_leBytes n x
  unfold leBytes at this
  rw [this]

theorem writeU_ok (L : Nat) (acc : List Bool) (n : Nat) (x : BitVec 64) (h1 : 1 ≤ n) (h2 : n ≤ 64) (hfit : acc.length + n ≤ 8 * L) :
    (wcur L acc).writeU n x = some (wcur L (acc ++ bitsOf n x.toNat)) := by
  rw [writeU_wcur _ _ _ _ h1 h2 (by omega), if_pos hfit]

theorem writeUIntAligned_ok (L : Nat) (acc : List Bool) (n : Nat) (x : BitVec 64) (h1 : 1 ≤ n) (h2 : n ≤ 64) (ha : acc.length % 8 = 0)
    (hfit : acc.length + n ≤ 8 * L) : writeUIntAligned n x (wcur L acc) = some (wcur L (acc ++ bitsOf n x.toNat)) := by
  unfold writeUIntAligned
  split
  · have h8 : 8 * (n / 8) = n := by omega
    rw [writeAlignedU_wcur L acc _ x ha (by omega), h8]
  · exact writeU_ok L acc n x h1 h2 hfit

theorem skipBits_wcur (L : Nat) (acc : List Bool) (n : Nat) (hfit : acc.length + n ≤ 8 * L) :
    (wcur L acc).skipBits n = some (wcur L (acc ++ List.replicate n false)) := by
  unfold WriteCursor.skipBits
  rw [checkLength_wcur _ _ _ (by omega), if_pos (by simp; omega)]
  unfold WriteCursor.advanceBits
  rw [checkLength_wcur _ _ _ (by omega), if_pos (by simp; omega)]
  unfold wcur
  simp only [pack_append_zeros, List.length_append, List.length_replicate, Option.some.injEq, WriteCursor.mk.injEq, true_and]
  omega

theorem bitsOf_ofNat (n x : Nat) (h : n ≤ 64) : bitsOf n (BitVec.ofNat 64 x).toNat = bitsOf n x := by
  rw [BitVec.toNat_ofNat]
  exact bitsOf_mod n 64 x h

theorem bitsOf_ofInt (n : Nat) (z : Int) (h1 : 1 ≤ n) (h : n ≤ 64) (hl : -2 ^ (n - 1) ≤ z) (hu : z < 2 ^ (n - 1)) :
    bitsOf n (BitVec.ofInt 64 z).toNat = bitsOf n ((max (-2 ^ (n - 1)) (min z (2 ^ (n - 1) - 1))) % 2 ^ n).toNat := by
  have e : max (-2 ^ (n - 1)) (min z (2 ^ (n - 1) - 1)) = z := by omega
  rw [e, BitVec.toNat_ofInt, ← bitsOf_mod n n (z % _).toNat (Nat.le_refl n)]
  congr 1
  have hp : (2 : Int) ^ n ∣ ((2 ^ 64 : Nat) : Int) := by
    have : (2 : Int) ^ n ∣ 2 ^ 64 := pow_dvd_pow 2 h
    simpa using this
  have h0 : (0 : Int) ≤ z % ((2 ^ 64 : Nat) : Int) := Int.emod_nonneg _ (by simp)
  have h1 : (0 : Int) ≤ z % 2 ^ n := Int.emod_nonneg _ (Int.ne_of_gt (Int.pow_pos (by decide)))
  have : (((z % ((2 ^ 64 : Nat) : Int)).toNat % 2 ^ n : Nat) : Int) = ((z % 2 ^ n).toNat : Int) := by
    rw [Int.natCast_emod, Int.toNat_of_nonneg h0, Int.toNat_of_nonneg h1]
    have e2 : ((2 ^ n : Nat) : Int) = 2 ^ n := by simp
    rw [e2]
    exact Int.emod_emod_of_dvd z hp
  exact_mod_cast this

/-- The number that is written for a value of a primitive type has the bits of the specification. -/
theorem Prim.word_ok {p : Prim} {v : Val} (ho : p.ok = true) (hh : p.has v = true) (hf : p.fits v = true) :
    ∃ x, p.word v = some x ∧ bitsOf p.bits x.toNat = bitsOf p.bits (p.code v) := by
  cases p <;> cases v <;> simp only [Prim.has, Bool.false_eq_true] at hh
  case boolean.bool b => exact ⟨_, rfl, by cases b <;> rfl⟩
  case int.int n z =>
    simp only [Prim.ok, Prim.fits, decide_eq_true_eq] at ho hf
    exact ⟨_, rfl, bitsOf_ofInt n z ho.1 ho.2 hf.1 hf.2⟩
  case uint.num n sat x =>
    simp only [Prim.ok, decide_eq_true_eq] at ho
    refine ⟨_, rfl, (bitsOf_ofNat n x ho.2).trans ?_⟩
    cases sat with
    | false => rfl
    | true =>
      simp only [Prim.fits, decide_eq_true_eq] at hf
      simp only [Prim.code, Prim.bits]
      rw [Nat.min_eq_left (by omega)]
  all_goals exact ⟨_, rfl, bitsOf_ofNat _ _ (by decide)⟩

theorem Prim.bits_range {p : Prim} (ho : p.ok = true) : 1 ≤ p.bits ∧ p.bits ≤ 64 := by
  cases p <;> simp_all [Prim.ok, Prim.bits]

theorem Prim.write_ok {p : Prim} {v : Val} (ho : p.ok = true) (hh : p.has v = true) (hf : p.fits v = true) (aligned : Bool) (L : Nat)
    (acc : List Bool) (hal : aligned = true → acc.length % 8 = 0) (hfit : acc.length + p.bits ≤ 8 * L) :
    (Scalar.prim p).write aligned v (wcur L acc) = some (wcur L (acc ++ bitsOf p.bits (p.code v))) := by
  obtain ⟨x, hx, hb⟩ := Prim.word_ok ho hh hf
  obtain ⟨h1, h2⟩ := Prim.bits_range ho
  have hu : (wcur L acc).writeU p.bits x = some (wcur L (acc ++ bitsOf p.bits (p.code v))) := by rw [writeU_ok L acc _ x h1 h2 hfit, hb]
  have hg : (if aligned then writeUIntAligned p.bits x (wcur L acc) else (wcur L acc).writeU p.bits x) =
      some (wcur L (acc ++ bitsOf p.bits (p.code v))) := by
    split
    · rename_i h
      rw [writeUIntAligned_ok L acc _ x h1 h2 (hal h) hfit, hb]
    · exact hu
  simp only [Scalar.write, hx]
  cases p
  case boolean =>
    cases v <;> simp only [Prim.has, Bool.false_eq_true] at hh
    rename_i b
    simp only [Prim.word, Option.some.injEq] at hx
    subst hx
    simp only [Prim.write]
    rw [writeBool_wcur _ _ _ (by omega), if_pos (show acc.length + 1 ≤ 8 * L from hfit)]
    cases b <;> rfl
  case float16 => exact hu
  case float32 => exact hu
  case float64 => exact hu
  all_goals exact hg

/-! ### Arrays -/

theorem writeEach_ok {s : Scalar} {one : Val → WriteCursor → Option WriteCursor} {L M : Nat} (vs : List Val)
    (h : ∀ v ∈ vs, ∀ acc : List Bool, (s.append acc v).length ≤ M → one v (wcur L acc) = some (wcur L (s.append acc v))) :
    ∀ acc : List Bool, (vs.foldl s.append acc).length ≤ M → writeEach one vs (wcur L acc) = some (wcur L (vs.foldl s.append acc)) := by
  induction vs with
  | nil => intro acc _; rfl
  | cons v vs ih =>
    intro acc hfit
    unfold writeEach
    rw [h v (by simp) acc (Nat.le_trans (foldl_grow s vs _) hfit)]
    exact ih (fun w hw => h w (by simp [hw])) _ hfit

theorem isByte_prim {s : Scalar} (h : s.isByte = true) : ∃ p, s = .prim p ∧ p.bits = 8 ∧
    (∀ v, p.has v = true → p.fits v = true → p.code v = v.toByte.toNat) := by
  cases s with
  | composite m => simp [Scalar.isByte] at h
  | prim p =>
    refine ⟨p, rfl, ?_, ?_⟩
    · unfold Scalar.isByte at h
      split at h <;> simp_all [Prim.bits]
    · intro v hv hf
      have hb : ∀ n : Nat, n < 256 → n = (BitVec.ofNat 8 n).toNat := by
        intro n hn
        rw [BitVec.toNat_ofNat, Nat.mod_eq_of_lt hn]
      unfold Scalar.isByte at h
      split at h <;> rename_i e <;> try simp at h
      all_goals
        injection e with e
        subst e
        cases v <;> simp only [Prim.has, Bool.false_eq_true, decide_eq_true_eq] at hv
        first
        | exact hb _ hv
        | (rename_i sat n
           have hn : n < 256 := hv
           cases sat with
           | false => exact hb n hn
           | true =>
             simp only [Prim.code, Val.toByte]
             rw [Nat.min_eq_left (by omega)]
             exact hb n hn)

theorem writeElements_ok {s : Scalar} {one : Val → WriteCursor → Option WriteCursor} {L M : Nat} (hM : M ≤ 8 * L) (vs : List Val)
    (hh : ∀ v ∈ vs, s.has v = true) (hf : ∀ v ∈ vs, s.fits v = true)
    (h : ∀ v ∈ vs, ∀ acc : List Bool, (s.append acc v).length ≤ M → one v (wcur L acc) = some (wcur L (s.append acc v)))
    (acc : List Bool) (hfit : (vs.foldl s.append acc).length ≤ M) :
    writeElements s one vs (wcur L acc) = some (wcur L (vs.foldl s.append acc)) := by
  unfold writeElements
  split
  · rename_i hb
    obtain ⟨p, rfl, hp, hc⟩ := isByte_prim hb
    have e : ∀ (vs : List Val) (acc : List Bool), (∀ v ∈ vs, p.has v = true) → (∀ v ∈ vs, p.fits v = true) →
        vs.foldl (Scalar.prim p).append acc = acc ++ (vs.map Val.toByte).flatMap fun b => bitsOf 8 b.toNat := by
      intro vs
      induction vs with
      | nil => intro acc _ _; simp
      | cons v vs ih =>
        intro acc g1 g2
        rw [List.foldl_cons, ih _ (fun w hw => g1 w (by simp [hw])) (fun w hw => g2 w (by simp [hw]))]
        simp only [Scalar.append, hp, hc v (g1 v (by simp)) (g2 v (by simp)), List.map_cons, List.flatMap_cons, List.append_assoc]
    have e' := e vs acc hh hf
    rw [e'] at hfit ⊢
    rw [List.length_append, length_flatMap_bits] at hfit
    rw [writeBytes_wcur _ _ _ (by omega), if_pos (by omega)]
  · exact writeEach_ok vs h acc hfit

theorem writeLength_ok {aligned : Bool} {maxLen : Nat} (hm : maxLen < 2 ^ 64) (len L : Nat) (acc : List Bool)
    (hal : aligned = true → acc.length % 8 = 0) (hfit : acc.length + widthFor maxLen ≤ 8 * L) :
    writeLength aligned maxLen len (wcur L acc) = some (wcur L (acc ++ bitsOf (widthFor maxLen) len)) := by
  have hw := widthFor_range maxLen
  unfold writeLength
  rw [arrayLengthBits_eq hm]
  split
  · rename_i h
    rw [writeUIntAligned_ok _ _ _ _ (by omega) (by omega) (hal h) hfit, bitsOf_ofNat _ _ hw.2]
  · rw [writeU_ok _ _ _ _ (by omega) (by omega) hfit, bitsOf_ofNat _ _ hw.2]

theorem bits_ok (a : BitArray) (hv : a.bitLength ≤ 8 * a.bytes.length) (L : Nat) (acc : List Bool) (hfit : acc.length + a.bitLength ≤ 8 * L) :
    a.serialize (wcur L acc) = some (wcur L (acc ++ bitsA a)) := by
  rw [serialize_wcur a hv L acc (by omega), writeAll_wcur _ _ (bools_ok _) _ (by omega), foldl_bools]
  rw [if_pos (by simpa using hfit)]

theorem foldl_align {s : Scalar} {vs : List Val} {acc : List Bool} (h : vs ≠ []) : vs.foldl s.append (s.align acc) = vs.foldl s.append acc := by
  cases vs with
  | nil => simp at h
  | cons v vs =>
    rw [List.foldl_cons, List.foldl_cons]
    congr 1
    cases s with
    | prim p => simp [Scalar.align, Scalar.alignment]
    | composite m =>
      simp only [Scalar.align, Scalar.alignment, if_true, Scalar.append]
      have : padByte (padByte acc) = padByte acc := padByte_aligned (by rw [length_padByte]; unfold roundUp; omega)
      rw [this]

/-- Writing a scalar of this type has the effect of appending its bits. -/
def ScalarWrites (s : Scalar) (v : Val) (L M : Nat) : Prop :=
  ∀ (aligned : Bool) (acc : List Bool), (aligned = true → acc.length % 8 = 0) → (s.append acc v).length ≤ M →
    s.write aligned v (wcur L acc) = some (wcur L (s.append acc v))

theorem field_write {s : Scalar} {a : Arity} {v : Val} {L M : Nat} (hM : M ≤ 8 * L) (ha : a.ok = true) (hh : hasField s.isBool s.has v a = true)
    (hf : fitsField s.fits v a = true) (hs : ∀ w, s.has w = true → s.fits w = true → ScalarWrites s w L M) (aligned : Bool) (acc : List Bool)
    (hal : aligned = true → acc.length % 8 = 0) (hne : mayBeEmpty s a = true → acc.length % 8 = 0)
    (hfit : (appendField s s.append acc v a).length ≤ M) :
    writeField s s.write aligned v (wcur L acc) a = some (wcur L (appendField s s.append acc v a)) := by
  cases a with
  | scalar => exact hs v hh hf aligned acc hal hfit
  | fixed len =>
    cases v <;> simp only [hasField, Bool.and_eq_true, decide_eq_true_eq, Bool.false_eq_true] at hh
    case bits b =>
      simp only [appendField, writeField, List.length_append, length_bitsA] at hfit ⊢
      exact bits_ok b (by omega) L acc (by omega)
    case list vs =>
      have hfall : vs.all s.fits = true := hf
      simp only [appendField, writeField] at hfit ⊢
      have e : vs.foldl s.append (s.align acc) = vs.foldl s.append acc := by
        by_cases hv : vs = []
        · subst hv
          simp only [List.foldl_nil]
          apply Scalar.align_of_dvd
          rcases s.alignment_cases with e | e
          · rw [e]; omega
          · rw [e]
            apply hne
            simp only [List.length_nil] at hh
            simp [mayBeEmpty, e, hh.1.2.symm]
        · exact foldl_align hv
      rw [e] at hfit ⊢
      exact writeElements_ok hM vs (List.all_eq_true.1 hh.2) (List.all_eq_true.1 hfall)
        (fun w hw acc' hfit' => hs w (List.all_eq_true.1 hh.2 w hw) (List.all_eq_true.1 hfall w hw) false acc' (by simp) hfit') acc hfit
  | var maxLen =>
    have hm := Arity.ok_var ha
    cases v <;> simp only [hasField, Bool.and_eq_true, decide_eq_true_eq, Bool.false_eq_true] at hh
    case bits b =>
      simp only [appendField, writeField, List.length_append, length_bitsA, length_bitsOf] at hfit ⊢
      rw [writeLength_ok hm _ _ _ hal (by omega)]
      dsimp only
      exact bits_ok b (by omega) L _ (by rw [List.length_append, length_bitsOf]; omega)
    case list vs =>
      have hfall : vs.all s.fits = true := hf
      have e : s.align acc = acc := by
        apply Scalar.align_of_dvd
        rcases s.alignment_cases with e | e
        · rw [e]; omega
        · rw [e]
          apply hne
          simp [mayBeEmpty, e]
      simp only [appendField, writeField, e] at hfit ⊢
      have hg := foldl_grow s vs (acc ++ bitsOf (widthFor maxLen) vs.length)
      rw [List.length_append, length_bitsOf] at hg
      rw [writeLength_ok hm _ _ _ hal (by omega)]
      dsimp only
      exact writeElements_ok hM vs (List.all_eq_true.1 hh.2) (List.all_eq_true.1 hfall)
        (fun w hw acc' hfit' => hs w (List.all_eq_true.1 hh.2 w hw) (List.all_eq_true.1 hfall w hw) false acc' (by simp) hfit') _ hfit

/-! ### Zero-copy structs -/

theorem imageEach_ok {s : Scalar} (vs : List Val)
    (h : ∀ v ∈ vs, ∃ bytes, s.image v = some bytes ∧
      ∀ acc : List Bool, acc.length % 8 = 0 → s.append acc v = acc ++ bytes.flatMap fun b => bitsOf 8 b.toNat) :
    ∃ bytes, imageEach s.image vs = some bytes ∧
      ∀ acc : List Bool, acc.length % 8 = 0 → vs.foldl s.append acc = acc ++ bytes.flatMap fun b => bitsOf 8 b.toNat := by
  induction vs with
  | nil => exact ⟨[], rfl, fun acc _ => by simp⟩
  | cons v vs ih =>
    obtain ⟨b1, e1, g1⟩ := h v (by simp)
    obtain ⟨b2, e2, g2⟩ := ih fun w hw => h w (by simp [hw])
    refine ⟨b1 ++ b2, by simp [imageEach, e1, e2], fun acc ha => ?_⟩
    rw [List.foldl_cons, g1 acc ha, g2 _ (by rw [List.length_append, length_flatMap_bits]; omega), List.flatMap_append, List.append_assoc]

theorem Prim.zeroCopy_bits {p : Prim} (h : p.zeroCopy = true) : 8 * (p.bits / 8) = p.bits := by
  cases p <;> simp only [Prim.zeroCopy, Bool.false_eq_true, Bool.or_eq_true, beq_iff_eq] at h <;> simp only [Prim.bits] <;> omega

theorem zeroCopy_not_bool {s : Scalar} (h : s.zeroCopy = true) : s.isBool = false := by
  cases s with
  | composite m => rfl
  | prim p => cases p <;> simp_all [Scalar.isBool, Scalar.zeroCopy, Prim.zeroCopy]

theorem nestedZeroCopy_fields : ∀ (fs : Fields) (l : Option BitLengthSet), fs.nestedZeroCopy l = true → fs.zeroCopy = true
  | .nil, _, _ => by simp [Fields.zeroCopy]
  | .padding _ _, _, h => by simp [Fields.nestedZeroCopy] at h
  | .data s a rest, l, h => by
    simp only [Fields.nestedZeroCopy, Bool.and_eq_true] at h
    simp only [Fields.zeroCopy, Bool.and_eq_true]
    exact ⟨h.1.2, nestedZeroCopy_fields rest _ h.2⟩

mutual
theorem Scalar.image_ok : ∀ (s : Scalar) (v : Val), s.zeroCopy = true → s.plain = true → s.good = true → s.has v = true → s.fits v = true →
    ∃ bytes, s.image v = some bytes ∧ ∀ acc : List Bool, acc.length % 8 = 0 → s.append acc v = acc ++ bytes.flatMap fun b => bitsOf 8 b.toNat
  | .prim p, v, hz, _, hg, hh, hf => by
    simp only [Scalar.zeroCopy] at hz
    simp only [Scalar.good] at hg
    simp only [Scalar.has] at hh
    simp only [Scalar.fits] at hf
    obtain ⟨x, hx, hb⟩ := Prim.word_ok hg hh hf
    refine ⟨leBytes (p.bits / 8) x, by simp [Scalar.image, hx], fun acc _ => ?_⟩
    rw [flat_leBytes, Prim.zeroCopy_bits hz, hb]
    simp only [Scalar.append]
  | .composite (.struct e r fields), v, hz, hp, hg, hh, hf => by
    simp only [Scalar.zeroCopy, Message.nestedZeroCopy, Bool.and_eq_true] at hz
    simp only [Scalar.plain, Message.plain, Message.extent, Bool.and_eq_true, Option.isNone_iff_eq_none] at hp
    simp only [Scalar.good, Message.good, Bool.and_eq_true] at hg
    simp only [Scalar.has] at hh
    simp only [Scalar.fits] at hf
    cases v <;> simp only [Message.has, Bool.false_eq_true] at hh
    rename_i vs
    simp only [Message.fits] at hf
    obtain ⟨bytes, e1, e2⟩ := fields.image_ok none vs (nestedZeroCopy_fields fields none hz.2) hp.2 hg.2.1.1 hh hf
    refine ⟨bytes, by simpa only [Scalar.image, Message.image] using e1, fun acc ha => ?_⟩
    have h0 := e2 [] rfl
    rw [List.nil_append] at h0
    simp only [Scalar.append, Message.extent, hp.1, Option.isSome_none, Bool.false_eq_true, if_false, Message.bits, List.append_nil]
    rw [h0, padByte_aligned ha, padByte_aligned (by rw [length_flatMap_bits]; omega)]
  | .composite (.union _ _ _), v, hz, _, _, _, _ => by simp [Scalar.zeroCopy, Message.nestedZeroCopy] at hz
  | .composite (.enum _ _ _ _), v, _, hp, _, _, _ => by simp [Scalar.plain, Message.plain] at hp
theorem Fields.image_ok : ∀ (fs : Fields) (l : Option BitLengthSet) (vs : List Val), fs.zeroCopy = true → fs.plain = true → fs.good l = true →
    fs.has vs = true → fs.fits vs = true →
    ∃ bytes, fs.image vs = some bytes ∧ ∀ acc : List Bool, acc.length % 8 = 0 → fs.append acc vs = acc ++ bytes.flatMap fun b => bitsOf 8 b.toNat
  | .nil, l, vs, _, _, _, hh, _ => by
    cases vs with
    | cons v vs => simp [Fields.has] at hh
    | nil => exact ⟨[], by simp [Fields.image], fun acc _ => by simp [Fields.append]⟩
  | .padding _ _, _, _, hz, _, _, _, _ => by simp [Fields.zeroCopy] at hz
  | .data s a rest, l, [], _, _, _, hh, _ => by simp [Fields.has] at hh
  | .data s a rest, l, v :: vs, hz, hp, hg, hh, hf => by
    simp only [Fields.zeroCopy, Bool.and_eq_true] at hz
    simp only [Fields.plain, Bool.and_eq_true] at hp
    simp only [Fields.good, Bool.and_eq_true] at hg
    simp only [Fields.has, Bool.and_eq_true] at hh
    simp only [Fields.fits, Bool.and_eq_true] at hf
    obtain ⟨⟨⟨hgs, hga⟩, -⟩, hgr⟩ := hg
    obtain ⟨b2, e2, g2⟩ := rest.image_ok _ vs hz.2 hp.2 hgr hh.2 hf.2
    cases a with
    | var maxLen => simp [Arity.zeroCopy] at hz
    | scalar =>
      obtain ⟨b1, e1, g1⟩ := s.image_ok v hz.1 hp.1 hgs hh.1 hf.1
      refine ⟨b1 ++ b2, by simp [Fields.image, e1, e2], fun acc ha => ?_⟩
      simp only [Fields.append, appendField]
      rw [g1 acc ha, g2 _ (by rw [List.length_append, length_flatMap_bits]; omega), List.flatMap_append, List.append_assoc]
    | fixed len =>
      have hzs : s.zeroCopy = true := hz.1
      have hb := zeroCopy_not_bool hzs
      have h1 := hh.1
      have hf1 := hf.1
      cases v <;> simp only [hasField, hb, Bool.and_eq_true, Bool.false_eq_true, false_and] at h1
      rename_i es
      have hfall : es.all s.fits = true := hf1
      obtain ⟨b1, e1, g1⟩ := imageEach_ok (s := s) es fun w hw =>
        s.image_ok w hzs hp.1 hgs (List.all_eq_true.1 h1.2 w hw) (List.all_eq_true.1 hfall w hw)
      refine ⟨b1 ++ b2, by simp [Fields.image, e1, e2], fun acc ha => ?_⟩
      simp only [Fields.append, appendField]
      rw [Scalar.align_of_dvd (by rcases s.alignment_cases with e | e <;> rw [e] <;> omega), g1 acc ha,
        g2 _ (by rw [List.length_append, length_flatMap_bits]; omega), List.flatMap_append, List.append_assoc]
end

/-! ### The generated functions -/

theorem writeComposite_ok {m : Message} {v : Val} {L M : Nat} (hM : M ≤ 8 * L) (hM2 : M < 8 * 2 ^ 32)
    (hz : roundUp (m.bits v).length = roundUp (m.sizeBits v))
    (hw : ∀ base : List Bool, base.length % 8 = 0 → base.length + (m.bits v).length ≤ M →
      m.serialize v (wcur L base) = some (wcur L (base ++ m.bits v))) (acc : List Bool)
    (hfit : ((Scalar.composite m).append acc v).length ≤ M) :
    (wcur L acc).writeComposite ⟨m.extent.map (· / 8), m.sizeBits, m.serialize⟩ v = some (wcur L ((Scalar.composite m).append acc v)) := by
  simp only [Scalar.append, List.length_append, length_padByte] at hfit ⊢
  have hacc : acc.length ≤ 8 * L := by unfold roundUp at hfit; omega
  unfold WriteCursor.writeComposite
  rw [align_wcur L acc hacc, append_align_eq]
  dsimp only
  have hpad : (padByte acc).length % 8 = 0 := by rw [length_padByte]; unfold roundUp; omega
  have hsize : (m.sizeBits v + 7) / 8 = roundUp (m.bits v).length / 8 := by rw [hz]; unfold roundUp; omega
  have hle : (m.bits v).length ≤ roundUp (m.bits v).length := by unfold roundUp; omega
  have hr : roundUp (m.bits v).length % 8 = 0 := by unfold roundUp; omega
  cases he : m.extent with
  | none =>
    rw [he] at hfit
    simp only [Option.isSome_none, Bool.false_eq_true, if_false, List.length_nil, Option.map_none, List.append_nil] at hfit ⊢
    rw [hw _ hpad (by rw [length_padByte]; omega)]
    dsimp only
    rw [align_wcur L _ (by rw [List.length_append, length_padByte]; omega), append_align_eq, padByte_shift hpad]
  | some e =>
    rw [he] at hfit
    simp only [Option.isSome_some, if_true, length_bitsOf, Option.map_some] at hfit ⊢
    rw [hsize, if_neg (by omega), writeU_ok _ _ _ _ (by omega) (by omega) (by rw [length_padByte]; omega), bitsOf_ofNat _ _ (by omega)]
    dsimp only
    have hpad2 : (padByte acc ++ bitsOf 32 (roundUp (m.bits v).length / 8)).length % 8 = 0 := by
      rw [List.length_append, length_bitsOf]; omega
    rw [hw _ hpad2 (by rw [List.length_append, length_padByte, length_bitsOf]; omega)]
    dsimp only
    rw [align_wcur L _ (by rw [List.length_append, List.length_append, length_padByte, length_bitsOf]; omega), append_align_eq, padByte_shift hpad2]

mutual
theorem Scalar.writes : ∀ (s : Scalar) (v : Val) (L M : Nat), M ≤ 8 * L → M < 8 * 2 ^ 32 → s.good = true → s.has v = true → s.fits v = true →
    ScalarWrites s v L M
  | .prim p, v, L, M, hM, _, hg, hh, hf => fun aligned acc hal hfit => by
    simp only [Scalar.good] at hg
    simp only [Scalar.has] at hh
    simp only [Scalar.fits] at hf
    simp only [Scalar.append, List.length_append, length_bitsOf] at hfit ⊢
    exact Prim.write_ok hg hh hf aligned L acc hal (by omega)
  | .composite m, v, L, M, hM, hM2, hg, hh, hf => fun aligned acc hal hfit => by
    simp only [Scalar.good, Bool.and_eq_true] at hg
    simp only [Scalar.has] at hh
    simp only [Scalar.fits] at hf
    simp only [Scalar.write]
    exact writeComposite_ok hM hM2 (m.sized v hg.2 hh hf) (m.writes v L M hM hM2 hg.2 hh hf) acc hfit
theorem Fields.writes : ∀ (fs : Fields) (l : Option BitLengthSet) (vs : List Val) (L M : Nat), M ≤ 8 * L → M < 8 * 2 ^ 32 → fs.good l = true →
    fs.has vs = true → fs.fits vs = true → Reg (lengthSoFar l) → ∀ acc n0 k0, n0 ∈ (lengthSoFar l).expand → acc.length = n0 + 8 * k0 →
    (fs.append acc vs).length ≤ M → fs.serialize l vs (wcur L acc) = some (wcur L (fs.append acc vs))
  | .nil, l, vs, L, M, _, _, _, hh, _, _, acc, n0, k0, h0, ha, hfit => by
    cases vs with
    | cons v vs => simp [Fields.has] at hh
    | nil => simp only [Fields.serialize, Fields.append]
  | .padding bits rest, l, vs, L, M, hM, hM2, hg, hh, hf, hr, acc, n0, k0, h0, ha, hfit => by
    simp only [Fields.good, Bool.and_eq_true] at hg
    simp only [Fields.has] at hh
    simp only [Fields.fits] at hf
    simp only [Fields.append, Fields.serialize] at hfit ⊢
    have hgrow := rest.grow (acc ++ List.replicate bits false) vs
    rw [List.length_append, List.length_replicate] at hgrow
    rw [skipBits_wcur _ _ _ (by omega)]
    dsimp only
    refine rest.writes (some (afterPadding bits l)) vs L M hM hM2 hg.2 hh hf (hr.afterPadding bits) _ (n0 + bits) k0 (mem_afterPadding hr bits h0) ?_ hfit
    simp only [List.length_append, List.length_replicate]
    omega
  | .data s a rest, l, [], _, _, _, _, _, hh, _, _, _, _, _, _, _, _ => by simp [Fields.has] at hh
  | .data s a rest, l, v :: vs, L, M, hM, hM2, hg, hh, hf, hr, acc, n0, k0, h0, ha, hfit => by
    simp only [Fields.good, Bool.and_eq_true, Bool.or_eq_true, Bool.not_eq_true'] at hg
    simp only [Fields.has, Bool.and_eq_true] at hh
    simp only [Fields.fits, Bool.and_eq_true] at hf
    simp only [Fields.append, Fields.serialize] at hfit ⊢
    obtain ⟨⟨⟨hgs, hga⟩, hge⟩, hgr⟩ := hg
    obtain ⟨n, k, h1, h2, h3, h4⟩ := field_len hga hh.1 hf.1 (fun w => s.len w hgs) acc
    have hi := implicit_dvd (s := s) hga
    have hal : alwaysAligned l = true → acc.length % 8 = 0 := by
      intro e
      have := alwaysAligned_zero e hr h0
      omega
    rw [field_write hM hga hh.1 hf.1 (fun w hw hw2 => s.writes w L M hM hM2 hgs hw hw2) _ acc hal (fun e => hal (by
      rcases hge with hge | hge
      · rw [e] at hge; simp at hge
      · exact hge)) (Nat.le_trans (rest.grow _ _) hfit)]
    dsimp only
    refine rest.writes (some (afterData s s.size a l)) vs L M hM hM2 hgr hh.2 hf.2 (s.reg.afterData a hr) _ _ (k0 + k)
      (mem_afterData s.reg a hr h0 h1) ?_ hfit
    rw [h3, ha]
    rcases s.alignment_cases with e | e <;> rw [e] at h2 ⊢
    · simp only [alignUp_one]; omega
    · simp only [alignUp]; omega
theorem Variants.writes : ∀ (vs : Variants) (i : Nat) (v : Val) (L M : Nat), M ≤ 8 * L → M < 8 * 2 ^ 32 → vs.good = true → vs.has i v = true →
    vs.fits i v = true → ∀ acc : List Bool, acc.length % 8 = 0 → (vs.append i acc v).length ≤ M →
    vs.serialize i v (wcur L acc) = some (wcur L (vs.append i acc v))
  | .nil, _, _, _, _, _, _, _, hh, _, _, _, _ => by simp [Variants.has] at hh
  | .cons s a rest, 0, v, L, M, hM, hM2, hg, hh, hf, acc, ha, hfit => by
    simp only [Variants.good, Bool.and_eq_true] at hg
    simp only [Variants.has] at hh
    simp only [Variants.fits] at hf
    simp only [Variants.append, Variants.serialize] at hfit ⊢
    exact field_write hM hg.1.2 hh hf (fun w hw hw2 => s.writes w L M hM hM2 hg.1.1 hw hw2) true acc (fun _ => ha) (fun _ => ha) hfit
  | .cons s a rest, i + 1, v, L, M, hM, hM2, hg, hh, hf, acc, ha, hfit => by
    simp only [Variants.good, Bool.and_eq_true] at hg
    simp only [Variants.has] at hh
    simp only [Variants.fits] at hf
    simp only [Variants.append, Variants.serialize] at hfit ⊢
    exact rest.writes i v L M hM hM2 hg.2 hh hf acc ha hfit
theorem Message.writes : ∀ (m : Message) (v : Val) (L M : Nat), M ≤ 8 * L → M < 8 * 2 ^ 32 → m.good = true → m.has v = true → m.fits v = true →
    ∀ base : List Bool, base.length % 8 = 0 → base.length + (m.bits v).length ≤ M → m.serialize v (wcur L base) = some (wcur L (base ++ m.bits v))
  | .struct e r fields, v, L, M, hM, hM2, hg, hh, hf, base, hb, hfit => by
    cases v <;> simp only [Message.has, Bool.false_eq_true] at hh
    rename_i vs
    simp only [Message.good, Bool.and_eq_true, Bool.or_eq_true, Bool.not_eq_true'] at hg
    simp only [Message.fits] at hf
    obtain ⟨⟨hgf, -⟩, hgz⟩ := hg
    simp only [Message.serialize, Message.bits] at hfit ⊢
    have e0 := fields.append_shift hb [] vs
    rw [List.append_nil] at e0
    by_cases hz : (Message.struct e r fields).zeroCopy = true
    · rw [if_pos hz]
      have hp : fields.plain = true := by
        rcases hgz with hgz | hgz
        · rw [hz] at hgz; simp at hgz
        · exact hgz
      simp only [Message.zeroCopy, Bool.and_eq_true] at hz
      obtain ⟨bytes, e1, e2⟩ := fields.image_ok none vs hz.2 hp hgf hh hf
      have e3 := e2 [] rfl
      rw [List.nil_append] at e3
      rw [e3, length_flatMap_bits] at hfit
      rw [e1, e3]
      dsimp only
      rw [writeAlignedBytes_wcur _ _ _ hb (by omega), if_pos (by omega)]
    · rw [if_neg hz, ← e0]
      refine fields.writes none vs L M hM hM2 hgf hh hf (.single 0) base 0 (base.length / 8) (mem_single 0) (by omega) ?_
      rw [e0, List.length_append]
      exact hfit
  | .union e r variants, v, L, M, hM, hM2, hg, hh, hf, base, hb, hfit => by
    cases v <;> simp only [Message.has, Bool.false_eq_true] at hh
    rename_i i v
    simp only [Message.good, Bool.and_eq_true, decide_eq_true_eq] at hg
    simp only [Message.fits] at hf
    obtain ⟨⟨⟨hgv, -⟩, hc⟩, hw⟩ := hg
    simp only [Message.serialize, Message.bits] at hfit ⊢
    rw [hw] at hfit ⊢
    have hr := widthFor_range variants.count
    have hd := widthFor_dvd variants.count
    have hgrow := variants.grow i (bitsOf (widthFor variants.count) i) v
    rw [length_bitsOf] at hgrow
    rw [Variants.tagBits, arrayLengthBits_eq hc, writeUIntAligned_ok _ _ _ _ (by omega) (by omega) hb (by omega), bitsOf_ofNat _ _ hr.2]
    dsimp only
    rw [← variants.append_shift hb]
    refine variants.writes i v L M hM hM2 hgv hh hf _ (by rw [List.length_append, length_bitsOf]; omega) ?_
    rw [variants.append_shift hb, List.length_append]
    exact hfit
  | .enum e r bits values, v, L, M, hM, hM2, hg, hh, hf, base, hb, hfit => by
    cases v <;> simp only [Message.has, Bool.false_eq_true] at hh
    rename_i d
    simp only [Message.good, Bool.and_eq_true, decide_eq_true_eq] at hg
    simp only [Message.serialize, Message.bits, length_bitsOf] at hfit ⊢
    rw [if_pos (by simpa using hh), writeUIntAligned_ok _ _ _ _ hg.1.1 hg.1.2 hb (by omega), bitsOf_ofNat _ _ hg.1.2]
end

end Verif.Dsdl
