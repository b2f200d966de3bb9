import Verif.Dsdl.Lengths

/-!
Helper lemmas: `size_bits` is the number of bits of the value, rounded up to bytes.
-/

namespace Verif.Dsdl

open Verif.Enc Verif.Bls

theorem nextMultipleOf_eight (n : Nat) : nextMultipleOf n 8 = roundUp n := by unfold nextMultipleOf roundUp; omega

theorem nextMultipleOf_one (n : Nat) : nextMultipleOf n 1 = n := by unfold nextMultipleOf; omega

theorem minValue_single (n : Nat) : (BitLengthSet.single n).minValue = n := mem_single_iff.1 (Reg.single n).min_mem

theorem alwaysAligned_zero {l : Option BitLengthSet} (h : alwaysAligned l = true) (hr : Reg (lengthSoFar l)) {n : Nat}
    (hn : n ∈ (lengthSoFar l).expand) : n % 8 = 0 := by
  cases l with
  | none => rw [mem_single_iff.1 hn]
  | some l => exact Reg.aligned hr h hn

theorem Message.sizeBits_fixed {m : Message} (h : m.bitLength.minValue = m.bitLength.maxValue) (v : Val) : m.sizeBits v = m.bitLength.minValue := by
  cases m with
  | struct e r fields => simp only [Message.sizeBits]; rw [if_pos h]
  | union e r variants => simp only [Message.sizeBits]; rw [if_pos h]
  | enum e r bits values => simp only [Message.sizeBits]

theorem Message.sizeBits_min {m : Message} {v : Val} (h : m.bitLength.minValue = m.bitLength.maxValue) (hg : m.good = true)
    (hh : m.has v = true) (hf : m.fits v = true) (hd : m.headed = true) : roundUp m.bitLength.minValue = roundUp (m.bits v).length := by
  obtain ⟨n, k, h1, h2, h3⟩ := m.len v hg hh hf
  rw [h2, h3 hd]
  have hr := m.reg
  cases hq : m.request with
  | true =>
    have : n ∈ m.bitLength.expand := by rw [Message.bitLength_eq, hq, if_pos rfl]; exact h1
    rw [← hr.fixed h this]
    rfl
  | false =>
    have : roundUp n ∈ m.bitLength.expand := by
      rw [Message.bitLength_eq, hq, if_neg (by simp), mem_pad_iff m.regRaw (by omega)]
      exact ⟨n, h1, (alignUp_eight n).symm⟩
    rw [← hr.fixed h this]
    unfold roundUp
    omega

theorem Scalar.sizeBits_composite (m : Message) (v : Val) :
    (Scalar.composite m).sizeBits v = headerBits m.extent + roundUp (m.sizeBits v) := by
  simp only [Scalar.sizeBits, nextMultipleOf_eight]
  split
  · rename_i h; rw [Message.sizeBits_fixed h]
  · rfl

theorem Scalar.sizeBits_dvd (s : Scalar) (v : Val) : s.sizeBits v % s.alignment = 0 := by
  cases s with
  | prim p => simp [Scalar.alignment, Nat.mod_one]
  | composite m =>
    rw [Scalar.sizeBits_composite]
    have := headerBits_dvd m.extent
    simp only [Scalar.alignment]
    unfold roundUp
    omega

theorem Scalar.sizeBits_fixed {s : Scalar} (h : s.size.minValue = s.size.maxValue) (v : Val) :
    s.sizeBits v = nextMultipleOf (headerBits s.extent + s.size.minValue) s.alignment := by
  cases s with
  | prim p =>
    simp only [Scalar.sizeBits, Scalar.extent, Scalar.alignment, Scalar.size, minValue_single, nextMultipleOf_one]
    simp [headerBits]
  | composite m =>
    rw [Scalar.sizeBits_composite, Message.sizeBits_fixed h]
    have := headerBits_dvd m.extent
    simp only [Scalar.extent, Scalar.alignment, nextMultipleOf_eight, Scalar.size]
    unfold roundUp
    omega

theorem elementSizes_eq (s : Scalar) (vs : List Val) : elementSizes s s.size s.sizeBits (.list vs) = (vs.map s.sizeBits).sum := by
  unfold elementSizes
  split
  · rename_i h
    simp only [Val.len]
    induction vs with
    | nil => simp
    | cons v vs ih =>
      rw [List.map_cons, List.sum_cons, ← ih, s.sizeBits_fixed h v, List.length_cons, Nat.succ_mul, Nat.add_comm]
  · rfl

theorem elementSizes_bits (b : BitArray) :
    elementSizes (.prim .boolean) (Scalar.prim .boolean).size (Scalar.prim .boolean).sizeBits (.bits b) = b.bitLength := by
  have h : (Scalar.prim .boolean).size = .single 1 := rfl
  unfold elementSizes
  rw [h, if_pos (by decide +kernel), minValue_single]
  simp [Val.len, headerBits, Scalar.extent, Scalar.alignment, nextMultipleOf_one]

/-- `size_bits` counts the bits of a scalar at the alignment of its type. -/
def ScalarSize (s : Scalar) (v : Val) : Prop :=
  ∀ acc : List Bool, acc.length % s.alignment = 0 → (s.append acc v).length = acc.length + s.sizeBits v

theorem elements_size {s : Scalar} (vs : List Val) (h : ∀ v ∈ vs, ScalarSize s v) : ∀ acc : List Bool, acc.length % s.alignment = 0 →
    (vs.foldl s.append acc).length = acc.length + (vs.map s.sizeBits).sum := by
  induction vs with
  | nil => intro acc _; simp
  | cons v vs ih =>
    intro acc ha
    have h1 := h v (by simp) acc ha
    have h2 := s.sizeBits_dvd v
    rw [List.foldl_cons, ih (fun w hw => h w (by simp [hw])) _ (by
      rw [h1]
      rcases s.alignment_cases with e | e <;> rw [e] at ha h2 ⊢ <;> omega), h1, List.map_cons, List.sum_cons]
    omega

theorem Scalar.align_of_dvd {s : Scalar} {acc : List Bool} (h : acc.length % s.alignment = 0) : s.align acc = acc := by
  unfold Scalar.align
  split
  · rename_i e
    rw [e] at h
    unfold padByte
    rw [h]
    simp
  · rfl

theorem field_size {s : Scalar} {a : Arity} {v : Val} (ha : a.ok = true) (hh : hasField s.isBool s.has v a = true)
    (hf : fitsField s.fits v a = true) (hs : ∀ w, s.has w = true → s.fits w = true → ScalarSize s w) (acc : List Bool)
    (hal : acc.length % s.alignment = 0) :
    (appendField s s.append acc v a).length = acc.length + fieldSize s s.size s.sizeBits v a := by
  cases a with
  | scalar => exact hs v hh hf acc hal
  | fixed len =>
    cases v <;> simp only [hasField, Bool.and_eq_true, decide_eq_true_eq, Bool.false_eq_true] at hh
    case bits b =>
      have e := isBool_eq hh.1
      subst e
      simp only [appendField, fieldSize, elementSizes_bits, List.length_append, length_bitsA]
    case list vs =>
      have hfall : vs.all s.fits = true := hf
      simp only [appendField, fieldSize]
      rw [Scalar.align_of_dvd hal, elementSizes_eq]
      exact elements_size vs (fun w hw => hs w (List.all_eq_true.1 hh.2 w hw) (List.all_eq_true.1 hfall w hw)) acc hal
  | var maxLen =>
    have hm := Arity.ok_var ha
    cases v <;> simp only [hasField, Bool.and_eq_true, decide_eq_true_eq, Bool.false_eq_true] at hh
    case bits b =>
      have e := isBool_eq hh.1
      subst e
      simp only [appendField, fieldSize, elementSizes_bits, List.length_append, length_bitsA, length_bitsOf, arrayLengthBits_eq hm]
      omega
    case list vs =>
      have hfall : vs.all s.fits = true := hf
      have hw := widthFor_dvd maxLen
      simp only [appendField, fieldSize]
      rw [Scalar.align_of_dvd hal, elementSizes_eq, arrayLengthBits_eq hm,
        elements_size vs (fun w hw => hs w (List.all_eq_true.1 hh.2 w hw) (List.all_eq_true.1 hfall w hw)), List.length_append, length_bitsOf]
      · omega
      · rw [List.length_append, length_bitsOf]
        rcases s.alignment_cases with e | e <;> rw [e] at hal ⊢ <;> omega

mutual
theorem Scalar.sized : ∀ (s : Scalar) (v : Val), s.good = true → s.has v = true → s.fits v = true → ScalarSize s v
  | .prim p, v, _, _, _ => fun acc _ => by simp [Scalar.append, Scalar.sizeBits]
  | .composite m, v, hg, hh, hf => fun acc hal => by
    simp only [Scalar.good, Bool.and_eq_true, Bool.not_eq_true'] at hg
    simp only [Scalar.has] at hh
    simp only [Scalar.fits] at hf
    have h := m.sized v hg.2 hh hf
    simp only [Scalar.alignment] at hal
    simp only [Scalar.append, Scalar.sizeBits_composite, List.length_append, length_padByte, h]
    unfold headerBits
    have : roundUp acc.length = acc.length := by unfold roundUp; omega
    rw [this]
    split <;> simp <;> omega
theorem Fields.sized : ∀ (fs : Fields) (l : Option BitLengthSet) (vs : List Val), fs.good l = true → fs.noGaps l = true → fs.has vs = true →
    fs.fits vs = true → Reg (lengthSoFar l) → ∀ acc n0 k0, n0 ∈ (lengthSoFar l).expand → acc.length = n0 + 8 * k0 →
    (fs.append acc vs).length = acc.length + fs.sizeBits vs
  | .nil, l, vs, _, _, _, _, _, acc, n0, k0, h0, ha => by simp only [Fields.append, Fields.sizeBits]; rfl
  | .padding bits rest, l, vs, hg, hn, hh, hf, hr, acc, n0, k0, h0, ha => by
    simp only [Fields.good, Bool.and_eq_true] at hg
    simp only [Fields.noGaps] at hn
    simp only [Fields.has] at hh
    simp only [Fields.fits] at hf
    simp only [Fields.append, Fields.sizeBits]
    rw [rest.sized (some (afterPadding bits l)) vs hg.2 hn hh hf (hr.afterPadding bits) _ (n0 + bits) k0 (mem_afterPadding hr bits h0) (by
      simp only [List.length_append, List.length_replicate]
      omega)]
    simp only [List.length_append, List.length_replicate]
    omega
  | .data s a rest, l, [], _, _, hh, _, _, _, _, _, _, _ => by simp [Fields.has] at hh
  | .data s a rest, l, v :: vs, hg, hn, hh, hf, hr, acc, n0, k0, h0, ha => by
    simp only [Fields.good, Bool.and_eq_true] at hg
    simp only [Fields.noGaps, Bool.and_eq_true, Bool.or_eq_true, decide_eq_true_eq] at hn
    simp only [Fields.has, Bool.and_eq_true] at hh
    simp only [Fields.fits, Bool.and_eq_true] at hf
    simp only [Fields.append, Fields.sizeBits, List.headD_cons, List.tail_cons]
    obtain ⟨⟨⟨hgs, hga⟩, -⟩, hgr⟩ := hg
    obtain ⟨n, k, h1, h2, h3, h4⟩ := field_len hga hh.1 hf.1 (fun w => s.len w hgs) acc
    have hi := implicit_dvd (s := s) hga
    have hal : acc.length % s.alignment = 0 := by
      rcases hn.1 with e | e
      · rw [e]; omega
      · have := alwaysAligned_zero e hr h0
        rcases s.alignment_cases with e | e <;> rw [e] <;> omega
    have hsz := field_size hga hh.1 hf.1 (fun w => s.sized w hgs) acc hal
    rw [rest.sized (some (afterData s s.size a l)) vs hgr hn.2 hh.2 hf.2 (s.reg.afterData a hr)
      (appendField s s.append acc v a) _ (k0 + k) (mem_afterData s.reg a hr h0 h1) (by
        rw [h3, ha]
        rcases s.alignment_cases with e | e <;> rw [e] at h2 ⊢
        · simp only [alignUp_one]; omega
        · simp only [alignUp]; omega), hsz]
    omega
theorem Variants.sized : ∀ (vs : Variants) (i : Nat) (v : Val), vs.good = true → vs.has i v = true → vs.fits i v = true → ∀ acc : List Bool,
    acc.length % 8 = 0 → (vs.append i acc v).length = acc.length + vs.sizeBits i v
  | .nil, _, _, _, hh, _, _, _ => by simp [Variants.has] at hh
  | .cons s a rest, 0, v, hg, hh, hf, acc, ha => by
    simp only [Variants.good, Bool.and_eq_true] at hg
    simp only [Variants.has] at hh
    simp only [Variants.fits] at hf
    simp only [Variants.append, Variants.sizeBits]
    exact field_size hg.1.2 hh hf (fun w => s.sized w hg.1.1) acc (by rcases s.alignment_cases with e | e <;> rw [e] <;> omega)
  | .cons s a rest, i + 1, v, hg, hh, hf, acc, ha => by
    simp only [Variants.good, Bool.and_eq_true] at hg
    simp only [Variants.has] at hh
    simp only [Variants.fits] at hf
    simp only [Variants.append, Variants.sizeBits]
    exact rest.sized i v hg.2 hh hf acc ha
theorem Message.sized : ∀ (m : Message) (v : Val), m.good = true → m.has v = true → m.fits v = true →
    roundUp (m.bits v).length = roundUp (m.sizeBits v)
  | .struct e r fields, v, hg, hh, hf => by
    by_cases hx : (Message.struct e r fields).bitLength.minValue = (Message.struct e r fields).bitLength.maxValue
    · have hg' := hg
      simp only [Message.good, Bool.and_eq_true] at hg'
      have hd := hg'.1.2
      rw [if_pos (show (Message.struct e r fields).bitLength.isFixedSize = true by unfold BitLengthSet.isFixedSize; simpa using hx)] at hd
      rw [Message.sizeBits_fixed hx, Message.sizeBits_min hx hg hh hf (by simpa only [Message.headed] using hd)]
    · cases v <;> simp only [Message.has, Bool.false_eq_true] at hh
      rename_i vs
      simp only [Message.good, Bool.and_eq_true] at hg
      simp only [Message.fits] at hf
      have hd := hg.1.2
      rw [if_neg (show ¬ (Message.struct e r fields).bitLength.isFixedSize = true by unfold BitLengthSet.isFixedSize; simpa using hx)] at hd
      have := fields.sized none vs hg.1.1 hd hh hf (.single 0) [] 0 0 (mem_single 0) rfl
      simp only [Message.sizeBits, Message.bits]
      rw [if_neg hx, this]
      simp [Val.fields]
  | .union e r variants, v, hg, hh, hf => by
    by_cases hx : (Message.union e r variants).bitLength.minValue = (Message.union e r variants).bitLength.maxValue
    · have hg' := hg
      simp only [Message.good, Bool.and_eq_true] at hg'
      have hd := hg'.1.1.2
      rw [if_pos (show (Message.union e r variants).bitLength.isFixedSize = true by unfold BitLengthSet.isFixedSize; simpa using hx)] at hd
      rw [Message.sizeBits_fixed hx, Message.sizeBits_min hx hg hh hf (by simpa only [Message.headed] using hd)]
    · cases v <;> simp only [Message.has, Bool.false_eq_true] at hh
      rename_i i v
      simp only [Message.good, Bool.and_eq_true, decide_eq_true_eq] at hg
      simp only [Message.fits] at hf
      obtain ⟨⟨⟨hgv, -⟩, hc⟩, hw⟩ := hg
      have := variants.sized i v hgv hh hf (bitsOf (widthFor (variants.count - 1)) i) (by rw [length_bitsOf]; exact widthFor_dvd _)
      simp only [Message.sizeBits, Message.bits]
      rw [if_neg hx, this, length_bitsOf, hw, Variants.tagBits, arrayLengthBits_eq hc]
      rfl
  | .enum e r bits values, v, hg, hh, hf => by
    have hx : (Message.enum e r bits values).bitLength.minValue = (Message.enum e r bits values).bitLength.maxValue := by
      simp only [Message.bitLength, afterData, lengthSoFar, fieldTotal, implicitBits, Scalar.extent, Option.isSome_none, Bool.false_eq_true,
        if_false, Arity.size]
      cases r <;> simp [BitLengthSet.minValue, BitLengthSet.maxValue, BitLengthSet.padToAlignment, BitLengthSet.concatenate, BitLengthSet.single,
        Operator.min, Operator.max, Operator.minAll, Operator.maxAll, insertSet]
    rw [Message.sizeBits_fixed hx, Message.sizeBits_min hx hg hh hf (by simp only [Message.headed])]
end

end Verif.Dsdl
