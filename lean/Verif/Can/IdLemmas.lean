import Verif.Can.IdModel

/-! Helper lemmas for CAN identifiers. -/

namespace Verif.Can

theorem bitSet_iff (v : BitVec 32) (o : Nat) : bitSet v o = decide (v.toNat / 2 ^ o % 2 = 1) := by
  have h : ((v >>> o) &&& 1#32).toNat = v.toNat / 2 ^ o % 2 := by
    rw [BitVec.toNat_and, BitVec.toNat_ushiftRight, Nat.shiftRight_eq_div_pow]
    exact Nat.and_two_pow_sub_one_eq_mod _ 1
  unfold bitSet
  by_cases hh : v.toNat / 2 ^ o % 2 = 1
  · rw [decide_eq_true hh, beq_iff_eq]
    apply BitVec.eq_of_toNat_eq
    rw [h, hh]; rfl
  · rw [decide_eq_false hh, beq_eq_false_iff_ne]
    intro hc
    rw [hc] at h
    exact hh h.symm

theorem toNat_getU8_and (v : BitVec 32) (o : Nat) : (getU8 v o &&& 0x7f#8).toNat = v.toNat / 2 ^ o % 128 := by
  unfold getU8
  rw [BitVec.toNat_and, BitVec.toNat_setWidth, BitVec.toNat_ushiftRight, Nat.shiftRight_eq_div_pow]
  have := Nat.and_two_pow_sub_one_eq_mod (v.toNat / 2 ^ o % 2 ^ 8) 7
  simp only [Nat.reducePow, Nat.reduceSub, BitVec.toNat_ofNat] at this ⊢
  simp only [Nat.reduceMod]
  rw [this]
  omega

theorem toNat_getU8_26 (v : BitVec 32) (h : v.toNat < 2 ^ 29) : (getU8 v 26).toNat = v.toNat / 2 ^ 26 := by
  unfold getU8
  rw [BitVec.toNat_setWidth, BitVec.toNat_ushiftRight, Nat.shiftRight_eq_div_pow]
  omega

theorem toNat_getU16_and9 (v : BitVec 32) (o : Nat) : (getU16 v o &&& 0x1ff#16).toNat = v.toNat / 2 ^ o % 512 := by
  unfold getU16
  rw [BitVec.toNat_and, BitVec.toNat_setWidth, BitVec.toNat_ushiftRight, Nat.shiftRight_eq_div_pow]
  have := Nat.and_two_pow_sub_one_eq_mod (v.toNat / 2 ^ o % 2 ^ 16) 9
  simp only [Nat.reducePow, Nat.reduceSub, BitVec.toNat_ofNat] at this ⊢
  simp only [Nat.reduceMod]
  rw [this]
  omega

theorem toNat_getU16_and13 (v : BitVec 32) (o : Nat) :
    (getU16 v o &&& 0x1fff#16).toNat = v.toNat / 2 ^ o % 8192 := by
  unfold getU16
  rw [BitVec.toNat_and, BitVec.toNat_setWidth, BitVec.toNat_ushiftRight, Nat.shiftRight_eq_div_pow]
  have := Nat.and_two_pow_sub_one_eq_mod (v.toNat / 2 ^ o % 2 ^ 16) 13
  simp only [Nat.reducePow, Nat.reduceSub, BitVec.toNat_ofNat] at this ⊢
  simp only [Nat.reduceMod]
  rw [this]
  omega

/-- Parsing a 29-bit identifier never panics and reads the fields by plain division and remainder. -/
theorem parseCanId_eq (v : BitVec 32) (ts : Instant) (tid : Tid) (hv : v.toNat < 2 ^ 29) :
    parseCanId v ts tid = some (
      if v.toNat / 2 ^ 23 % 2 = 1 then .error .bit23Set
      else if v.toNat / 2 ^ 25 % 2 = 1 then
        let h : ServiceHeader NodeId Tid :=
          { timestamp := ts, transferId := tid, priority := BitVec.ofNat 3 (v.toNat / 2 ^ 26),
            service := BitVec.ofNat 9 (v.toNat / 2 ^ 14), source := BitVec.ofNat 7 v.toNat,
            destination := BitVec.ofNat 7 (v.toNat / 2 ^ 7) }
        if v.toNat / 2 ^ 24 % 2 = 1 then .ok (.request h) else .ok (.response h)
      else if v.toNat / 2 ^ 7 % 2 = 1 then .error .bit7Set
      else .ok (.message
        { timestamp := ts, transferId := tid, priority := BitVec.ofNat 3 (v.toNat / 2 ^ 26),
          subject := BitVec.ofNat 13 (v.toNat / 2 ^ 8),
          source := if v.toNat / 2 ^ 24 % 2 = 1 then none else some (BitVec.ofNat 7 v.toNat) })) := by
  have hp : Priority.tryFrom (getU8 v 26) = some (BitVec.ofNat 3 (v.toNat / 2 ^ 26)) := by
    have := toNat_getU8_26 v hv
    unfold Priority.tryFrom
    rw [if_pos (by omega)]
    congr 1
    apply BitVec.eq_of_toNat_eq
    rw [BitVec.toNat_setWidth, this, BitVec.toNat_ofNat]
  have hn : ∀ o, NodeId.tryFrom (getU8 v o &&& 0x7f#8) = some (BitVec.ofNat 7 (v.toNat / 2 ^ o)) := by
    intro o
    have := toNat_getU8_and v o
    unfold NodeId.tryFrom
    rw [if_pos (by omega)]
    congr 1
    apply BitVec.eq_of_toNat_eq
    rw [BitVec.toNat_setWidth, this, BitVec.toNat_ofNat]
    omega
  have hs : ServiceId.tryFrom (getU16 v 14 &&& 0x1ff#16) = some (BitVec.ofNat 9 (v.toNat / 2 ^ 14)) := by
    have := toNat_getU16_and9 v 14
    unfold ServiceId.tryFrom
    rw [if_pos (by omega)]
    congr 1
    apply BitVec.eq_of_toNat_eq
    rw [BitVec.toNat_setWidth, this, BitVec.toNat_ofNat]
    omega
  have hj : SubjectId.tryFrom (getU16 v 8 &&& 0x1fff#16) = some (BitVec.ofNat 13 (v.toNat / 2 ^ 8)) := by
    have := toNat_getU16_and13 v 8
    unfold SubjectId.tryFrom
    rw [if_pos (by omega)]
    congr 1
    apply BitVec.eq_of_toNat_eq
    rw [BitVec.toNat_setWidth, this, BitVec.toNat_ofNat]
    omega
  unfold parseCanId
  have h0 := hn 0
  simp only [Nat.pow_zero, Nat.div_one] at h0
  simp only [bitSet_iff, hp, h0, hn 7, hs, hj]
  by_cases h23 : v.toNat / 2 ^ 23 % 2 = 1
  · simp [h23]
  · by_cases h25 : v.toNat / 2 ^ 25 % 2 = 1
    · by_cases h24 : v.toNat / 2 ^ 24 % 2 = 1 <;> simp [h23, h25, h24]
    · by_cases h7 : v.toNat / 2 ^ 7 % 2 = 1
      · simp [h23, h25, h7]
      · by_cases h24 : v.toNat / 2 ^ 24 % 2 = 1 <;> simp [h23, h25, h7, h24]

theorem or_toNat_disjoint {w : Nat} (a b : BitVec w) (n : Nat) (ha : 2 ^ n ∣ a.toNat) (hb : b.toNat < 2 ^ n) :
    (a ||| b).toNat = a.toNat + b.toNat := by
  rw [BitVec.toNat_or]
  obtain ⟨k, hk⟩ := ha
  rw [hk]
  exact (Nat.two_pow_add_eq_or_of_lt hb k).symm

theorem field_toNat {n : Nat} (x : BitVec n) (s : Nat) (h : n + s ≤ 32) :
    (x.setWidth 32 <<< s).toNat = x.toNat * 2 ^ s := by
  rw [BitVec.toNat_shiftLeft, BitVec.toNat_setWidth, Nat.shiftLeft_eq]
  have h1 : x.toNat < 2 ^ n := x.isLt
  have h2 : 2 ^ n ≤ 2 ^ 32 := Nat.pow_le_pow_right (by omega) (by omega)
  rw [Nat.mod_eq_of_lt (Nat.lt_of_lt_of_le h1 h2)]
  apply Nat.mod_eq_of_lt
  calc x.toNat * 2 ^ s < 2 ^ n * 2 ^ s := Nat.mul_lt_mul_of_pos_right h1 (Nat.two_pow_pos s)
    _ = 2 ^ (n + s) := by rw [Nat.pow_add]
    _ ≤ 2 ^ 32 := Nat.pow_le_pow_right (by omega) h

theorem canIdTryFrom_lt (v : BitVec 32) (h : v.toNat < 2 ^ 29) : canIdTryFrom v = some v := by
  unfold canIdTryFrom
  rw [if_pos]
  apply BitVec.eq_of_getLsbD_eq
  intro i hi
  simp only [BitVec.getLsbD_and, BitVec.getLsbD_not, hi, decide_true, Bool.true_and]
  by_cases h29 : i < 29
  · have : (0x1fffffff#32).getLsbD i = true := by
      revert i; decide
    simp [this]
  · have : v.getLsbD i = false := by
      rw [BitVec.getLsbD]
      apply Nat.testBit_lt_two_pow
      exact Nat.lt_of_lt_of_le h (Nat.pow_le_pow_right (by omega) (by omega))
    simp [this]

theorem makePseudoId_spec (payload : List Byte) : ∃ s, makePseudoId payload = some s ∧ s.toNat < 126 := by
  unfold makePseudoId
  have h1 : ∀ s : NodeId, NodeId.isDiagnosticReserved s = false → s.toNat < 126 := by
    intro s h
    simp only [NodeId.isDiagnosticReserved, decide_eq_false_iff_not] at h
    omega
  have : ∀ s : NodeId, ∃ t, pseudoLoop 128 s = some t ∧ t.toNat < 126 := by
    intro s
    by_cases ha : s.toNat < 126
    · refine ⟨s, ?_, ha⟩
      have : NodeId.isDiagnosticReserved s = false := by
        simp only [NodeId.isDiagnosticReserved, decide_eq_false_iff_not]; omega
      rw [pseudoLoop, this]; rfl
    · have hs : s = 126#7 ∨ s = 127#7 := by
        have := s.isLt
        rcases (by omega : s.toNat = 126 ∨ s.toNat = 127) with h | h
        · left; exact BitVec.eq_of_toNat_eq h
        · right; exact BitVec.eq_of_toNat_eq h
      rcases hs with rfl | rfl
      · exact ⟨125#7, by decide, by decide⟩
      · exact ⟨125#7, by decide, by decide⟩
  exact this _

theorem src_toNat (s : NodeId) : (s.setWidth 32).toNat = s.toNat := by
  rw [BitVec.toNat_setWidth]
  have := s.isLt
  omega

theorem service_toNat (s : ServiceHeader NodeId Tid) (r : Bool) :
      ((s.priority.setWidth 32 <<< 26) ||| (1#32 <<< 25) ||| (if r then 1#32 <<< 24 else 0#32) |||
        (s.service.setWidth 32 <<< 14) ||| (s.destination.setWidth 32 <<< 7) ||| s.source.setWidth 32).toNat =
      s.priority.toNat * 2 ^ 26 + 2 ^ 25 + (if r then 2 ^ 24 else 0) + s.service.toNat * 2 ^ 14 +
        s.destination.toNat * 2 ^ 7 + s.source.toNat := by
  have one25 : (1#32 <<< 25).toNat = 2 ^ 25 := by decide
  have e1 := field_toNat s.priority 26 (by omega)
  have e2 := field_toNat s.service 14 (by omega)
  have e3 := field_toNat s.destination 7 (by omega)
  have e4 := src_toNat s.source
  have b1 := s.service.isLt
  have b2 := s.destination.isLt
  have b3 := s.source.isLt
  have er : (if r then 1#32 <<< 24 else 0#32).toNat = if r then 2 ^ 24 else 0 := by cases r <;> decide
  have br : (if r then 2 ^ 24 else 0) = 0 ∨ (if r then 2 ^ 24 else 0) = 2 ^ 24 := by cases r <;> decide
  generalize (if r then 2 ^ 24 else 0) = rr at *
  have d1 := or_toNat_disjoint (s.priority.setWidth 32 <<< 26) (1#32 <<< 25) 26 (by omega) (by omega)
  have d2 := or_toNat_disjoint _ (if r then 1#32 <<< 24 else 0#32) 25 (by rw [d1]; omega) (by omega)
  have d3 := or_toNat_disjoint _ (s.service.setWidth 32 <<< 14) 23 (by rw [d2]; omega) (by omega)
  have d4 := or_toNat_disjoint _ (s.destination.setWidth 32 <<< 7) 14 (by rw [d3]; omega) (by omega)
  have d5 := or_toNat_disjoint _ (s.source.setWidth 32) 7 (by rw [d4]; omega) (by omega)
  omega

theorem message_toNat (p : Priority) (j : SubjectId) (src : NodeId) (r : Bool) :
      ((p.setWidth 32 <<< 26) ||| (if r then 1#32 <<< 24 else 0#32) ||| (1#32 <<< 22) ||| (1#32 <<< 21) |||
        (j.setWidth 32 <<< 8) ||| src.setWidth 32).toNat =
      p.toNat * 2 ^ 26 + (if r then 2 ^ 24 else 0) + 3 * 2 ^ 21 + j.toNat * 2 ^ 8 + src.toNat := by
  have one22 : (1#32 <<< 22).toNat = 2 ^ 22 := by decide
  have one21 : (1#32 <<< 21).toNat = 2 ^ 21 := by decide
  have e1 := field_toNat p 26 (by omega)
  have e2 := field_toNat j 8 (by omega)
  have e4 := src_toNat src
  have b1 := j.isLt
  have b3 := src.isLt
  have er : (if r then 1#32 <<< 24 else 0#32).toNat = if r then 2 ^ 24 else 0 := by cases r <;> decide
  have br : (if r then 2 ^ 24 else 0) = 0 ∨ (if r then 2 ^ 24 else 0) = 2 ^ 24 := by cases r <;> decide
  generalize (if r then 2 ^ 24 else 0) = rr at *
  have d1 := or_toNat_disjoint (p.setWidth 32 <<< 26) (if r then 1#32 <<< 24 else 0#32) 26 (by omega) (by omega)
  have d2 := or_toNat_disjoint _ (1#32 <<< 22) 23 (by rw [d1]; omega) (by omega)
  have d3 := or_toNat_disjoint _ (1#32 <<< 21) 22 (by rw [d2]; omega) (by omega)
  have d4 := or_toNat_disjoint _ (j.setWidth 32 <<< 8) 21 (by rw [d3]; omega) (by omega)
  have d5 := or_toNat_disjoint _ (src.setWidth 32) 8 (by rw [d4]; omega) (by omega)
  omega

theorem or_perm_message (p s j b21 b22 b24 : BitVec 32) (r : Bool) :
    (if r = true then 0#32 ||| p ||| s ||| j ||| (b21 ||| b22) ||| b24 else 0#32 ||| p ||| s ||| j ||| (b21 ||| b22)) =
      p ||| (if r = true then b24 else 0#32) ||| b22 ||| b21 ||| j ||| s := by
  cases r <;> simp only [BitVec.zero_or, BitVec.or_zero, if_true, if_false, Bool.false_eq_true] <;> ac_rfl

theorem or_perm_request (p s v d b25 b24 : BitVec 32) :
    0#32 ||| p ||| s ||| (v ||| d ||| b25) ||| b24 = p ||| b25 ||| b24 ||| v ||| d ||| s := by
  rw [BitVec.zero_or]; ac_rfl

theorem or_perm_response (p s v d b25 : BitVec 32) :
    0#32 ||| p ||| s ||| (v ||| d ||| b25) = p ||| b25 ||| 0#32 ||| v ||| d ||| s := by
  rw [BitVec.zero_or, BitVec.or_zero]; ac_rfl

theorem makeCanId_message (m : MessageHeader NodeId Tid) (payload : List Byte) (src : NodeId)
    (h : sourceField (.message m) payload = some src) :
    makeCanId (.message m) payload = canIdTryFrom (if m.source.isNone = true then
      0#32 ||| m.priority.setWidth 32 <<< 26 ||| src.setWidth 32 ||| m.subject.setWidth 32 <<< 8 |||
        (1#32 <<< 21 ||| 1#32 <<< 22) ||| 1#32 <<< 24
      else 0#32 ||| m.priority.setWidth 32 <<< 26 ||| src.setWidth 32 ||| m.subject.setWidth 32 <<< 8 |||
        (1#32 <<< 21 ||| 1#32 <<< 22)) := by
  unfold makeCanId
  rw [h]
  rfl

theorem makeCanId_request (s : ServiceHeader NodeId Tid) (payload : List Byte) :
    makeCanId (.request s) payload = canIdTryFrom (0#32 ||| s.priority.setWidth 32 <<< 26 ||| s.source.setWidth 32 |||
      (s.service.setWidth 32 <<< 14 ||| s.destination.setWidth 32 <<< 7 ||| 1#32 <<< 25) ||| 1#32 <<< 24) := by
  unfold makeCanId
  rw [show sourceField (.request s) payload = some s.source from rfl]
  rfl

theorem makeCanId_response (s : ServiceHeader NodeId Tid) (payload : List Byte) :
    makeCanId (.response s) payload = canIdTryFrom (0#32 ||| s.priority.setWidth 32 <<< 26 ||| s.source.setWidth 32 |||
      (s.service.setWidth 32 <<< 14 ||| s.destination.setWidth 32 <<< 7 ||| 1#32 <<< 25)) := by
  unfold makeCanId
  rw [show sourceField (.response s) payload = some s.source from rfl]
  rfl

end Verif.Can
