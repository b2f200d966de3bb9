import Verif.Udp.Model

/-! Properties of the Cyphal/UDP addresses (C39). -/

namespace Verif.Udp

open Verif.Hdr (NodeId16)

theorem base_bit : ∀ i, i < 32 → multicastBase.getLsbD i = decide (24 ≤ i ∧ i ≠ 28) := by decide
theorem mask_bit : ∀ i, i < 32 → multicastMask.getLsbD i = decide (17 ≤ i) := by decide
theorem service_bit : ∀ i, i < 32 → serviceBit.getLsbD i = decide (i = 16) := by decide
theorem reserved_bit : ∀ i, i < 32 → subjectReservedBit.getLsbD i = decide (i = 15) := by decide

/-- An address of a node: 239.1.0.0 plus the node ID. -/
theorem C39_node_address (id : NodeId16) : (Address.node id).toIp.toNat = 0xef010000 + id.val.toNat := by
  unfold Address.toIp
  have h1 : (multicastBase ||| serviceBit).toNat = 2 ^ 16 * 0xef01 := by decide
  have h2 := id.val.isLt
  rw [BitVec.toNat_or, h1, BitVec.toNat_setWidth, Nat.mod_eq_of_lt (by omega), ← Nat.two_pow_add_eq_or_of_lt (by omega)]

/-- An address of a subject: 239.0.0.0 plus the subject ID. -/
theorem C39_subject_address (subject : SubjectId) : (Address.multicast subject).toIp.toNat = 0xef000000 + subject.toNat := by
  unfold Address.toIp
  have h1 : multicastBase.toNat = 2 ^ 16 * 0xef00 := by decide
  have h2 := subject.isLt
  rw [BitVec.toNat_or, h1, BitVec.toNat_setWidth, Nat.mod_eq_of_lt (by omega), ← Nat.two_pow_add_eq_or_of_lt (by omega)]

/-- **C39.** Different subjects and nodes have different addresses. -/
theorem C39_injective (a b : Address) (h : a.toIp = b.toIp) : a = b := by
  have h' := congrArg BitVec.toNat h
  cases a with
  | node x =>
    cases b with
    | node y =>
      rw [C39_node_address, C39_node_address] at h'
      have : x = y := Subtype.ext (BitVec.eq_of_toNat_eq (by omega))
      rw [this]
    | multicast y =>
      rw [C39_node_address, C39_subject_address] at h'
      have := y.isLt
      omega
  | multicast x =>
    cases b with
    | node y =>
      rw [C39_node_address, C39_subject_address] at h'
      have := x.isLt
      omega
    | multicast y =>
      rw [C39_subject_address, C39_subject_address] at h'
      have : x = y := BitVec.eq_of_toNat_eq (by omega)
      rw [this]

theorem and_mask (ip : BitVec 32) : (ip &&& multicastMask).toNat = ip.toNat / 2 ^ 17 * 2 ^ 17 := by
  rw [BitVec.toNat_and]
  apply Nat.eq_of_testBit_eq
  intro i
  rw [Nat.testBit_and, Nat.mul_comm, Nat.testBit_two_pow_mul, Nat.testBit_div_two_pow]
  by_cases hi : i < 32
  · have := mask_bit i hi
    unfold BitVec.getLsbD at this
    rw [this]
    by_cases h : 17 ≤ i
    · simp [h]
    · simp [h]
  · have h1 : ip.toNat.testBit i = false :=
      Nat.testBit_lt_two_pow (Nat.lt_of_lt_of_le ip.isLt (Nat.pow_le_pow_right (by decide) (by omega)))
    have h2 : i - 17 + 17 = i := by omega
    rw [h2, h1]; simp

theorem and_bit (ip c : BitVec 32) (k : Nat) (hk : k < 32) (hc : ∀ i, i < 32 → c.getLsbD i = decide (i = k)) :
    (ip &&& c) = if ip.getLsbD k then c else 0#32 := by
  apply BitVec.eq_of_getLsbD_eq
  intro i hi
  rw [BitVec.getLsbD_and, hc i hi]
  by_cases h : i = k
  · subst h
    cases hb : ip.getLsbD i <;> simp [hc i hi]
  · split
    · rw [hc i hi]; simp [h]
    · simp [h]

/-- **C39.** An IPv4 address is recognised exactly if it is the address of a node or of a subject, as that one. -/
theorem C39_parse_iff (ip : BitVec 32) (a : Address) : Address.tryFrom ip = some a ↔ a.toIp = ip := by
  have hmask : (ip &&& multicastMask ≠ multicastBase) ↔ ip.toNat / 2 ^ 17 ≠ 0x7780 := by
    rw [Ne, Ne, ← BitVec.toNat_inj, and_mask, show multicastBase.toNat = 0x7780 * 2 ^ 17 from by decide]
    omega
  have hserv : (ip &&& serviceBit = serviceBit) ↔ ip.getLsbD 16 = true := by
    rw [and_bit ip serviceBit 16 (by decide) service_bit]
    cases ip.getLsbD 16
    · simp; decide
    · simp
  have hres : (ip &&& subjectReservedBit ≠ 0#32) ↔ ip.getLsbD 15 = true := by
    rw [and_bit ip subjectReservedBit 15 (by decide) reserved_bit]
    cases ip.getLsbD 15
    · simp
    · simp; decide
  have hb16 : ip.getLsbD 16 = true ↔ ip.toNat / 2 ^ 16 % 2 = 1 := by
    unfold BitVec.getLsbD; rw [Nat.testBit_eq_decide_div_mod_eq]; simp
  have hb15 : ip.getLsbD 15 = true ↔ ip.toNat / 2 ^ 15 % 2 = 1 := by
    unfold BitVec.getLsbD; rw [Nat.testBit_eq_decide_div_mod_eq]; simp
  have hlow : (ip.setWidth 16).toNat = ip.toNat % 2 ^ 16 := BitVec.toNat_setWidth _ _
  have hlt := ip.isLt
  unfold Address.tryFrom
  by_cases h1 : ip &&& multicastMask ≠ multicastBase
  · rw [if_pos h1]
    rw [hmask] at h1
    constructor
    · intro h; cases h
    · intro h
      exfalso
      subst h
      cases a with
      | node x => rw [C39_node_address] at h1; have := x.val.isLt; omega
      | multicast x => rw [C39_subject_address] at h1; have := x.isLt; omega
  · rw [if_neg h1]
    rw [hmask, Decidable.not_not] at h1
    by_cases h2 : ip &&& serviceBit = serviceBit
    · rw [if_pos h2]
      rw [hserv, hb16] at h2
      unfold Verif.Hdr.NodeId16.tryFrom
      by_cases h3 : ip.setWidth 16 = 0xffff#16
      · rw [dif_pos h3]
        have h3' := congrArg BitVec.toNat h3
        rw [hlow] at h3'
        constructor
        · intro h; cases h
        · intro h
          exfalso
          subst h
          cases a with
          | node x =>
            rw [C39_node_address] at h3'
            have hx := x.property
            have : x.val = 0xffff#16 := BitVec.eq_of_toNat_eq (by have := x.val.isLt; simp at h3' ⊢; omega)
            exact hx this
          | multicast x => rw [C39_subject_address] at h2; have := x.isLt; omega
      · rw [dif_neg h3]
        simp only [Option.map_some, Option.some.injEq]
        constructor
        · intro h
          subst h
          apply BitVec.eq_of_toNat_eq
          rw [C39_node_address, hlow]
          omega
        · intro h
          subst h
          cases a with
          | node x =>
            congr 1
            apply Subtype.ext
            apply BitVec.eq_of_toNat_eq
            rw [hlow, C39_node_address]
            have := x.val.isLt
            omega
          | multicast x => exfalso; rw [C39_subject_address] at h2; have := x.isLt; omega
    · rw [if_neg h2]
      rw [hserv, hb16] at h2
      by_cases h3 : ip &&& subjectReservedBit ≠ 0#32
      · rw [if_pos h3]
        rw [hres, hb15] at h3
        constructor
        · intro h; cases h
        · intro h
          exfalso
          subst h
          cases a with
          | node x => rw [C39_node_address] at h2; have := x.val.isLt; omega
          | multicast x => rw [C39_subject_address] at h3; have := x.isLt; omega
      · rw [if_neg h3]
        unfold SubjectId.tryFrom
        rw [hlow]
        by_cases h4 : ip.toNat % 2 ^ 16 ≤ 8191
        · rw [if_pos h4]
          simp only [Option.map_some, Option.some.injEq]
          constructor
          · intro h
            subst h
            apply BitVec.eq_of_toNat_eq
            rw [C39_subject_address, BitVec.toNat_setWidth, hlow]
            omega
          · intro h
            subst h
            cases a with
            | node x => exfalso; rw [C39_node_address] at h2; have := x.val.isLt; omega
            | multicast x =>
              congr 1
              apply BitVec.eq_of_toNat_eq
              rw [BitVec.toNat_setWidth, hlow, C39_subject_address]
              have := x.isLt
              omega
        · rw [if_neg h4]
          constructor
          · intro h; cases h
          · intro h
            exfalso
            subst h
            cases a with
            | node x => rw [C39_node_address] at h2; have := x.val.isLt; omega
            | multicast x => rw [C39_subject_address] at h4; have := x.isLt; omega

/-- **C39.** Every address lies in 239.0.0.0/15. -/
theorem C39_range (a : Address) : a.toIp.toNat / 2 ^ 17 = 0xef000000 / 2 ^ 17 := by
  cases a with
  | node x => rw [C39_node_address]; have := x.val.isLt; omega
  | multicast x => rw [C39_subject_address]; have := x.isLt; omega

/-- Subject 7509 is 239.0.29.85, node 513 is 239.1.2.1; 239.0.128.1 and 239.1.255.255 are not valid. -/
example : (Address.multicast 7509#13).toIp = 0xef001d55#32 ∧ (Address.node ⟨513#16, by decide⟩).toIp = 0xef010201#32 ∧
    Address.tryFrom 0xef010201#32 = some (.node ⟨513#16, by decide⟩) ∧ Address.tryFrom 0xef008001#32 = none ∧
    Address.tryFrom 0xef01ffff#32 = none := by decide +kernel

end Verif.Udp
