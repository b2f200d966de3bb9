import Verif.Can.TidModel

/-! C16: the CAN transfer-ID tracker counts per destination. -/

namespace Verif.Can

theorem setBit_spec (ids : List (BitVec 32)) (k : Nat) (b : Bool) (hk : k < 32 * ids.length) :
    ∃ ids', setBit ids k b = some ids' ∧ ids'.length = ids.length ∧
      ∀ j, bitAt ids' j = if j = k then some b else bitAt ids j := by
  have hlt : k / 32 < ids.length := by omega
  unfold setBit
  rw [List.getElem?_eq_getElem hlt]
  refine ⟨_, rfl, by simp, ?_⟩
  intro j
  unfold bitAt
  by_cases hw : j / 32 = k / 32
  · rw [hw, List.getElem?_set_self hlt, List.getElem?_eq_getElem hlt, Option.map_some, Option.map_some]
    by_cases hj : j = k
    · subst hj
      rw [if_pos rfl]
      have hm : j % 32 < 32 := by omega
      cases b <;> simp [-BitVec.getLsbD_eq_getElem, BitVec.getLsbD_and, BitVec.getLsbD_or, BitVec.getLsbD_not, BitVec.getLsbD_shiftLeft, hm]
    · rw [if_neg hj]
      have hm : j % 32 < 32 := by omega
      have hmk : k % 32 < 32 := by omega
      have hd : j % 32 ≠ k % 32 := by omega
      congr 1
      cases b <;> simp only [BitVec.getLsbD_and, BitVec.getLsbD_or, BitVec.getLsbD_not, BitVec.getLsbD_shiftLeft, hm,
        decide_true, Bool.true_and, BitVec.getLsbD_one, if_true, if_false, Bool.false_eq_true]
      · by_cases hlt : j % 32 < k % 32
        · simp [hlt]
        · have : j % 32 - k % 32 ≠ 0 := by omega
          simp [hlt, this]
      · by_cases hlt : j % 32 < k % 32
        · simp [hlt]
        · have : j % 32 - k % 32 ≠ 0 := by omega
          simp [hlt, this]
  · rw [List.getElem?_set_ne (fun h => hw h.symm), if_neg (by rintro rfl; exact hw rfl)]

theorem storeBits_spec (n : Nat) (ids : List (BitVec 32)) (offset v : Nat) (h : offset + n ≤ 32 * ids.length) :
    ∃ ids', storeBits ids offset n v = some ids' ∧ ids'.length = ids.length ∧
      (∀ j, j < offset ∨ offset + n ≤ j → bitAt ids' j = bitAt ids j) ∧
      (∀ i, i < n → bitAt ids' (offset + i) = some (decide (v / 2 ^ i % 2 = 1))) := by
  induction n generalizing ids offset v with
  | zero => exact ⟨ids, rfl, rfl, fun _ _ => rfl, by omega⟩
  | succ n ih =>
    obtain ⟨ids1, h1, h2, h3⟩ := setBit_spec ids offset (decide (v % 2 = 1)) (by omega)
    obtain ⟨ids2, h4, h5, h6, h7⟩ := ih ids1 (offset + 1) (v / 2) (by rw [h2]; omega)
    refine ⟨ids2, by simp only [storeBits, h1]; exact h4, by rw [h5, h2], ?_, ?_⟩
    · intro j hj
      rw [h6 j (by omega), h3, if_neg (by omega)]
    · intro i hi
      cases i with
      | zero => rw [h6 _ (by omega), h3]; simp
      | succ i =>
        have := h7 i (by omega)
        rw [show offset + (i + 1) = offset + 1 + i by omega, this, Nat.div_div_eq_div_mul, Nat.pow_succ, Nat.mul_comm 2]

theorem loadBits_congr (n : Nat) (ids ids' : List (BitVec 32)) (offset : Nat)
    (h : ∀ i, i < n → bitAt ids' (offset + i) = bitAt ids (offset + i)) : loadBits ids' offset n = loadBits ids offset n := by
  induction n generalizing offset with
  | zero => rfl
  | succ n ih =>
    have h0 := h 0 (by omega)
    simp only [Nat.add_zero] at h0
    simp only [loadBits, h0]
    rw [ih (offset + 1) (fun i hi => by have := h (i + 1) (by omega); rwa [show offset + (i + 1) = offset + 1 + i by omega] at this)]

theorem loadBits_value (n : Nat) (ids : List (BitVec 32)) (offset v : Nat) (hv : v < 2 ^ n)
    (h : ∀ i, i < n → bitAt ids (offset + i) = some (decide (v / 2 ^ i % 2 = 1))) : loadBits ids offset n = some v := by
  induction n generalizing offset v with
  | zero => simp at hv; subst hv; rfl
  | succ n ih =>
    have h0 := h 0 (by omega)
    simp only [Nat.add_zero, Nat.pow_zero, Nat.div_one] at h0
    have ht := ih (offset + 1) (v / 2) (by rw [Nat.pow_succ] at hv; omega) (fun i hi => by
      have := h (i + 1) (by omega)
      rw [show offset + (i + 1) = offset + 1 + i by omega] at this
      rw [this, Nat.div_div_eq_div_mul, Nat.pow_succ, Nat.mul_comm 2])
    simp only [loadBits, h0, ht]
    congr 1
    by_cases hp : v % 2 = 1 <;> simp [hp] <;> omega

/-- Ask for transfer IDs for destinations one after the other. -/
def CanTransferIdTracker.run : CanTransferIdTracker → List (BitVec 7) → Option (CanTransferIdTracker × List (BitVec 5))
  | t, [] => some (t, [])
  | t, d :: ds =>
    match t.nextTransferId d with
    | none => none
    | some (t, id) => (t.run ds).map (fun p => (p.1, id :: p.2))

/-- The tracker stores the counts `c` modulo 32. -/
def CanTransferIdTracker.Stores (t : CanTransferIdTracker) (c : BitVec 7 → Nat) : Prop :=
  t.ids.length = 20 ∧ ∀ d : BitVec 7, loadBits t.ids (d.toNat * 5) 5 = some (c d % 32)

theorem tracker_step (t : CanTransferIdTracker) (c : BitVec 7 → Nat) (h : t.Stores c) (d : BitVec 7) :
    ∃ t', t.nextTransferId d = some (t', BitVec.ofNat 5 (c d)) ∧ t'.Stores (fun e => if e = d then c e + 1 else c e) := by
  obtain ⟨hlen, hload⟩ := h
  have hd := d.isLt
  obtain ⟨ids', h1, h2, h3, h4⟩ := storeBits_spec 5 t.ids (d.toNat * 5) (BitVec.ofNat 5 (c d % 32) + 1#5).toNat (by omega)
  refine ⟨{ ids := ids' }, ?_, by simp [h2, hlen], ?_⟩
  · unfold CanTransferIdTracker.nextTransferId
    simp only [hload d]
    rw [if_pos (by omega), h1]
    simp only [Option.some.injEq, Prod.mk.injEq, true_and]
    apply BitVec.eq_of_toNat_eq
    simp only [BitVec.toNat_ofNat]
    omega
  · intro e
    by_cases he : e = d
    · subst he
      simp only [if_true]
      have := loadBits_value 5 ids' (e.toNat * 5) (BitVec.ofNat 5 (c e % 32) + 1#5).toNat (BitVec.isLt _) h4
      rw [this]
      congr 1
      simp only [BitVec.toNat_add, BitVec.toNat_ofNat]
      omega
    · have hne : e.toNat ≠ d.toNat := fun h => he (BitVec.eq_of_toNat_eq h)
      simp only [if_neg he]
      rw [← hload e]
      exact loadBits_congr 5 _ _ _ (fun i hi => h3 _ (by omega))

theorem tracker_run (ds : List (BitVec 7)) (t : CanTransferIdTracker) (c : BitVec 7 → Nat) (h : t.Stores c) :
    ∃ t' ids, t.run ds = some (t', ids) ∧ ids.length = ds.length ∧
      ∀ k d, ds[k]? = some d → ids[k]? = some (BitVec.ofNat 5 (c d + (ds.take k).count d)) := by
  induction ds generalizing t c with
  | nil => exact ⟨t, [], rfl, rfl, by simp⟩
  | cons d ds ih =>
    obtain ⟨t1, h1, h2⟩ := tracker_step t c h d
    obtain ⟨t', ids, h3, h4, h5⟩ := ih t1 _ h2
    refine ⟨t', BitVec.ofNat 5 (c d) :: ids, by simp [CanTransferIdTracker.run, h1, h3], by simp [h4], ?_⟩
    intro k e hk
    cases k with
    | zero =>
      simp only [List.getElem?_cons_zero, Option.some.injEq] at hk
      subst hk
      simp
    | succ k =>
      simp only [List.getElem?_cons_succ] at hk ⊢
      rw [h5 k e hk, List.take_succ_cons, List.count_cons]
      congr 2
      by_cases he : e = d
      · subst he; simp; omega
      · have : ¬ d = e := fun h => he h.symm
        simp [he, this]

theorem default_stores : CanTransferIdTracker.default.Stores (fun _ => 0) := by
  refine ⟨rfl, ?_⟩
  decide +kernel

/-- **C16.** For any sequence of requests to a new tracker, there is no panic, and the ID handed out for a request is the
number of earlier requests for the same destination modulo 32, whatever was asked for other destinations in between. -/
theorem C16_transfer_ids_count_per_destination (ds : List (BitVec 7)) :
    ∃ t' ids, CanTransferIdTracker.default.run ds = some (t', ids) ∧ ids.length = ds.length ∧
      ∀ k d, ds[k]? = some d → ids[k]? = some (BitVec.ofNat 5 ((ds.take k).count d)) := by
  obtain ⟨t', ids, h1, h2, h3⟩ := tracker_run ds _ _ default_stores
  exact ⟨t', ids, h1, h2, fun k d h => by rw [h3 k d h, Nat.zero_add]⟩

/-- Interleaved requests for destinations 6, 7 (whose counters straddle a word boundary) and 127; the counter for 6 wraps. -/
example : (CanTransferIdTracker.default.run (List.replicate 33 6#7 ++ [7#7, 127#7, 6#7, 7#7, 127#7])).map (fun p => p.2.drop 31) =
    some [31#5, 0#5, 0#5, 0#5, 1#5, 1#5, 1#5] := by decide +kernel

end Verif.Can
