import Verif.Core.Ids
import Verif.Can.IdModel
import Verif.Tool.FilterProps

/-! # C145: what the checked integers hold, and how they are read, written and converted -/

namespace Verif.Ids

open Verif.Parse Verif.Tool

theorem and_last {w k : Nat} (v l : BitVec w) (h : l.toNat = 2 ^ k - 1) : (v &&& l).toNat = v.toNat % 2 ^ k := by
  rw [BitVec.toNat_and, h, Nat.and_two_pow_sub_one_eq_mod]

theorem subject_tryFrom {v : BitVec 16} {id : SubjectId} :
    SubjectId.tryFrom v = some id ↔ v = id.value ∧ v.toNat ≤ 8191 := by
  unfold SubjectId.tryFrom
  have hle : v ≤ lastSubject ↔ v.toNat ≤ 8191 := BitVec.le_def
  simp only [hle]
  cases id
  split
  · simp_all
  · rename_i h; exact ⟨nofun, fun h' => (h h'.2).elim⟩

theorem service_tryFrom {v : BitVec 16} {id : ServiceId} :
    ServiceId.tryFrom v = some id ↔ v = id.value ∧ v.toNat ≤ 511 := by
  unfold ServiceId.tryFrom
  have hle : v ≤ lastService ↔ v.toNat ≤ 511 := BitVec.le_def
  simp only [hle]
  cases id
  split
  · simp_all
  · rename_i h; exact ⟨nofun, fun h' => (h h'.2).elim⟩

theorem node_tryFrom {v : BitVec 8} {id : NodeId} : NodeId.tryFrom v = some id ↔ v = id.value ∧ v.toNat ≤ 127 := by
  unfold NodeId.tryFrom
  have hle : v ≤ lastNode ↔ v.toNat ≤ 127 := BitVec.le_def
  simp only [hle]
  cases id
  split
  · simp_all
  · rename_i h; exact ⟨nofun, fun h' => (h h'.2).elim⟩

theorem node_tryFrom16 {v : BitVec 16} {id : NodeId} :
    NodeId.tryFrom16 v = some id ↔ v.toNat = id.value.toNat ∧ v.toNat ≤ 127 := by
  obtain ⟨x⟩ := id
  unfold NodeId.tryFrom16
  have hle : v ≤ lastNode.setWidth 16 ↔ v.toNat ≤ 127 := BitVec.le_def
  simp only [hle]
  split
  · rename_i h
    simp only [Option.some.injEq, NodeId.mk.injEq, h, and_true]
    rw [← BitVec.toNat_inj, BitVec.toNat_setWidth, Nat.mod_eq_of_lt (by omega)]
  · rename_i h; exact ⟨nofun, fun h' => (h h'.2).elim⟩

theorem transfer_tryFrom {v : BitVec 8} {id : TransferId} :
    TransferId.tryFrom v = some id ↔ v = id.value ∧ v.toNat ≤ 31 := by
  unfold TransferId.tryFrom
  have hle : v ≤ lastTransfer ↔ v.toNat ≤ 31 := BitVec.le_def
  simp only [hle]
  cases id
  split
  · simp_all
  · rename_i h; exact ⟨nofun, fun h' => (h h'.2).elim⟩

theorem subject_fromStr {s : List Char} {id : SubjectId} :
    SubjectId.fromStr s = some id ↔ Number 10 s id.value.toNat ∧ id.value.toNat ≤ 8191 := by
  unfold SubjectId.fromStr
  rw [Option.bind_eq_some_iff]
  constructor
  · rintro ⟨n, h1, h2⟩
    obtain ⟨h1, h3⟩ := fromStrRadix_iff.1 h1
    obtain ⟨h2, h4⟩ := subject_tryFrom.1 h2
    have : n = id.value.toNat := by rw [← h2, BitVec.toNat_ofNat, Nat.mod_eq_of_lt (by omega)]
    rw [h2] at h4
    exact ⟨this ▸ h1, h4⟩
  · rintro ⟨h1, h2⟩
    refine ⟨_, fromStrRadix_iff.2 ⟨h1, by omega⟩, subject_tryFrom.2 ⟨by simp, by simpa using h2⟩⟩

theorem reads_decimal (n : Nat) : Reads 10 (Nat.toDigits 10 n) n := by
  induction n using Nat.strongRecOn with
  | ind n ih =>
    rw [Nat.toDigits_eq_if (by omega)]
    split
    · have := Reads.digit .nil (digitChar_digit n (by omega)) (by assumption)
      simpa using this
    · have := Reads.digit (ih (n / 10) (by omega)) (digitChar_digit (n % 10) (by omega)) (by omega)
      rwa [Nat.div_add_mod'] at this

theorem increment_spec {a : TransferId} (h : a.value.toNat ≤ 31) :
    ∃ b, a.increment = some b ∧ b.value.toNat = (a.value.toNat + 1) % 32 := by
  obtain ⟨x⟩ := a
  unfold TransferId.increment
  simp only at h ⊢
  split
  · rename_i hx; subst hx; exact ⟨_, rfl, rfl⟩
  · rename_i hx
    have hx : x.toNat ≠ 31 := fun h => hx (BitVec.eq_of_toNat_eq h)
    rw [if_neg (by rintro rfl; revert h; decide)]
    refine ⟨_, rfl, ?_⟩
    rw [BitVec.toNat_add]
    have : (1#8).toNat = 1 := rfl
    omega

/-- C145: the IDs of each kind that code outside the crate can get are exactly those whose number is in the range of the
kind. A port ID has the range of a subject ID. -/
theorem C145_range :
    (∀ id : SubjectId, id.Made ↔ id.value.toNat ≤ 8191) ∧ (∀ id : ServiceId, id.Made ↔ id.value.toNat ≤ 511)
    ∧ (∀ id : PortId, id.Made ↔ id.value.toNat ≤ 8191) ∧ (∀ id : NodeId, id.Made ↔ id.value.toNat ≤ 127)
    ∧ (∀ id : TransferId, id.Made ↔ id.value.toNat ≤ 31) := by
  have hs : ∀ id : SubjectId, id.Made ↔ id.value.toNat ≤ 8191 := by
    intro id
    constructor
    · rintro (_ | _ | ⟨v⟩ | h | h | h)
      · simp
      · simp [lastSubject]
      · simp only [SubjectId.fromTruncating]
        rw [and_last (k := 13) _ _ rfl]; omega
      · have := subject_tryFrom.1 h; exact this.1 ▸ this.2
      · exact (subject_fromStr.1 h).2
      · have := subject_tryFrom.1 h; exact this.1 ▸ this.2
    · intro h; exact .tryFrom (subject_tryFrom.2 ⟨rfl, h⟩)
  have hv : ∀ id : ServiceId, id.Made ↔ id.value.toNat ≤ 511 := by
    intro id
    constructor
    · rintro (_ | _ | ⟨v⟩ | h | h)
      · simp
      · simp [lastService]
      · simp only [ServiceId.fromTruncating]
        rw [and_last (k := 9) _ _ rfl]; omega
      · have := service_tryFrom.1 h; exact this.1 ▸ this.2
      · have := service_tryFrom.1 h; exact this.1 ▸ this.2
    · intro h; exact .tryFrom (service_tryFrom.2 ⟨rfl, h⟩)
  refine ⟨hs, hv, fun id => ⟨?_, ?_⟩, fun id => ⟨?_, ?_⟩, fun id => ⟨?_, ?_⟩⟩
  · rintro (h | h)
    · exact (hs _).1 h
    · exact Nat.le_trans ((hv _).1 h) (by omega)
  · intro h
    exact .subject (id := ⟨id.value⟩) ((hs _).2 h)
  · rintro (_ | _ | ⟨v⟩ | h | h)
    · simp
    · simp [lastNode]
    · simp only [NodeId.fromTruncating]
      rw [and_last (k := 7) _ _ rfl]; omega
    · have := node_tryFrom.1 h; exact this.1 ▸ this.2
    · have := node_tryFrom16.1 h; omega
  · intro h; exact .tryFrom (node_tryFrom.2 ⟨rfl, h⟩)
  · intro h
    induction h with
    | default => simp
    | max => simp [lastTransfer]
    | tryFrom h => have := transfer_tryFrom.1 h; exact this.1 ▸ this.2
    | increment _ h ih =>
      obtain ⟨b, h1, h2⟩ := increment_spec ih
      rw [h] at h1
      cases h1
      omega
  · intro h; exact .tryFrom (transfer_tryFrom.2 ⟨rfl, h⟩)

/-- C145: an integer is accepted exactly if it is in range and the ID then has this number; truncating keeps the
remainder, so that it agrees on the integers that are accepted. -/
theorem C145_integers :
    (∀ v id, SubjectId.tryFrom v = some id ↔ v = id.value ∧ v.toNat ≤ 8191)
    ∧ (∀ v id, ServiceId.tryFrom v = some id ↔ v = id.value ∧ v.toNat ≤ 511)
    ∧ (∀ v id, NodeId.tryFrom v = some id ↔ v = id.value ∧ v.toNat ≤ 127)
    ∧ (∀ v id, NodeId.tryFrom16 v = some id ↔ v.toNat = id.value.toNat ∧ v.toNat ≤ 127)
    ∧ (∀ v id, TransferId.tryFrom v = some id ↔ v = id.value ∧ v.toNat ≤ 31)
    ∧ (∀ v, (SubjectId.fromTruncating v).value.toNat = v.toNat % 8192)
    ∧ (∀ v, (ServiceId.fromTruncating v).value.toNat = v.toNat % 512)
    ∧ (∀ v, (NodeId.fromTruncating v).value.toNat = v.toNat % 128) :=
  ⟨fun _ _ => subject_tryFrom, fun _ _ => service_tryFrom, fun _ _ => node_tryFrom, fun _ _ => node_tryFrom16,
    fun _ _ => transfer_tryFrom, fun v => and_last (k := 13) v _ rfl, fun v => and_last (k := 9) v _ rfl,
    fun v => and_last (k := 7) v _ rfl⟩

/-- C145: a text is read as a subject ID exactly if it is a decimal number up to 8191, which may have a `+` and zeros in
front; and what is written for a subject ID is read as the same subject ID. -/
theorem C145_text :
    (∀ s (id : SubjectId), SubjectId.fromStr s = some id ↔ Number 10 s id.value.toNat ∧ id.value.toNat ≤ 8191)
    ∧ ∀ id : SubjectId, id.Made → SubjectId.fromStr id.display = some id := by
  refine ⟨fun _ _ => subject_fromStr, fun id h => subject_fromStr.2 ⟨?_, (C145_range.1 id).1 h⟩⟩
  refine ⟨_, ?_, reads_decimal _, .inl rfl⟩
  exact Nat.toDigits_ne_nil

/-- C145: a subject or service ID survives being made a port ID. A port ID does not tell which of the two it was made
from: it is always accepted as a subject ID, and as a service ID exactly if its number is at most 511. -/
theorem C145_ports :
    (∀ id : SubjectId, id.Made → (PortId.ofSubject id).toSubject = some id)
    ∧ (∀ id : ServiceId, id.Made → (PortId.ofService id).toService = some id)
    ∧ (∀ p : PortId, p.Made → ∃ id : SubjectId, p.toSubject = some id ∧ id.value = p.value)
    ∧ (∀ p : PortId, p.Made → (p.toService.isSome ↔ p.value.toNat ≤ 511)) := by
  refine ⟨fun id h => subject_tryFrom.2 ⟨rfl, (C145_range.1 id).1 h⟩,
    fun id h => service_tryFrom.2 ⟨rfl, (C145_range.2.1 id).1 h⟩,
    fun p h => ⟨⟨p.value⟩, subject_tryFrom.2 ⟨rfl, (C145_range.2.2.1 p).1 h⟩, rfl⟩, fun p _ => ?_⟩
  rw [Option.isSome_iff_exists]
  constructor
  · rintro ⟨id, h⟩; exact (service_tryFrom.1 h).2
  · intro h; exact ⟨⟨p.value⟩, service_tryFrom.2 ⟨rfl, h⟩⟩

/-- C145: the increment of a transfer ID never overflows and is the next number modulo 32. -/
theorem C145_increment (a : TransferId) (h : a.Made) :
    ∃ b, a.increment = some b ∧ b.Made ∧ b.value.toNat = (a.value.toNat + 1) % 32 := by
  obtain ⟨b, h1, h2⟩ := increment_spec ((C145_range.2.2.2.2 a).1 h)
  exact ⟨b, h1, .increment h h1, h2⟩

/-- C145: a port ID does not record its kind: the port ID of a service is accepted as a subject ID, and it equals the port ID of
that subject. -/
theorem C145_kind_lost :
    ∃ (service : ServiceId) (subject : SubjectId), service.Made ∧ subject.Made
      ∧ PortId.ofService service = PortId.ofSubject subject ∧ (PortId.ofService service).toSubject = some subject :=
  ⟨⟨430#16⟩, ⟨430#16⟩, (C145_range.2.1 _).2 (by decide), (C145_range.1 _).2 (by decide), rfl, rfl⟩

/-- C145: the bit vectors that stand for the IDs elsewhere in the model are these IDs: keeping only the bits of the range is
a one-to-one correspondence between the IDs that can be got and the bit vectors, and goes along with the functions. -/
theorem C145_bit_vectors :
    (∀ v, Verif.SubjectId.tryFrom v = (SubjectId.tryFrom v).map fun id => id.value.setWidth 13)
    ∧ (∀ v, Verif.ServiceId.tryFrom v = (ServiceId.tryFrom v).map fun id => id.value.setWidth 9)
    ∧ (∀ v, Verif.Can.NodeId.tryFrom v = (NodeId.tryFrom v).map fun id => id.value.setWidth 7)
    ∧ (∀ v, Verif.Can.NodeId.fromTruncating v = (NodeId.fromTruncating v).value.setWidth 7)
    ∧ (∀ v, Verif.Can.Tid.tryFrom v = (TransferId.tryFrom v).map fun id => id.value.setWidth 5)
    ∧ (∀ a : TransferId, a.Made → some (Verif.Can.Tid.increment (a.value.setWidth 5)) = a.increment.map fun id => id.value.setWidth 5)
    ∧ (∀ a b : SubjectId, a.Made → b.Made → a.value.setWidth 13 = b.value.setWidth 13 → a = b)
    ∧ (∀ a b : ServiceId, a.Made → b.Made → a.value.setWidth 9 = b.value.setWidth 9 → a = b)
    ∧ (∀ a b : NodeId, a.Made → b.Made → a.value.setWidth 7 = b.value.setWidth 7 → a = b)
    ∧ (∀ a b : TransferId, a.Made → b.Made → a.value.setWidth 5 = b.value.setWidth 5 → a = b) := by
  have inj : ∀ {w k : Nat} {a b : BitVec w}, a.toNat < 2 ^ k → b.toNat < 2 ^ k → a.setWidth k = b.setWidth k → a = b := by
    intro w k a b ha hb h
    have := congrArg BitVec.toNat h
    rw [BitVec.toNat_setWidth, BitVec.toNat_setWidth, Nat.mod_eq_of_lt ha, Nat.mod_eq_of_lt hb] at this
    exact BitVec.eq_of_toNat_eq this
  obtain ⟨hs, hv, -, hn, ht⟩ := C145_range
  refine ⟨fun v => ?_, fun v => ?_, fun v => ?_, fun v => rfl, fun v => ?_, fun a ha => ?_, ?_, ?_, ?_, ?_⟩
  · unfold Verif.SubjectId.tryFrom SubjectId.tryFrom
    have hle : v ≤ lastSubject ↔ v.toNat ≤ 8191 := BitVec.le_def
    simp only [hle]
    split <;> rfl
  · unfold Verif.ServiceId.tryFrom ServiceId.tryFrom
    have hle : v ≤ lastService ↔ v.toNat ≤ 511 := BitVec.le_def
    simp only [hle]
    split <;> rfl
  · unfold Verif.Can.NodeId.tryFrom NodeId.tryFrom
    have hle : v ≤ lastNode ↔ v.toNat ≤ 127 := BitVec.le_def
    simp only [hle]
    split <;> rfl
  · unfold Verif.Can.Tid.tryFrom TransferId.tryFrom
    have hle : v ≤ lastTransfer ↔ v.toNat ≤ 31 := BitVec.le_def
    simp only [hle]
    split <;> rfl
  · obtain ⟨b, h1, h2⟩ := increment_spec ((ht a).1 ha)
    have ha := (ht a).1 ha
    rw [h1]
    refine congrArg some (BitVec.eq_of_toNat_eq ?_)
    unfold Verif.Can.Tid.increment
    have h1 : (1#5).toNat = 1 := rfl
    have h0 : (0#5).toNat = 0 := rfl
    have hb : (b.value.setWidth 5).toNat = (a.value.toNat + 1) % 32 % 2 ^ 5 := by rw [BitVec.toNat_setWidth, h2]
    refine Eq.trans ?_ hb.symm
    rw [BitVec.toNat_setWidth]
    split
    · rw [h0]; omega
    · rw [BitVec.toNat_add, BitVec.toNat_setWidth, h1]; omega
  · rintro ⟨a⟩ ⟨b⟩ ha hb h
    exact congrArg _ (inj (Nat.lt_succ_of_le ((hs _).1 ha)) (Nat.lt_succ_of_le ((hs _).1 hb)) h)
  · rintro ⟨a⟩ ⟨b⟩ ha hb h
    exact congrArg _ (inj (Nat.lt_succ_of_le ((hv _).1 ha)) (Nat.lt_succ_of_le ((hv _).1 hb)) h)
  · rintro ⟨a⟩ ⟨b⟩ ha hb h
    exact congrArg _ (inj (Nat.lt_succ_of_le ((hn _).1 ha)) (Nat.lt_succ_of_le ((hn _).1 hb)) h)
  · rintro ⟨a⟩ ⟨b⟩ ha hb h
    exact congrArg _ (inj (Nat.lt_succ_of_le ((ht _).1 ha)) (Nat.lt_succ_of_le ((ht _).1 hb)) h)

/-! ### Cases -/

example : SubjectId.fromStr "+07509".toList = some ⟨7509#16⟩ := by decide +kernel
example : SubjectId.fromStr "8192".toList = none := by decide +kernel
example : SubjectId.fromStr "70000".toList = none := by decide +kernel
example : SubjectId.display ⟨7509#16⟩ = "7509".toList := by decide +kernel
example : (SubjectId.fromTruncating 0xffff#16) = ⟨8191#16⟩ := by decide
example : NodeId.tryFrom16 0x105#16 = none := by decide
example : TransferId.increment ⟨31#8⟩ = some ⟨0#8⟩ := by decide
example : (⟨7509#16⟩ : SubjectId).Made := .tryFrom (v := 7509#16) (by decide)

end Verif.Ids
