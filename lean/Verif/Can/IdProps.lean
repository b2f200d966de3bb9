import Verif.Can.IdLemmas

/-!
Property C04: CAN identifiers.
-/

namespace Verif.Can

/-! ### Specification: the layout of the 29-bit identifier as a number

Bits 28-26 priority; bit 25 service; bit 24 anonymous (message) or request (service); bit 23 zero;
messages: reserved bits 22-21 (both set by a transmitter), subject in bits 20-8 and bit 7 zero; services: service in bits 22-14 and destination in
bits 13-7; source (or pseudo-ID) in bits 6-0. -/

/-- The identifier of a transfer with header `h` whose source field holds `src` and, for a message, whose bits 22-21 hold
`reserved`. -/
def layout (h : CanHeader) (reserved src : Nat) : Nat :=
  match h with
  | .message m =>
    m.priority.toNat * 2 ^ 26 + (if m.source = none then 2 ^ 24 else 0) + reserved * 2 ^ 21 + m.subject.toNat * 2 ^ 8 + src
  | .request s =>
    s.priority.toNat * 2 ^ 26 + 2 ^ 25 + 2 ^ 24 + s.service.toNat * 2 ^ 14 + s.destination.toNat * 2 ^ 7 + src
  | .response s =>
    s.priority.toNat * 2 ^ 26 + 2 ^ 25 + s.service.toNat * 2 ^ 14 + s.destination.toNat * 2 ^ 7 + src

/-- **C04**, encoding: an identifier is always produced, it fits in 29 bits and has the specified layout; the source field
is the node ID of the sender, or for an anonymous message a pseudo-ID that is not one of the two reserved IDs. -/
theorem C04_make_can_id_layout (h : CanHeader) (payload : List Byte) :
    ∃ id src, makeCanId h payload = some id ∧ id.toNat < 2 ^ 29 ∧ id.toNat = layout h 3 src ∧
      (∀ s, h.source = some s → src = s.toNat) ∧ (h.source = none → src < 126) := by
  cases h with
  | message m =>
    have hex : ∃ src : NodeId, sourceField (.message m) payload = some src ∧
        (∀ s, m.source = some s → src = s) ∧ (m.source = none → src.toNat < 126) := by
      unfold sourceField
      simp only [Header.source]
      cases hs : m.source with
      | some s => exact ⟨s, rfl, by simp, by simp⟩
      | none =>
        obtain ⟨s, h1, h2⟩ := makePseudoId_spec payload
        exact ⟨s, h1, by simp, fun _ => h2⟩
    obtain ⟨src, hm, h1, h2⟩ := hex
    have e : (m.source.isNone = true) ↔ m.source = none := Option.isNone_iff_eq_none
    have hl := message_toNat m.priority m.subject src m.source.isNone
    rw [← or_perm_message] at hl
    have bp := m.priority.isLt
    have bj := m.subject.isLt
    have bs := src.isLt
    refine ⟨_, src.toNat, ?_, ?_, hl.trans ?_, ?_, h2⟩
    · rw [makeCanId_message m payload src hm]
      refine canIdTryFrom_lt _ ?_
      rw [hl]
      split <;> omega
    · rw [hl]; split <;> omega
    · simp only [layout, e]
    · intro s hs; rw [h1 s hs]
  | request s =>
    have hl := service_toNat s true
    simp only [if_true] at hl
    rw [← or_perm_request] at hl
    have bp := s.priority.isLt
    have b1 := s.service.isLt
    have b2 := s.destination.isLt
    have b3 := s.source.isLt
    refine ⟨_, s.source.toNat, (makeCanId_request s payload).trans (canIdTryFrom_lt _ (Nat.lt_of_le_of_lt (Nat.le_of_eq hl) (by omega))), Nat.lt_of_le_of_lt (Nat.le_of_eq hl) (by omega), ?_, ?_, ?_⟩
    · rw [layout]; exact hl
    · intro t ht; cases ht; rfl
    · intro ht; cases ht
  | response s =>
    have hl := service_toNat s false
    rw [if_neg (by decide), if_neg (by decide), Nat.add_zero] at hl
    rw [← or_perm_response] at hl
    have bp := s.priority.isLt
    have b1 := s.service.isLt
    have b2 := s.destination.isLt
    have b3 := s.source.isLt
    refine ⟨_, s.source.toNat, (makeCanId_response s payload).trans (canIdTryFrom_lt _ (Nat.lt_of_le_of_lt (Nat.le_of_eq hl) (by omega))), Nat.lt_of_le_of_lt (Nat.le_of_eq hl) (by omega), ?_, ?_, ?_⟩
    · rw [layout]; exact hl
    · intro t ht; cases ht; rfl
    · intro ht; cases ht

/-- **C04**, decoding: a header is accepted exactly when it is the one laid out in the identifier, with any value of the
reserved bits 22-21 of a message, and any value of the source field of an anonymous message. -/
theorem C04_parse_iff (id : BitVec 32) (hid : id.toNat < 2 ^ 29) (ts : Instant) (tid : Tid) (h : CanHeader) :
    parseCanId id ts tid = some (.ok h) ↔
      h.timestamp = ts ∧ h.transferId = tid ∧
      ∃ reserved src, reserved < 4 ∧ src < 2 ^ 7 ∧ id.toNat = layout h reserved src ∧
        (∀ s, h.source = some s → src = s.toNat) := by
  rw [parseCanId_eq id ts tid hid]
  rw [Option.some.injEq]
  constructor
  · intro hp
    split at hp
    · cases hp
    split at hp
    · simp only at hp
      split at hp
      all_goals
        cases hp
        refine ⟨rfl, rfl, 0, id.toNat % 2 ^ 7, by omega, by omega, ?_, ?_⟩
        · simp only [layout, BitVec.toNat_ofNat]; omega
        · intro s hs; cases hs; simp only [BitVec.toNat_ofNat]
    split at hp
    · cases hp
    · cases hp
      refine ⟨rfl, rfl, id.toNat / 2 ^ 21 % 4, id.toNat % 2 ^ 7, by omega, by omega, ?_, ?_⟩
      · simp only [layout, BitVec.toNat_ofNat]
        by_cases h24 : id.toNat / 2 ^ 24 % 2 = 1
        · simp only [h24, if_true]; omega
        · simp only [h24, if_false, reduceCtorEq]; omega
      · intro s hs
        simp only [Header.source] at hs
        split at hs
        · cases hs
        · cases hs; simp only [BitVec.toNat_ofNat]
  · rintro ⟨hts, htid, hi, src, h2, h1, h4, h3⟩
    cases h with
    | message m =>
      obtain ⟨t, i, p, j, so⟩ := m
      simp only [Header.timestamp, Header.transferId] at hts htid
      subst hts htid
      have bp := p.isLt
      have bj := j.isLt
      simp only [layout] at h4
      cases so with
      | none =>
        simp only [if_true] at h4
        rw [if_neg (by omega), if_neg (by omega), if_neg (by omega)]
        congr 3
        · apply BitVec.eq_of_toNat_eq; rw [BitVec.toNat_ofNat]; omega
        · apply BitVec.eq_of_toNat_eq; rw [BitVec.toNat_ofNat]; omega
        · rw [if_pos (by omega)]
      | some s =>
        simp only [reduceCtorEq, if_false] at h4
        have hs := h3 s rfl
        rw [if_neg (by omega), if_neg (by omega), if_neg (by omega)]
        congr 3
        · apply BitVec.eq_of_toNat_eq; rw [BitVec.toNat_ofNat]; omega
        · apply BitVec.eq_of_toNat_eq; rw [BitVec.toNat_ofNat]; omega
        · rw [if_neg (by omega)]
          congr 1
          apply BitVec.eq_of_toNat_eq; rw [BitVec.toNat_ofNat]; omega
    | request m =>
      obtain ⟨t, i, p, j, so, de⟩ := m
      simp only [Header.timestamp, Header.transferId] at hts htid
      subst hts htid
      have bp := p.isLt
      have bj := j.isLt
      have bd := de.isLt
      simp only [layout] at h4
      have hs := h3 so rfl
      rw [if_neg (by omega), if_pos (by omega), if_pos (by omega)]
      congr 3 <;> (apply BitVec.eq_of_toNat_eq; rw [BitVec.toNat_ofNat]; omega)
    | response m =>
      obtain ⟨t, i, p, j, so, de⟩ := m
      simp only [Header.timestamp, Header.transferId] at hts htid
      subst hts htid
      have bp := p.isLt
      have bj := j.isLt
      have bd := de.isLt
      simp only [layout] at h4
      have hs := h3 so rfl
      rw [if_neg (by omega), if_pos (by omega), if_neg (by omega)]
      congr 3 <;> (apply BitVec.eq_of_toNat_eq; rw [BitVec.toNat_ofNat]; omega)

/-- **C04**, rejection: parsing never panics on a 29-bit identifier; it fails exactly when bit 23 is set, or the
identifier is a message (bit 25 clear) with bit 7 set. -/
theorem C04_parse_rejects_iff (id : BitVec 32) (hid : id.toNat < 2 ^ 29) (ts : Instant) (tid : Tid) :
    (∃ r, parseCanId id ts tid = some r) ∧
    ((∃ e, parseCanId id ts tid = some (.error e)) ↔
      id.getLsbD 23 = true ∨ (id.getLsbD 25 = false ∧ id.getLsbD 7 = true)) := by
  rw [parseCanId_eq id ts tid hid]
  refine ⟨⟨_, rfl⟩, ?_⟩
  have hb : ∀ o, id.getLsbD o = decide (id.toNat / 2 ^ o % 2 = 1) := by
    intro o
    rw [BitVec.getLsbD, Nat.testBit_eq_decide_div_mod_eq]
  simp only [hb, Option.some.injEq, decide_eq_true_eq, decide_eq_false_iff_not]
  constructor
  · rintro ⟨e, he⟩
    split at he
    · left; assumption
    split at he
    · split at he <;> cases he
    split at he
    · right; constructor <;> assumption
    · cases he
  · rintro (h | ⟨h1, h2⟩)
    · exact ⟨_, if_pos h⟩
    · by_cases h3 : id.toNat / 2 ^ 23 % 2 = 1
      · exact ⟨_, if_pos h3⟩
      · exact ⟨.bit7Set, by rw [if_neg h3, if_neg h1, if_pos h2]⟩

/-- **C04**, round trip: the identifier made for any header parses back, at any receiver, to exactly that header. -/
theorem C04_can_id_roundtrip (h : CanHeader) (payload : List Byte) :
    ∃ id, makeCanId h payload = some id ∧ id.toNat < 2 ^ 29 ∧
      ∀ ts tid, ∃ h', parseCanId id ts tid = some (.ok h') ∧
        h'.kind = h.kind ∧ h'.priority = h.priority ∧ h'.port = h.port ∧ h'.source = h.source ∧
        h'.destination = h.destination ∧ h'.timestamp = ts ∧ h'.transferId = tid := by
  obtain ⟨id, src, h1, h2, h3, h4, h5⟩ := C04_make_can_id_layout h payload
  refine ⟨id, h1, h2, ?_⟩
  have hsrc : src < 2 ^ 7 := by
    cases hs : h.source with
    | none => have := h5 hs; omega
    | some s => have := h4 s hs; have := s.isLt; omega
  intro ts tid
  cases h with
  | message m =>
    exact ⟨.message { m with timestamp := ts, transferId := tid },
      (C04_parse_iff id h2 ts tid _).mpr ⟨rfl, rfl, 3, src, by omega, hsrc, h3, h4⟩, rfl, rfl, rfl, rfl, rfl, rfl, rfl⟩
  | request m =>
    exact ⟨.request { m with timestamp := ts, transferId := tid },
      (C04_parse_iff id h2 ts tid _).mpr ⟨rfl, rfl, 3, src, by omega, hsrc, h3, h4⟩, rfl, rfl, rfl, rfl, rfl, rfl, rfl⟩
  | response m =>
    exact ⟨.response { m with timestamp := ts, transferId := tid },
      (C04_parse_iff id h2 ts tid _).mpr ⟨rfl, rfl, 3, src, by omega, hsrc, h3, h4⟩, rfl, rfl, rfl, rfl, rfl, rfl, rfl⟩

/-- Concrete case: the heartbeat identifier of the specification (section 4.2.3). -/
example : makeCanId (.message { timestamp := 0, transferId := 0, priority := 4, subject := 7509, source := some 42 }) [] =
    some 0x107d552a#32 := by decide

/-- Concrete case: an anonymous message gets a pseudo-ID and parses back as anonymous. -/
example : parseCanId 0x11733775#32 5 0 =
    some (.ok (.message { timestamp := 5, transferId := 0, priority := 4, subject := 4919, source := none })) := rfl

/-- Concrete case: bit 23 set is rejected. -/
example : parseCanId 0x10fd552a#32 0 0 = some (.error .bit23Set) := rfl

end Verif.Can
