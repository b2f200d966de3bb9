import Verif.Hdr.Model

/-! Properties C25 and C26: the 24-byte header of the serial and UDP transports. -/

namespace Verif.Hdr

open Verif.Crc (crc16 be16 bitsMsb DifferInWindow)

/-- Header to bytes: `RawHeader::from` and `as_bytes`, as used by both transmitters. -/
def encode (h : TransportHeader) : List Byte := (RawHeader.ofHeader h).asBytes

/-- Bytes to header: `read_from_bytes` and `Header::try_from`, as used by both receivers. -/
def decode (bs : List Byte) : Option TransportHeader := (RawHeader.fromBytes bs).bind TransportHeader.tryFrom

theorem fieldBytes_length (h : RawHeader) : h.fieldBytes.length = 22 := by simp [RawHeader.fieldBytes]

theorem asBytes_length (h : RawHeader) : h.asBytes.length = 24 := by
  simp [RawHeader.asBytes, fieldBytes_length, be16]

theorem ofNat_leNat_leBytes (k : Nat) (v : BitVec (8 * k)) : BitVec.ofNat (8 * k) (leNat (leBytes k v.toNat)) = v := by
  apply BitVec.eq_of_toNat_eq
  rw [leNat_leBytes, BitVec.toNat_ofNat]
  have : (256 : Nat) ^ k = 2 ^ (8 * k) := by rw [Nat.pow_mul]
  rw [this, Nat.mod_mod]
  exact Nat.mod_eq_of_lt v.isLt

theorem be16_back (v : BitVec 16) : BitVec.ofNat 16 (leNat [v.setWidth 8, (v >>> 8).setWidth 8]) = v := by
  apply BitVec.eq_of_toNat_eq
  have := v.isLt
  simp only [leNat, BitVec.toNat_ofNat, BitVec.toNat_setWidth, BitVec.toNat_ushiftRight, Nat.shiftRight_eq_div_pow]
  omega

theorem fromBytes_asBytes (h : RawHeader) : RawHeader.fromBytes h.asBytes = some h := by
  have h2 := ofNat_leNat_leBytes 2
  have h4 := ofNat_leNat_leBytes 4 h.frameIndexEot
  have h8 := ofNat_leNat_leBytes 8 h.transferId
  have hb := be16_back h.headerChecksum
  have a1 := h2 h.sourceNodeId
  have a2 := h2 h.destinationNodeId
  have a3 := h2 h.dataSpecifier
  have a4 := h2 h.data
  simp only [leBytes] at h4 h8 a1 a2 a3 a4
  simp only [RawHeader.asBytes, RawHeader.fieldBytes, leBytes, be16, List.cons_append, List.nil_append, RawHeader.fromBytes]
  cases h
  simp only at *
  rw [hb]
  congr 2

theorem leBytes_ofNat (k : Nat) (bs : List Byte) (hb : bs.length = k) :
    leBytes k (BitVec.ofNat (8 * k) (leNat bs)).toNat = bs := by
  subst hb
  have h1 := leNat_lt bs
  have : (256 : Nat) ^ bs.length = 2 ^ (8 * bs.length) := by rw [Nat.pow_mul]
  rw [BitVec.toNat_ofNat, Nat.mod_eq_of_lt (by omega), leBytes_leNat]

theorem asBytes_fromBytes {bs : List Byte} {h : RawHeader} (hb : RawHeader.fromBytes bs = some h) : h.asBytes = bs := by
  unfold RawHeader.fromBytes at hb
  split at hb
  · cases hb
    rename_i b0 b1 b2 b3 b4 b5 b6 b7 b8 b9 b10 b11 b12 b13 b14 b15 b16 b17 b18 b19 b20 b21 b22 b23
    simp only [RawHeader.asBytes, RawHeader.fieldBytes]
    rw [leBytes_ofNat 2 [b2, b3] rfl, leBytes_ofNat 2 [b4, b5] rfl, leBytes_ofNat 2 [b6, b7] rfl,
      leBytes_ofNat 8 [b8, b9, b10, b11, b12, b13, b14, b15] rfl, leBytes_ofNat 4 [b16, b17, b18, b19] rfl,
      leBytes_ofNat 2 [b20, b21] rfl]
    have h1 : ∀ (x y : Byte), be16 (BitVec.ofNat 16 (leNat [x, y])) = [y, x] := by
      intro x y
      have hx := x.isLt
      have hy := y.isLt
      unfold be16
      congr 1
      · apply BitVec.eq_of_toNat_eq
        simp only [leNat, BitVec.toNat_ofNat, BitVec.toNat_setWidth, BitVec.toNat_ushiftRight, Nat.shiftRight_eq_div_pow]
        omega
      · congr 1
        apply BitVec.eq_of_toNat_eq
        simp only [leNat, BitVec.toNat_ofNat, BitVec.toNat_setWidth]
        omega
    rw [h1]
    rfl
  · cases hb

theorem fromBytes_length {bs : List Byte} {h : RawHeader} (hb : RawHeader.fromBytes bs = some h) : bs.length = 24 := by
  rw [← asBytes_fromBytes hb, asBytes_length]

/-- **C25.** The encoded form of a header is 24 bytes with a valid checksum (the `debug_assert!` in the encoder holds). -/
theorem C25_checksum_valid (h : TransportHeader) : (encode h).length = 24 ∧ crc16 (encode h) = 0#16 := by
  refine ⟨asBytes_length _, ?_⟩
  have hb : encode h = (RawHeader.ofHeader h).fieldBytes ++ be16 (crc16 (RawHeader.ofHeader h).fieldBytes) := by
    unfold encode RawHeader.asBytes
    congr 2
  rw [hb]
  exact (Verif.Crc.C01_crc16_residue_zero_iff _ _ _).mpr rfl

theorem checkNodeId_field (id : Option NodeId16) : checkNodeId (nodeIdField id) = some id := by
  cases id with
  | none => rfl
  | some v =>
    obtain ⟨v, hv⟩ := v
    have h1 : nodeIdField (some ⟨v, hv⟩) = v := rfl
    unfold checkNodeId
    rw [h1, if_neg (show ¬ v = nodeIdReserved from hv)]
    unfold NodeId16.tryFrom
    rw [dif_neg hv]
    rfl

theorem priority_field : ∀ p : Priority, Priority.tryFrom (p.setWidth 8) = some p := by decide +kernel

theorem subject_field (v : SubjectId) : (v.setWidth 16) &&& serviceNotMessage ≠ serviceNotMessage ∧
    SubjectId.tryFrom ((v.setWidth 16) &&& ~~~serviceNotMessage) = some v := by
  have hlt : (v.setWidth 16).toNat = v.toNat := by
    have := v.isLt
    simp only [BitVec.toNat_setWidth]; omega
  have hbit : (v.setWidth 16).getLsbD 15 = false := by simp
  have hand : (v.setWidth 16) &&& ~~~serviceNotMessage = v.setWidth 16 := by
    apply BitVec.eq_of_getLsbD_eq
    intro i hi
    simp only [BitVec.getLsbD_and, BitVec.getLsbD_not, BitVec.getLsbD_setWidth, serviceNotMessage]
    have : ∀ i : Fin 16, (0x8000#16).getLsbD i.val = decide (i.val = 15) := by decide
    rw [this ⟨i, hi⟩]
    by_cases h : i = 15
    · subst h; simp
    · simp [h, hi]
  constructor
  · intro h
    have := congrArg (fun x => x.getLsbD 15) h
    simp only [BitVec.getLsbD_and, hbit] at this
    exact absurd this (by decide)
  · rw [hand]
    unfold SubjectId.tryFrom
    have := v.isLt
    rw [hlt, if_pos (by omega)]
    congr 1
    apply BitVec.eq_of_toNat_eq
    simp only [BitVec.toNat_setWidth]
    omega

theorem service_field : ∀ v : ServiceId,
    ((serviceNotMessage ||| requestNotResponse ||| v.setWidth 16) &&& serviceNotMessage = serviceNotMessage ∧
     (serviceNotMessage ||| requestNotResponse ||| v.setWidth 16) &&& requestNotResponse = requestNotResponse ∧
     ServiceId.tryFrom ((serviceNotMessage ||| requestNotResponse ||| v.setWidth 16) &&& ~~~(serviceNotMessage ||| requestNotResponse)) = some v) ∧
    ((serviceNotMessage ||| v.setWidth 16) &&& serviceNotMessage = serviceNotMessage ∧
     (serviceNotMessage ||| v.setWidth 16) &&& requestNotResponse ≠ requestNotResponse ∧
     ServiceId.tryFrom ((serviceNotMessage ||| v.setWidth 16) &&& ~~~(serviceNotMessage ||| requestNotResponse)) = some v) := by
  decide +kernel

theorem parse_field (d : DataSpecifier) : parseSpecifier (specifierField d) d.source d.destination = some d := by
  cases d with
  | subject source subject =>
    obtain ⟨h1, h2⟩ := subject_field subject
    rw [show specifierField (.subject source subject) = subject.setWidth 16 from rfl]
    unfold parseSpecifier
    rw [if_neg h1, h2]
    rfl
  | request source to service =>
    obtain ⟨⟨h1, h2, h3⟩, -⟩ := service_field service
    rw [show specifierField (.request source to service) = serviceNotMessage ||| requestNotResponse ||| service.setWidth 16 from rfl]
    unfold parseSpecifier
    rw [if_pos h1, h3]
    simp only [DataSpecifier.source, DataSpecifier.destination]
    rw [if_pos h2]
  | response source to service =>
    obtain ⟨-, ⟨h1, h2, h3⟩⟩ := service_field service
    rw [show specifierField (.response source to service) = serviceNotMessage ||| service.setWidth 16 from rfl]
    unfold parseSpecifier
    rw [if_pos h1, h3]
    simp only [DataSpecifier.source, DataSpecifier.destination]
    rw [if_neg h2]

theorem flag_bit (i : Nat) (hi : i < 32) : lastFrameFlag.getLsbD i = decide (i = 31) := by
  have : ∀ i : Fin 32, lastFrameFlag.getLsbD i.val = decide (i.val = 31) := by decide
  exact this ⟨i, hi⟩

theorem index_field (v : BitVec 32) (hv : v.toNat < 2 ^ 31) (b : Bool) :
    (v ||| (if b then lastFrameFlag else 0#32)) &&& ~~~lastFrameFlag = v ∧
    (((v ||| (if b then lastFrameFlag else 0#32)) &&& lastFrameFlag) != 0#32) = b := by
  have h31 : v.getLsbD 31 = false := by
    rw [BitVec.getLsbD, Nat.testBit_lt_two_pow hv]
  constructor
  · apply BitVec.eq_of_getLsbD_eq
    intro i hi
    simp only [BitVec.getLsbD_and, BitVec.getLsbD_or, BitVec.getLsbD_not, flag_bit i hi, hi]
    by_cases h : i = 31
    · subst h; simp [h31, -BitVec.getLsbD_eq_getElem]
    · cases b <;> simp [h, flag_bit i hi]
  · cases b with
    | true =>
      simp only [if_true, bne_iff_ne, ne_eq]
      intro h
      have := congrArg (fun x => x.getLsbD 31) h
      simp [flag_bit, -BitVec.getLsbD_eq_getElem] at this
    | false =>
      simp only [Bool.false_eq_true, if_false, bne_eq_false_iff_eq]
      apply BitVec.eq_of_getLsbD_eq
      intro i hi
      simp only [BitVec.getLsbD_and, BitVec.getLsbD_or, flag_bit i hi]
      by_cases h : i = 31
      · subst h; simp [h31, -BitVec.getLsbD_eq_getElem]
      · simp [h]

/-- **C25.** Every header whose frame index is below `2^31` is decoded from its encoding. (The top bit of the index field is
the end-of-transfer flag, so a larger index cannot be represented.) -/
theorem C25_header_roundtrip (h : TransportHeader) (hi : h.frameIndex.toNat < 2 ^ 31) : decode (encode h) = some h := by
  unfold decode encode
  rw [fromBytes_asBytes]
  have hck : (RawHeader.ofHeader h).checksumValid = true := by
    unfold RawHeader.checksumValid
    have h2 : crc16 (RawHeader.ofHeader h).asBytes = 0#16 := (C25_checksum_valid h).2
    rw [h2]; rfl
  obtain ⟨i1, i2⟩ := index_field h.frameIndex hi h.lastFrame
  simp only [Option.bind_some, TransportHeader.tryFrom]
  rw [if_neg (by simp [RawHeader.ofHeader]), hck]
  have e1 : (RawHeader.ofHeader h).priority = h.priority.setWidth 8 := rfl
  have e2 : (RawHeader.ofHeader h).sourceNodeId = nodeIdField h.dataSpecifier.source := rfl
  have e3 : (RawHeader.ofHeader h).destinationNodeId = nodeIdField h.dataSpecifier.destination := rfl
  have e4 : (RawHeader.ofHeader h).dataSpecifier = specifierField h.dataSpecifier := rfl
  have e5 : (RawHeader.ofHeader h).frameIndex = h.frameIndex := i1
  have e6 : (RawHeader.ofHeader h).isLastFrame = h.lastFrame := i2
  simp only [Bool.not_true, Bool.false_eq_true, if_false, e1, e2, e3, e4, e5, e6, priority_field, checkNodeId_field, parse_field]
  rfl

/-- **C25.** Converting a transfer header for transmission and back keeps everything but the timestamp. -/
theorem C25_core_roundtrip (h : Header NodeId16 Tid64) (now : Instant) :
    (TransportHeader.ofCore h).asCoreHeader now = h.setTimestamp now := by
  cases h <;> rfl

/-- The 24 bytes are a header the receivers may accept: version 1, a valid checksum, a priority below 8, and either a subject
in range, or a service in range between two nodes. -/
structure WellFormed (bs : List Byte) : Prop where
  length : bs.length = 24
  version : bs[0]? = some 1#8
  checksum : crc16 bs = 0#16
  priority : ∀ b, bs[1]? = some b → b.toNat < 8
  /-- Bit 15 clear: a subject ID up to 8191. -/
  subject : leNat ((bs.drop 6).take 2) < 2 ^ 15 → leNat ((bs.drop 6).take 2) < 2 ^ 13
  /-- Bit 15 set: a service ID up to 511 in the lower 14 bits, and both node IDs present. -/
  service : 2 ^ 15 ≤ leNat ((bs.drop 6).take 2) → leNat ((bs.drop 6).take 2) % 2 ^ 14 < 2 ^ 9 ∧
    leNat ((bs.drop 2).take 2) ≠ 0xffff ∧ leNat ((bs.drop 4).take 2) ≠ 0xffff

theorem fromBytes_some {bs : List Byte} (h : bs.length = 24) : ∃ raw, RawHeader.fromBytes bs = some raw := by
  match bs, h with
  | [_, _, _, _, _, _, _, _, _, _, _, _, _, _, _, _, _, _, _, _, _, _, _, _], _ => exact ⟨_, rfl⟩

/-- The fields of the raw header, by position. -/
structure Positions (bs : List Byte) (raw : RawHeader) : Prop where
  version : bs[0]? = some raw.version
  priority : bs[1]? = some raw.priority
  source : leNat ((bs.drop 2).take 2) = raw.sourceNodeId.toNat
  destination : leNat ((bs.drop 4).take 2) = raw.destinationNodeId.toNat
  specifier : leNat ((bs.drop 6).take 2) = raw.dataSpecifier.toNat
  transferId : leNat ((bs.drop 8).take 8) = raw.transferId.toNat
  index : leNat ((bs.drop 16).take 4) = raw.frameIndexEot.toNat
  data : leNat ((bs.drop 20).take 2) = raw.data.toNat

theorem toNat_leNat (k : Nat) (bs : List Byte) (hb : bs.length = k) : leNat bs = (BitVec.ofNat (8 * k) (leNat bs)).toNat := by
  subst hb
  have h1 := leNat_lt bs
  have : (256 : Nat) ^ bs.length = 2 ^ (8 * bs.length) := by rw [Nat.pow_mul]
  rw [BitVec.toNat_ofNat, Nat.mod_eq_of_lt (by omega)]

theorem positions {bs : List Byte} {raw : RawHeader} (h : RawHeader.fromBytes bs = some raw) : Positions bs raw := by
  unfold RawHeader.fromBytes at h
  split at h
  · cases h
    exact ⟨rfl, rfl, toNat_leNat 2 _ rfl, toNat_leNat 2 _ rfl, toNat_leNat 2 _ rfl, toNat_leNat 8 _ rfl, toNat_leNat 4 _ rfl,
      toNat_leNat 2 _ rfl⟩
  · cases h

theorem and_service (v : BitVec 16) : v &&& serviceNotMessage = serviceNotMessage ↔ 2 ^ 15 ≤ v.toNat := by
  have hb : ∀ i : Fin 16, serviceNotMessage.getLsbD i.val = decide (i.val = 15) := by decide
  have h15 : v.getLsbD 15 = decide (2 ^ 15 ≤ v.toNat) := by
    have := v.isLt
    rw [BitVec.getLsbD, Nat.testBit_eq_decide_div_mod_eq]
    apply decide_eq_decide.mpr
    omega
  constructor
  · intro h
    have := congrArg (fun x => x.getLsbD 15) h
    simp only [BitVec.getLsbD_and, h15, hb ⟨15, by omega⟩] at this
    simpa using this
  · intro h
    apply BitVec.eq_of_getLsbD_eq
    intro i hi
    simp only [BitVec.getLsbD_and, hb ⟨i, hi⟩]
    by_cases h2 : i = 15
    · subst h2; simp only [h15, h]; rfl
    · simp [h2]

theorem and_request (v : BitVec 16) : v &&& requestNotResponse = requestNotResponse ↔ 2 ^ 14 ≤ v.toNat % 2 ^ 15 := by
  have hb : ∀ i : Fin 16, requestNotResponse.getLsbD i.val = decide (i.val = 14) := by decide
  have h14 : v.getLsbD 14 = decide (2 ^ 14 ≤ v.toNat % 2 ^ 15) := by
    have := v.isLt
    rw [BitVec.getLsbD, Nat.testBit_eq_decide_div_mod_eq]
    apply decide_eq_decide.mpr
    omega
  constructor
  · intro h
    have := congrArg (fun x => x.getLsbD 14) h
    simp only [BitVec.getLsbD_and, h14, hb ⟨14, by omega⟩] at this
    simpa using this
  · intro h
    apply BitVec.eq_of_getLsbD_eq
    intro i hi
    simp only [BitVec.getLsbD_and, hb ⟨i, hi⟩]
    by_cases h2 : i = 14
    · subst h2; simp only [h14, h]; rfl
    · simp [h2]

theorem mask_subject (v : BitVec 16) : (v &&& ~~~serviceNotMessage).toNat = v.toNat % 2 ^ 15 := by
  have : ~~~serviceNotMessage = 0x7fff#16 := by decide
  rw [this, BitVec.toNat_and]
  exact Nat.and_two_pow_sub_one_eq_mod v.toNat 15

theorem mask_service (v : BitVec 16) : (v &&& ~~~(serviceNotMessage ||| requestNotResponse)).toNat = v.toNat % 2 ^ 14 := by
  have : ~~~(serviceNotMessage ||| requestNotResponse) = 0x3fff#16 := by decide
  rw [this, BitVec.toNat_and]
  exact Nat.and_two_pow_sub_one_eq_mod v.toNat 14

theorem mask_index (v : BitVec 32) : (v &&& ~~~lastFrameFlag).toNat = v.toNat % 2 ^ 31 := by
  have : ~~~lastFrameFlag = 0x7fffffff#32 := by decide
  rw [this, BitVec.toNat_and]
  exact Nat.and_two_pow_sub_one_eq_mod v.toNat 31

theorem last_index (v : BitVec 32) : ((v &&& lastFrameFlag) != 0#32) = decide (2 ^ 31 ≤ v.toNat) := by
  have h31 : v.getLsbD 31 = decide (2 ^ 31 ≤ v.toNat) := by
    have := v.isLt
    rw [BitVec.getLsbD, Nat.testBit_eq_decide_div_mod_eq]
    apply decide_eq_decide.mpr
    omega
  by_cases h : 2 ^ 31 ≤ v.toNat
  · rw [decide_eq_true h, bne_iff_ne]
    intro h2
    have := congrArg (fun x => x.getLsbD 31) h2
    simp only [BitVec.getLsbD_and, h31, flag_bit 31 (by omega)] at this
    simp [h] at this
  · rw [decide_eq_false h, bne_eq_false_iff_eq]
    apply BitVec.eq_of_getLsbD_eq
    intro i hi
    simp only [BitVec.getLsbD_and, flag_bit i hi]
    by_cases h2 : i = 31
    · subst h2; simp [h31, h, -BitVec.getLsbD_eq_getElem]
    · simp [h2]

theorem checkNodeId_eq (v : BitVec 16) : ∃ id, checkNodeId v = some id ∧ nodeIdField id = v ∧ (id = none ↔ v.toNat = 0xffff) := by
  unfold checkNodeId NodeId16.tryFrom
  by_cases h : v = nodeIdReserved
  · exact ⟨none, by rw [if_pos h], h.symm, by subst h; decide⟩
  · have h' : v ≠ 0xffff#16 := h
    refine ⟨some ⟨v, h'⟩, by rw [if_neg h, dif_neg h']; rfl, rfl, ?_⟩
    constructor
    · intro h; cases h
    · intro h2; exact absurd (BitVec.eq_of_toNat_eq h2) h

/-- A number as a subject ID and so on: the specifier described by its numbers. -/
def SpecifierIs (d : DataSpecifier) (spec : Nat) : Prop :=
  match d with
  | .subject _ s => spec = s.toNat
  | .request _ _ s => spec = 2 ^ 15 + 2 ^ 14 + s.toNat
  | .response _ _ s => spec = 2 ^ 15 + s.toNat

theorem parseSpecifier_eq (spec : BitVec 16) (source destination : Option NodeId16) :
    (parseSpecifier spec source destination = none ↔
      ¬ ((spec.toNat < 2 ^ 15 → spec.toNat < 2 ^ 13) ∧
         (2 ^ 15 ≤ spec.toNat → spec.toNat % 2 ^ 14 < 2 ^ 9 ∧ source ≠ none ∧ destination ≠ none))) ∧
    ∀ d, parseSpecifier spec source destination = some d → SpecifierIs d spec.toNat ∧ d.source = source ∧
      (2 ^ 15 ≤ spec.toNat → d.destination = destination) := by
  have hlt := spec.isLt
  unfold parseSpecifier
  by_cases hs : 2 ^ 15 ≤ spec.toNat
  · rw [if_pos ((and_service _).mpr hs)]
    unfold ServiceId.tryFrom
    rw [mask_service]
    by_cases h9 : spec.toNat % 2 ^ 14 ≤ 511
    · rw [if_pos h9]
      cases source with
      | none => simp; intro h; omega
      | some source =>
        cases destination with
        | none => simp; intro h; omega
        | some destination =>
          have hv : ((spec &&& ~~~(serviceNotMessage ||| requestNotResponse)).setWidth 9).toNat = spec.toNat % 2 ^ 14 := by
            rw [BitVec.toNat_setWidth, mask_service]; omega
          simp only
          by_cases h14 : 2 ^ 14 ≤ spec.toNat % 2 ^ 15
          · rw [if_pos ((and_request _).mpr h14)]
            constructor
            · simp; omega
            · rintro d hd
              cases hd
              exact ⟨by simp only [SpecifierIs, hv]; omega, rfl, fun _ => rfl⟩
          · rw [if_neg (fun h => h14 ((and_request _).mp h))]
            constructor
            · simp; omega
            · rintro d hd
              cases hd
              exact ⟨by simp only [SpecifierIs, hv]; omega, rfl, fun _ => rfl⟩
    · rw [if_neg h9]
      constructor
      · simp only [true_iff]
        rintro ⟨-, h⟩
        have := (h hs).1
        omega
      · intro d hd; cases hd
  · rw [if_neg (fun h => hs ((and_service _).mp h))]
    unfold SubjectId.tryFrom
    rw [mask_subject]
    by_cases h13 : spec.toNat % 2 ^ 15 ≤ 8191
    · rw [if_pos h13]
      have hv : ((spec &&& ~~~serviceNotMessage).setWidth 13).toNat = spec.toNat := by
        rw [BitVec.toNat_setWidth, mask_subject]; omega
      constructor
      · simp only [reduceCtorEq, false_iff, Decidable.not_not]
        exact ⟨fun _ => by omega, fun h => absurd h hs⟩
      · rintro d hd
        cases hd
        exact ⟨by simp only [SpecifierIs, hv], rfl, fun h => absurd h hs⟩
    · rw [if_neg h13]
      constructor
      · simp only [true_iff]
        rintro ⟨h, -⟩
        have := h (by omega)
        omega
      · intro d hd; cases hd

theorem tryFrom_eq (raw : RawHeader) (priority : Priority) (source destination : Option NodeId16) (hv : raw.version = headerVersion)
    (hc : raw.checksumValid = true) (hp : Priority.tryFrom raw.priority = some priority)
    (hs : checkNodeId raw.sourceNodeId = some source) (hd : checkNodeId raw.destinationNodeId = some destination) :
    TransportHeader.tryFrom raw = (parseSpecifier raw.dataSpecifier source destination).map (fun dataSpecifier =>
      { priority, dataSpecifier, transferId := raw.transferId, frameIndex := raw.frameIndex, lastFrame := raw.isLastFrame
        data := raw.data }) := by
  unfold TransportHeader.tryFrom
  rw [if_neg (by rw [hv]; simp), hc]
  simp only [Bool.not_true, Bool.false_eq_true, if_false, hp, hs, hd]
  cases parseSpecifier raw.dataSpecifier source destination <;> rfl

/-- The 24 bytes describe the header: every field is at its place on the wire. Only the destination field of a message is
not looked at. -/
structure Describes (bs : List Byte) (h : TransportHeader) : Prop where
  priority : ∀ b, bs[1]? = some b → b.toNat = h.priority.toNat
  source : leNat ((bs.drop 2).take 2) = (match h.dataSpecifier.source with | some n => n.val.toNat | none => 0xffff)
  destination : ∀ n, h.dataSpecifier.destination = some n → leNat ((bs.drop 4).take 2) = n.val.toNat
  specifier : SpecifierIs h.dataSpecifier (leNat ((bs.drop 6).take 2))
  transferId : leNat ((bs.drop 8).take 8) = h.transferId.toNat
  index : leNat ((bs.drop 16).take 4) = h.frameIndex.toNat + (if h.lastFrame then 2 ^ 31 else 0)
  data : leNat ((bs.drop 20).take 2) = h.data.toNat

theorem decode_spec (bs : List Byte) : (WellFormed bs → decode bs ≠ none) ∧ (∀ h, decode bs = some h → WellFormed bs ∧ Describes bs h) := by
  by_cases hlen : bs.length = 24
  · obtain ⟨raw, hraw⟩ := fromBytes_some hlen
    have hpos := positions hraw
    have hbytes := asBytes_fromBytes hraw
    obtain ⟨source, hs1, hs2, hs3⟩ := checkNodeId_eq raw.sourceNodeId
    obtain ⟨destination, hd1, hd2, hd3⟩ := checkNodeId_eq raw.destinationNodeId
    obtain ⟨hp1, hp2⟩ := parseSpecifier_eq raw.dataSpecifier source destination
    have hdec : decode bs = TransportHeader.tryFrom raw := by unfold decode; rw [hraw]; rfl
    rw [hdec]
    constructor
    · intro hw
      have h1 : raw.version = headerVersion := by
        have := hpos.version.symm.trans hw.version
        exact Option.some.inj this
      have h2 : raw.checksumValid = true := by
        unfold RawHeader.checksumValid; rw [hbytes, hw.checksum]; rfl
      have h3 : Priority.tryFrom raw.priority = some (raw.priority.setWidth 3) := by
        unfold Priority.tryFrom
        have := hw.priority _ hpos.priority
        rw [if_pos (by omega)]
      rw [tryFrom_eq raw _ _ _ h1 h2 h3 hs1 hd1]
      intro hn
      have := hp1.mp (by simpa using hn)
      apply this
      refine ⟨by have := hw.subject; rwa [hpos.specifier] at this, fun h => ?_⟩
      have := hw.service (by rw [hpos.specifier]; exact h)
      rw [hpos.specifier, hpos.source, hpos.destination] at this
      exact ⟨this.1, fun h => this.2.1 (hs3.mp h), fun h => this.2.2 (hd3.mp h)⟩
    · intro h hh
      have h1 : raw.version = headerVersion := by
        unfold TransportHeader.tryFrom at hh
        split at hh
        · cases hh
        · rename_i h; exact Decidable.not_not.mp h
      have h2 : raw.checksumValid = true := by
        unfold TransportHeader.tryFrom at hh
        cases hc : raw.checksumValid with
        | true => rfl
        | false => rw [hc] at hh; simp at hh
      have h3 : raw.priority.toNat ≤ 7 ∧ Priority.tryFrom raw.priority = some (raw.priority.setWidth 3) := by
        by_cases h7 : raw.priority.toNat ≤ 7
        · exact ⟨h7, by unfold Priority.tryFrom; rw [if_pos h7]⟩
        · have : Priority.tryFrom raw.priority = none := by unfold Priority.tryFrom; rw [if_neg h7]
          unfold TransportHeader.tryFrom at hh
          rw [if_neg (by rw [h1]; simp), h2, this] at hh
          simp at hh
      rw [tryFrom_eq raw _ _ _ h1 h2 h3.2 hs1 hd1] at hh
      cases hpa : parseSpecifier raw.dataSpecifier source destination with
      | none => rw [hpa] at hh; cases hh
      | some d =>
        rw [hpa] at hh
        cases hh
        obtain ⟨q1, q2, q3⟩ := hp2 d hpa
        have hok : ¬ ¬ ((raw.dataSpecifier.toNat < 2 ^ 15 → raw.dataSpecifier.toNat < 2 ^ 13) ∧
         (2 ^ 15 ≤ raw.dataSpecifier.toNat → raw.dataSpecifier.toNat % 2 ^ 14 < 2 ^ 9 ∧ source ≠ none ∧ destination ≠ none)) := by
          intro hc
          rw [hp1.mpr hc] at hpa
          cases hpa
        have hok := Decidable.not_not.mp hok
        constructor
        · refine ⟨hlen, hpos.version.trans (congrArg some h1), ?_, ?_, ?_, ?_⟩
          · unfold RawHeader.checksumValid at h2
            rw [hbytes] at h2
            exact eq_of_beq h2
          · intro b hb
            rw [hpos.priority] at hb
            cases hb
            omega
          · rw [hpos.specifier]; exact hok.1
          · rw [hpos.specifier, hpos.source, hpos.destination]
            intro h
            obtain ⟨a1, a2, a3⟩ := hok.2 h
            exact ⟨a1, fun h => a2 (hs3.mpr h), fun h => a3 (hd3.mpr h)⟩
        · refine ⟨?_, ?_, ?_, ?_, hpos.transferId, ?_, hpos.data⟩
          · intro b hb
            rw [hpos.priority] at hb
            cases hb
            rw [BitVec.toNat_setWidth]; omega
          · rw [hpos.source, ← hs2, q2]
            cases source <;> rfl
          · intro n hn
            rw [hpos.destination, ← hd2]
            have : 2 ^ 15 ≤ raw.dataSpecifier.toNat := by
              cases d with
              | subject _ _ => cases hn
              | request _ _ s => simp only [SpecifierIs] at q1; omega
              | response _ _ s => simp only [SpecifierIs] at q1; omega
            rw [← q3 this, hn]
            rfl
          · rw [hpos.specifier]; exact q1
          · rw [hpos.index]
            have e1 : raw.frameIndex.toNat = raw.frameIndexEot.toNat % 2 ^ 31 := mask_index _
            have e2 : raw.isLastFrame = decide (2 ^ 31 ≤ raw.frameIndexEot.toNat) := last_index _
            have := raw.frameIndexEot.isLt
            simp only [e1, e2, decide_eq_true_eq]
            split <;> omega
  · constructor
    · intro h; exact absurd h.length hlen
    · intro h hd
      unfold decode at hd
      cases hr : RawHeader.fromBytes bs with
      | none => rw [hr] at hd; cases hd
      | some raw => exact absurd (fromBytes_length hr) hlen

/-- **C25.** A byte string is accepted exactly if it is well formed. -/
theorem C25_decode_accepts_iff (bs : List Byte) : (∃ h, decode bs = some h) ↔ WellFormed bs :=
  ⟨fun ⟨h, hd⟩ => ((decode_spec bs).2 h hd).1, fun hw => Option.ne_none_iff_exists'.mp ((decode_spec bs).1 hw)⟩

/-- **C25.** What is decoded is what the bytes say. -/
theorem C25_decode_describes (bs : List Byte) (h : TransportHeader) (hd : decode bs = some h) : Describes bs h :=
  ((decode_spec bs).2 h hd).2

/-- **C25.** The encoder writes every field to its place. -/
theorem C25_encode_describes (h : TransportHeader) (hi : h.frameIndex.toNat < 2 ^ 31) : Describes (encode h) h :=
  C25_decode_describes _ _ (C25_header_roundtrip h hi)

/-- **C26.** A header that was corrupted within 16 consecutive bits (in transmission order of the bytes, most significant bit
first) is rejected. This holds for every accepted string of bytes, not only for those made by the encoder. -/
theorem C26_corruption_detected (bs bs' : List Byte) (h : TransportHeader) (hd : decode bs = some h)
    (hlen : bs'.length = bs.length) (hne : bs' ≠ bs) (hw : DifferInWindow 16 (bitsMsb bs) (bitsMsb bs')) : decode bs' = none := by
  have h1 := ((decode_spec bs).2 h hd).1.checksum
  cases hd' : decode bs' with
  | none => rfl
  | some h' =>
    have h2 := ((decode_spec bs').2 h' hd').1.checksum
    exact absurd h2 (Verif.Crc.C03_crc16_corrupt_rejected bs bs' hlen.symm (fun h => hne h.symm) hw h1)

/-- Concrete case: a service request. -/
def demoHeader : TransportHeader :=
  { priority := 4#3, dataSpecifier := .request ⟨0x0102#16, by decide⟩ ⟨3#16, by decide⟩ 430#9, transferId := 0xbadc0ffee0ddf00d#64
    frameIndex := 5#32, lastFrame := true, data := 0x1234#16 }

example : demoHeader.frameIndex.toNat < 2 ^ 31 := by decide
example : encode demoHeader = [1#8, 4#8, 2#8, 1#8, 3#8, 0#8, 0xae#8, 0xc1#8, 0x0d#8, 0xf0#8, 0xdd#8, 0xe0#8, 0xfe#8, 0x0f#8,
    0xdc#8, 0xba#8, 5#8, 0#8, 0#8, 0x80#8, 0x34#8, 0x12#8] ++ be16 (crc16 ((encode demoHeader).take 22)) := by decide +kernel
example : decode (encode demoHeader) = some demoHeader := by decide +kernel

/-- One flipped bit in the transfer ID. -/
example : decode ((encode demoHeader).set 8 0x0c#8) = none := by decide +kernel
example : DifferInWindow 16 (bitsMsb (encode demoHeader)) (bitsMsb ((encode demoHeader).set 8 0x0c#8)) :=
  ⟨64, by
    intro k hk
    rcases Nat.lt_or_ge k 192 with h | h
    · have : ∀ k : Fin 192, (k.val < 64 ∨ 64 + 16 ≤ k.val) →
        (bitsMsb (encode demoHeader))[k.val]? = (bitsMsb ((encode demoHeader).set 8 0x0c#8))[k.val]? := by decide +kernel
      exact this ⟨k, h⟩ hk
    · rw [List.getElem?_eq_none (by rw [Verif.Crc.bitsMsb_length, (C25_checksum_valid demoHeader).1]; omega),
        List.getElem?_eq_none (by rw [Verif.Crc.bitsMsb_length, List.length_set, (C25_checksum_valid demoHeader).1]; omega)]⟩

/-- **C25, limit.** A frame index of `2^31` without the end flag is decoded as index 0 with the end flag. -/
theorem C25_large_index_counterexample :
    decode (encode { demoHeader with frameIndex := 0x80000000#32, lastFrame := false }) =
      some { demoHeader with frameIndex := 0#32, lastFrame := true } := by decide +kernel

end Verif.Hdr
