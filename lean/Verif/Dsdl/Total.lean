import Verif.Dsdl.Reads

/-!
Helper lemmas: the generated `deserialize` on arbitrary bytes. It does not panic (for the types in `Message.total`), and what it returns depends
only on the bits, where the bits after the end are zero.
-/

namespace Verif.Dsdl

open Verif.Enc Verif.Bls

/-! ### No panic -/

/-- A read that does not panic, leaves a cursor on the same bytes, and returns only values with the property. -/
def Reads {α : Type} (P : α → Prop) (bs : List Byte) (r : Rd α) : Prop := ∃ x q, r = some (x, rcur bs q) ∧ ∀ a, x = .ok a → P a

theorem Reads.ok {α : Type} {P : α → Prop} {bs : List Byte} {a : α} (h : P a) (q : Nat) : Reads P bs (some (.ok a, rcur bs q)) :=
  ⟨_, q, rfl, fun _ e => by injection e with e; exact e ▸ h⟩

theorem Reads.error {α : Type} {P : α → Prop} {bs : List Byte} (e : DeserializeError) (q : Nat) : Reads P bs (some (.error e, rcur bs q)) :=
  ⟨_, q, rfl, fun _ h => by cases h⟩

theorem Reads.andThen {α β : Type} {P : α → Prop} {Q : β → Prop} {bs : List Byte} {r : Rd α} {f : α → ReadCursor → Rd β} (h : Reads P bs r)
    (hf : ∀ a q, P a → Reads Q bs (f a (rcur bs q))) : Reads Q bs (andThen r f) := by
  obtain ⟨x, q, rfl, hP⟩ := h
  cases x with
  | error e => exact .error e q
  | ok a => exact hf a q (hP a rfl)

theorem Prim.ofWord_has {p : Prim} (ho : p.ok = true) {x : Nat} (h : x < 2 ^ p.bits) : p.has (p.ofWord x) = true := by
  cases p <;> simp only [Prim.ofWord, Prim.has, decide_eq_true_eq] <;> simp only [Prim.bits] at h
  case int n =>
    simp only [Prim.ok, decide_eq_true_eq] at ho
    have hr := roundUpIntegerSize_le ho.2
    have h1 := BitVec.le_toInt (BitVec.ofNat (roundUpIntegerSize n) x)
    have h2 := BitVec.toInt_lt (x := BitVec.ofNat (roundUpIntegerSize n) x)
    exact ⟨h1, h2⟩
  case uint n s =>
    simp only [Prim.ok, decide_eq_true_eq] at ho
    have hr := roundUpIntegerSize_le ho.2
    exact Nat.lt_of_lt_of_le h (Nat.pow_le_pow_right (by omega) hr.1)
  all_goals exact h

theorem Prim.read_total {p : Prim} (ho : p.ok = true) (bs : List Byte) (q : Nat) : Reads (fun v => p.has v = true) bs (p.read (rcur bs q)) := by
  have hb := Prim.bits_range ho
  have hg : Reads (fun v => p.has v = true) bs (okRead p.ofWord (readUInt p.bits (rcur bs q))) := by
    rw [readUInt_rcur bs _ _ hb.1 hb.2]
    exact Reads.ok (P := fun v => p.has v = true) (Prim.ofWord_has ho (numAt_lt _ _ _)) _
  cases p
  case boolean =>
    simp only [Prim.read]
    rw [readBool_rcur]
    exact Reads.ok (P := fun v => Prim.boolean.has v = true) rfl _
  all_goals exact hg

theorem readTimes_total {s : Scalar} {bs : List Byte} (h : ∀ q, Reads (fun v => s.has v = true) bs (s.read (rcur bs q))) : ∀ (n q : Nat),
    Reads (fun vs => vs.length = n ∧ vs.all s.has = true) bs (readTimes s.read n (rcur bs q))
  | 0, q => .ok ⟨rfl, rfl⟩ q
  | n + 1, q => by
    rw [readTimes]
    refine (h q).andThen fun v q hv => (readTimes_total h n q).andThen fun vs q hvs => .ok ⟨?_, ?_⟩ q
    · rw [List.length_cons, hvs.1]
    · rw [List.all_cons, hv, hvs.2]
      rfl

theorem bits_total {bs : List Byte} {cap n : Nat} (h : n ≤ 8 * cap) (q : Nat) :
    Reads (fun a : BitArray => a.bitLength = n ∧ a.bytes.length = cap) bs (okRead id (BitArray.deserialize cap n (rcur bs q))) := by
  unfold BitArray.deserialize BitArray.new
  rw [if_pos (by omega)]
  dsimp only
  obtain ⟨b, h1, h2, h3, -⟩ := deserializeInPlace_rcur bs ⟨List.replicate cap 0, n⟩ q (by simpa using h)
  rw [h1]
  exact .ok ⟨h2, by simpa using h3⟩ _

theorem okRead_map {α β : Type} (f : α → β) (r : Option (α × ReadCursor)) : okRead f r = Verif.Dsdl.andThen (okRead id r) fun a c => some (.ok (f a), c) := by
  cases r <;> rfl

theorem field_total {s : Scalar} {a : Arity} (ha : a.ok = true) (hr : a.roomy s.isBool = true) {bs : List Byte}
    (h : ∀ q, Reads (fun v => s.has v = true) bs (s.read (rcur bs q))) (q : Nat) :
    Reads (fun v => hasField s.isBool s.has v a = true) bs (readField s s.read (rcur bs q) a) := by
  cases a with
  | scalar => exact h q
  | fixed len =>
    simp only [readField]
    split
    · rename_i hb
      rw [okRead_map]
      refine (bits_total (by omega) q).andThen fun a q hv => .ok ?_ q
      simp [hasField, hb, hv.1, hv.2]
    · rename_i hb
      refine (readTimes_total h len q).andThen fun vs q hv => .ok ?_ q
      have hb' : s.isBool = false := by simpa using hb
      simpa [hasField, hb', hv.1] using hv.2
  | var maxLen =>
    have hm := Arity.ok_var ha
    have hw := widthFor_range maxLen
    simp only [readField]
    rw [arrayLengthBits_eq hm, readUInt_rcur bs _ _ (by omega) hw.2]
    dsimp only
    split
    · rename_i hb
      have hlt := numAt_lt bs q (widthFor maxLen)
      simp only [Arity.roomy, hb, Bool.not_true, Bool.false_or, decide_eq_true_eq] at hr
      rw [okRead_map]
      refine (bits_total (by omega) _).andThen fun a q hv => .ok ?_ q
      simp only [hasField, hb, Bool.true_and, decide_eq_true_eq]
      omega
    · rename_i hb
      have hb' : s.isBool = false := by simpa using hb
      split
      · rename_i hle
        refine (readTimes_total h _ _).andThen fun vs q hv => .ok ?_ q
        simp only [hasField, hb', Bool.not_false, Bool.true_and, Bool.and_eq_true, decide_eq_true_eq]
        exact ⟨by omega, hv.2⟩
      · exact .error _ _

theorem loadEach_has {s : Scalar} (h : ∀ bs, s.has (s.load bs).1 = true) : ∀ (n : Nat) (bs : List Byte),
    (loadEach s.load n bs).1.length = n ∧ (loadEach s.load n bs).1.all s.has = true
  | 0, _ => ⟨rfl, rfl⟩
  | n + 1, bs => by
    have ih := loadEach_has h n (s.load bs).2
    simp only [loadEach]
    refine ⟨by rw [List.length_cons, ih.1], ?_⟩
    rw [List.all_cons, h, ih.2]
    rfl

mutual
theorem Scalar.load_has : ∀ s : Scalar, s.zeroCopy = true → s.flat = true → s.total = true → ∀ bs, s.has (s.load bs).1 = true
  | .prim p, hz, _, ht, bs => by
    simp only [Scalar.zeroCopy] at hz
    simp only [Scalar.total] at ht
    simp only [Scalar.load, Scalar.has]
    apply Prim.ofWord_has ht
    have h8 := Prim.zeroCopy_bits hz
    have h1 := ofLeBytes_lt (bs.take (p.bits / 8))
    have h2 : (bs.take (p.bits / 8)).length ≤ p.bits / 8 := List.length_take_le _ _
    exact Nat.lt_of_lt_of_le h1 (Nat.pow_le_pow_right (by omega) (by omega))
  | .composite (.struct e r fields), hz, hf, ht, bs => by
    simp only [Scalar.zeroCopy, Message.nestedZeroCopy, Bool.and_eq_true] at hz
    simp only [Scalar.flat, Message.flat] at hf
    simp only [Scalar.total, Message.total, Bool.and_eq_true] at ht
    simp only [Scalar.load, Message.load, Scalar.has, Message.has]
    exact fields.load_has (nestedZeroCopy_fields fields none hz.2) hf ht.1 bs
  | .composite (.union _ _ _), hz, _, _, _ => by simp [Scalar.zeroCopy, Message.nestedZeroCopy] at hz
  | .composite (.enum _ _ _ _), _, hf, _, _ => by simp [Scalar.flat, Message.flat] at hf
theorem Fields.load_has : ∀ fs : Fields, fs.zeroCopy = true → fs.flat = true → fs.total = true → ∀ bs, fs.has (fs.load bs).1 = true
  | .nil, _, _, _, bs => by simp [Fields.load, Fields.has]
  | .padding _ _, hz, _, _, _ => by simp [Fields.zeroCopy] at hz
  | .data s a rest, hz, hf, ht, bs => by
    simp only [Fields.zeroCopy, Bool.and_eq_true] at hz
    simp only [Fields.flat, Bool.and_eq_true] at hf
    simp only [Fields.total, Bool.and_eq_true] at ht
    have hr := rest.load_has hz.2 hf.2 ht.2
    cases a with
    | var maxLen => simp [Arity.zeroCopy] at hz
    | scalar =>
      simp only [Fields.load, Fields.has, Bool.and_eq_true]
      exact ⟨s.load_has hz.1 hf.1 ht.1.1.1 bs, hr _⟩
    | fixed len =>
      have hzs : s.zeroCopy = true := hz.1
      have h := loadEach_has (s.load_has hzs hf.1 ht.1.1.1) len bs
      simp only [Fields.load, Fields.has, hasField, zeroCopy_not_bool hzs, Bool.not_false, Bool.true_and, Bool.and_eq_true, decide_eq_true_eq]
      exact ⟨h, hr _⟩
end

theorem zeroCopy_rcur (bs : List Byte) (q size : Nat) (hq : q % 8 = 0) :
    ∃ bytes, (rcur bs q).zeroCopy size = some (bytes, rcur bs (q + 8 * size)) ∧ bytes.length = size ∧
      ∀ p, p < 8 * size → bitAt bytes p = bitAt bs (q + p) := by
  have hr : rcur bs q = ⟨bs.drop (q / 8), 0⟩ := by unfold rcur; rw [hq]
  have has : (rcur bs q).asBytes = some (bs.drop (q / 8)) := by rw [hr]; rfl
  unfold ReadCursor.zeroCopy
  rw [has]
  dsimp only
  rw [List.length_drop, advanceBytes_rcur]
  have e : rcur bs (q + 8 * min size (bs.length - q / 8)) = rcur bs (q + 8 * size) := by
    by_cases h : size ≤ bs.length - q / 8
    · rw [Nat.min_eq_left h]
    · unfold rcur
      rw [List.drop_eq_nil_of_le (by omega), List.drop_eq_nil_of_le (by omega)]
      congr 1
      omega
  rw [e]
  refine ⟨_, rfl, ?_, fun p hp => ?_⟩
  · simp only [List.length_append, List.length_take, List.length_drop, List.length_replicate]
    omega
  · unfold bitAt
    simp only [List.getD_eq_getElem?_getD]
    by_cases h : p / 8 < min size (bs.length - q / 8)
    · rw [List.getElem?_append_left (by rw [List.length_take, List.length_drop]; omega), List.getElem?_take_of_lt h, List.getElem?_drop,
        show q / 8 + p / 8 = (q + p) / 8 by omega, show (q + p) % 8 = p % 8 by omega]
    · rw [List.getElem?_append_right (by rw [List.length_take, List.length_drop]; omega)]
      rw [List.getElem?_eq_none (l := bs) (by omega)]
      rw [List.getElem?_replicate]
      split <;> simp

mutual
theorem Scalar.read_total : ∀ s : Scalar, s.total = true → ∀ (bs : List Byte) (q : Nat), Reads (fun v => s.has v = true) bs (s.read (rcur bs q))
  | .prim p, ht, bs, q => by
    simp only [Scalar.total] at ht
    simp only [Scalar.read, Scalar.has]
    exact Prim.read_total ht bs q
  | .composite m, ht, bs, q => by
    simp only [Scalar.total] at ht
    simp only [Scalar.read, Scalar.has]
    cases he : m.extent with
    | none =>
      unfold ReadCursor.readComposite
      rw [align_rcur]
      dsimp only
      rw [if_neg (by simp)]
      obtain ⟨x, q', h1, h2⟩ := m.deserialize_total ht bs ((q + 7) / 8 * 8) (by omega)
      rw [h1, Option.map_some, align_rcur]
      exact ⟨x, _, rfl, h2⟩
    | some e =>
      rw [readComposite_rcur _ _ _ rfl]
      dsimp only
      split
      · exact .error _ _
      · rw [new_eq_rcur]
        obtain ⟨x, q', h1, h2⟩ := m.deserialize_total ht ((bs.drop ((roundUp q + 32) / 8)).take (bitsVal (fun i => bitAt bs (roundUp q + i)) 32)) 0 (by omega)
        rw [h1, Option.map_some]
        exact ⟨x, _, rfl, h2⟩
theorem Fields.deserialize_total : ∀ fs : Fields, fs.total = true → ∀ (bs : List Byte) (pending : List Nat) (q : Nat),
    Reads (fun vs => fs.has vs = true) bs (fs.deserialize pending (rcur bs q))
  | .nil, _, bs, pending, q => by
    simp only [Fields.deserialize]
    exact .ok (by simp [Fields.has]) q
  | .padding bits rest, ht, bs, pending, q => by
    simp only [Fields.total] at ht
    simp only [Fields.deserialize, Fields.has]
    exact rest.deserialize_total ht bs _ q
  | .data s a rest, ht, bs, pending, q => by
    simp only [Fields.total, Bool.and_eq_true] at ht
    simp only [Fields.deserialize]
    rw [foldl_advance]
    refine (field_total ht.1.1.2 ht.1.2 (s.read_total ht.1.1.1 bs) _).andThen fun v q hv =>
      (rest.deserialize_total ht.2 bs [] q).andThen fun vs q hvs => .ok ?_ q
    simp only [Fields.has, hv, hvs, Bool.and_self]
theorem Variants.deserialize_total : ∀ vs : Variants, vs.total = true → ∀ (bs : List Byte) (k tag q : Nat),
    Reads (fun v => ∃ i w, v = .variant (k + i) w ∧ vs.has i w = true) bs (vs.deserialize k tag (rcur bs q))
  | .nil, _, bs, k, tag, q => by
    simp only [Variants.deserialize]
    exact .error _ _
  | .cons s a rest, ht, bs, k, tag, q => by
    simp only [Variants.total, Bool.and_eq_true] at ht
    simp only [Variants.deserialize]
    split
    · refine (field_total ht.1.1.2 ht.1.2 (s.read_total ht.1.1.1 bs) q).andThen fun v q hv => .ok ⟨0, v, rfl, ?_⟩ q
      simpa only [Variants.has] using hv
    · obtain ⟨x, q', h1, h2⟩ := rest.deserialize_total ht.2 bs (k + 1) tag q
      refine ⟨x, q', h1, fun v e => ?_⟩
      obtain ⟨i, w, e1, e2⟩ := h2 v e
      exact ⟨i + 1, w, by rw [e1]; congr 1; omega, by simpa only [Variants.has] using e2⟩
theorem Message.deserialize_total : ∀ m : Message, m.total = true → ∀ (bs : List Byte) (q : Nat), q % 8 = 0 →
    Reads (fun v => m.has v = true) bs (m.deserialize (rcur bs q))
  | .struct e r fields, ht, bs, q, hq => by
    simp only [Message.total, Bool.and_eq_true, Bool.or_eq_true, Bool.not_eq_true'] at ht
    simp only [Message.deserialize]
    split
    · rename_i hz
      have hz' := hz
      simp only [Message.zeroCopy, Bool.and_eq_true] at hz'
      obtain ⟨bytes, h1, -, -⟩ := zeroCopy_rcur bs q fields.memSize hq
      rw [h1]
      refine .ok ?_ _
      simp only [Message.has]
      refine fields.load_has hz'.2 ?_ ht.1 bytes
      rcases ht.2 with h | h
      · rw [hz] at h; cases h
      · exact h
    · refine (fields.deserialize_total ht.1 bs [] q).andThen fun vs q hvs => .ok ?_ q
      simpa only [Message.has] using hvs
  | .union e r variants, ht, bs, q, hq => by
    simp only [Message.total, Bool.and_eq_true, decide_eq_true_eq] at ht
    simp only [Message.deserialize]
    have hw := widthFor_range variants.count
    rw [Variants.tagBits, arrayLengthBits_eq ht.2, readUIntAligned_rcur bs _ _ (by omega) hw.2 hq]
    dsimp only
    obtain ⟨x, q', h1, h2⟩ := variants.deserialize_total ht.1 bs 0 (numAt bs q (widthFor variants.count)) (q + widthFor variants.count)
    refine ⟨x, q', h1, fun v e => ?_⟩
    obtain ⟨i, w, e1, e2⟩ := h2 v e
    rw [e1, Nat.zero_add]
    simpa only [Message.has] using e2
  | .enum e r bits values, ht, bs, q, hq => by
    simp only [Message.total, decide_eq_true_eq] at ht
    simp only [Message.deserialize]
    rw [readUIntAligned_rcur bs _ _ ht.1 ht.2 hq]
    dsimp only
    split
    · rename_i hd
      refine .ok ?_ _
      simpa [Message.has] using hd
    · exact .error _ _
end

/-! ### Only the bits matter -/

/-- The second buffer is the first one and zeros after it. -/
structure Ext (bs bs' : List Byte) : Prop where
  len : bs.length ≤ bs'.length
  bit : ∀ p, bitAt bs p = bitAt bs' p

/-- The same outcome on two buffers, or not enough bytes in the first for a delimited composite. -/
def Like {α : Type} (S : α → α → Prop) (bs bs' : List Byte) (r r' : Rd α) : Prop :=
  (∃ q, r = some (.error .delimitedLength, rcur bs q)) ∨ (r = none ∧ r' = none) ∨ (∃ e q q', r = some (.error e, rcur bs q) ∧ r' = some (.error e, rcur bs' q')) ∨
    ∃ a a' q, r = some (.ok a, rcur bs q) ∧ r' = some (.ok a', rcur bs' q) ∧ S a a'

theorem Like.ok {α : Type} {S : α → α → Prop} {bs bs' : List Byte} {a a' : α} (h : S a a') (q : Nat) :
    Like S bs bs' (some (.ok a, rcur bs q)) (some (.ok a', rcur bs' q)) := .inr (.inr (.inr ⟨a, a', q, rfl, rfl, h⟩))

theorem Like.error {α : Type} {S : α → α → Prop} {bs bs' : List Byte} (e : DeserializeError) (q q' : Nat) :
    Like S bs bs' (some (.error e, rcur bs q)) (some (.error e, rcur bs' q')) := .inr (.inr (.inl ⟨e, q, q', rfl, rfl⟩))

theorem Like.andThen {α β : Type} {S : α → α → Prop} {T : β → β → Prop} {bs bs' : List Byte} {r r' : Rd α} {f f' : α → ReadCursor → Rd β}
    (h : Like S bs bs' r r') (hf : ∀ a a' q, S a a' → Like T bs bs' (f a (rcur bs q)) (f' a' (rcur bs' q))) :
    Like T bs bs' (andThen r f) (Verif.Dsdl.andThen r' f') := by
  rcases h with ⟨q, rfl⟩ | ⟨rfl, rfl⟩ | ⟨e, q, q', rfl, rfl⟩ | ⟨a, a', q, rfl, rfl, h⟩
  · exact .inl ⟨q, rfl⟩
  · exact .inr (.inl ⟨rfl, rfl⟩)
  · exact .error e q q'
  · exact hf a a' q h

theorem numAt_congr {bs bs' : List Byte} (h : Ext bs bs') (p n : Nat) : numAt bs p n = numAt bs' p n := by
  unfold numAt
  simp only [h.bit]

theorem Prim.read_like {p : Prim} (ho : p.ok = true) {bs bs' : List Byte} (h : Ext bs bs') (q : Nat) :
    Like Same bs bs' (p.read (rcur bs q)) (p.read (rcur bs' q)) := by
  have hb := Prim.bits_range ho
  have hg : Like Same bs bs' (okRead p.ofWord (readUInt p.bits (rcur bs q))) (okRead p.ofWord (readUInt p.bits (rcur bs' q))) := by
    rw [readUInt_rcur bs _ _ hb.1 hb.2, readUInt_rcur bs' _ _ hb.1 hb.2, numAt_congr h]
    exact .ok (.refl _) _
  cases p
  case boolean =>
    simp only [Prim.read]
    rw [readBool_rcur, readBool_rcur, h.bit]
    exact .ok (.refl _) _
  all_goals exact hg

theorem readTimes_like {one : ReadCursor → Rd Val} {bs bs' : List Byte} (h : ∀ q, Like Same bs bs' (one (rcur bs q)) (one (rcur bs' q))) :
    ∀ (n q : Nat), Like (List.Forall₂ Same) bs bs' (readTimes one n (rcur bs q)) (readTimes one n (rcur bs' q))
  | 0, q => .ok .nil q
  | n + 1, q => by
    rw [readTimes, readTimes]
    exact (h q).andThen fun v v' q hv => (readTimes_like h n q).andThen fun vs vs' q hvs => .ok (.cons hv hvs) q

theorem bits_like {bs bs' : List Byte} (h : Ext bs bs') (cap n q : Nat) :
    Like Same bs bs' (okRead Val.bits (BitArray.deserialize cap n (rcur bs q))) (okRead Val.bits (BitArray.deserialize cap n (rcur bs' q))) := by
  by_cases hn : n ≤ 8 * cap
  · unfold BitArray.deserialize BitArray.new
    rw [if_pos (by omega)]
    dsimp only
    obtain ⟨b, h1, h2, h3, h4⟩ := deserializeInPlace_rcur bs ⟨List.replicate cap 0, n⟩ q (by simpa using hn)
    obtain ⟨b', h1', h2', h3', h4'⟩ := deserializeInPlace_rcur bs' ⟨List.replicate cap 0, n⟩ q (by simpa using hn)
    rw [h1, h1']
    refine .ok (.bits (by rw [h3, h3']) ?_) _
    unfold bitsA
    rw [h2, h2']
    apply List.map_congr_left
    intro i hi
    have hi' : i < n := by simpa using hi
    rw [h4 i hi', h4' i hi', h.bit]
  · have e : ∀ c, BitArray.deserialize cap n c = none := by
      intro c
      unfold BitArray.deserialize BitArray.new
      rw [if_neg (by omega)]
    rw [e, e]
    exact .inr (.inl ⟨rfl, rfl⟩)

theorem field_like {s : Scalar} {a : Arity} (ha : a.ok = true) {bs bs' : List Byte} (h : Ext bs bs')
    (hs : ∀ q, Like Same bs bs' (s.read (rcur bs q)) (s.read (rcur bs' q))) (q : Nat) :
    Like Same bs bs' (readField s s.read (rcur bs q) a) (readField s s.read (rcur bs' q) a) := by
  cases a with
  | scalar => exact hs q
  | fixed len =>
    simp only [readField]
    split
    · exact bits_like h _ _ _
    · exact (readTimes_like hs len q).andThen fun vs vs' q hv => .ok (.list hv) q
  | var maxLen =>
    have hm := Arity.ok_var ha
    have hw := widthFor_range maxLen
    simp only [readField]
    rw [arrayLengthBits_eq hm, readUInt_rcur bs _ _ (by omega) hw.2, readUInt_rcur bs' _ _ (by omega) hw.2, numAt_congr h]
    dsimp only
    split
    · exact bits_like h _ _ _
    · split
      · exact (readTimes_like hs _ _).andThen fun vs vs' q hv => .ok (.list hv) q
      · exact .error _ _ _

mutual
theorem Scalar.read_like : ∀ s : Scalar, s.valid = true → ∀ {bs bs' : List Byte}, Ext bs bs' → ∀ q : Nat,
    Like Same bs bs' (s.read (rcur bs q)) (s.read (rcur bs' q))
  | .prim p, hi, bs, bs', h, q => by
    simp only [Scalar.valid] at hi
    simp only [Scalar.read]
    exact Prim.read_like hi h q
  | .composite m, hi, bs, bs', h, q => by
    simp only [Scalar.valid] at hi
    simp only [Scalar.read]
    cases he : m.extent with
    | none =>
      unfold ReadCursor.readComposite
      rw [align_rcur, align_rcur]
      dsimp only
      rw [if_neg (by simp), if_neg (by simp)]
      rcases m.deserialize_like hi h ((q + 7) / 8 * 8) (by omega) with ⟨p, e1⟩ | ⟨e1, e2⟩ | ⟨e, p, p', e1, e2⟩ | ⟨a, a', p, e1, e2, e3⟩
      · rw [e1, Option.map_some, align_rcur]
        exact .inl ⟨_, rfl⟩
      · rw [e1, e2]
        exact .inr (.inl ⟨rfl, rfl⟩)
      · rw [e1, e2, Option.map_some, Option.map_some, align_rcur, align_rcur]
        exact .error _ _ _
      · rw [e1, e2, Option.map_some, Option.map_some, align_rcur, align_rcur]
        exact .ok e3 _
    | some e =>
      rw [readComposite_rcur _ _ _ rfl, readComposite_rcur _ _ _ rfl]
      dsimp only
      have hn : bitsVal (fun i => bitAt bs' (roundUp q + i)) 32 = bitsVal (fun i => bitAt bs (roundUp q + i)) 32 := by simp only [h.bit]
      rw [hn]
      generalize bitsVal (fun i => bitAt bs (roundUp q + i)) 32 = n
      have hl := h.len
      split
      · exact .inl ⟨_, rfl⟩
      · rw [if_neg (by omega)]
        have e : (bs'.drop ((roundUp q + 32) / 8)).take n = (bs.drop ((roundUp q + 32) / 8)).take n := by
          apply bytes_ext
          · simp only [List.length_take, List.length_drop]
            omega
          · intro p hp
            simp only [List.length_take, List.length_drop] at hp
            rw [bitAt_window _ _ _ _ (by omega), bitAt_window _ _ _ _ (by omega), h.bit]
        rw [e]
        rcases m.deserialize (ReadCursor.new ((bs.drop ((roundUp q + 32) / 8)).take n)) with _ | ⟨_ | v, c⟩
        · exact .inr (.inl ⟨rfl, rfl⟩)
        · exact .error _ _ _
        · exact .ok (.refl _) _
theorem Fields.deserialize_like : ∀ fs : Fields, fs.valid = true → ∀ {bs bs' : List Byte}, Ext bs bs' →
    ∀ (pending : List Nat) (q : Nat), Like (List.Forall₂ Same) bs bs' (fs.deserialize pending (rcur bs q)) (fs.deserialize pending (rcur bs' q))
  | .nil, _, bs, bs', h, pending, q => by
    simp only [Fields.deserialize]
    exact .ok .nil q
  | .padding bits rest, hi, bs, bs', h, pending, q => by
    simp only [Fields.valid] at hi
    simp only [Fields.deserialize]
    exact rest.deserialize_like hi h _ q
  | .data s a rest, hi, bs, bs', h, pending, q => by
    simp only [Fields.valid, Bool.and_eq_true] at hi
    simp only [Fields.deserialize]
    rw [foldl_advance, foldl_advance]
    exact (field_like hi.1.2 h (s.read_like hi.1.1 h) _).andThen fun v v' q hv =>
      (rest.deserialize_like hi.2 h [] q).andThen fun vs vs' q hvs => .ok (.cons hv hvs) q
theorem Variants.deserialize_like : ∀ vs : Variants, vs.valid = true → ∀ {bs bs' : List Byte}, Ext bs bs' →
    ∀ (k tag q : Nat), Like Same bs bs' (vs.deserialize k tag (rcur bs q)) (vs.deserialize k tag (rcur bs' q))
  | .nil, _, bs, bs', h, k, tag, q => by
    simp only [Variants.deserialize]
    exact .error _ _ _
  | .cons s a rest, hi, bs, bs', h, k, tag, q => by
    simp only [Variants.valid, Bool.and_eq_true] at hi
    simp only [Variants.deserialize]
    split
    · exact (field_like hi.1.2 h (s.read_like hi.1.1 h) q).andThen fun v v' q hv => .ok (.variant k hv) q
    · exact rest.deserialize_like hi.2 h _ _ _
theorem Message.deserialize_like : ∀ m : Message, m.valid = true → ∀ {bs bs' : List Byte}, Ext bs bs' → ∀ q : Nat,
    q % 8 = 0 → Like Same bs bs' (m.deserialize (rcur bs q)) (m.deserialize (rcur bs' q))
  | .struct e r fields, hi, bs, bs', h, q, hq => by
    simp only [Message.valid] at hi
    simp only [Message.deserialize]
    split
    · obtain ⟨b, h1, h2, h3⟩ := zeroCopy_rcur bs q fields.memSize hq
      obtain ⟨b', h1', h2', h3'⟩ := zeroCopy_rcur bs' q fields.memSize hq
      have e : b = b' := bytes_ext (by rw [h2, h2']) fun p hp => by rw [h3 p (by omega), h3' p (by omega), h.bit]
      rw [h1, h1', e]
      exact .ok (.refl _) _
    · exact (fields.deserialize_like hi h [] q).andThen fun vs vs' q hvs => .ok (.record hvs) q
  | .union e r variants, hi, bs, bs', h, q, hq => by
    simp only [Message.valid, Bool.and_eq_true, decide_eq_true_eq] at hi
    simp only [Message.deserialize]
    have hw := widthFor_range variants.count
    rw [Variants.tagBits, arrayLengthBits_eq hi.2, readUIntAligned_rcur bs _ _ (by omega) hw.2 hq, readUIntAligned_rcur bs' _ _ (by omega) hw.2 hq,
      numAt_congr h]
    exact variants.deserialize_like hi.1 h _ _ _
  | .enum e r bits values, hi, bs, bs', h, q, hq => by
    simp only [Message.valid, decide_eq_true_eq] at hi
    simp only [Message.deserialize]
    rw [readUIntAligned_rcur bs _ _ hi.1 hi.2 hq, readUIntAligned_rcur bs' _ _ hi.1 hi.2 hq, numAt_congr h]
    dsimp only
    split
    · exact .ok (.refl _) _
    · exact .error _ _ _
end

end Verif.Dsdl
