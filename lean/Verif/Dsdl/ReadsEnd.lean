import Verif.Dsdl.Props

/-!
C68 again: what a message ends with may be a bit array or a padded composite, because nothing is read after it.
-/

namespace Verif.Dsdl

open Verif.Enc Verif.Bls

/-- There are no data fields. -/
def Fields.noData : Fields → Bool
  | .nil => true
  | .padding _ rest => rest.noData
  | .data _ _ _ => false

/-- As `safeField`, for a field that nothing comes after: `one` is for a single value, `each` for the elements of an array; bit arrays can have any length. -/
def safeEndField (one each : Val → Bool) (v : Val) : Arity → Bool
  | .scalar => one v
  | .fixed len => safeField each v (.fixed len)
  | .var maxLen =>
    match v with
    | .bits _ => true
    | v => safeField each v (.var maxLen)

mutual
/-- The value is read back if nothing comes after it. -/
def Scalar.safeEnd : Scalar → Val → Bool
  | .prim p, v => p.safe v
  | .composite m, v => m.safeEnd v
/-- The fields are read back if nothing comes after them. -/
def Fields.safeEnd : Fields → List Val → Bool
  | .padding _ rest, vs => rest.safeEnd vs
  | .data s a rest, v :: vs => if rest.noData then safeEndField s.safeEnd s.safe v a else safeField s.safe v a && rest.safeEnd vs
  | _, _ => true
/-- The value of variant `i` is read back if nothing comes after it. -/
def Variants.safeEnd : Variants → Nat → Val → Bool
  | .nil, _, _ => true
  | .cons s a _, 0, v => safeEndField s.safeEnd s.safe v a
  | .cons _ _ rest, i + 1, v => rest.safeEnd i v
/-- The value is read back if nothing comes after it. -/
def Message.safeEnd : Message → Val → Bool
  | .struct _ _ fields, .record vs => fields.safeEnd vs
  | .union _ _ variants, .variant i v => variants.safeEnd i v
  | _, _ => true
end

/-! ### Lemmas -/

/-- Reading a scalar of this type returns the value whose bits are there; the cursor can be anywhere afterwards. -/
def ScalarReadsEnd (s : Scalar) (v : Val) : Prop :=
  ∀ (bs : List Byte) (acc : List Bool), (s.append acc v).length < 8 * 2 ^ 32 → Holds bs (s.append acc v) →
    ∃ w c, s.read (rcur bs acc.length) = some (.ok w, c) ∧ Same w v

/-- Reading a message at a whole byte returns the value whose bits are there; the cursor can be anywhere afterwards. -/
def MessageReadsEnd (m : Message) (v : Val) : Prop :=
  ∀ (bs : List Byte) (base : List Bool), base.length % 8 = 0 → (base ++ m.bits v).length < 8 * 2 ^ 32 → Holds bs (base ++ m.bits v) →
    ∃ w c, m.deserialize (rcur bs base.length) = some (.ok w, c) ∧ Same w v

theorem bits_read_end {bs : List Byte} {acc : List Bool} {a : BitArray} (h : Holds bs (acc ++ bitsA a)) (hv : a.bitLength ≤ 8 * a.bytes.length) :
    ∃ b c, BitArray.deserialize a.bytes.length a.bitLength (rcur bs acc.length) = some (b, c) ∧ Same (.bits b) (.bits a) := by
  unfold BitArray.deserialize BitArray.new
  rw [if_pos (by omega)]
  dsimp only
  obtain ⟨b, h1, h2, h3, h4⟩ := deserializeInPlace_rcur bs ⟨List.replicate a.bytes.length 0, a.bitLength⟩ acc.length (by simpa using hv)
  refine ⟨b, _, h1, ?_⟩
  refine .bits (by simpa using h3) ?_
  unfold bitsA
  rw [h2]
  apply List.map_congr_left
  intro i hi
  have hi' : i < a.bitLength := by simpa using hi
  rw [h4 i hi', h.2 _ (by rw [List.length_append, length_bitsA]; omega), List.getD_eq_getElem?_getD, List.getElem?_append_right (by omega)]
  simp [bitsA, show acc.length + i - acc.length = i by omega, hi']

theorem field_read_end {s : Scalar} {a : Arity} {v : Val} (ha : a.ok = true) (hh : hasField s.isBool s.has v a = true)
    (hf : fitsField s.fits v a = true) (hsafe : safeEndField s.safeEnd s.safe v a = true)
    (hs : ∀ w, s.has w = true → s.fits w = true → s.safe w = true → ScalarReads s w)
    (he : ∀ w, s.has w = true → s.fits w = true → s.safeEnd w = true → ScalarReadsEnd s w) (bs : List Byte) (acc : List Bool)
    (hne : mayBeEmpty s a = true → acc.length % 8 = 0) (hlt : (appendField s s.append acc v a).length < 8 * 2 ^ 32)
    (hH : Holds bs (appendField s s.append acc v a)) :
    ∃ w c, readField s s.read (rcur bs acc.length) a = some (.ok w, c) ∧ Same w v := by
  cases a with
  | scalar => exact he v hh hf hsafe bs acc hlt hH
  | fixed len =>
    obtain ⟨w, h1, h2⟩ := field_read ha hh hf hsafe hs bs acc hne hlt hH
    exact ⟨w, _, h1, h2⟩
  | var maxLen =>
    by_cases hb : ∃ b, v = .bits b
    · obtain ⟨b, rfl⟩ := hb
      have hm := Arity.ok_var ha
      have hw := widthFor_range maxLen
      simp only [hasField, Bool.and_eq_true, decide_eq_true_eq] at hh
      simp only [appendField, readField] at hlt hH ⊢
      have hb : b.bitLength ≤ maxLen := by simpa [fitsField] using hf
      have hnum := (hH.mono ⟨_, rfl⟩ : Holds bs (acc ++ bitsOf (widthFor maxLen) b.bitLength)).num
      rw [Nat.mod_eq_of_lt (Nat.lt_of_le_of_lt hb (lt_two_pow_widthFor hm))] at hnum
      rw [arrayLengthBits_eq hm, readUInt_rcur bs _ _ (by omega) hw.2, hnum]
      dsimp only
      rw [if_pos hh.1]
      obtain ⟨b', c, h1, h2⟩ := bits_read_end hH hh.2.1
      rw [hh.2.2, List.length_append (as := acc), length_bitsOf] at h1
      exact ⟨_, c, by rw [h1]; rfl, h2⟩
    · have hsafe' : safeField s.safe v (.var maxLen) = true := by
        cases v <;> first | exact hsafe | exact absurd ⟨_, rfl⟩ hb
      obtain ⟨w, h1, h2⟩ := field_read ha hh hf hsafe' hs bs acc hne hlt hH
      exact ⟨w, _, h1, h2⟩

theorem Fields.noData_deserialize : ∀ (fs : Fields) (vs : List Val), fs.noData = true → fs.has vs = true → ∀ pending c,
    fs.deserialize pending c = some (.ok [], c) ∧ vs = []
  | .nil, vs, _, hh, pending, c => by
    cases vs with
    | nil => exact ⟨by simp only [Fields.deserialize], rfl⟩
    | cons v vs => simp [Fields.has] at hh
  | .padding bits rest, vs, hn, hh, pending, c => by
    simp only [Fields.noData] at hn
    simp only [Fields.has] at hh
    simp only [Fields.deserialize]
    exact rest.noData_deserialize vs hn hh _ c
  | .data _ _ _, _, hn, _, _, _ => by simp [Fields.noData] at hn

theorem readComposite_end {m : Message} {v : Val} (h : MessageReadsEnd m v) : ScalarReadsEnd (.composite m) v := by
  intro bs acc hlt hH
  simp only [Scalar.append] at hlt hH
  simp only [Scalar.read]
  have hpad : (padByte acc).length = roundUp acc.length := length_padByte acc
  have hp8 : (padByte acc).length % 8 = 0 := by rw [hpad]; unfold roundUp; omega
  have hbody : (padByte (m.bits v)).length = roundUp (m.bits v).length := length_padByte _
  have hle : (m.bits v).length ≤ roundUp (m.bits v).length ∧ roundUp (m.bits v).length % 8 = 0 ∧
    roundUp (m.bits v).length < (m.bits v).length + 8 := by unfold roundUp; omega
  have hpre : m.bits v <+: padByte (m.bits v) := prefix_padByte _
  cases he : m.extent with
  | none =>
    rw [he] at hlt hH
    simp only [Option.isSome_none, Bool.false_eq_true, if_false, List.append_nil] at hlt hH ⊢
    have hH' : Holds bs (padByte acc ++ m.bits v) := hH.mono ((List.prefix_append_right_inj _).2 hpre)
    obtain ⟨w, c, h2, h3⟩ := h bs (padByte acc) hp8 (by simp only [List.length_append] at hlt ⊢; omega) hH'
    unfold ReadCursor.readComposite
    rw [align_rcur, show (acc.length + 7) / 8 * 8 = (padByte acc).length by rw [hpad]; rfl]
    dsimp only
    rw [if_neg (by simp), h2, Option.map_some]
    exact ⟨w, _, rfl, h3⟩
  | some e =>
    rw [he] at hlt hH
    simp only [Option.isSome_some, if_true, Option.map_some] at hlt hH ⊢
    rw [readComposite_rcur _ _ _ rfl]
    have hnum : bitsVal (fun i => bitAt bs (roundUp acc.length + i)) 32 = (padByte (m.bits v)).length / 8 := by
      have := (hH.mono ⟨_, rfl⟩ : Holds bs (padByte acc ++ bitsOf 32 ((padByte (m.bits v)).length / 8))).num
      rw [numAt, hpad] at this
      rw [this, Nat.mod_eq_of_lt]
      simp only [List.length_append, length_bitsOf] at hlt
      omega
    dsimp only
    rw [hnum]
    have hl := hH.1
    simp only [List.length_append, length_bitsOf] at hl hlt
    rw [if_neg (by omega)]
    have hstart : (padByte acc ++ bitsOf 32 ((padByte (m.bits v)).length / 8)).length = roundUp acc.length + 32 := by
      rw [List.length_append, length_bitsOf, hpad]
    have hw := (hH.mono ((List.prefix_append_right_inj _).2 hpre)).window (by rw [hstart]; omega) ((padByte (m.bits v)).length / 8) (by omega) (by
      rw [hstart]; omega)
    rw [hstart] at hw
    obtain ⟨w, c, h2, h3⟩ := h _ [] rfl (by rw [List.nil_append]; omega) hw
    rw [new_eq_rcur]
    rw [List.length_nil] at h2
    rw [h2, Option.map_some]
    exact ⟨w, _, rfl, h3⟩

mutual
theorem Scalar.readsEnd : ∀ (s : Scalar) (v : Val), s.good = true → s.has v = true → s.fits v = true → s.safeEnd v = true → ScalarReadsEnd s v
  | .prim p, v, hg, hh, hf, hs => fun bs acc hlt hH => by
    obtain ⟨w, h1, h2⟩ := (Scalar.prim p).reads v hg hh hf hs bs acc hlt hH
    exact ⟨w, _, h1, h2⟩
  | .composite m, v, hg, hh, hf, hs => by
    simp only [Scalar.good, Bool.and_eq_true] at hg
    simp only [Scalar.has] at hh
    simp only [Scalar.fits] at hf
    simp only [Scalar.safeEnd] at hs
    exact readComposite_end (m.readsEnd v hg.2 hh hf hs)
theorem Fields.readsEnd : ∀ (fs : Fields) (l : Option BitLengthSet) (vs : List Val), fs.good l = true → fs.has vs = true → fs.fits vs = true →
    fs.safeEnd vs = true → Reg (lengthSoFar l) → ∀ (bs : List Byte) (acc : List Bool) (n0 k0 : Nat), n0 ∈ (lengthSoFar l).expand → acc.length = n0 + 8 * k0 →
    (fs.append acc vs).length < 8 * 2 ^ 32 → Holds bs (fs.append acc vs) → ∀ (pending : List Nat) (pos : Nat), pos + pending.sum = acc.length →
    ∃ ws c, fs.deserialize pending (rcur bs pos) = some (.ok ws, c) ∧ List.Forall₂ Same ws vs
  | .nil, l, vs, _, hh, _, _, _, bs, acc, n0, k0, h0, ha, hlt, hH, pending, pos, hpos => by
    cases vs with
    | cons v vs => simp [Fields.has] at hh
    | nil => exact ⟨[], rcur bs pos, by simp only [Fields.deserialize], .nil⟩
  | .padding bits rest, l, vs, hg, hh, hf, hs, hr, bs, acc, n0, k0, h0, ha, hlt, hH, pending, pos, hpos => by
    simp only [Fields.good, Bool.and_eq_true] at hg
    simp only [Fields.has] at hh
    simp only [Fields.fits] at hf
    simp only [Fields.safeEnd] at hs
    simp only [Fields.append, Fields.deserialize] at hlt hH ⊢
    exact rest.readsEnd (some (afterPadding bits l)) vs hg.2 hh hf hs (hr.afterPadding bits) bs _ (n0 + bits) k0 (mem_afterPadding hr bits h0) (by
      simp only [List.length_append, List.length_replicate]; omega) hlt hH (pending ++ [bits]) pos (by
      simp only [List.sum_append, List.sum_cons, List.sum_nil, List.length_append, List.length_replicate]; omega)
  | .data s a rest, l, [], _, hh, _, _, _, _, _, _, _, _, _, _, _, _, _, _ => by simp [Fields.has] at hh
  | .data s a rest, l, v :: vs, hg, hh, hf, hs, hr, bs, acc, n0, k0, h0, ha, hlt, hH, pending, pos, hpos => by
    simp only [Fields.good, Bool.and_eq_true, Bool.or_eq_true, Bool.not_eq_true'] at hg
    simp only [Fields.has, Bool.and_eq_true] at hh
    simp only [Fields.fits, Bool.and_eq_true] at hf
    simp only [Fields.safeEnd] at hs
    simp only [Fields.append, Fields.deserialize] at hlt hH ⊢
    obtain ⟨⟨⟨hgs, hga⟩, hge⟩, hgr⟩ := hg
    have hpre := rest.prefix_append (appendField s s.append acc v a) vs
    have hne : mayBeEmpty s a = true → acc.length % 8 = 0 := fun e => by
      rcases hge with hge | hge
      · rw [e] at hge; simp at hge
      · have := alwaysAligned_zero hge hr h0
        omega
    by_cases hn : rest.noData = true
    · rw [if_pos hn] at hs
      obtain ⟨w, c, e1, e2⟩ := field_read_end hga hh.1 hf.1 hs (fun w => s.reads w hgs) (fun w => s.readsEnd w hgs) bs acc hne
        (Nat.lt_of_le_of_lt hpre.length_le hlt) (hH.mono hpre)
      obtain ⟨e3, rfl⟩ := rest.noData_deserialize vs hn hh.2 [] c
      refine ⟨[w], c, ?_, .cons e2 .nil⟩
      rw [foldl_advance, hpos, e1]
      simp only [andThen]
      rw [e3]
    · rw [if_neg hn, Bool.and_eq_true] at hs
      obtain ⟨n, k, h1, h2, h3, h4⟩ := field_len hga hh.1 hf.1 (fun w => s.len w hgs) acc
      have hi := implicit_dvd (s := s) hga
      have hpre2 := (prefix_appendField s a acc v).length_le
      obtain ⟨w, e1, e2⟩ := field_read hga hh.1 hf.1 hs.1 (fun w => s.reads w hgs) bs acc hne (Nat.lt_of_le_of_lt hpre.length_le hlt) (hH.mono hpre)
      obtain ⟨ws, c, e3, e4⟩ := rest.readsEnd (some (afterData s s.size a l)) vs hgr hh.2 hf.2 hs.2 (s.reg.afterData a hr) bs _ _ (k0 + k)
        (mem_afterData s.reg a hr h0 h1) (by
          rw [h3, ha]
          rcases s.alignment_cases with e | e <;> rw [e] at h2 ⊢
          · simp only [alignUp_one]; omega
          · simp only [alignUp]; omega) hlt hH [] (appendField s s.append acc v a).length (by simp)
      refine ⟨w :: ws, c, ?_, .cons e2 e4⟩
      rw [foldl_advance, hpos, e1]
      simp only [andThen]
      rw [e3]
theorem Variants.readsEnd : ∀ (vs : Variants) (i : Nat) (v : Val), vs.good = true → vs.has i v = true → vs.fits i v = true → vs.safeEnd i v = true →
    ∀ (bs : List Byte) (acc : List Bool), acc.length % 8 = 0 → (vs.append i acc v).length < 8 * 2 ^ 32 → Holds bs (vs.append i acc v) → ∀ k,
    ∃ w c, vs.deserialize k (k + i) (rcur bs acc.length) = some (.ok (.variant (k + i) w), c) ∧ Same w v
  | .nil, _, _, _, hh, _, _, _, _, _, _, _, _ => by simp [Variants.has] at hh
  | .cons s a rest, 0, v, hg, hh, hf, hs, bs, acc, ha, hlt, hH, k => by
    simp only [Variants.good, Bool.and_eq_true] at hg
    simp only [Variants.has] at hh
    simp only [Variants.fits] at hf
    simp only [Variants.safeEnd] at hs
    simp only [Variants.append, Variants.deserialize] at hlt hH ⊢
    obtain ⟨w, c, e1, e2⟩ := field_read_end hg.1.2 hh hf hs (fun w => s.reads w hg.1.1) (fun w => s.readsEnd w hg.1.1) bs acc (fun _ => ha) hlt hH
    refine ⟨w, c, ?_, e2⟩
    rw [if_pos (Nat.add_zero k), e1]
    rfl
  | .cons s a rest, i + 1, v, hg, hh, hf, hs, bs, acc, ha, hlt, hH, k => by
    simp only [Variants.good, Bool.and_eq_true] at hg
    simp only [Variants.has] at hh
    simp only [Variants.fits] at hf
    simp only [Variants.safeEnd] at hs
    simp only [Variants.append, Variants.deserialize] at hlt hH ⊢
    have := rest.readsEnd i v hg.2 hh hf hs bs acc ha hlt hH (k + 1)
    rw [show k + 1 + i = k + (i + 1) by omega] at this
    rw [if_neg (by omega)]
    exact this
theorem Message.readsEnd : ∀ (m : Message) (v : Val), m.good = true → m.has v = true → m.fits v = true → m.safeEnd v = true → MessageReadsEnd m v
  | .struct e r fields, v, hg, hh, hf, hs => fun bs base hb hlt hH => by
    cases v <;> simp only [Message.has, Bool.false_eq_true] at hh
    rename_i vs
    simp only [Message.good, Bool.and_eq_true, Bool.or_eq_true, Bool.not_eq_true'] at hg
    simp only [Message.fits] at hf
    simp only [Message.safeEnd] at hs
    obtain ⟨⟨hgf, -⟩, hgz⟩ := hg
    simp only [Message.deserialize, Message.bits] at hlt hH ⊢
    have e0 := fields.append_shift hb [] vs
    rw [List.append_nil] at e0
    by_cases hz : (Message.struct e r fields).zeroCopy = true
    · have hp : fields.plain = true := by
        rcases hgz with hgz | hgz
        · rw [hz] at hgz; simp at hgz
        · exact hgz
      have hz' := hz
      simp only [Message.zeroCopy, Bool.and_eq_true] at hz'
      obtain ⟨bytes, e1, e2⟩ := fields.image_ok none vs hz'.2 hp hgf hh hf
      obtain ⟨bytes', f1, f2, f3⟩ := fields.load_ok none vs hz'.2 hp hgf hh hf
      rw [e1] at f1
      injection f1 with f1
      subst f1
      have e3 := e2 [] rfl
      rw [List.nil_append] at e3
      rw [e3] at hlt hH
      refine ⟨.record vs, rcur bs (base.length + 8 * bytes.length), ?_, .refl _⟩
      rw [if_pos hz]
      have hwin := hH.window_eq hb
      have hl := hH.1
      rw [List.length_append, length_flatMap_bits] at hl
      have hr : rcur bs base.length = ⟨bs.drop (base.length / 8), 0⟩ := by unfold rcur; rw [hb]
      unfold ReadCursor.zeroCopy
      have has : (rcur bs base.length).asBytes = some (bs.drop (base.length / 8)) := by rw [hr]; rfl
      rw [has]
      dsimp only
      rw [← f2, List.length_drop, Nat.min_eq_left (by omega), Nat.sub_self, hwin, advanceBytes_rcur]
      have hload := f3 []
      rw [List.append_nil] at hload
      simp only [List.replicate_zero, List.append_nil, okRead, Option.map_some, hload]
    · rw [← e0] at hlt hH
      obtain ⟨ws, c, h1, h2⟩ := fields.readsEnd none vs hgf hh hf hs (.single 0) bs base 0 (base.length / 8) (mem_single 0) (by omega) hlt hH []
        base.length (by simp)
      refine ⟨.record ws, c, ?_, .record h2⟩
      rw [if_neg hz, h1]
      rfl
  | .union e r variants, v, hg, hh, hf, hs => fun bs base hb hlt hH => by
    cases v <;> simp only [Message.has, Bool.false_eq_true] at hh
    rename_i i v
    simp only [Message.good, Bool.and_eq_true, decide_eq_true_eq] at hg
    simp only [Message.fits] at hf
    simp only [Message.safeEnd] at hs
    obtain ⟨⟨⟨hgv, -⟩, hc⟩, hw⟩ := hg
    simp only [Message.deserialize, Message.bits] at hlt hH ⊢
    rw [hw] at hlt hH
    have hr := widthFor_range variants.count
    have hd := widthFor_dvd variants.count
    rw [← variants.append_shift hb] at hlt hH
    have hi := variants.has_lt i v hh
    have hnum := (hH.mono (variants.prefix_append i _ v)).num
    rw [Nat.mod_eq_of_lt (Nat.lt_trans hi (lt_two_pow_widthFor hc))] at hnum
    obtain ⟨w, c, e1, e2⟩ := variants.readsEnd i v hgv hh hf hs bs _ (by rw [List.length_append, length_bitsOf]; omega) hlt hH 0
    rw [List.length_append, length_bitsOf] at e1
    simp only [Nat.zero_add] at e1
    refine ⟨.variant i w, c, ?_, .variant i e2⟩
    rw [Variants.tagBits, arrayLengthBits_eq hc, readUIntAligned_rcur bs _ _ (by omega) hr.2 hb, hnum]
    dsimp only
    rw [e1]
  | .enum e r bits values, v, hg, hh, hf, hs => fun bs base hb hlt hH => by
    obtain ⟨-, w, h1, h2⟩ := (Message.enum e r bits values).reads v hg hh hf (by cases v <;> rfl) bs base hb hlt hH
    exact ⟨w, _, h1, h2⟩
end

/-! ### C68 -/

/-- **C68.** For the same types and values, if the value is one that is read back when nothing comes after it (`safeEnd`): after `serialize` into any buffer that
is large enough, `deserialize` returns an equal value, whatever comes after the buffer.

Missing: the types and values that `good`, `fits` and `safeEnd` exclude; see the counterexamples. -/
theorem C68_round_trip_end_partial (m : Message) (v : Val) (hg : m.good = true) (hv : m.has v = true) (hf : m.fits v = true) (hsafe : m.safeEnd v = true)
    (hs : m.sizeBits v ≤ 8 * (2 ^ 32 - 1)) (buf extra : List Byte) (hb : m.sizeBits v ≤ 8 * buf.length) (c : WriteCursor)
    (hc : m.serialize v (WriteCursor.new buf) = some c) :
    ∃ w r, m.deserialize (ReadCursor.new (c.bytes ++ extra)) = some (.ok w, r) ∧ Same w v := by
  have hsize := C67_size_partial m v hg hv hf
  rw [new_eq_wcur, m.writes v buf.length (m.bits v).length (by omega) (by omega) hg hv hf [] rfl (by simp), List.nil_append] at hc
  injection hc with hc
  subst hc
  have hlen : (wcur buf.length (m.bits v)).bytes.length = buf.length := by simp [wcur]
  have hH : Holds ((wcur buf.length (m.bits v)).bytes ++ extra) ([] ++ m.bits v) := by
    refine ⟨by simp only [List.length_append, hlen, List.nil_append]; omega, fun p hp => ?_⟩
    rw [List.nil_append] at hp ⊢
    have e : bitAt ((wcur buf.length (m.bits v)).bytes ++ extra) p = bitAt (wcur buf.length (m.bits v)).bytes p := by
      unfold bitAt
      rw [List.getD_eq_getElem?_getD, List.getElem?_append_left (by omega), ← List.getD_eq_getElem?_getD]
    rw [e]
    exact bitAt_pack _ _ _ (by omega)
  obtain ⟨w, r, h1, h2⟩ := m.readsEnd v hg hv hf hsafe _ [] rfl (by simp only [List.nil_append]; omega) hH
  rw [new_eq_rcur]
  exact ⟨w, r, h1, h2⟩

/-- `{uint8; bool[<=16]}` with 8 bits, which `C68_round_trip_partial` does not cover. -/
example :
    let m : Message := .struct none false (.data (u 8) .scalar (.data (.prim .boolean) (.var 16) .nil))
    let v : Val := .record [.num 2, .bits ⟨[0xab, 0], 8⟩]
    m.good = true ∧ m.has v = true ∧ m.fits v = true ∧ m.safe v = false ∧ m.safeEnd v = true ∧
      (m.serialize v (WriteCursor.new [0, 0, 0])).map (·.bytes) = some [2, 8, 0xab] ∧
      (match m.deserialize (ReadCursor.new [2, 8, 0xab]) with
        | some (.ok (.record [.num x, .bits a]), _) => x == 2 && a.bitLength == 8 && a.bytes == [0xab, 0]
        | _ => false) = true := by decide +kernel

end Verif.Dsdl
