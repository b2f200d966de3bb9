import Verif.Front.LenInv
import Verif.Dsdl.Lengths

/-!
Helper lemmas: the sets of lengths that the compiler computes are the lengths that the members have.
-/

namespace Verif.Front

open Verif.Bls
open Verif.Dsdl (Arity lengthSoFar afterPadding alwaysAligned Reg reduceUnite widthFor arrayLengthBits arrayLengthBits_eq mem_single_iff mem_pad_iff pow_eight pow_one)

/-- A set of lengths has exactly the elements `L`. -/
def Means (s : BitLengthSet) (L : Nat → Prop) : Prop := Reg s ∧ ∀ n, n ∈ s.expand ↔ L n

namespace Means

variable {s t : BitLengthSet} {L L' : Nat → Prop}

theorem congr (h : Means s L) (he : ∀ n, L n ↔ L' n) : Means s L' := ⟨h.1, fun n => (h.2 n).trans (he n)⟩

theorem single (n : Nat) : Means (.single n) (fun l => l = n) := ⟨.single n, fun _ => mem_single_iff⟩

theorem pad (h : Means s L) {a : Nat} (ha : ∃ k, a = 2 ^ k) : Means (s.padToAlignment a) (fun n => ∃ k, L k ∧ PadTo a k n) := by
  have ha0 : 0 < a := by obtain ⟨k, rfl⟩ := ha; exact Nat.two_pow_pos k
  refine ⟨h.1.pad ha, fun n => ?_⟩
  rw [mem_pad_iff h.1 ha0]
  constructor
  · rintro ⟨m, h1, h2⟩
    exact ⟨m, (h.2 m).1 h1, (alignUp_iff ha0).1 h2⟩
  · rintro ⟨m, h1, h2⟩
    exact ⟨m, (h.2 m).2 h1, (alignUp_iff ha0).2 h2⟩

theorem concat (h : Means s L) (h' : Means t L') : Means (s.concatenate [t]) (fun n => ∃ a b, L a ∧ L' b ∧ n = a + b) := by
  refine ⟨h.1.concat h'.1, fun n => ?_⟩
  obtain ⟨⟨⟨D, hD⟩, _⟩, hm⟩ := h
  obtain ⟨⟨⟨D', hD'⟩, _⟩, hm'⟩ := h'
  refine ((C48_expand (.concat [(t, D')] hD (by simpa using hD'))).1 n).trans ?_
  constructor
  · rintro ⟨a, ha, ms, hms, rfl⟩
    cases hms with
    | cons hb hnil =>
      cases hnil
      exact ⟨a, _, (hm a).1 (((C48_expand hD).1 a).2 ha), (hm' _).1 (((C48_expand hD').1 _).2 hb), by simp⟩
  · rintro ⟨a, b, ha, hb, rfl⟩
    exact ⟨a, ((C48_expand hD).1 a).1 ((hm a).2 ha), [b], .cons (((C48_expand hD').1 b).1 ((hm' b).2 hb)) .nil, by simp⟩

theorem repeated (h : Means s L) (k : Nat) : Means (s.repeatTimes k) (SumOf L k) := by
  refine ⟨h.1.repeated k, fun n => ?_⟩
  obtain ⟨⟨⟨D, hD⟩, _⟩, hm⟩ := h
  have he : ∀ n, D n ↔ L n := fun n => ((C48_expand hD).1 n).symm.trans (hm n)
  rw [(C48_expand (.repeated k hD)).1 n]
  unfold SumOf
  simp only [he]

theorem ranged (h : Means s L) (k : Nat) : Means (s.repeatRange k) (fun n => ∃ j, j ≤ k ∧ SumOf L j n) := by
  refine ⟨h.1.ranged k, fun n => ?_⟩
  obtain ⟨⟨⟨D, hD⟩, _⟩, hm⟩ := h
  have he : ∀ n, D n ↔ L n := fun n => ((C48_expand hD).1 n).symm.trans (hm n)
  rw [(C48_expand (.ranged k hD)).1 n]
  unfold SumOf
  simp only [he]
  constructor
  · rintro ⟨ms, h1, h2, h3⟩
    exact ⟨ms.length, h1, ms, rfl, h2, h3⟩
  · rintro ⟨j, hj, ms, h1, h2, h3⟩
    exact ⟨ms, h1 ▸ hj, h2, h3⟩

theorem unite (h : Means s L) (h' : Means t L') : Means (s.unite [t]) (fun n => L n ∨ L' n) := by
  refine ⟨h.1.unite h'.1, fun n => ?_⟩
  obtain ⟨⟨⟨D, hD⟩, _⟩, hm⟩ := h
  obtain ⟨⟨⟨D', hD'⟩, _⟩, hm'⟩ := h'
  refine ((C48_expand (.united [(t, D')] hD (by simpa using hD'))).1 n).trans ?_
  show _ ↔ (L n ∨ L' n)
  rw [← hm, ← hm', (C48_expand hD).1, (C48_expand hD').1]
  simp

theorem aligned (h : Means s L) : s.isByteAligned = true ↔ ∀ n, L n → 8 ∣ n := by
  obtain ⟨⟨⟨D, hD⟩, hp⟩, hm⟩ := h
  rw [C49_is_byte_aligned hD hp]
  simp only [hm]

end Means

theorem sumOf_dvd {L : Nat → Prop} {d : Nat} (h : ∀ n, L n → d ∣ n) {k n : Nat} (hs : SumOf L k n) : d ∣ n := by
  obtain ⟨ms, _, h1, rfl⟩ := hs
  clear * - h h1
  induction ms with
  | nil => simp
  | cons m ms ih =>
    rw [List.sum_cons]
    exact Nat.dvd_add (h m (h1 m (by simp))) (ih fun m hm => h1 m (by simp [hm]))

theorem widthFor_dvd8 (n : Nat) : 8 ∣ widthFor n := Nat.dvd_of_mod_eq_zero (Verif.Dsdl.widthFor_dvd n)

theorem typeLen_dvd {L : Nat → Prop} (h : ∀ n, L n → 8 ∣ n) {a : Arity} {n : Nat} (ht : TypeLen L a n) : 8 ∣ n := by
  cases a with
  | scalar => exact h n ht
  | fixed k => exact sumOf_dvd h ht
  | var k =>
    obtain ⟨j, m, _, hs, rfl⟩ := ht
    exact Nat.dvd_add (widthFor_dvd8 k) (sumOf_dvd h hs)

theorem CMessage.len_dvd (m : CMessage) {n : Nat} (h : m.Len n) : 8 ∣ n := by
  cases m with
  | struct d e fields l cs =>
    rw [CMessage.Len] at h
    obtain ⟨k, _, hp⟩ := h
    exact hp.1
  | union d e b vs l cs =>
    rw [CMessage.Len] at h
    obtain ⟨k, _, hp⟩ := h
    exact hp.1

theorem RScalar.alignment_pow (s : RScalar) : ∃ k, s.alignment = 2 ^ k := by
  cases s with
  | prim => exact pow_one
  | void => exact pow_one
  | composite => exact pow_eight

theorem composite_dvd {key : TypeKey} {m : CMessage} {n : Nat} (h : (RScalar.composite key m).Len n) : 8 ∣ n := by
  rw [RScalar.Len] at h
  split at h
  · exact m.len_dvd h
  · obtain ⟨k, hk, _, rfl⟩ := h
    exact Nat.dvd_add (by decide) hk

theorem RScalar.len_dvd (s : RScalar) {n : Nat} (h : s.Len n) : s.alignment ∣ n := by
  cases s with
  | prim => exact Nat.one_dvd n
  | void => exact Nat.one_dvd n
  | composite key m => exact composite_dvd h

theorem RScalar.typeLen_dvd (s : RScalar) {a : Arity} {n : Nat} (h : TypeLen s.Len a n) : s.alignment ∣ n := by
  cases s with
  | prim => exact Nat.one_dvd n
  | void => exact Nat.one_dvd n
  | composite key m => exact Front.typeLen_dvd (fun n hn => composite_dvd hn) h

/-- What is known of the types in the members. -/
def Inner (members : List Member) : Prop :=
  ∀ n key inner a, Member.data n (.composite key inner) a ∈ members → inner.Plain → Means inner.bitLength inner.Len

theorem scalar_means {s : RScalar} (hp : s.Plain) (hi : ∀ key inner, s = .composite key inner → inner.Plain → Means inner.bitLength inner.Len) :
    Means s.size s.Len := by
  cases s with
  | prim p => exact (Means.single p.bits).congr fun n => by rw [RScalar.Len]
  | void b => exact (Means.single b).congr fun n => by rw [RScalar.Len]
  | composite key m =>
    rw [RScalar.Plain] at hp
    exact (hi key m rfl hp.2).congr fun n => by rw [RScalar.Len, hp.1]

theorem plain_not_delimited {s : RScalar} (hp : s.Plain) : s.delimited = false := by
  cases s with
  | prim => rfl
  | void => rfl
  | composite key m =>
    rw [RScalar.Plain] at hp
    simp [RScalar.delimited, hp.1]

theorem total_means {s : RScalar} {a : Arity} {L : Nat → Prop} (hs : Means s.size L) (hp : s.Plain) (ha : ArityFits a) :
    Means (totalLength s a) (TypeLen L a) := by
  cases a with
  | scalar =>
    unfold totalLength implicitField
    rw [plain_not_delimited hp]
    exact hs
  | fixed k => exact hs.repeated k
  | var k =>
    refine ((hs.ranged k).concat (.single (arrayLengthBits k))).congr fun n => ?_
    rw [arrayLengthBits_eq ha]
    constructor
    · rintro ⟨m, b, ⟨j, hj, hm⟩, rfl, rfl⟩
      exact ⟨j, m, hj, hm, Nat.add_comm _ _⟩
    · rintro ⟨j, m, hj, hm, rfl⟩
      exact ⟨m, _, ⟨j, hj, hm⟩, rfl, Nat.add_comm _ _⟩

theorem size_means {s : RScalar} {a : Arity} {L : Nat → Prop} (hs : Means s.size L) (ha : ∀ k, a ≠ .var k) : Means (sizeOfType s a) (TypeLen L a) := by
  cases a with
  | scalar => exact hs
  | fixed k => exact hs.repeated k
  | var k => exact absurd rfl (ha k)

theorem update_means {s : RScalar} {a : Arity} {l : BitLengthSet} {L : Nat → Prop} (hl : Means l L) (ht : Means (totalLength s a) (TypeLen s.Len a)) :
    Means (updateStructLength s a l) (fun n => ∃ l p t, L l ∧ PadTo s.alignment l p ∧ TypeLen s.Len a t ∧ n = p + t) := by
  obtain ⟨e, he⟩ := s.alignment_pow
  have hpos : 0 < s.alignment := by rw [he]; exact Nat.two_pow_pos e
  refine (((hl.pad ⟨e, he⟩).concat ht).pad ⟨e, he⟩).congr fun n => ?_
  constructor
  · rintro ⟨k, ⟨p, t, ⟨l, h1, h2⟩, h3, rfl⟩, h4, h5, h6⟩
    refine ⟨l, p, t, h1, h2, h3, ?_⟩
    obtain ⟨c, hc⟩ := Nat.dvd_add h2.1 (s.typeLen_dvd h3)
    obtain ⟨d, rfl⟩ := h4
    rw [hc] at h5 h6 ⊢
    have h7 : c ≤ d := Nat.le_of_mul_le_mul_left h5 hpos
    have h8 : d < c + 1 := Nat.lt_of_mul_lt_mul_left (a := s.alignment) (by rw [Nat.mul_add, Nat.mul_one]; exact h6)
    rw [show d = c by omega]
  · rintro ⟨l, p, t, h1, h2, h3, rfl⟩
    exact ⟨p + t, ⟨p, t, ⟨l, h1, h2⟩, h3, rfl⟩, Nat.dvd_add h2.1 (s.typeLen_dvd h3), Nat.le_refl _, by omega⟩

theorem fields_means : ∀ {fields : List CField} {l : Option BitLengthSet} {L : Nat → Prop}, Means (lengthSoFar l) L → PlainFields fields →
    Inner (fields.map CField.member) → Means (lengthSoFar (fields.foldl stepLen l)) (FieldsLen fields L)
  | [], l, L, hl, _, _ => hl.congr fun n => by rw [FieldsLen]
  | .padding bits al :: rest, l, L, hl, hp, hi => by
    rw [PlainFields] at hp
    have : Means (lengthSoFar (stepLen l (.padding bits al))) (fun n => ∃ l, L l ∧ n = l + bits) := by
      cases l with
      | none =>
        refine (Means.single bits).congr fun n => ?_
        have h0 : ∀ k, k = 0 ↔ L k := fun k => mem_single_iff.symm.trans (hl.2 k)
        constructor
        · rintro rfl; exact ⟨0, (h0 0).1 rfl, (Nat.zero_add _).symm⟩
        · rintro ⟨k, hk, rfl⟩; rw [(h0 k).2 hk, Nat.zero_add]
      | some l =>
        refine (Means.concat hl (.single bits)).congr fun n => ?_
        constructor
        · rintro ⟨k, b, hk, rfl, rfl⟩; exact ⟨k, hk, rfl⟩
        · rintro ⟨k, hk, rfl⟩; exact ⟨k, bits, hk, rfl, rfl⟩
    refine (fields_means (fields := rest) (l := stepLen l (.padding bits al)) this hp fun n key inner a hm => hi n key inner a (List.mem_cons_of_mem _ hm)).congr fun n => ?_
    rw [FieldsLen]
  | .data name s a al :: rest, l, L, hl, hp, hi => by
    rw [PlainFields] at hp
    have hs := scalar_means hp.1 fun key inner e => hi name key inner a (by rw [← e]; exact List.mem_cons_self)
    have := update_means hl (total_means hs hp.1 hp.2.1)
    refine (fields_means (fields := rest) (l := stepLen l (.data name s a al)) this hp.2.2 fun n key inner a hm => hi n key inner a (List.mem_cons_of_mem _ hm)).congr fun n => ?_
    rw [FieldsLen]

theorem struct_means {fields : List CField} (hp : PlainFields fields) (hi : Inner (fields.map CField.member)) :
    Means (lengthSoFar (structLen fields)) (FieldsLen fields (fun l => l = 0)) := fields_means (l := none) (.single 0) hp hi

theorem variants_fold : ∀ {vs : List CVariant} {x : BitLengthSet} {L : Nat → Prop}, Means x L → PlainVariants vs → Inner (vs.map CVariant.member) →
    Means ((vs.map CVariant.size).foldl (fun a b => a.unite [b]) x) (fun n => L n ∨ VariantsLen vs n)
  | [], x, L, hx, _, _ => hx.congr fun n => by simp [VariantsLen]
  | .mk name s a :: rest, x, L, hx, hp, hi => by
    rw [PlainVariants] at hp
    have hs := scalar_means hp.1 fun key inner e => hi name key inner a (by rw [← e]; exact List.mem_cons_self)
    have := variants_fold (vs := rest) (hx.unite (size_means hs hp.2.1)) hp.2.2 fun n key inner a hm => hi n key inner a (List.mem_cons_of_mem _ hm)
    exact this.congr fun n => by rw [VariantsLen, or_assoc]

theorem variants_means {vs : List CVariant} (hp : PlainVariants vs) (h0 : 0 < vs.length) (hi : Inner (vs.map CVariant.member)) :
    Means (reduceUnite (vs.map CVariant.size)) (VariantsLen vs) := by
  cases vs with
  | nil => simp at h0
  | cons v rest =>
    cases v with
    | mk name s a =>
      rw [PlainVariants] at hp
      have hs := scalar_means hp.1 fun key inner e => hi name key inner a (by rw [← e]; exact List.mem_cons_self)
      have := variants_fold (vs := rest) (size_means hs hp.2.1) hp.2.2 fun n key inner a hm => hi n key inner a (List.mem_cons_of_mem _ hm)
      exact this.congr fun n => by rw [VariantsLen]

theorem width_pred {n : Nat} (h1 : n ≠ 2 ^ 8) (h2 : n ≠ 2 ^ 16) (h3 : n ≠ 2 ^ 32) (h0 : 0 < n) : widthFor n = widthFor (n - 1) := by
  unfold widthFor
  have e1 : n < 2 ^ 8 ↔ n - 1 < 2 ^ 8 := by omega
  have e2 : n < 2 ^ 16 ↔ n - 1 < 2 ^ 16 := by omega
  have e3 : n < 2 ^ 32 ↔ n - 1 < 2 ^ 32 := by omega
  simp only [e1, e2, e3]

/-- The lengths of a union before it is rounded up to bytes. -/
theorem union_means {vs : List CVariant} (hp : PlainVariants vs) (h0 : 0 < vs.length) (h64 : vs.length < 2 ^ 64) (h8 : vs.length ≠ 2 ^ 8) (h16 : vs.length ≠ 2 ^ 16)
    (h32 : vs.length ≠ 2 ^ 32) (hi : Inner (vs.map CVariant.member)) :
    Means (unionBitLength vs) (fun n => ∃ k, VariantsLen vs k ∧ n = widthFor (vs.length - 1) + k) := by
  have h := (Means.single (discriminantBits vs.length)).concat (variants_means hp h0 hi)
  refine h.congr fun n => ?_
  rw [discriminantBits, arrayLengthBits_eq h64, width_pred h8 h16 h32 h0]
  constructor
  · rintro ⟨a, b, rfl, hb, rfl⟩; exact ⟨b, hb, rfl⟩
  · rintro ⟨k, hk, rfl⟩; exact ⟨_, k, rfl, hk, rfl⟩

theorem raw_means {m : CMessage} (hp : m.Plain) (hi : Inner m.members) : Means (m.rawLength.padToAlignment 8) m.Len ∧ Reg m.rawLength := by
  cases m with
  | struct d e fields l cs =>
    rw [CMessage.Plain] at hp
    exact ⟨((struct_means hp hi).pad pow_eight).congr fun n => by rw [CMessage.Len], (struct_means hp hi).1⟩
  | union d e b vs l cs =>
    rw [CMessage.Plain] at hp
    obtain ⟨h1, h2, h3, h4, h5, h6⟩ := hp
    refine ⟨((union_means h1 h2 h3 h4 h5 h6 hi).pad pow_eight).congr fun n => ?_, (union_means h1 h2 h3 h4 h5 h6 hi).1⟩
    rw [CMessage.Len]
    constructor
    · rintro ⟨_, ⟨k, hk, rfl⟩, hn⟩; exact ⟨k, hk, hn⟩
    · rintro ⟨k, hk, hn⟩; exact ⟨_, ⟨k, hk, rfl⟩, hn⟩

theorem message_means {m : CMessage} (hok : MsgOk false m) (hp : m.Plain) (hi : Inner m.members) : Means m.bitLength m.Len := by
  rw [hok.1]
  exact (raw_means hp hi).1

theorem request_means {m : CMessage} (hok : MsgOk true m) (hp : m.Plain) (hi : Inner m.members) :
    Reg m.bitLength ∧ ∀ n, m.Len n ↔ ∃ k, k ∈ m.bitLength.expand ∧ PadTo 8 k n := by
  obtain ⟨h1, h2⟩ := raw_means hp hi
  rw [hok.1, if_pos rfl]
  refine ⟨h2, fun n => (h1.2 n).symm.trans ?_⟩
  rw [mem_pad_iff h2 (by decide)]
  simp only [alignUp_iff (show 0 < 8 by decide)]
  rfl

end Verif.Front
