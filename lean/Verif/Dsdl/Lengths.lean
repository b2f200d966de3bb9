import Verif.Dsdl.Spec
import Verif.Enc.CompositeProps
import Verif.Bls.Props

/-!
Helper lemmas: the lengths that the compiler computes for a type are the lengths of its values, except for the bits of delimiter headers and
array lengths that it leaves out, which are whole bytes.
-/

namespace Verif.Dsdl

open Verif.Enc Verif.Bls

/-! ### Length sets -/

/-- A length set that was made by the functions of the interface and pads only to powers of two. -/
def Reg (s : BitLengthSet) : Prop := (∃ L, Denotes s L) ∧ ∀ a, PadsTo a s.operator → ∃ k, a = 2 ^ k

theorem Reg.single (n : Nat) : Reg (.single n) := ⟨⟨_, .single n⟩, fun a h => by cases h⟩

theorem mem_single (n : Nat) : n ∈ (BitLengthSet.single n).expand := ((C48_expand (.single n)).1 n).2 rfl

theorem mem_single_iff {n m : Nat} : m ∈ (BitLengthSet.single n).expand ↔ m = n := (C48_expand (.single n)).1 m

theorem Reg.pad {s : BitLengthSet} (h : Reg s) {a : Nat} (ha : ∃ k, a = 2 ^ k) : Reg (s.padToAlignment a) := by
  obtain ⟨⟨L, hL⟩, hp⟩ := h
  have ha0 : 0 < a := by obtain ⟨k, rfl⟩ := ha; exact Nat.two_pow_pos k
  refine ⟨⟨_, .pad a ha0 hL⟩, fun b hb => ?_⟩
  cases hb with
  | here => exact ha
  | padding hb => exact hp b hb

theorem mem_pad_iff {s : BitLengthSet} (h : Reg s) {a : Nat} (ha : 0 < a) {n : Nat} :
    n ∈ (s.padToAlignment a).expand ↔ ∃ m ∈ s.expand, n = alignUp m a := by
  obtain ⟨⟨L, hL⟩, -⟩ := h
  rw [(C48_expand (.pad a ha hL)).1 n]
  constructor
  · rintro ⟨m, h1, h2⟩
    exact ⟨m, ((C48_expand hL).1 m).2 h1, (alignUp_iff ha).2 h2⟩
  · rintro ⟨m, h1, h2⟩
    exact ⟨m, ((C48_expand hL).1 m).1 h1, (alignUp_iff ha).1 h2⟩

theorem Reg.concat {s t : BitLengthSet} (h : Reg s) (h' : Reg t) : Reg (s.concatenate [t]) := by
  obtain ⟨⟨L, hL⟩, hp⟩ := h
  obtain ⟨⟨L', hL'⟩, hp'⟩ := h'
  refine ⟨⟨_, .concat [(t, L')] hL (by simpa using hL')⟩, fun b hb => ?_⟩
  cases hb with
  | concat hc hb =>
    simp only [List.map_cons, List.map_nil, List.mem_cons, List.not_mem_nil, or_false] at hc
    rcases hc with rfl | rfl
    · exact hp b hb
    · exact hp' b hb

theorem mem_concat {s t : BitLengthSet} (h : Reg s) (h' : Reg t) {n m : Nat} (hn : n ∈ s.expand) (hm : m ∈ t.expand) :
    n + m ∈ (s.concatenate [t]).expand := by
  obtain ⟨⟨L, hL⟩, -⟩ := h
  obtain ⟨⟨L', hL'⟩, -⟩ := h'
  have := (C48_expand (.concat [(t, L')] hL (by simpa using hL'))).1 (n + m)
  refine this.2 ⟨n, ((C48_expand hL).1 n).1 hn, [m], ?_, by simp⟩
  exact .cons (((C48_expand hL').1 m).1 hm) .nil

theorem Reg.repeated {s : BitLengthSet} (h : Reg s) (k : Nat) : Reg (s.repeatTimes k) := by
  obtain ⟨⟨L, hL⟩, hp⟩ := h
  refine ⟨⟨_, .repeated k hL⟩, fun b hb => ?_⟩
  cases hb with
  | repeated hb => exact hp b hb

theorem mem_repeated {s : BitLengthSet} (h : Reg s) {k : Nat} {ms : List Nat} (hk : ms.length = k) (hm : ∀ m ∈ ms, m ∈ s.expand) :
    ms.sum ∈ (s.repeatTimes k).expand := by
  obtain ⟨⟨L, hL⟩, -⟩ := h
  exact ((C48_expand (.repeated k hL)).1 _).2 ⟨ms, hk, fun m h => ((C48_expand hL).1 m).1 (hm m h), rfl⟩

theorem Reg.ranged {s : BitLengthSet} (h : Reg s) (k : Nat) : Reg (s.repeatRange k) := by
  obtain ⟨⟨L, hL⟩, hp⟩ := h
  refine ⟨⟨_, .ranged k hL⟩, fun b hb => ?_⟩
  cases hb with
  | ranged hb => exact hp b hb

theorem mem_ranged {s : BitLengthSet} (h : Reg s) {k : Nat} {ms : List Nat} (hk : ms.length ≤ k) (hm : ∀ m ∈ ms, m ∈ s.expand) :
    ms.sum ∈ (s.repeatRange k).expand := by
  obtain ⟨⟨L, hL⟩, -⟩ := h
  exact ((C48_expand (.ranged k hL)).1 _).2 ⟨ms, hk, fun m h => ((C48_expand hL).1 m).1 (hm m h), rfl⟩

theorem Reg.unite {s t : BitLengthSet} (h : Reg s) (h' : Reg t) : Reg (s.unite [t]) := by
  obtain ⟨⟨L, hL⟩, hp⟩ := h
  obtain ⟨⟨L', hL'⟩, hp'⟩ := h'
  refine ⟨⟨_, .united [(t, L')] hL (by simpa using hL')⟩, fun b hb => ?_⟩
  cases hb with
  | united hc hb =>
    simp only [List.map_cons, List.map_nil, List.mem_cons, List.not_mem_nil, or_false] at hc
    rcases hc with rfl | rfl
    · exact hp b hb
    · exact hp' b hb

theorem mem_unite {s t : BitLengthSet} (h : Reg s) (h' : Reg t) {n : Nat} (hn : n ∈ s.expand ∨ n ∈ t.expand) : n ∈ (s.unite [t]).expand := by
  obtain ⟨⟨L, hL⟩, -⟩ := h
  obtain ⟨⟨L', hL'⟩, -⟩ := h'
  have := (C48_expand (.united [(t, L')] hL (by simpa using hL'))).1 n
  refine this.2 ?_
  rcases hn with hn | hn
  · exact .inl (((C48_expand hL).1 n).1 hn)
  · exact .inr ⟨(t, L'), by simp, ((C48_expand hL').1 n).1 hn⟩

theorem Reg.fixed {s : BitLengthSet} (h : Reg s) (hf : s.minValue = s.maxValue) {n : Nat} (hn : n ∈ s.expand) : n = s.minValue := by
  obtain ⟨⟨L, hL⟩, -⟩ := h
  obtain ⟨⟨-, h2⟩, -, h4⟩ := C48_min_max hL
  have := h2 n hn
  have := h4 n hn
  omega

theorem Reg.min_mem {s : BitLengthSet} (h : Reg s) : s.minValue ∈ s.expand := by
  obtain ⟨⟨L, hL⟩, -⟩ := h
  exact (C48_min_max hL).1.1

theorem Reg.aligned {s : BitLengthSet} (h : Reg s) (ha : s.isByteAligned = true) {n : Nat} (hn : n ∈ s.expand) : n % 8 = 0 := by
  obtain ⟨⟨L, hL⟩, hp⟩ := h
  exact Nat.mod_eq_zero_of_dvd ((C49_is_byte_aligned hL hp).1 ha n hn)

theorem reduceUnite_foldl (xs : List BitLengthSet) : ∀ x, Reg x → (∀ y ∈ xs, Reg y) →
    Reg (xs.foldl (fun a b => a.unite [b]) x) ∧
    ∀ n, (n ∈ x.expand ∨ ∃ y ∈ xs, n ∈ y.expand) → n ∈ (xs.foldl (fun a b => a.unite [b]) x).expand := by
  induction xs with
  | nil => intro x hx _; exact ⟨hx, fun n hn => by simpa using hn⟩
  | cons y ys ih =>
    intro x hx hy
    have hy0 := hy y (by simp)
    obtain ⟨h1, h2⟩ := ih (x.unite [y]) (hx.unite hy0) fun z hz => hy z (by simp [hz])
    refine ⟨h1, fun n hn => h2 n ?_⟩
    rcases hn with hn | ⟨z, hz, hn⟩
    · exact .inl (mem_unite hx hy0 (.inl hn))
    · rcases List.mem_cons.1 hz with rfl | hz
      · exact .inl (mem_unite hx hy0 (.inr hn))
      · exact .inr ⟨z, hz, hn⟩

theorem Reg.reduceUnite {xs : List BitLengthSet} (h : ∀ y ∈ xs, Reg y) : Reg (reduceUnite xs) := by
  cases xs with
  | nil => exact .single 0
  | cons x xs => exact (reduceUnite_foldl xs x (h x (by simp)) fun y hy => h y (by simp [hy])).1

theorem mem_reduceUnite {xs : List BitLengthSet} (h : ∀ y ∈ xs, Reg y) {y : BitLengthSet} (hy : y ∈ xs) {n : Nat} (hn : n ∈ y.expand) :
    n ∈ (Dsdl.reduceUnite xs).expand := by
  cases xs with
  | nil => simp at hy
  | cons x xs =>
    refine (reduceUnite_foldl xs x (h x (by simp)) fun y hy => h y (by simp [hy])).2 n ?_
    rcases List.mem_cons.1 hy with rfl | hy
    · exact .inl hn
    · exact .inr ⟨y, hy, hn⟩

/-! ### Widths -/

theorem arrayLengthBits_eq {n : Nat} (h : n < 2 ^ 64) : arrayLengthBits n = widthFor n := by
  have hb : ∀ b, b ≤ 64 → (max b 8).nextPowerOfTwo = if b ≤ 8 then 8 else if b ≤ 16 then 16 else if b ≤ 32 then 32 else 64 := by
    have h65 : ∀ b ∈ List.range 65, (max b 8).nextPowerOfTwo = if b ≤ 8 then 8 else if b ≤ 16 then 16 else if b ≤ 32 then 32 else 64 := by
      decide +kernel
    exact fun b hb => h65 b (by simp; omega)
  have hl : ∀ k, bitLength n ≤ k ↔ n < 2 ^ k := by
    intro k
    unfold bitLength
    split
    · rename_i h0; subst h0; simp [Nat.two_pow_pos]
    · rename_i h0
      rw [← Nat.log2_lt h0]
      omega
  unfold arrayLengthBits
  rw [hb _ ((hl 64).2 h)]
  simp only [hl]
  rfl

theorem widthFor_dvd (n : Nat) : widthFor n % 8 = 0 := by
  unfold widthFor
  repeat' split
  all_goals rfl

theorem widthFor_range (n : Nat) : 8 ≤ widthFor n ∧ widthFor n ≤ 64 := by
  unfold widthFor
  repeat' split
  all_goals decide

theorem lt_two_pow_widthFor {n : Nat} (h : n < 2 ^ 64) : n < 2 ^ widthFor n := by
  unfold widthFor
  repeat' split
  all_goals assumption

/-! ### Every length set of the compiler is regular -/

theorem pow_one : ∃ k, 1 = 2 ^ k := ⟨0, rfl⟩
theorem pow_eight : ∃ k, 8 = 2 ^ k := ⟨3, rfl⟩

theorem Scalar.alignment_cases (s : Scalar) : s.alignment = 1 ∨ s.alignment = 8 := by cases s <;> simp [Scalar.alignment]

theorem Scalar.alignment_pow (s : Scalar) : ∃ k, s.alignment = 2 ^ k := by
  rcases s.alignment_cases with h | h <;> rw [h]
  · exact pow_one
  · exact pow_eight

theorem Scalar.alignment_pos (s : Scalar) : 0 < s.alignment := by rcases s.alignment_cases with h | h <;> omega

theorem Reg.aritySize {inner : BitLengthSet} (h : Reg inner) (a : Arity) : Reg (a.size inner) := by
  cases a with
  | scalar => exact h
  | fixed len => exact h.repeated len
  | var maxLen => exact h.ranged maxLen

theorem Reg.fieldTotal {s : Scalar} {size : BitLengthSet} (h : Reg size) (a : Arity) : Reg (fieldTotal s size a) := by
  unfold Dsdl.fieldTotal
  split
  · exact (h.aritySize a).concat (.single _)
  · exact h.aritySize a

theorem mem_fieldTotal {s : Scalar} {size : BitLengthSet} (h : Reg size) {a : Arity} {n : Nat} (hn : n ∈ (a.size size).expand) :
    (implicitBits s a).getD 0 + n ∈ (fieldTotal s size a).expand := by
  unfold fieldTotal
  split
  · rename_i bits e
    rw [e, Option.getD_some, Nat.add_comm]
    exact mem_concat (h.aritySize a) (.single _) hn (mem_single _)
  · rename_i e
    rw [e, Option.getD_none, Nat.zero_add]
    exact hn

theorem Reg.afterPadding {l : Option BitLengthSet} (h : Reg (lengthSoFar l)) (bits : Nat) : Reg (afterPadding bits l) := by
  cases l with
  | none => exact .single _
  | some l => exact Reg.concat h (.single _)

theorem mem_afterPadding {l : Option BitLengthSet} (h : Reg (lengthSoFar l)) (bits : Nat) {n : Nat} (hn : n ∈ (lengthSoFar l).expand) :
    n + bits ∈ (Dsdl.afterPadding bits l).expand := by
  cases l with
  | none =>
    have : n = 0 := mem_single_iff.1 hn
    subst this
    rw [Nat.zero_add]
    exact mem_single _
  | some l => exact mem_concat h (.single _) hn (mem_single _)

theorem Reg.afterData {s : Scalar} {size : BitLengthSet} (h : Reg size) (a : Arity) {l : Option BitLengthSet} (hl : Reg (lengthSoFar l)) :
    Reg (afterData s size a l) := by
  unfold Dsdl.afterData
  exact ((hl.pad s.alignment_pow).concat (h.fieldTotal a)).pad s.alignment_pow

theorem mem_afterData {s : Scalar} {size : BitLengthSet} (h : Reg size) (a : Arity) {l : Option BitLengthSet} (hl : Reg (lengthSoFar l))
    {n0 n : Nat} (h0 : n0 ∈ (lengthSoFar l).expand) (hn : n ∈ (a.size size).expand) :
    alignUp (alignUp n0 s.alignment + ((implicitBits s a).getD 0 + n)) s.alignment ∈ (Dsdl.afterData s size a l).expand := by
  unfold Dsdl.afterData
  rw [mem_pad_iff ((hl.pad s.alignment_pow).concat (h.fieldTotal a)) s.alignment_pos]
  refine ⟨_, mem_concat (hl.pad s.alignment_pow) (h.fieldTotal a) ?_ (mem_fieldTotal h hn), rfl⟩
  rw [mem_pad_iff hl s.alignment_pos]
  exact ⟨n0, h0, rfl⟩

/-- The length set of a message before the final padding. -/
def Message.rawLength : Message → BitLengthSet
  | .struct _ _ fields => lengthSoFar (fields.lengthFrom none)
  | .union _ _ variants => (BitLengthSet.single variants.tagBits).concatenate [reduceUnite variants.sizes]
  | .enum _ _ bits _ => afterData (.prim (.uint bits true)) (.single bits) .scalar none

theorem Message.bitLength_eq (m : Message) : m.bitLength = if m.request then m.rawLength else m.rawLength.padToAlignment 8 := by
  cases m <;> simp only [Message.bitLength, Message.request, Message.rawLength] <;> rfl

theorem Message.reg_of_raw {m : Message} (h : Reg m.rawLength) : Reg m.bitLength := by
  rw [Message.bitLength_eq]
  split
  · exact h
  · exact h.pad pow_eight

mutual
theorem Scalar.reg : ∀ s : Scalar, Reg s.size
  | .prim p => by unfold Scalar.size; exact .single _
  | .composite m => by unfold Scalar.size; exact Message.reg_of_raw m.regRaw
theorem Fields.reg : ∀ (fs : Fields) (l : Option BitLengthSet), Reg (lengthSoFar l) → Reg (lengthSoFar (fs.lengthFrom l))
  | .nil, l, h => by unfold Fields.lengthFrom; exact h
  | .padding bits rest, l, h => by
    unfold Fields.lengthFrom
    exact rest.reg _ (h.afterPadding bits)
  | .data s a rest, l, h => by
    unfold Fields.lengthFrom
    exact rest.reg _ (s.reg.afterData a h)
theorem Variants.reg : ∀ vs : Variants, ∀ y ∈ vs.sizes, Reg y
  | .nil => by unfold Variants.sizes; simp
  | .cons s a rest => by
    unfold Variants.sizes
    intro y hy
    rcases List.mem_cons.1 hy with rfl | hy
    · exact s.reg.aritySize a
    · exact rest.reg y hy
theorem Message.regRaw : ∀ m : Message, Reg m.rawLength
  | .struct _ _ fields => by unfold Message.rawLength; exact fields.reg none (.single 0)
  | .union _ _ variants => by unfold Message.rawLength; exact (Reg.single _).concat (.reduceUnite variants.reg)
  | .enum _ _ bits _ => by unfold Message.rawLength; exact (Reg.single _).afterData .scalar (.single 0)
end

theorem Message.reg (m : Message) : Reg m.bitLength := Message.reg_of_raw m.regRaw

theorem alignUp_one (n : Nat) : alignUp n 1 = n := by unfold alignUp; omega

theorem alignUp_eight (n : Nat) : alignUp n 8 = roundUp n := by unfold alignUp roundUp; omega

theorem mem_bitLength_dvd {m : Message} (h : m.request = false) {n : Nat} (hn : n ∈ m.bitLength.expand) : n % 8 = 0 := by
  rw [Message.bitLength_eq, h, if_neg (by simp), mem_pad_iff m.regRaw (by omega)] at hn
  obtain ⟨k, -, rfl⟩ := hn
  unfold alignUp
  omega

/-! ### The lengths of the values -/

theorem length_padByte (acc : List Bool) : (padByte acc).length = roundUp acc.length := by
  unfold padByte roundUp
  simp only [List.length_append, List.length_replicate]
  omega

theorem Scalar.length_align (s : Scalar) (acc : List Bool) : (s.align acc).length = alignUp acc.length s.alignment := by
  unfold Scalar.align
  rcases s.alignment_cases with h | h
  · rw [if_neg (by omega), h, alignUp_one]
  · rw [if_pos h, h, length_padByte, alignUp_eight]

/-- The length of a scalar is in the length set of its type, apart from missing headers. -/
def ScalarLen (s : Scalar) (v : Val) : Prop :=
  ∀ acc, ∃ n k, n ∈ s.size.expand ∧ n % s.alignment = 0 ∧
    (s.append acc v).length = alignUp acc.length s.alignment + headerBits s.extent + n + 8 * k ∧ (s.headed = true → k = 0)

/-- The length of a field is in the length set of its type, apart from missing headers. -/
def FieldLen (s : Scalar) (a : Arity) (v : Val) : Prop :=
  ∀ acc, ∃ n k, n ∈ (a.size s.size).expand ∧ n % s.alignment = 0 ∧
    (appendField s s.append acc v a).length = alignUp acc.length s.alignment + (implicitBits s a).getD 0 + n + 8 * k ∧
    (s.headed = true ∧ (a = .scalar ∨ s.extent = none) → k = 0)

theorem headerBits_dvd (e : Option Nat) : headerBits e % 8 = 0 := by unfold headerBits; split <;> rfl

theorem elements_len {s : Scalar} (vs : List Val) (h : ∀ v ∈ vs, ScalarLen s v) : ∀ acc, acc.length % s.alignment = 0 →
    ∃ (ns : List Nat) (k : Nat), ns.length = vs.length ∧ (∀ n ∈ ns, n ∈ s.size.expand) ∧ ns.sum % s.alignment = 0 ∧
      (vs.foldl s.append acc).length = acc.length + ns.sum + 8 * k ∧ (s.headed = true ∧ s.extent = none → k = 0) := by
  induction vs with
  | nil => intro acc _; exact ⟨[], 0, rfl, by simp, by simp, by simp, by simp⟩
  | cons v vs ih =>
    intro acc ha
    obtain ⟨n, k, h1, h2, h3, h4⟩ := h v (by simp) acc
    have hh := headerBits_dvd s.extent
    have hacc : alignUp acc.length s.alignment = acc.length := by
      rcases s.alignment_cases with e | e <;> rw [e] at ha ⊢
      · exact alignUp_one _
      · unfold alignUp; omega
    have hal : (s.append acc v).length % s.alignment = 0 := by
      rw [h3, hacc]
      rcases s.alignment_cases with e | e <;> rw [e] at ha h2 ⊢ <;> omega
    obtain ⟨ns, k', g1, g2, g3, g4, g5⟩ := ih (fun w hw => h w (by simp [hw])) (s.append acc v) hal
    refine ⟨n :: ns, k + k' + headerBits s.extent / 8, by simp [g1], ?_, ?_, ?_, ?_⟩
    · intro m hm
      rcases List.mem_cons.1 hm with rfl | hm
      · exact h1
      · exact g2 m hm
    · rw [List.sum_cons]
      rcases s.alignment_cases with e | e <;> rw [e] at h2 g3 ⊢ <;> omega
    · rw [List.foldl_cons, g4, h3, hacc, List.sum_cons]
      omega
    · rintro ⟨e1, e2⟩
      rw [h4 e1, g5 ⟨e1, e2⟩, e2]
      rfl

theorem Arity.ok_var {maxLen : Nat} (h : (Arity.var maxLen).ok = true) : maxLen < 2 ^ 64 := by simpa [Arity.ok] using h

theorem implicit_var {s : Scalar} {maxLen : Nat} (h : maxLen < 2 ^ 64) : (implicitBits s (.var maxLen)).getD 0 = widthFor maxLen := by
  simp [implicitBits, arrayLengthBits_eq h]

theorem isBool_eq {s : Scalar} (h : s.isBool = true) : s = .prim .boolean := by
  cases s with
  | composite m => simp [Scalar.isBool] at h
  | prim p => cases p <;> simp_all [Scalar.isBool]

theorem field_len {s : Scalar} {a : Arity} {v : Val} (ha : a.ok = true) (hh : hasField s.isBool s.has v a = true)
    (hf : fitsField s.fits v a = true) (hs : ∀ w, s.has w = true → s.fits w = true → ScalarLen s w) : FieldLen s a v := by
  intro acc
  cases a with
  | scalar =>
    obtain ⟨n, k, h1, h2, h3, h4⟩ := hs v hh hf acc
    refine ⟨n, k, h1, h2, ?_, fun e => h4 e.1⟩
    have : (implicitBits s .scalar).getD 0 = headerBits s.extent := by
      unfold headerBits
      cases e : s.extent <;> simp [implicitBits, e]
    rw [this]
    exact h3
  | fixed len =>
    cases v <;> simp only [hasField, Bool.and_eq_true, decide_eq_true_eq, Bool.false_eq_true] at hh
    case bits b =>
      have e := isBool_eq hh.1
      subst e
      refine ⟨len, 0, ?_, by simp [Scalar.alignment, Nat.mod_one], ?_, fun _ => rfl⟩
      · have := mem_repeated (s := .single 1) (.single 1) (k := len) (ms := List.replicate len 1) (by simp)
          (fun m hm => by rw [List.eq_of_mem_replicate hm]; exact mem_single 1)
        simpa [Arity.size, Scalar.size, Prim.bits] using this
      · simp [appendField, implicitBits, Scalar.alignment, alignUp_one, hh.2.1]
    case list vs =>
      obtain ⟨⟨-, hlen⟩, hall⟩ := hh
      have hfall : vs.all s.fits = true := hf
      obtain ⟨ns, k, g1, g2, g3, g4, g5⟩ := elements_len vs (fun w hw => hs w (List.all_eq_true.1 hall w hw) (List.all_eq_true.1 hfall w hw))
        (s.align acc) (by
          rw [s.length_align]
          rcases s.alignment_cases with e | e <;> rw [e]
          · omega
          · unfold alignUp; omega)
      refine ⟨ns.sum, k, mem_repeated s.reg (g1.trans hlen) g2, g3, ?_, ?_⟩
      · simp only [appendField, implicitBits, Option.getD_none]
        rw [g4, s.length_align]
        omega
      · rintro ⟨e1, e2⟩
        refine g5 ⟨e1, ?_⟩
        simpa using e2
  | var maxLen =>
    have hm := Arity.ok_var ha
    rw [implicit_var hm]
    cases v <;> simp only [hasField, Bool.and_eq_true, decide_eq_true_eq, Bool.false_eq_true] at hh
    case bits b =>
      have e := isBool_eq hh.1
      subst e
      have hb : b.bitLength ≤ maxLen := by simpa [fitsField] using hf
      refine ⟨b.bitLength, 0, ?_, by simp [Scalar.alignment, Nat.mod_one], ?_, fun _ => rfl⟩
      · have := mem_ranged (s := .single 1) (.single 1) (k := maxLen) (ms := List.replicate b.bitLength 1) (by simpa using hb)
          (fun m hm => by rw [List.eq_of_mem_replicate hm]; exact mem_single 1)
        simpa [Arity.size, Scalar.size, Prim.bits] using this
      · simp [appendField, Scalar.alignment, alignUp_one, Nat.add_assoc]
    case list vs =>
      obtain ⟨⟨-, hlen⟩, hall⟩ := hh
      have hfall : vs.all s.fits = true := hf
      have hw := widthFor_dvd maxLen
      have hlen2 : (s.align acc ++ bitsOf (widthFor maxLen) vs.length).length = alignUp acc.length s.alignment + widthFor maxLen := by
        rw [List.length_append, s.length_align, length_bitsOf]
      obtain ⟨ns, k, g1, g2, g3, g4, g5⟩ := elements_len vs (fun w hw => hs w (List.all_eq_true.1 hall w hw) (List.all_eq_true.1 hfall w hw))
        (s.align acc ++ bitsOf (widthFor maxLen) vs.length) (by
          rw [hlen2]
          rcases s.alignment_cases with e | e <;> rw [e]
          · omega
          · unfold alignUp; omega)
      refine ⟨ns.sum, k, mem_ranged s.reg (by omega) g2, g3, ?_, ?_⟩
      · simp only [appendField]
        rw [g4, hlen2]
      · rintro ⟨e1, e2⟩
        refine g5 ⟨e1, ?_⟩
        simpa using e2

theorem implicit_dvd {s : Scalar} {a : Arity} (ha : a.ok = true) : (implicitBits s a).getD 0 % 8 = 0 := by
  cases a with
  | scalar => cases e : s.extent <;> simp [implicitBits, e]
  | fixed len => rfl
  | var maxLen => rw [implicit_var (Arity.ok_var ha)]; exact widthFor_dvd maxLen

mutual
theorem Scalar.len : ∀ (s : Scalar) (v : Val), s.good = true → s.has v = true → s.fits v = true → ScalarLen s v
  | .prim p, v, _, _, _ => fun acc => ⟨p.bits, 0, mem_single _, by simp [Scalar.alignment, Nat.mod_one], by
      simp [Scalar.append, Scalar.alignment, alignUp_one, Scalar.extent, headerBits], fun _ => rfl⟩
  | .composite m, v, hg, hh, hf => fun acc => by
    simp only [Scalar.good, Bool.and_eq_true, Bool.not_eq_true'] at hg
    simp only [Scalar.has] at hh
    simp only [Scalar.fits] at hf
    obtain ⟨n, k, h1, h2, h3⟩ := m.len v hg.2 hh hf
    have hmem : roundUp n ∈ (Scalar.composite m).size.expand := by
      unfold Scalar.size
      rw [Message.bitLength_eq, hg.1, if_neg (by simp), mem_pad_iff m.regRaw (by omega)]
      exact ⟨n, h1, (alignUp_eight n).symm⟩
    refine ⟨roundUp n, k, hmem, ?_, ?_, ?_⟩
    · simp only [Scalar.alignment]; unfold roundUp; omega
    · simp only [Scalar.append, Scalar.alignment, Scalar.extent, List.length_append, length_padByte, alignUp_eight, h2]
      unfold headerBits roundUp
      split <;> simp <;> omega
    · intro e
      simp only [Scalar.headed] at e
      exact h3 e
theorem Fields.len : ∀ (fs : Fields) (l : Option BitLengthSet) (vs : List Val), fs.good l = true → fs.has vs = true → fs.fits vs = true →
    Reg (lengthSoFar l) → ∀ acc n0 k0, n0 ∈ (lengthSoFar l).expand → acc.length = n0 + 8 * k0 →
    ∃ n k, n ∈ (lengthSoFar (fs.lengthFrom l)).expand ∧ (fs.append acc vs).length = n + 8 * k ∧ (fs.headed = true → k = k0)
  | .nil, l, vs, _, _, _, _, acc, n0, k0, h0, ha => ⟨n0, k0, by unfold Fields.lengthFrom; exact h0, by unfold Fields.append; exact ha, fun _ => rfl⟩
  | .padding bits rest, l, vs, hg, hh, hf, hr, acc, n0, k0, h0, ha => by
    simp only [Fields.good, Bool.and_eq_true] at hg
    simp only [Fields.has] at hh
    simp only [Fields.fits] at hf
    simp only [Fields.append, Fields.lengthFrom, Fields.headed]
    refine rest.len (some (afterPadding bits l)) vs hg.2 hh hf (hr.afterPadding bits) _ (n0 + bits) k0 (mem_afterPadding hr bits h0) ?_
    simp only [List.length_append, List.length_replicate]
    omega
  | .data s a rest, l, [], _, hh, _, _, _, _, _, _, _ => by simp [Fields.has] at hh
  | .data s a rest, l, v :: vs, hg, hh, hf, hr, acc, n0, k0, h0, ha => by
    simp only [Fields.good, Bool.and_eq_true] at hg
    simp only [Fields.has, Bool.and_eq_true] at hh
    simp only [Fields.fits, Bool.and_eq_true] at hf
    simp only [Fields.append, Fields.lengthFrom, Fields.headed, Bool.and_eq_true, Bool.or_eq_true, decide_eq_true_eq, Option.isNone_iff_eq_none]
    obtain ⟨⟨⟨hgs, hga⟩, -⟩, hgr⟩ := hg
    obtain ⟨n, k, h1, h2, h3, h4⟩ := field_len hga hh.1 hf.1 (fun w => s.len w hgs) acc
    have hi := implicit_dvd (s := s) hga
    obtain ⟨n', k', g1, g2, g3⟩ := rest.len (some (afterData s s.size a l)) vs hgr hh.2 hf.2 (s.reg.afterData a hr)
      (appendField s s.append acc v a) _ (k0 + k) (mem_afterData s.reg a hr h0 h1) (by
        rw [h3, ha]
        rcases s.alignment_cases with e | e <;> rw [e] at h2 ⊢
        · simp only [alignUp_one]; omega
        · simp only [alignUp]; omega)
    exact ⟨n', k', g1, g2, fun e => by rw [g3 e.2, h4 e.1]; rfl⟩
theorem Variants.len : ∀ (vs : Variants) (i : Nat) (v : Val), vs.good = true → vs.has i v = true → vs.fits i v = true → ∀ acc : List Bool,
    acc.length % 8 = 0 → ∃ size ∈ vs.sizes, ∃ n k, n ∈ size.expand ∧ (vs.append i acc v).length = acc.length + n + 8 * k ∧ (vs.headed = true → k = 0)
  | .nil, _, _, _, hh, _, _, _ => by simp [Variants.has] at hh
  | .cons s a rest, 0, v, hg, hh, hf, acc, ha => by
    simp only [Variants.good, Bool.and_eq_true] at hg
    simp only [Variants.has] at hh
    simp only [Variants.fits] at hf
    obtain ⟨⟨hgs, hga⟩, -⟩ := hg
    obtain ⟨n, k, h1, h2, h3, h4⟩ := field_len hga hh hf (fun w => s.len w hgs) acc
    have hi := implicit_dvd (s := s) hga
    refine ⟨a.size s.size, by simp [Variants.sizes], n, k + (implicitBits s a).getD 0 / 8, h1, ?_, ?_⟩
    · simp only [Variants.append]
      rw [h3]
      rcases s.alignment_cases with e | e <;> rw [e]
      · rw [alignUp_one]; omega
      · unfold alignUp; omega
    · intro e
      simp only [Variants.headed, Bool.and_eq_true, Option.isNone_iff_eq_none] at e
      rw [h4 ⟨e.1.1.1, .inr e.1.2⟩, e.1.1.2]
      rfl
  | .cons s a rest, i + 1, v, hg, hh, hf, acc, ha => by
    simp only [Variants.good, Bool.and_eq_true] at hg
    simp only [Variants.has] at hh
    simp only [Variants.fits] at hf
    obtain ⟨size, hs, n, k, h1, h2, h3⟩ := rest.len i v hg.2 hh hf acc ha
    refine ⟨size, by simp [Variants.sizes, hs], n, k, h1, by simpa only [Variants.append] using h2, ?_⟩
    intro e
    simp only [Variants.headed, Bool.and_eq_true] at e
    exact h3 e.2
theorem Message.len : ∀ (m : Message) (v : Val), m.good = true → m.has v = true → m.fits v = true →
    ∃ n k, n ∈ m.rawLength.expand ∧ (m.bits v).length = n + 8 * k ∧ (m.headed = true → k = 0)
  | .struct e r fields, v, hg, hh, hf => by
    cases v <;> simp only [Message.has, Bool.false_eq_true] at hh
    rename_i vs
    simp only [Message.good, Bool.and_eq_true] at hg
    simp only [Message.fits] at hf
    obtain ⟨n, k, h1, h2, h3⟩ := fields.len none vs hg.1.1 hh hf (.single 0) [] 0 0 (mem_single 0) rfl
    refine ⟨n, k, h1, ?_, ?_⟩
    · simpa only [Message.bits] using h2
    · intro e
      simp only [Message.headed] at e
      exact h3 e
  | .union e r variants, v, hg, hh, hf => by
    cases v <;> simp only [Message.has, Bool.false_eq_true] at hh
    rename_i i v
    simp only [Message.good, Bool.and_eq_true, decide_eq_true_eq] at hg
    simp only [Message.fits] at hf
    obtain ⟨⟨⟨hgv, -⟩, hc⟩, hw⟩ := hg
    obtain ⟨size, hs, n, k, h1, h2, h3⟩ := variants.len i v hgv hh hf (bitsOf (widthFor (variants.count - 1)) i) (by
      rw [length_bitsOf]; exact widthFor_dvd _)
    refine ⟨variants.tagBits + n, k, ?_, ?_, ?_⟩
    · exact mem_concat (.single _) (.reduceUnite variants.reg) (mem_single _) (mem_reduceUnite variants.reg hs h1)
    · simp only [Message.bits]
      rw [h2, length_bitsOf, hw, Variants.tagBits, arrayLengthBits_eq hc]
    · intro e
      simp only [Message.headed] at e
      exact h3 e
  | .enum e r bits values, v, hg, hh, hf => by
    cases v <;> simp only [Message.has, Bool.false_eq_true] at hh
    refine ⟨bits, 0, ?_, ?_, fun _ => rfl⟩
    · have := mem_afterData (s := .prim (.uint bits true)) (size := .single bits) (.single bits) .scalar (l := none) (.single 0) (mem_single 0)
        (n := bits) (mem_single bits)
      simpa [Scalar.alignment, alignUp_one, implicitBits, Scalar.extent, Message.rawLength] using this
    · simp [Message.bits]
end

end Verif.Dsdl
