import Verif.Bls.ModLemmas
/-
Properties of bit length sets.  `Denotes s L` (Spec.lean) says that `s` was made with the functions of the interface and stands
for the set of lengths `L`.
-/
namespace Verif.Bls

open BitLengthSet

/-- A concrete set: one to four times 3 bits or nothing, then 8 or 9 bits, padded to bytes. -/
def demo : BitLengthSet := (((single 3).repeatRange 4).concatenate [(single 8).unite [single 9]]).padToAlignment 8

/-- The same lengths, given outright. -/
def demoFlat : BitLengthSet := ⟨.leaf [8, 16, 24]⟩

theorem demo_denotes : ∃ L, Denotes demo L :=
  ⟨_, Denotes.pad 8 (by omega) (Denotes.concat [((single 8).unite [single 9], _)] (Denotes.ranged 4 (Denotes.single 3))
    (fun p hp => by
      rw [List.mem_singleton] at hp
      subst hp
      exact Denotes.united [(single 9, _)] (Denotes.single 8) (fun q hq => by
        rw [List.mem_singleton] at hq
        subst hq
        exact Denotes.single 9)))⟩

theorem demoFlat_denotes : ∃ L, Denotes demoFlat L := ⟨_, Denotes.ofSet (values := [8, 16, 24]) (by decide) rfl⟩

/-! ### C48 -/

/-- C48: the expansion of every set that can be made is the set of lengths it stands for, in increasing order, and never empty. -/
theorem C48_expand {s : BitLengthSet} {L : Nat → Prop} (h : Denotes s L) :
    (∀ n, n ∈ s.expand ↔ L n) ∧ s.expand.Pairwise (· < ·) ∧ s.expand ≠ [] := by
  refine ⟨expand_mem h, expand_sorted h, fun e => ?_⟩
  have := (expand_mem h _).2 (min_spec h).1
  rw [e] at this
  simp at this

/-- C48: `min_value` and `max_value` are the least and the greatest length of the expansion, for every set that can be made. -/
theorem C48_min_max {s : BitLengthSet} {L : Nat → Prop} (h : Denotes s L) :
    (s.minValue ∈ s.expand ∧ ∀ n ∈ s.expand, s.minValue ≤ n) ∧ (s.maxValue ∈ s.expand ∧ ∀ n ∈ s.expand, n ≤ s.maxValue) :=
  ⟨⟨(expand_mem h _).2 (min_spec h).1, fun n hn => (min_spec h).2 n ((expand_mem h n).1 hn)⟩,
   ⟨(expand_mem h _).2 (max_spec h).1, fun n hn => (max_spec h).2 n ((expand_mem h n).1 hn)⟩⟩

/-- C48: `is_fixed_size` is true exactly for the sets of one length. -/
theorem C48_fixed_size {s : BitLengthSet} {L : Nat → Prop} (h : Denotes s L) :
    s.isFixedSize = true ↔ ∃ n, s.expand = [n] := by
  obtain ⟨⟨h1, h2⟩, h3, h4⟩ := C48_min_max h
  unfold isFixedSize
  rw [beq_iff_eq]
  constructor
  · intro e
    refine ⟨s.minValue, sorted_ext (expand_sorted h) (by simp) fun n => ?_⟩
    rw [List.mem_singleton]
    constructor
    · intro hn
      have := h2 n hn
      have := h4 n hn
      omega
    · rintro rfl; exact h1
  · rintro ⟨n, e⟩
    rw [e, List.mem_singleton] at h1 h3
    rw [h1, h3]

example : demo.expand = [8, 16, 24] ∧ demo.minValue = 8 ∧ demo.maxValue = 24 ∧ demo.isFixedSize = false := by decide +kernel

example : demo.minValue ∈ demo.expand ∧ demo.maxValue ∈ demo.expand := by
  obtain ⟨L, h⟩ := demo_denotes
  exact ⟨(C48_min_max h).1.1, (C48_min_max h).2.1⟩

/-! ### C49 -/

/-- What C49 asks for: the remainders computed are those of the expansion. -/
def RemaindersExact (s : BitLengthSet) (d : Nat) : Prop :=
  ∀ r, r ∈ (s.rem d).expand ↔ ∃ n, n ∈ s.expand ∧ n % d = r

/-- C49, where no padding of the expression is to an alignment `a` that neither divides the divisor nor is divided by it:
the set of remainders computed by `%` is exactly the set of the remainders of the lengths. The reduction of the repetition counts
is exact for every count and divisor. Missing: other paddings, where the statement fails (`C49_counterexample`). -/
theorem C49_modulo_partial {s : BitLengthSet} {L : Nat → Prop} (h : Denotes s L) {d : Nat} (hd : 0 < d)
    (hp : ∀ a, PadsTo a s.operator → a ∣ d ∨ d ∣ a) : RemaindersExact s d := by
  intro r
  show r ∈ s.operator.modulo d ↔ _
  rw [modulo_mem h hd hp]
  simp only [expand_mem h]

/-- C49 for `is_aligned`, under the same condition: it is true exactly if every length is a multiple of the number given. -/
theorem C49_is_aligned_partial {s : BitLengthSet} {L : Nat → Prop} (h : Denotes s L) {d : Nat} (hd : 0 < d)
    (hp : ∀ a, PadsTo a s.operator → a ∣ d ∨ d ∣ a) : s.isAligned d = true ↔ ∀ n, n ∈ s.expand → d ∣ n := by
  obtain ⟨r0, hr0⟩ := (modulo_nonempty h hd).1
  have hne : s.operator.modulo d ≠ [] := fun e => by rw [e] at hr0; simp at hr0
  have hmin := headD_least (modulo_sorted (s := s) d) hne
  have hmax := getLastD_greatest (modulo_sorted (s := s) d) hne
  have hm : ∀ r, r ∈ s.operator.modulo d ↔ ∃ n, n ∈ s.expand ∧ n % d = r := C49_modulo_partial h hd hp
  have e : s.isAligned d = ((s.operator.modulo d).headD 0 == (s.operator.modulo d).getLastD 0 && (s.operator.modulo d).headD 0 == 0) := rfl
  rw [e, Bool.and_eq_true, beq_iff_eq, beq_iff_eq]
  constructor
  · rintro ⟨e1, e2⟩ n hn
    have := hmax.2 _ ((hm _).2 ⟨n, hn, rfl⟩)
    apply Nat.dvd_of_mod_eq_zero
    omega
  · intro hall
    have hz : ∀ r ∈ s.operator.modulo d, r = 0 := fun r hr => by
      obtain ⟨n, hn, rfl⟩ := (hm r).1 hr
      exact Nat.mod_eq_zero_of_dvd (hall n hn)
    rw [hz _ hmin.1, hz _ hmax.1]
    exact ⟨rfl, rfl⟩

/-- C49: in particular, when every padding is to a power of two, `is_byte_aligned` is exact. -/
theorem C49_is_byte_aligned {s : BitLengthSet} {L : Nat → Prop} (h : Denotes s L)
    (hp : ∀ a, PadsTo a s.operator → ∃ k, a = 2 ^ k) : s.isByteAligned = true ↔ ∀ n, n ∈ s.expand → 8 ∣ n := by
  refine C49_is_aligned_partial h (by omega) fun a ha => ?_
  obtain ⟨k, rfl⟩ := hp a ha
  rcases Nat.le_total k 3 with hk | hk
  · exact Or.inl (Nat.pow_dvd_pow 2 hk)
  · exact Or.inr (Nat.pow_dvd_pow 2 hk)

/-- C49: whatever the paddings, the set of remainders is not empty and all its elements are below the divisor, so that it is again
a set that could be made from the lengths in it. -/
theorem C49_remainders_valid {s : BitLengthSet} {L : Nat → Prop} (h : Denotes s L) {d : Nat} (hd : 0 < d) :
    (s.rem d).expand ≠ [] ∧ (∀ r ∈ (s.rem d).expand, r < d) ∧ Denotes (s.rem d) (fun r => r ∈ (s.rem d).expand) := by
  obtain ⟨⟨r0, hr0⟩, hlt⟩ := modulo_nonempty h hd
  have hne : s.operator.modulo d ≠ [] := fun e => by rw [e] at hr0; simp at hr0
  refine ⟨hne, hlt, Denotes.ofSet (modulo_sorted (s := s) d) ?_⟩
  show (if (s.operator.modulo d).isEmpty then none else some (BitLengthSet.mk (.leaf (s.operator.modulo d)))) = _
  rw [if_neg (by simpa using hne)]
  rfl

/-- C49 fails for other paddings: 3 bits padded to a byte are 8 bits, which leaves the remainder 2 on division by 3;
the remainder computed is 0, and `is_aligned(3)` is true. -/
theorem C49_counterexample : ∃ s L, Denotes s L ∧ ¬ RemaindersExact s 3 ∧ s.expand = [8] ∧ s.isAligned 3 = true := by
  refine ⟨(single 3).padToAlignment 8, _, Denotes.pad 8 (by omega) (Denotes.single 3), ?_, by decide +kernel, by decide +kernel⟩
  intro h
  have h1 := (h 0).1 (by decide +kernel)
  obtain ⟨n, hn, e⟩ := h1
  have e2 : ((single 3).padToAlignment 8).expand = [8] := by decide +kernel
  rw [e2, List.mem_singleton] at hn
  subst hn
  simp at e

theorem demo_pads {a : Nat} (h : PadsTo a demo.operator) : a = 8 := by
  have hs : ∀ n, ¬ PadsTo a (single n).operator := fun n h => by cases h
  cases h with
  | here => rfl
  | padding h =>
    exfalso
    cases h with
    | concat hc h =>
      simp only [List.mem_cons, List.map_cons, List.map_nil, List.not_mem_nil, or_false] at hc
      rcases hc with rfl | rfl
      · cases h with
        | ranged h => exact hs 3 h
      · cases h with
        | united hc h =>
          simp only [List.mem_cons, List.map_cons, List.map_nil, List.not_mem_nil, or_false] at hc
          rcases hc with rfl | rfl
          · exact hs 8 h
          · exact hs 9 h

example : (demo.rem 16).expand = [0, 8] ∧ demo.isByteAligned = true ∧ demo.isAligned 16 = false := by decide +kernel

example : RemaindersExact demo 16 ∧ (demo.isByteAligned = true ↔ ∀ n, n ∈ demo.expand → 8 ∣ n) := by
  obtain ⟨L, h⟩ := demo_denotes
  exact ⟨C49_modulo_partial h (by omega) fun a ha => by rw [demo_pads ha]; exact Or.inl ⟨2, rfl⟩,
    C49_is_byte_aligned h fun a ha => ⟨3, demo_pads ha⟩⟩

/-! ### C50 -/

/-- C50: two sets compare equal exactly if they stand for the same lengths. -/
theorem C50_eq {a b : BitLengthSet} {La Lb : Nat → Prop} (ha : Denotes a La) (hb : Denotes b Lb) :
    (a.eq b = true ↔ a.expand = b.expand) ∧ (a.eq b = true ↔ ∀ n, La n ↔ Lb n) := by
  have h1 : a.eq b = true ↔ a.expand = b.expand := by
    unfold BitLengthSet.eq
    split
    · rename_i h
      have : a.operator = b.operator := structuralEqual_sound _ _ h
      simp [BitLengthSet.expand, this]
    · rw [beq_iff_eq]
  refine ⟨h1, h1.trans ⟨fun h n => ?_, fun h => ?_⟩⟩
  · rw [← expand_mem ha, ← expand_mem hb, h]
  · refine sorted_ext (expand_sorted ha) (expand_sorted hb) fun n => ?_
    rw [expand_mem ha, expand_mem hb, h n]

theorem cmpSet_eq (a b : List Nat) : cmpSet a b = .eq ↔ a = b := by
  induction a generalizing b with
  | nil => cases b <;> simp [cmpSet]
  | cons x xs ih =>
    cases b with
    | nil => simp [cmpSet]
    | cons y ys =>
      unfold cmpSet
      split
      · simp; omega
      · split
        · simp; omega
        · rw [ih]
          have : x = y := by omega
          simp [this]

theorem cmpSet_lt (a b : List Nat) : cmpSet a b = .lt ↔ a < b := by
  induction a generalizing b with
  | nil => cases b <;> simp [cmpSet]
  | cons x xs ih =>
    cases b with
    | nil => simp [cmpSet]
    | cons y ys =>
      rw [List.cons_lt_cons_iff]
      unfold cmpSet
      split
      · simp_all
      · split
        · simp; omega
        · rw [ih]
          have : x = y := by omega
          simp [this]

theorem cmpSet_gt (a b : List Nat) : cmpSet a b = .gt ↔ b < a := by
  induction a generalizing b with
  | nil => cases b <;> simp [cmpSet]
  | cons x xs ih =>
    cases b with
    | nil => simp [cmpSet]
    | cons y ys =>
      rw [List.cons_lt_cons_iff]
      unfold cmpSet
      split
      · simp; omega
      · split
        · simp_all
        · rw [ih]
          have : x = y := by omega
          simp [this]

/-- C50: the ordering is the lexicographic ordering of the lengths in increasing order, and two sets are neither less nor greater
exactly if they compare equal. -/
theorem C50_cmp {a b : BitLengthSet} {La Lb : Nat → Prop} (ha : Denotes a La) (hb : Denotes b Lb) :
    (a.cmp b = .eq ↔ a.eq b = true) ∧ (a.cmp b = .lt ↔ a.expand < b.expand) ∧ (a.cmp b = .gt ↔ b.expand < a.expand) :=
  ⟨(cmpSet_eq _ _).trans (C50_eq ha hb).1.symm, cmpSet_lt _ _, cmpSet_gt _ _⟩

/-- C50: the ordering is total: exactly one of less, equal and greater, reversed by swapping, and transitive. -/
theorem C50_total_order (a b c : BitLengthSet) :
    (a.cmp b = .lt ↔ b.cmp a = .gt) ∧ (a.cmp b = .eq ↔ b.cmp a = .eq) ∧ (a.cmp b = .lt → b.cmp c = .lt → a.cmp c = .lt)
      ∧ (a.cmp b = .eq → a.cmp c = b.cmp c) := by
  refine ⟨?_, ?_, ?_, ?_⟩
  · unfold BitLengthSet.cmp; rw [cmpSet_lt, cmpSet_gt]
  · unfold BitLengthSet.cmp; rw [cmpSet_eq, cmpSet_eq]; exact eq_comm
  · unfold BitLengthSet.cmp; rw [cmpSet_lt, cmpSet_lt, cmpSet_lt]; exact fun h1 h2 => List.lt_trans h1 h2
  · unfold BitLengthSet.cmp; rw [cmpSet_eq]; intro h; rw [h]

example : demo.eq demoFlat = true ∧ demo.cmp demoFlat = .eq ∧ demo.cmp (single 9) = .lt ∧ demo.eq (single 8) = false
    ∧ demo.operator.structuralEqual demoFlat.operator = false := by decide +kernel

example : demo.cmp demoFlat = .eq ↔ demo.eq demoFlat = true := by
  obtain ⟨L, h⟩ := demo_denotes
  obtain ⟨L', h'⟩ := demoFlat_denotes
  exact (C50_cmp h h').1

end Verif.Bls
