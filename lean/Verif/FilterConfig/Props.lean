import Verif.FilterConfig.Lemmas

/-!
Property C21: reducing a list of ideal filters to what the hardware can hold.
-/

namespace Verif.FilterConfig

/-! ### Specification vocabulary -/

/-- A filter made by the public constructors (`Filter::new`, `Filter::exact_match`). -/
def Constructed (f : Filter) : Prop := ∃ mask id, f = Filter.new mask id

/-- One of the filters accepts the ID. -/
def Accepted (fs : List Filter) (id : BitVec 32) : Prop := ∃ f ∈ fs, f.accepts id = true

/-- **C21.** For filters made by the public constructors and a positive maximum, `optimize` does not fail any assertion
(in debug or release builds), returns exactly `min n max` filters, and accepts every ID that an ideal filter accepts. -/
theorem C21_optimize_bounded_superset_partial (debug : Bool) (ideal : List Filter) (max : Nat) (hmax : 0 < max)
    (hc : ∀ f ∈ ideal, Constructed f) :
    ∃ out slice, optimize debug ideal max = some (out, slice) ∧
      out.length = min ideal.length max ∧
      (∀ id, Accepted ideal id → Accepted out id) ∧
      (ideal.length ≤ max → out = ideal) := by
  have hv : ∀ f ∈ ideal, f.isValid = true := by
    intro f hf
    obtain ⟨m, i, rfl⟩ := hc f hf
    exact new_isValid m i
  have hcount : countValid ideal = ideal.length := List.countP_eq_length.mpr hv
  obtain ⟨fs', h1, h2, h3, h4, h5⟩ := mergeLoop_spec debug max hmax ideal.length ideal hcount
  obtain ⟨I, hI1, hI2⟩ := compact_spec fs'
  have hV : ∀ f ∈ fs'.filter Filter.isValid, f.isValid = true := by
    intro f hf; exact (List.mem_filter.mp hf).2
  obtain ⟨t1, t2⟩ := takeWhile_split hV hI2
  refine ⟨fs'.filter Filter.isValid, compact fs', ?_, ?_, ?_, ?_⟩
  · unfold optimize
    rw [if_neg (by omega), h1]
    simp only [hI1, t1, t2]
    have a1 : ¬ countValid fs' > max := by omega
    have a2 : (fs'.filter Filter.isValid).all Filter.isValid = true := List.all_eq_true.mpr hV
    have a3 : I.any Filter.isValid = false := by
      rw [List.any_eq_false]
      intro f hf
      simp [hI2 f hf]
    simp [a1, a2, a3]
  · rw [← List.countP_eq_length_filter]
    exact h3
  · rintro id ⟨f, hf, ha⟩
    obtain ⟨g, hg, hgv, hga⟩ := h4 id ⟨f, hf, hv f hf, ha⟩
    exact ⟨g, List.mem_filter.mpr ⟨hg, hgv⟩, hga⟩
  · intro hle
    rw [h5 hle]
    exact List.filter_eq_self.mpr hv

/-- **C21**, zero filters: the result is empty. -/
theorem C21_optimize_zero (debug : Bool) (ideal : List Filter) :
    optimize debug ideal 0 = some ([], ideal) := by
  simp [optimize]

/-- **C21**, the merge step: each iteration merges a pair of filters whose merged mask checks the largest possible number of
bits (so the least selective merge is avoided). -/
theorem C21_merge_step_picks_best_pair (fs : List Filter) (h : 2 ≤ countValid fs) :
    ∃ i j, i < j ∧ ∃ (hj : j < fs.length) (hi : i < fs.length),
      fs[i].isValid = true ∧ fs[j].isValid = true ∧
      mergeOnce fs = (fs.set i (merge fs[i] fs[j])).set j Filter.invalid ∧
      ∀ i' j' (hj' : j' < fs.length) (hi' : i' < fs.length), i' < j' → fs[i'].isValid = true → fs[j'].isValid = true →
        (merge fs[i'] fs[j']).rank ≤ (merge fs[i] fs[j]).rank := by
  obtain ⟨⟨h1, h2, h3, h4⟩, h5⟩ := search_spec fs (exists_validPair fs h)
  have hi : (search fs).1 < fs.length := by omega
  refine ⟨(search fs).1, (search fs).2, h1, h2, hi, ?_, ?_, ?_, ?_⟩
  · rwa [getD_eq_getElem _ _ hi] at h3
  · rwa [getD_eq_getElem _ _ h2] at h4
  · simp only [mergeOnce]
    rw [getD_eq_getElem _ _ hi, getD_eq_getElem _ _ h2]
  · intro i' j' hj' hi' hlt hv1 hv2
    have := h5 (i', j') ⟨hlt, hj', by rw [getD_eq_getElem _ _ hi']; exact hv1,
      by rw [getD_eq_getElem _ _ hj']; exact hv2⟩
    rw [getD_eq_getElem _ _ hi', getD_eq_getElem _ _ hj', getD_eq_getElem _ _ hi,
      getD_eq_getElem _ _ h2] at this
    exact this

/-- **C21**, a merged filter is the tightest mask filter above both: every filter with a 29-bit mask that accepts all 29-bit IDs which `a` or `b`
accept accepts all 29-bit IDs that the merged filter accepts. -/
theorem C21_merge_is_tightest (a b f : Filter) (ha : Constructed a) (hb : Constructed b) (hf : Constructed f)
    (hfa : ∀ id, id.toNat < 2 ^ 29 → a.accepts id = true → f.accepts id = true)
    (hfb : ∀ id, id.toNat < 2 ^ 29 → b.accepts id = true → f.accepts id = true) :
    ∀ id, id.toNat < 2 ^ 29 → (merge a b).accepts id = true → f.accepts id = true := by
  intro id hid hm
  obtain ⟨ma, ia, rfl⟩ := ha
  obtain ⟨mb, ib, rfl⟩ := hb
  obtain ⟨mf, jf, rfl⟩ := hf
  have hlt : ∀ v : BitVec 32, (∀ k, 29 ≤ k → v.getLsbD k = false) → v.toNat < 2 ^ 29 := by
    intro v hv
    have e : v = (v.setWidth 29).setWidth 32 := by
      apply BitVec.eq_of_getLsbD_eq
      intro j hj
      simp only [BitVec.getLsbD_setWidth, hj, decide_true, Bool.true_and]
      rcases Nat.lt_or_ge j 29 with h | h
      · simp [h]
      · rw [hv j h]; simp
    rw [e, BitVec.toNat_setWidth]
    have := (v.setWidth 29).isLt
    omega
  have hhigh : ∀ k, 29 ≤ k → id.getLsbD k = false := by
    intro k hk
    show id.toNat.testBit k = false
    apply Nat.testBit_lt_two_pow
    exact Nat.lt_of_lt_of_le hid (Nat.pow_le_pow_right (by omega) hk)
  -- two probes: the candidate's bits with `a`'s (or `b`'s) required bits substituted
  rw [accepts_iff]
  intro k hk hmf
  have hk29 : k < 29 := by
    rw [new_mask_bit] at hmf; simp at hmf; exact hmf.2
  let pa : BitVec 32 := (id &&& ~~~(Filter.new ma ia).mask) ||| ((Filter.new ma ia).id &&& (Filter.new ma ia).mask)
  let pb : BitVec 32 := (id &&& ~~~(Filter.new mb ib).mask) ||| ((Filter.new mb ib).id &&& (Filter.new mb ib).mask)
  have hpa : ∀ j, j < 32 → pa.getLsbD j = (if (Filter.new ma ia).mask.getLsbD j then (Filter.new ma ia).id.getLsbD j else id.getLsbD j) := by
    intro j hj
    simp only [pa, BitVec.getLsbD_or, BitVec.getLsbD_and, BitVec.getLsbD_not, hj, decide_true, Bool.true_and]
    rcases (Filter.new ma ia).mask.getLsbD j <;> simp
  have hpb : ∀ j, j < 32 → pb.getLsbD j = (if (Filter.new mb ib).mask.getLsbD j then (Filter.new mb ib).id.getLsbD j else id.getLsbD j) := by
    intro j hj
    simp only [pb, BitVec.getLsbD_or, BitVec.getLsbD_and, BitVec.getLsbD_not, hj, decide_true, Bool.true_and]
    rcases (Filter.new mb ib).mask.getLsbD j <;> simp
  have la : pa.toNat < 2 ^ 29 := by
    apply hlt; intro j hj
    rcases Nat.lt_or_ge j 32 with h | h
    · rw [hpa j h, new_mask_bit, hhigh j hj]; simp; omega
    · exact BitVec.getLsbD_of_ge _ _ h
  have lb : pb.toNat < 2 ^ 29 := by
    apply hlt; intro j hj
    rcases Nat.lt_or_ge j 32 with h | h
    · rw [hpb j h, new_mask_bit, hhigh j hj]; simp; omega
    · exact BitVec.getLsbD_of_ge _ _ h
  have fa := hfa pa la (by
    rw [accepts_iff]; intro j hj hmj; rw [hpa j hj, if_pos hmj])
  have fb := hfb pb lb (by
    rw [accepts_iff]; intro j hj hmj; rw [hpb j hj, if_pos hmj])
  rw [accepts_iff] at fa fb hm
  have fa' := fa k hk hmf
  have fb' := fb k hk hmf
  rw [hpa k hk] at fa'
  rw [hpb k hk] at fb'
  have hm' := hm k hk
  simp only [merge, mergeMasks, new_mask_bit, new_id_bit, BitVec.getLsbD_and, BitVec.getLsbD_not, BitVec.getLsbD_xor,
    hk, hk29, decide_true, Bool.and_true, Bool.true_and] at hm' fa' fb' ⊢
  revert hm' fa' fb'
  generalize ma.getLsbD k = a1
  generalize mb.getLsbD k = a2
  generalize ia.getLsbD k = a3
  generalize ib.getLsbD k = a4
  generalize id.getLsbD k = a5
  generalize jf.getLsbD k = a6
  revert a1 a2 a3 a4 a5 a6
  decide

/-- The theorem's hypotheses hold for a realistic list (two subjects and a service), and the reduction to two filters
really merges. -/
example : (∀ f ∈ [Filter.new 0x29fff80#32 0x607b00#32, Filter.new 0x29fff80#32 0x607c00#32, Filter.new 0x3ffff80#32 0x3060100#32], Constructed f) ∧
    (optimize true [Filter.new 0x29fff80#32 0x607b00#32, Filter.new 0x29fff80#32 0x607c00#32, Filter.new 0x3ffff80#32 0x3060100#32] 2).map
      (fun r => r.1.length) = some 2 := by
  constructor
  · intro f hf
    simp only [List.mem_cons, List.not_mem_nil, or_false] at hf
    rcases hf with rfl | rfl | rfl <;> exact ⟨_, _, rfl⟩
  · decide +kernel

/-- The hypothesis on the inputs matters: the claim for every slice is false.  `optimize` leaves merged-away slots marked invalid; optimizing the
same slice again then fails an assertion in debug builds, and in release builds returns no filter at all although the slice still
holds a filter. -/
theorem C21_optimize_reuse_counterexample :
    ∃ (ideal slice out : List Filter) (x : BitVec 32),
      (∀ f ∈ ideal, Constructed f) ∧
      optimize false ideal 1 = some (out, slice) ∧ Accepted out x ∧
      optimize true slice 1 = none ∧
      optimize false slice 1 = some ([], List.replicate 2 Filter.invalid) := by
  refine ⟨[Filter.exactMatch 1#32, Filter.exactMatch 3#32],
    [Filter.new 0x1ffffffd#32 1#32, Filter.invalid], [Filter.new 0x1ffffffd#32 1#32], 1#32, ?_, ?_, ?_, ?_, ?_⟩
  · intro f hf
    simp only [List.mem_cons, List.not_mem_nil, or_false] at hf
    rcases hf with rfl | rfl <;> exact ⟨_, _, rfl⟩
  · decide +kernel
  · exact ⟨_, List.mem_singleton.mpr rfl, by decide⟩
  · decide +kernel
  · decide +kernel

end Verif.FilterConfig
