import Verif.FilterConfig.Model

/-! Helper lemmas about filter merging. -/

namespace Verif.FilterConfig

theorem new_isValid (m i : BitVec 32) : (Filter.new m i).isValid = true := by
  have h : ((i &&& extendedIdMask) ||| validBit) &&& validBit = validBit := by
    apply BitVec.eq_of_getLsbD_eq
    intro k hk
    simp only [BitVec.getLsbD_and, BitVec.getLsbD_or]
    rcases validBit.getLsbD k <;> simp
  simp only [Filter.isValid, Filter.new, h]
  decide

theorem merge_isValid (a b : Filter) : (merge a b).isValid = true := new_isValid _ _

theorem invalid_isValid : Filter.invalid.isValid = false := by decide

theorem ext_high : ∀ k, 29 ≤ k → extendedIdMask.getLsbD k = false := by
  intro k hk
  rcases Nat.lt_or_ge k 32 with h | h
  · have : k = 29 ∨ k = 30 ∨ k = 31 := by omega
    rcases this with rfl | rfl | rfl <;> decide
  · exact BitVec.getLsbD_of_ge _ _ h

theorem ext_low : ∀ k, k < 29 → extendedIdMask.getLsbD k = true := by
  intro k hk
  have : ∀ k : Fin 29, extendedIdMask.getLsbD k.val = true := by decide
  exact this ⟨k, hk⟩

theorem valid_low : ∀ k, k < 31 → validBit.getLsbD k = false := by
  intro k hk
  have : ∀ k : Fin 31, validBit.getLsbD k.val = false := by decide
  exact this ⟨k, hk⟩

/-- Bitwise reading of `accepts`. -/
theorem accepts_iff (f : Filter) (x : BitVec 32) :
    f.accepts x = true ↔ ∀ k, k < 32 → f.mask.getLsbD k = true → x.getLsbD k = f.id.getLsbD k := by
  simp only [Filter.accepts, beq_iff_eq]
  constructor
  · intro h k hk hm
    have := congrArg (fun v => v.getLsbD k) h
    simpa only [BitVec.getLsbD_and, hm, Bool.true_and] using this
  · intro h
    apply BitVec.eq_of_getLsbD_eq
    intro k hk
    simp only [BitVec.getLsbD_and]
    rcases hm : f.mask.getLsbD k
    · simp
    · simp only [Bool.true_and]; exact h k hk hm

theorem new_mask_bit (m i : BitVec 32) (k : Nat) :
    (Filter.new m i).mask.getLsbD k = (m.getLsbD k && decide (k < 29)) := by
  simp only [Filter.new, BitVec.getLsbD_and]
  rcases Nat.lt_or_ge k 29 with h | h
  · rw [ext_low k h]; simp [h]
  · rw [ext_high k h]; simp; omega

theorem id_bit (f : Filter) (k : Nat) : f.id.getLsbD k = (f.idAndValid.getLsbD k && decide (k < 29)) := by
  simp only [Filter.id, BitVec.getLsbD_and]
  rcases Nat.lt_or_ge k 29 with h | h
  · rw [ext_low k h]; simp [h]
  · rw [ext_high k h]; simp; omega

theorem new_id_bit (m i : BitVec 32) (k : Nat) :
    (Filter.new m i).id.getLsbD k = (i.getLsbD k && decide (k < 29)) := by
  rw [id_bit]
  simp only [Filter.new, BitVec.getLsbD_or, BitVec.getLsbD_and]
  rcases Nat.lt_or_ge k 29 with h | h
  · rw [ext_low k h, valid_low k (by omega)]; simp [h]
  · simp [show ¬ k < 29 by omega]

theorem merge_accepts_left (a b : Filter) (x : BitVec 32) (h : a.accepts x = true) :
    (merge a b).accepts x = true := by
  rw [accepts_iff] at h ⊢
  intro k hk hm
  simp only [merge, new_mask_bit, new_id_bit, mergeMasks, BitVec.getLsbD_and, BitVec.getLsbD_not,
    BitVec.getLsbD_xor, Bool.and_eq_true, decide_eq_true_eq] at hm ⊢
  obtain ⟨⟨⟨h1, h2⟩, h3⟩, h4⟩ := hm
  rw [h k hk h1]
  simp only [h1, h2, h3, h4, decide_true, Bool.and_true]

theorem merge_accepts_right (a b : Filter) (x : BitVec 32) (h : b.accepts x = true) :
    (merge a b).accepts x = true := by
  rw [accepts_iff] at h ⊢
  intro k hk hm
  simp only [merge, new_mask_bit, new_id_bit, mergeMasks, BitVec.getLsbD_and, BitVec.getLsbD_not,
    BitVec.getLsbD_xor, Bool.and_eq_true, decide_eq_true_eq] at hm ⊢
  obtain ⟨⟨⟨h1, h2⟩, h3⟩, h4⟩ := hm
  rw [h k hk h2]
  simp only [h1, h2, h4, hk, decide_true, Bool.and_true, Bool.true_and]
  rcases ha : a.id.getLsbD k <;> rcases hb : b.id.getLsbD k <;> simp [ha, hb] at h3 ⊢

theorem getD_eq_getElem {α : Type} (l : List α) (d : α) {i : Nat} (h : i < l.length) : l.getD i d = l[i] := by
  simp [List.getD_eq_getElem?_getD, h]

/-! ### The search -/

theorem mem_pairs {n i j : Nat} : (i, j) ∈ pairs n ↔ i < j ∧ j < n := by
  simp only [pairs, List.mem_flatMap, List.mem_range, List.mem_map, List.mem_range'_1, Prod.mk.injEq]
  constructor
  · rintro ⟨a, ha, b, hb, rfl, rfl⟩; omega
  · rintro ⟨h1, h2⟩; exact ⟨i, by omega, j, by omega, rfl, rfl⟩

/-- A pair of valid filters. -/
def ValidPair (fs : List Filter) (p : Nat × Nat) : Prop :=
  p.1 < p.2 ∧ p.2 < fs.length ∧ (fs.getD p.1 Filter.invalid).isValid = true ∧
    (fs.getD p.2 Filter.invalid).isValid = true

theorem search_fold (fs : List Filter) (ps : List (Nat × Nat)) : ∀ s : Nat × (Nat × Nat),
    (∀ p ∈ ps, p.1 < p.2 ∧ p.2 < fs.length) →
    (s.2 ≠ (0, 0) → ValidPair fs s.2) →
    (s.2 = (0, 0) → s.1 = 0) →
    let r := ps.foldl (searchStep fs) s
    (r.2 ≠ (0, 0) → ValidPair fs r.2) ∧ (r.2 = (0, 0) → r.1 = 0) ∧
    ((s.2 ≠ (0, 0) ∨ ∃ p ∈ ps, ValidPair fs p) → r.2 ≠ (0, 0)) ∧
    (∀ p ∈ ps, ValidPair fs p →
      (merge (fs.getD p.1 Filter.invalid) (fs.getD p.2 Filter.invalid)).rank ≤ r.1) ∧
    s.1 ≤ r.1 ∧
    ((s.2 ≠ (0,0) → s.1 = (merge (fs.getD s.2.1 Filter.invalid) (fs.getD s.2.2 Filter.invalid)).rank) →
     (r.2 ≠ (0,0) → r.1 = (merge (fs.getD r.2.1 Filter.invalid) (fs.getD r.2.2 Filter.invalid)).rank)) := by
  induction ps with
  | nil =>
    intro s _ h1 h2
    refine ⟨h1, h2, ?_, by simp, Nat.le_refl _, id⟩
    rintro (h | ⟨p, hp, _⟩)
    · exact h
    · simp at hp
  | cons p ps ih =>
    intro s hps h1 h2
    have hp := hps p (by simp)
    have hps' : ∀ q ∈ ps, q.1 < q.2 ∧ q.2 < fs.length := fun q hq => hps q (by simp [hq])
    have hpne : p ≠ (0, 0) := by rintro rfl; simp at hp
    simp only [List.foldl_cons]
    by_cases hv : ((fs.getD p.1 Filter.invalid).isValid && (fs.getD p.2 Filter.invalid).isValid) = true
    · have hvp : ValidPair fs p := by
        rw [Bool.and_eq_true] at hv
        exact ⟨hp.1, hp.2, hv.1, hv.2⟩
      by_cases hr : (merge (fs.getD p.1 Filter.invalid) (fs.getD p.2 Filter.invalid)).rank ≥ s.1
      · have e : searchStep fs s p =
            ((merge (fs.getD p.1 Filter.invalid) (fs.getD p.2 Filter.invalid)).rank, p) := by
          simp only [searchStep, hv, if_true, if_pos hr]
        rw [e]
        obtain ⟨g1, g2, g3, g4, g5, g6⟩ := ih ((merge (fs.getD p.1 Filter.invalid) (fs.getD p.2 Filter.invalid)).rank, p) hps' (fun _ => hvp) (fun h => absurd h hpne)
        refine ⟨g1, g2, fun _ => g3 (Or.inl hpne), ?_, by simp only at g5; omega, fun _ => g6 (fun _ => rfl)⟩
        intro q hq hqv
        rcases List.mem_cons.mp hq with rfl | hq
        · exact g5
        · exact g4 q hq hqv
      · have e : searchStep fs s p = s := by
          simp only [searchStep, hv, if_true, if_neg hr]
        have hs : s.2 ≠ (0, 0) := by
          intro h0
          have := h2 h0
          omega
        rw [e]
        obtain ⟨g1, g2, g3, g4, g5, g6⟩ := ih s hps' h1 h2
        refine ⟨g1, g2, fun _ => g3 (Or.inl hs), ?_, g5, g6⟩
        intro q hq hqv
        rcases List.mem_cons.mp hq with rfl | hq
        · omega
        · exact g4 q hq hqv
    · have e : searchStep fs s p = s := by
        simp only [searchStep, hv]; simp
      have hnv : ¬ ValidPair fs p := by
        rintro ⟨_, _, a, b⟩
        exact hv (by rw [a, b]; rfl)
      rw [e]
      obtain ⟨g1, g2, g3, g4, g5, g6⟩ := ih s hps' h1 h2
      refine ⟨g1, g2, ?_, ?_, g5, g6⟩
      · rintro (h | ⟨q, hq, hqv⟩)
        · exact g3 (Or.inl h)
        · rcases List.mem_cons.mp hq with rfl | hq
          · exact absurd hqv hnv
          · exact g3 (Or.inr ⟨q, hq, hqv⟩)
      · intro q hq hqv
        rcases List.mem_cons.mp hq with rfl | hq
        · exact absurd hqv hnv
        · exact g4 q hq hqv

theorem search_spec (fs : List Filter) (h : ∃ p, ValidPair fs p) :
    ValidPair fs (search fs) ∧
    ∀ p, ValidPair fs p →
      (merge (fs.getD p.1 Filter.invalid) (fs.getD p.2 Filter.invalid)).rank ≤
      (merge (fs.getD (search fs).1 Filter.invalid) (fs.getD (search fs).2 Filter.invalid)).rank := by
  obtain ⟨p, hp⟩ := h
  have hmem : ∀ q, ValidPair fs q → q ∈ pairs fs.length := by
    rintro ⟨a, b⟩ ⟨h1, h2, _, _⟩
    exact mem_pairs.mpr ⟨h1, h2⟩
  have := search_fold fs (pairs fs.length) (0, (0, 0)) (by rintro ⟨a, b⟩ h; exact mem_pairs.mp h)
    (by simp) (by simp)
  simp only at this
  obtain ⟨g1, _, g3, g4, _, g6⟩ := this
  have hne := g3 (Or.inr ⟨p, hmem p hp, hp⟩)
  refine ⟨g1 hne, ?_⟩
  intro q hq
  have e1 := g4 q (hmem q hq) hq
  have e2 := g6 (by simp) hne
  unfold search
  omega

/-- If at least two filters are valid, a valid pair exists. -/
theorem exists_validPair (fs : List Filter) (h : 2 ≤ countValid fs) : ∃ p, ValidPair fs p := by
  induction fs with
  | nil => simp [countValid] at h
  | cons f fs ih =>
    unfold countValid at h
    rw [List.countP_cons] at h
    by_cases hf : f.isValid = true
    · rw [if_pos hf] at h
      have hpos : 0 < fs.countP Filter.isValid := by omega
      obtain ⟨g, hg, hgv⟩ := List.countP_pos_iff.mp hpos
      obtain ⟨j, hj, rfl⟩ := List.getElem_of_mem hg
      refine ⟨(0, j + 1), by simp, by simp; omega, by simpa using hf, ?_⟩
      simp [hgv, hj]
    · rw [if_neg hf] at h
      obtain ⟨⟨a, b⟩, h1, h2, h3, h4⟩ := ih (by unfold countValid; omega)
      refine ⟨(a + 1, b + 1), by simpa using h1, by simpa using h2, ?_, ?_⟩
      · simpa using h3
      · simpa using h4

theorem countP_set {α : Type} (p : α → Bool) (l : List α) (i : Nat) (x : α) (h : i < l.length) :
    (l.set i x).countP p + (if p (l[i]) then 1 else 0) = l.countP p + (if p x then 1 else 0) := by
  induction l generalizing i with
  | nil => simp at h
  | cons y ys ih =>
    rcases i with _ | i
    · simp [List.countP_cons]; omega
    · simp only [List.set_cons_succ, List.countP_cons, List.getElem_cons_succ]
      have := ih i (by simpa using h)
      omega

/-- Some valid filter in the list accepts `x`. -/
def AnyAccepts (fs : List Filter) (x : BitVec 32) : Prop :=
  ∃ f ∈ fs, f.isValid = true ∧ f.accepts x = true

theorem mergeOnce_spec (fs : List Filter) (h : 2 ≤ countValid fs) :
    countValid (mergeOnce fs) + 1 = countValid fs ∧ (mergeOnce fs).length = fs.length ∧
    ∀ x, AnyAccepts fs x → AnyAccepts (mergeOnce fs) x := by
  obtain ⟨⟨h1, h2, h3, h4⟩, -⟩ := search_spec fs (exists_validPair fs h)
  have hi : (search fs).1 < fs.length := by omega
  rw [getD_eq_getElem _ _ hi] at h3
  rw [getD_eq_getElem _ _ h2] at h4
  unfold mergeOnce
  simp only
  generalize hm : merge (fs.getD (search fs).1 Filter.invalid) (fs.getD (search fs).2 Filter.invalid) = m
  have hmv : m.isValid = true := by rw [← hm]; exact merge_isValid _ _
  generalize hA : (search fs).1 = a at *
  generalize hB : (search fs).2 = b at *
  refine ⟨?_, by simp, ?_⟩
  · unfold countValid
    have e1 := countP_set Filter.isValid fs a m hi
    have e2 := countP_set Filter.isValid (fs.set a m) b Filter.invalid (by simpa using h2)
    have e3 : ((fs.set a m)[b]'(by simpa using h2)).isValid = true := by
      rw [List.getElem_set_ne (by omega)]; exact h4
    rw [if_pos e3, invalid_isValid] at e2
    rw [if_pos h3, if_pos hmv] at e1
    simp at e2
    omega
  · rintro x ⟨f, hf, hv, hacc⟩
    obtain ⟨k, hk, rfl⟩ := List.getElem_of_mem hf
    have hmem : m ∈ (fs.set a m).set b Filter.invalid := by
      apply List.mem_iff_getElem.mpr
      refine ⟨a, by simpa using hi, ?_⟩
      rw [List.getElem_set_ne (by omega), List.getElem_set_self]
    by_cases hka : k = a
    · subst hka
      refine ⟨m, hmem, hmv, ?_⟩
      rw [← hm, getD_eq_getElem _ _ hi]
      exact merge_accepts_left _ _ _ hacc
    · by_cases hkb : k = b
      · subst hkb
        refine ⟨m, hmem, hmv, ?_⟩
        rw [← hm, getD_eq_getElem _ _ h2]
        exact merge_accepts_right _ _ _ hacc
      · refine ⟨fs[k], ?_, hv, hacc⟩
        apply List.mem_iff_getElem.mpr
        refine ⟨k, by simpa using hk, ?_⟩
        rw [List.getElem_set_ne (by omega), List.getElem_set_ne (by omega)]

theorem mergeLoop_spec (debug : Bool) (maxFilters : Nat) (hm : 0 < maxFilters) : ∀ (valid : Nat) (fs : List Filter),
    countValid fs = valid →
    ∃ fs', mergeLoop debug maxFilters valid fs = some fs' ∧ fs'.length = fs.length ∧
      countValid fs' = min valid maxFilters ∧ (∀ x, AnyAccepts fs x → AnyAccepts fs' x) ∧
      (valid ≤ maxFilters → fs' = fs) := by
  intro valid
  induction valid with
  | zero =>
    intro fs h
    exact ⟨fs, rfl, rfl, by omega, fun _ h => h, fun _ => rfl⟩
  | succ n ih =>
    intro fs h
    unfold mergeLoop
    by_cases hgt : n + 1 > maxFilters
    · rw [if_pos hgt]
      obtain ⟨e1, e2, e3⟩ := mergeOnce_spec fs (by omega)
      have e4 : countValid (mergeOnce fs) = n := by omega
      simp only [e4, ne_eq, not_true_eq_false, decide_false, Bool.and_false, Bool.false_eq_true, if_false]
      obtain ⟨fs', g1, g2, g3, g4, g5⟩ := ih (mergeOnce fs) e4
      exact ⟨fs', g1, by omega, by omega, fun x hx => g4 x (e3 x hx), fun _ => by omega⟩
    · rw [if_neg hgt]
      exact ⟨fs, rfl, rfl, by omega, fun _ h => h, fun _ => rfl⟩

/-! ### Compaction -/

theorem bubble_spec (V : List Filter) : ∀ (I : List Filter) (x : Filter) (rest : List Filter) (n : Nat),
    n = V.length + I.length → (∀ f ∈ V, f.isValid = true) → (∀ f ∈ I, f.isValid = false) →
    bubble (V ++ I ++ x :: rest) n =
      if x.isValid then V ++ [x] ++ I ++ rest else V ++ I ++ x :: rest := by
  intro I
  induction hn : I.length generalizing I with
  | zero =>
    intro x rest n hn' hV _
    have : I = [] := by simpa using hn
    subst this
    simp only [List.append_nil]
    rcases n with _ | n
    · simp at hn'
      simp [bubble]
    · simp only [bubble]
      have hlt : n < V.length := by omega
      have : (V ++ x :: rest).getD n Filter.invalid = V[n] := by
        rw [List.getD_eq_getElem?_getD, List.getElem?_append_left hlt, List.getElem?_eq_getElem hlt]
        rfl
      rw [this, hV _ (List.getElem_mem hlt)]
      simp
  | succ m ih =>
    intro x rest n hn' hV hI
    obtain ⟨I', y, rfl⟩ : ∃ I' y, I = I' ++ [y] := by
      rcases List.eq_nil_or_concat I with h | ⟨l, y, h⟩
      · simp [h] at hn
      · exact ⟨l, y, by simpa using h⟩
    have hm : I'.length = m := by simpa using hn
    have hy : y.isValid = false := hI y (by simp)
    obtain ⟨k, rfl⟩ : ∃ k, n = k + 1 := ⟨n - 1, by omega⟩
    have hk : k = (V ++ I').length := by simp; omega
    have e0 : V ++ (I' ++ [y]) ++ x :: rest = (V ++ I') ++ y :: x :: rest := by simp
    rw [e0]
    simp only [bubble]
    have g1 : ((V ++ I') ++ y :: x :: rest).getD k Filter.invalid = y := by
      rw [List.getD_eq_getElem?_getD, List.getElem?_append_right (by omega)]
      simp [hk]
    have g2 : ((V ++ I') ++ y :: x :: rest).getD (k + 1) Filter.invalid = x := by
      rw [List.getD_eq_getElem?_getD, List.getElem?_append_right (by omega)]
      simp [hk]
    rw [g1, g2, hy]
    by_cases hx : x.isValid = true
    · simp only [hx, Bool.not_false, Bool.and_self, if_true]
      have e1 : (((V ++ I') ++ y :: x :: rest).set k x).set (k + 1) y = V ++ I' ++ x :: (y :: rest) := by
        rw [List.set_append_right _ _ (by omega), List.set_append_right _ _ (by omega)]
        simp [hk]
      rw [e1, ih I' hm x (y :: rest) k (by simp at hk; omega) hV (fun f hf => hI f (by simp [hf]))]
      simp [hx]
    · simp [hx]

theorem compact_fold (fs : List Filter) : ∀ (n : Nat) (P rest : List Filter), fs = P ++ rest →
    n = rest.length → 0 < P.length →
    ∀ V I, (∀ f ∈ V, f.isValid = true) → (∀ f ∈ I, f.isValid = false) → P.length = V.length + I.length →
    ∃ V' I', (List.range' P.length n).foldl bubble (V ++ I ++ rest) = V' ++ I' ∧
      (∀ f ∈ V', f.isValid = true) ∧ (∀ f ∈ I', f.isValid = false) ∧
      V' = V ++ rest.filter Filter.isValid := by
  intro n
  induction n with
  | zero =>
    intro P rest _ hn _ V I hV hI _
    have : rest = [] := by simpa using hn.symm
    subst this
    exact ⟨V, I, by simp, hV, hI, by simp⟩
  | succ n ih =>
    intro P rest hfs hn hP V I hV hI hlen
    rcases rest with _ | ⟨x, rest⟩
    · simp at hn
    · rw [List.range'_succ, List.foldl_cons, bubble_spec V I x rest P.length hlen hV hI]
      have h1 : P.length + 1 = (P ++ [x]).length := by simp
      rw [h1]
      by_cases hx : x.isValid = true
      · rw [if_pos hx]
        obtain ⟨V', I', g1, g2, g3, g4⟩ := ih (P ++ [x]) rest (by simp [hfs]) (by simpa using hn) (by simp) (V ++ [x]) I
          (by intro f hf; rcases List.mem_append.mp hf with h | h
              · exact hV f h
              · simp at h; subst h; exact hx) hI (by simp; omega)
        exact ⟨V', I', g1, g2, g3, by rw [g4]; simp [hx]⟩
      · rw [if_neg hx]
        have e : V ++ I ++ x :: rest = V ++ (I ++ [x]) ++ rest := by simp
        rw [e]
        obtain ⟨V', I', g1, g2, g3, g4⟩ := ih (P ++ [x]) rest (by simp [hfs]) (by simpa using hn) (by simp) V (I ++ [x]) hV
          (by intro f hf; rcases List.mem_append.mp hf with h | h
              · exact hI f h
              · simp at h; subst h; simpa using hx) (by simp; omega)
        exact ⟨V', I', g1, g2, g3, by rw [g4]; simp [hx]⟩

/-- `compact` moves the valid filters, in order, to the front. -/
theorem compact_spec (fs : List Filter) :
    ∃ I, compact fs = fs.filter Filter.isValid ++ I ∧ (∀ f ∈ I, f.isValid = false) := by
  rcases fs with _ | ⟨f, fs⟩
  · exact ⟨[], by simp [compact], by simp⟩
  · unfold compact
    have hl : (f :: fs).length - 1 = fs.length := by simp
    rw [hl]
    by_cases hf : f.isValid = true
    · obtain ⟨V', I', g1, g2, g3, g4⟩ := compact_fold (f :: fs) fs.length [f] fs rfl rfl (by simp) [f] []
        (by simpa using hf) (by simp) (by simp)
      refine ⟨I', ?_, g3⟩
      simp only [List.length_cons, List.length_nil, List.append_nil, List.cons_append, List.nil_append] at g1 g4
      rw [g1, g4]; simp [hf]
    · obtain ⟨V', I', g1, g2, g3, g4⟩ := compact_fold (f :: fs) fs.length [f] fs rfl rfl (by simp) [] [f]
        (by simp) (by simpa using hf) (by simp)
      refine ⟨I', ?_, g3⟩
      simp only [List.length_cons, List.length_nil, List.cons_append, List.nil_append] at g1 g4
      rw [g1, g4]; simp [hf]

theorem takeWhile_split {V I : List Filter} (hV : ∀ f ∈ V, f.isValid = true) (hI : ∀ f ∈ I, f.isValid = false) :
    (V ++ I).takeWhile Filter.isValid = V ∧ (V ++ I).dropWhile Filter.isValid = I := by
  induction V with
  | nil =>
    rcases I with _ | ⟨x, I⟩
    · simp
    · have := hI x (by simp)
      simp [this]
  | cons v V ih =>
    have hv := hV v (by simp)
    have := ih (fun f hf => hV f (by simp [hf]))
    simp [hv, this]

end Verif.FilterConfig
