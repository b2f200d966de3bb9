import Verif.Bls.Spec
/- Helper lemmas for the bit length set theorems. -/
namespace Verif.Bls

/-! ### Sets as increasing lists -/

theorem mem_insertSet {x y : Nat} {l : List Nat} : y ∈ insertSet x l ↔ y = x ∨ y ∈ l := by
  induction l with
  | nil => simp [insertSet]
  | cons z zs ih =>
    unfold insertSet
    split
    · simp
    · split
      · rename_i h; subst h; simp
      · simp only [List.mem_cons, ih]
        constructor
        · rintro (h | h | h) <;> simp [h]
        · rintro (h | h | h) <;> simp [h]

theorem sorted_insertSet {x : Nat} {l : List Nat} (h : l.Pairwise (· < ·)) : (insertSet x l).Pairwise (· < ·) := by
  induction l with
  | nil => simp [insertSet]
  | cons z zs ih =>
    rw [List.pairwise_cons] at h
    unfold insertSet
    split
    · rename_i hx
      refine List.pairwise_cons.2 ⟨fun a ha => ?_, List.pairwise_cons.2 h⟩
      rcases List.mem_cons.1 ha with rfl | ha
      · exact hx
      · exact Nat.lt_trans hx (h.1 a ha)
    · split
      · exact List.pairwise_cons.2 h
      · refine List.pairwise_cons.2 ⟨fun a ha => ?_, ih h.2⟩
        rcases mem_insertSet.1 ha with rfl | ha
        · omega
        · exact h.1 a ha

theorem mem_foldl_insertSet {y : Nat} {l s : List Nat} :
    y ∈ l.foldl (fun s x => insertSet x s) s ↔ y ∈ s ∨ y ∈ l := by
  induction l generalizing s with
  | nil => simp
  | cons x xs ih =>
    simp only [List.foldl_cons, ih, mem_insertSet, List.mem_cons]
    constructor
    · rintro ((h | h) | h) <;> simp [h]
    · rintro (h | h | h) <;> simp [h]

theorem sorted_foldl_insertSet {l s : List Nat} (h : s.Pairwise (· < ·)) :
    (l.foldl (fun s x => insertSet x s) s).Pairwise (· < ·) := by
  induction l generalizing s with
  | nil => exact h
  | cons x xs ih => exact ih (sorted_insertSet h)

theorem mem_collectSet {y : Nat} {l : List Nat} : y ∈ collectSet l ↔ y ∈ l := by
  simp [collectSet, mem_foldl_insertSet]

theorem sorted_collectSet (l : List Nat) : (collectSet l).Pairwise (· < ·) :=
  sorted_foldl_insertSet List.Pairwise.nil

/-- Increasing lists with the same elements are equal. -/
theorem sorted_ext {a b : List Nat} (ha : a.Pairwise (· < ·)) (hb : b.Pairwise (· < ·)) (h : ∀ n, n ∈ a ↔ n ∈ b) :
    a = b := by
  induction a generalizing b with
  | nil =>
    cases b with
    | nil => rfl
    | cons y ys => exact absurd ((h y).2 (by simp)) (by simp)
  | cons x xs ih =>
    cases b with
    | nil => exact absurd ((h x).1 (by simp)) (by simp)
    | cons y ys =>
      rw [List.pairwise_cons] at ha hb
      have hxy : x = y := by
        rcases List.mem_cons.1 ((h x).1 (by simp)) with e | e
        · exact e
        rcases List.mem_cons.1 ((h y).2 (by simp)) with e' | e'
        · exact e'.symm
        have := ha.1 y e'
        have := hb.1 x e
        omega
      subst hxy
      rw [ih ha.2 hb.2]
      intro n
      have := h n
      simp only [List.mem_cons] at this
      constructor
      · intro hn
        rcases this.1 (Or.inr hn) with e | e
        · have := ha.1 n hn; omega
        · exact e
      · intro hn
        rcases this.2 (Or.inr hn) with e | e
        · have := hb.1 n hn; omega
        · exact e

theorem headD_least {l : List Nat} (h : l.Pairwise (· < ·)) (hn : l ≠ []) :
    l.headD 0 ∈ l ∧ ∀ n ∈ l, l.headD 0 ≤ n := by
  cases l with
  | nil => exact absurd rfl hn
  | cons x xs =>
    rw [List.pairwise_cons] at h
    refine ⟨by simp, fun n hn => ?_⟩
    rcases List.mem_cons.1 hn with rfl | hn
    · simp
    · exact Nat.le_of_lt (by simpa using h.1 n hn)

theorem getLastD_greatest {l : List Nat} (h : l.Pairwise (· < ·)) (hn : l ≠ []) :
    l.getLastD 0 ∈ l ∧ ∀ n ∈ l, n ≤ l.getLastD 0 := by
  induction l with
  | nil => exact absurd rfl hn
  | cons x xs ih =>
    cases xs with
    | nil => simp
    | cons y ys =>
      rw [List.pairwise_cons] at h
      have := ih h.2 (by simp)
      have e : (x :: y :: ys).getLastD 0 = (y :: ys).getLastD 0 := by simp
      rw [e]
      refine ⟨List.mem_cons_of_mem _ this.1, fun n hn => ?_⟩
      rcases List.mem_cons.1 hn with rfl | hn
      · exact Nat.le_of_lt (h.1 _ this.1)
      · exact this.2 n hn

/-! ### Combinations and products -/

theorem combos_sound {pool : List Nat} {k : Nat} {ms : List Nat} (h : ms ∈ combos pool k) :
    ms.length = k ∧ ∀ m ∈ ms, m ∈ pool := by
  induction pool generalizing k ms with
  | nil =>
    unfold combos at h
    split at h
    · rename_i hk; simp at h; subst h; simp [hk]
    · simp at h
  | cons x xs ih =>
    simp only [combos, List.mem_flatMap, List.mem_range, List.mem_map] at h
    obtain ⟨j, hj, t, ht, rfl⟩ := h
    obtain ⟨h1, h2⟩ := ih ht
    refine ⟨by simp [h1]; omega, fun m hm => ?_⟩
    rcases List.mem_append.1 hm with hm | hm
    · rw [(List.mem_replicate.1 hm).2]; simp
    · exact List.mem_cons_of_mem _ (h2 m hm)

theorem sum_filter_split (x : Nat) (ms : List Nat) :
    ms.sum = (ms.length - (ms.filter (· ≠ x)).length) * x + (ms.filter (· ≠ x)).sum
      ∧ (ms.filter (· ≠ x)).length ≤ ms.length := by
  induction ms with
  | nil => simp
  | cons m ms ih =>
    obtain ⟨h1, h2⟩ := ih
    by_cases hm : m = x
    · subst hm
      have e : ((m :: ms).filter (· ≠ m)) = ms.filter (· ≠ m) := by simp
      rw [e]
      refine ⟨?_, by simp only [List.length_cons]; omega⟩
      simp only [List.sum_cons, List.length_cons]
      have : ms.length + 1 - (ms.filter (· ≠ m)).length = (ms.length - (ms.filter (· ≠ m)).length) + 1 := by omega
      rw [this, Nat.add_mul, h1]
      simp only [Nat.one_mul]
      omega
    · have e : ((m :: ms).filter (· ≠ x)) = m :: ms.filter (· ≠ x) := by simp [hm]
      rw [e]
      refine ⟨?_, by simp only [List.length_cons]; omega⟩
      simp only [List.sum_cons, List.length_cons]
      have : ms.length + 1 - ((ms.filter (· ≠ x)).length + 1) = ms.length - (ms.filter (· ≠ x)).length := by omega
      rw [this, h1]
      omega

theorem combos_complete {pool : List Nat} (ms : List Nat) (h : ∀ m ∈ ms, m ∈ pool) :
    ∃ t ∈ combos pool ms.length, t.sum = ms.sum := by
  induction pool generalizing ms with
  | nil =>
    cases ms with
    | nil => exact ⟨[], by simp [combos], rfl⟩
    | cons m ms => exact absurd (h m (by simp)) (by simp)
  | cons x xs ih =>
    obtain ⟨h1, h2⟩ := sum_filter_split x ms
    obtain ⟨t, ht, hs⟩ := ih (ms.filter (· ≠ x)) (by
      intro m hm
      rw [List.mem_filter] at hm
      rcases List.mem_cons.1 (h m hm.1) with e | e
      · simp [e] at hm
      · exact e)
    refine ⟨List.replicate (ms.length - (ms.filter (· ≠ x)).length) x ++ t, ?_, ?_⟩
    · simp only [combos, List.mem_flatMap, List.mem_range, List.mem_map]
      exact ⟨(ms.filter (· ≠ x)).length, by omega, t, ht, rfl⟩
    · rw [List.sum_append, List.sum_replicate_nat, hs, ← h1]

theorem mem_product {ls : List (List Nat)} {ms : List Nat} : ms ∈ product ls ↔ List.Forall₂ (· ∈ ·) ms ls := by
  induction ls generalizing ms with
  | nil => simp [product]
  | cons l ls ih =>
    simp only [product, List.mem_flatMap, List.mem_map]
    constructor
    · rintro ⟨x, hx, t, ht, rfl⟩
      exact List.Forall₂.cons hx (ih.1 ht)
    · intro h
      cases h with
      | cons hx ht => exact ⟨_, hx, _, ih.2 ht, rfl⟩

/-! ### Padding -/

theorem alignUp_iff {a m l : Nat} (ha : 0 < a) : l = alignUp m a ↔ a ∣ l ∧ m ≤ l ∧ l < m + a := by
  have key : a ∣ alignUp m a ∧ m ≤ alignUp m a ∧ alignUp m a < m + a := by
    unfold alignUp
    refine ⟨Nat.dvd_mul_left _ _, ?_, ?_⟩
    · have h1 := Nat.div_add_mod (m + a - 1) a
      have h2 := Nat.mod_lt (m + a - 1) ha
      rw [Nat.mul_comm] at h1
      omega
    · have h1 := Nat.div_mul_le_self (m + a - 1) a
      omega
  constructor
  · rintro rfl; exact key
  · rintro ⟨⟨q, rfl⟩, h2, h3⟩
    obtain ⟨⟨q', e⟩, k2, k3⟩ := key
    rw [e] at k2 k3 ⊢
    have : q = q' := by
      have h4 : a * q < a * (q' + 1) := by rw [Nat.mul_add]; omega
      have h5 : a * q' < a * (q + 1) := by rw [Nat.mul_add]; omega
      have := Nat.lt_of_mul_lt_mul_left h4
      have := Nat.lt_of_mul_lt_mul_left h5
      omega
    rw [this]

theorem alignUp_mono {a m n : Nat} (h : m ≤ n) : alignUp m a ≤ alignUp n a := by
  unfold alignUp
  exact Nat.mul_le_mul_right _ (Nat.div_le_div_right (by omega))

/-! ### Lists of children -/

theorem minAll_eq (cs : List Operator) : Operator.minAll cs = cs.map Operator.min := by
  induction cs with
  | nil => rfl
  | cons c cs ih => simp [Operator.minAll, ih]

theorem maxAll_eq (cs : List Operator) : Operator.maxAll cs = cs.map Operator.max := by
  induction cs with
  | nil => rfl
  | cons c cs ih => simp [Operator.maxAll, ih]

theorem expandAll_eq (cs : List Operator) : Operator.expandAll cs = cs.map Operator.expand := by
  induction cs with
  | nil => rfl
  | cons c cs ih => simp [Operator.expandAll, ih]

theorem moduloAll_eq (d : Nat) (cs : List Operator) : Operator.moduloAll d cs = cs.map (Operator.modulo d) := by
  induction cs with
  | nil => rfl
  | cons c cs ih => simp [Operator.moduloAll, ih]

/-! ### Expansion -/

theorem expand_sorted {s : BitLengthSet} {L : Nat → Prop} (h : Denotes s L) : s.expand.Pairwise (· < ·) := by
  cases h with
  | single n => simp [BitLengthSet.expand, BitLengthSet.single, Operator.expand, insertSet]
  | ofLengths h =>
    unfold BitLengthSet.fromLengths at h
    split at h
    · cases h
    · cases h; exact sorted_collectSet _
  | ofSet hs h =>
    unfold BitLengthSet.fromLengthSet at h
    split at h
    · cases h
    · cases h; exact hs
  | _ => exact sorted_collectSet _

theorem expand_mem {s : BitLengthSet} {L : Nat → Prop} (h : Denotes s L) (n : Nat) : n ∈ s.expand ↔ L n := by
  induction h generalizing n with
  | single n => simp [BitLengthSet.expand, BitLengthSet.single, Operator.expand, insertSet]
  | ofLengths h =>
    unfold BitLengthSet.fromLengths at h
    split at h
    · cases h
    · cases h; exact mem_collectSet
  | ofSet hs h =>
    unfold BitLengthSet.fromLengthSet at h
    split at h
    · cases h
    · cases h; exact Iff.rfl
  | @pad s L a ha _ ih =>
    show n ∈ collectSet (s.operator.expand.map _) ↔ _
    rw [mem_collectSet, List.mem_map]
    constructor
    · rintro ⟨m, hm, rfl⟩
      exact ⟨m, (ih m).1 hm, (alignUp_iff ha).1 rfl⟩
    · rintro ⟨m, hm, h⟩
      exact ⟨m, (ih m).2 hm, ((alignUp_iff ha).2 h).symm⟩
  | @repeated s L k _ ih =>
    show n ∈ collectSet ((combos s.operator.expand k).map _) ↔ _
    rw [mem_collectSet, List.mem_map]
    constructor
    · rintro ⟨ms, hm, rfl⟩
      obtain ⟨h1, h2⟩ := combos_sound hm
      exact ⟨ms, h1, fun m hm => (ih m).1 (h2 m hm), rfl⟩
    · rintro ⟨ms, rfl, h2, h3⟩
      obtain ⟨t, ht, e⟩ := combos_complete ms (fun m hm => (ih m).2 (h2 m hm))
      exact ⟨t, ht, e.trans h3⟩
  | @ranged s L k _ ih =>
    show n ∈ collectSet ((List.range (k + 1)).flatMap _) ↔ _
    rw [mem_collectSet, List.mem_flatMap]
    constructor
    · rintro ⟨j, hj, hn⟩
      obtain ⟨ms, hm, rfl⟩ := List.mem_map.1 hn
      obtain ⟨h1, h2⟩ := combos_sound hm
      rw [List.mem_range] at hj
      exact ⟨ms, by omega, fun m hm => (ih m).1 (h2 m hm), rfl⟩
    · rintro ⟨ms, h1, h2, h3⟩
      obtain ⟨t, ht, e⟩ := combos_complete ms (fun m hm => (ih m).2 (h2 m hm))
      exact ⟨ms.length, List.mem_range.2 (by omega), List.mem_map.2 ⟨t, ht, e.trans h3⟩⟩
  | @concat s L parts _ _ ih ihs =>
    show n ∈ collectSet ((product (Operator.expandAll (s.operator :: (parts.map (·.1)).map (·.operator)))).map _) ↔ _
    rw [mem_collectSet, List.mem_map, expandAll_eq]
    have key : ∀ ms, List.Forall₂ (· ∈ ·) ms (((parts.map (·.1)).map (·.operator)).map Operator.expand)
        ↔ List.Forall₂ (fun n (p : BitLengthSet × (Nat → Prop)) => p.2 n) ms parts := by
      intro ms
      rw [List.forall₂_map_right_iff, List.forall₂_map_right_iff, List.forall₂_map_right_iff]
      clear ih
      rename_i hd
      clear hd
      induction parts generalizing ms with
      | nil => simp
      | cons p ps ihp =>
        cases ms with
        | nil => simp
        | cons m ms =>
          rw [List.forall₂_cons, List.forall₂_cons, ihp (fun q hq => ihs q (List.mem_cons_of_mem _ hq))]
          have := ihs p (by simp) m
          simp only [BitLengthSet.expand] at this
          rw [this]
    constructor
    · rintro ⟨ms, hm, rfl⟩
      rw [mem_product, List.map_cons] at hm
      cases hm with
      | cons h1 h2 => exact ⟨_, (ih _).1 h1, _, (key _).1 h2, by simp⟩
    · rintro ⟨m, hm, ms, hms, rfl⟩
      refine ⟨m :: ms, ?_, by simp⟩
      rw [mem_product, List.map_cons]
      exact List.Forall₂.cons ((ih _).2 hm) ((key _).2 hms)
  | @united s L parts _ _ ih ihs =>
    show n ∈ collectSet (Operator.expandAll (s.operator :: (parts.map (·.1)).map (·.operator))).flatten ↔ _
    rw [mem_collectSet, expandAll_eq, List.map_cons, List.flatten_cons, List.mem_append]
    have h1 : n ∈ s.operator.expand ↔ L n := ih n
    rw [h1]
    constructor
    · rintro (h | h)
      · exact Or.inl h
      · simp only [List.mem_flatten, List.mem_map] at h
        obtain ⟨l, ⟨o, ⟨b, ⟨p, hp, rfl⟩, rfl⟩, rfl⟩, hl⟩ := h
        exact Or.inr ⟨p, hp, (ihs p hp n).1 hl⟩
    · rintro (h | ⟨p, hp, h⟩)
      · exact Or.inl h
      · right
        simp only [List.mem_flatten, List.mem_map]
        exact ⟨_, ⟨_, ⟨_, ⟨p, hp, rfl⟩, rfl⟩, rfl⟩, (ihs p hp n).2 h⟩

/-! ### Least and greatest element -/

theorem minOf_cons (x : Nat) (xs : List Nat) : minOf (x :: xs) ∈ x :: xs ∧ ∀ n ∈ x :: xs, minOf (x :: xs) ≤ n := by
  show xs.foldl Nat.min x ∈ x :: xs ∧ ∀ n ∈ x :: xs, xs.foldl Nat.min x ≤ n
  induction xs generalizing x with
  | nil => simp
  | cons y ys ih =>
    obtain ⟨h1, h2⟩ := ih (Nat.min x y)
    simp only [List.foldl_cons]
    refine ⟨?_, fun n hn => ?_⟩
    · rcases List.mem_cons.1 h1 with h | h
      · rw [h]
        rcases Nat.le_total x y with e | e
        · rw [show Nat.min x y = x from Nat.min_eq_left e]; simp
        · rw [show Nat.min x y = y from Nat.min_eq_right e]; simp
      · exact List.mem_cons_of_mem _ (List.mem_cons_of_mem _ h)
    · have h3 := h2 _ (List.mem_cons_self (a := Nat.min x y))
      have h4 : Nat.min x y ≤ x := Nat.min_le_left _ _
      have h5 : Nat.min x y ≤ y := Nat.min_le_right _ _
      rcases List.mem_cons.1 hn with rfl | hn
      · omega
      rcases List.mem_cons.1 hn with rfl | hn
      · omega
      · exact h2 n (List.mem_cons_of_mem _ hn)

theorem maxOf_cons (x : Nat) (xs : List Nat) : maxOf (x :: xs) ∈ x :: xs ∧ ∀ n ∈ x :: xs, n ≤ maxOf (x :: xs) := by
  show xs.foldl Nat.max x ∈ x :: xs ∧ ∀ n ∈ x :: xs, n ≤ xs.foldl Nat.max x
  induction xs generalizing x with
  | nil => simp
  | cons y ys ih =>
    obtain ⟨h1, h2⟩ := ih (Nat.max x y)
    simp only [List.foldl_cons]
    refine ⟨?_, fun n hn => ?_⟩
    · rcases List.mem_cons.1 h1 with h | h
      · rw [h]
        rcases Nat.le_total x y with e | e
        · rw [show Nat.max x y = y from Nat.max_eq_right e]; simp
        · rw [show Nat.max x y = x from Nat.max_eq_left e]; simp
      · exact List.mem_cons_of_mem _ (List.mem_cons_of_mem _ h)
    · have h3 := h2 _ (List.mem_cons_self (a := Nat.max x y))
      have h4 : x ≤ Nat.max x y := Nat.le_max_left _ _
      have h5 : y ≤ Nat.max x y := Nat.le_max_right _ _
      rcases List.mem_cons.1 hn with rfl | hn
      · omega
      rcases List.mem_cons.1 hn with rfl | hn
      · omega
      · exact h2 n (List.mem_cons_of_mem _ hn)

theorem length_mul_le_sum {ms : List Nat} {b : Nat} (h : ∀ m ∈ ms, b ≤ m) : b * ms.length ≤ ms.sum := by
  induction ms with
  | nil => simp
  | cons m ms ih =>
    have := ih (fun x hx => h x (List.mem_cons_of_mem _ hx))
    have := h m (by simp)
    simp only [List.length_cons, List.sum_cons, Nat.mul_add]
    omega

theorem sum_le_length_mul {ms : List Nat} {b : Nat} (h : ∀ m ∈ ms, m ≤ b) : ms.sum ≤ b * ms.length := by
  induction ms with
  | nil => simp
  | cons m ms ih =>
    have := ih (fun x hx => h x (List.mem_cons_of_mem _ hx))
    have := h m (by simp)
    simp only [List.length_cons, List.sum_cons, Nat.mul_add]
    omega

theorem min_spec {s : BitLengthSet} {L : Nat → Prop} (h : Denotes s L) : L s.minValue ∧ ∀ n, L n → s.minValue ≤ n := by
  induction h with
  | single n => exact ⟨rfl, fun m hm => by subst hm; exact Nat.le_refl _⟩
  | @ofLengths values s h =>
    have hd := Denotes.ofLengths h
    unfold BitLengthSet.fromLengths at h
    split at h
    · cases h
    · rename_i hne
      cases h
      have := headD_least (sorted_collectSet values) (by simpa using hne)
      exact ⟨mem_collectSet.1 this.1, fun n hn => this.2 n (mem_collectSet.2 hn)⟩
  | @ofSet values s hs h =>
    unfold BitLengthSet.fromLengthSet at h
    split at h
    · cases h
    · rename_i hne
      cases h
      exact headD_least hs (by simpa using hne)
  | @pad s L a ha _ ih =>
    refine ⟨⟨s.minValue, ih.1, (alignUp_iff ha).1 rfl⟩, ?_⟩
    rintro n ⟨m, hm, h⟩
    rw [(alignUp_iff ha).2 h]
    exact alignUp_mono (ih.2 m hm)
  | @repeated s L k _ ih =>
    refine ⟨⟨List.replicate k s.minValue, by simp, fun m hm => ?_, ?_⟩, ?_⟩
    · rw [(List.mem_replicate.1 hm).2]; exact ih.1
    · rw [List.sum_replicate_nat, Nat.mul_comm]; rfl
    · rintro n ⟨ms, rfl, h2, rfl⟩
      exact length_mul_le_sum fun m hm => ih.2 m (h2 m hm)
  | @ranged s L k _ ih => exact ⟨⟨[], by simp, by simp, rfl⟩, fun n _ => Nat.zero_le _⟩
  | @concat s L parts _ _ ih ihs =>
    have e : (s.concatenate (parts.map (·.1))).minValue = s.minValue + (parts.map fun p => p.1.minValue).sum := by
      show (Operator.minAll (s.operator :: (parts.map (·.1)).map (·.operator))).sum = _
      rw [minAll_eq]
      simp only [List.map_cons, List.sum_cons, List.map_map]
      rfl
    rw [e]
    refine ⟨⟨_, ih.1, parts.map fun p => p.1.minValue, ?_, rfl⟩, ?_⟩
    · rw [List.forall₂_map_left_iff, List.forall₂_same]
      exact fun p hp => (ihs p hp).1
    · rintro n ⟨m, hm, ms, hms, rfl⟩
      refine Nat.add_le_add (ih.2 m hm) ?_
      clear e
      rename_i hd
      clear hd
      induction hms with
      | nil => exact Nat.le_refl _
      | cons h1 _ ihf =>
        simp only [List.map_cons, List.sum_cons]
        exact Nat.add_le_add ((ihs _ (by simp)).2 _ h1) (ihf fun q hq => ihs q (List.mem_cons_of_mem _ hq))
  | @united s L parts _ _ ih ihs =>
    have e : (s.unite (parts.map (·.1))).minValue = minOf (s.minValue :: parts.map fun p => p.1.minValue) := by
      show minOf (Operator.minAll (s.operator :: (parts.map (·.1)).map (·.operator))) = _
      rw [minAll_eq]
      simp only [List.map_cons, List.map_map]
      rfl
    rw [e]
    obtain ⟨h1, h2⟩ := minOf_cons s.minValue (parts.map fun p => p.1.minValue)
    constructor
    · rcases List.mem_cons.1 h1 with h | h
      · rw [h]; exact Or.inl ih.1
      · obtain ⟨p, hp, e⟩ := List.mem_map.1 h
        rw [← e]; exact Or.inr ⟨p, hp, (ihs p hp).1⟩
    · rintro n (hn | ⟨p, hp, hn⟩)
      · exact Nat.le_trans (h2 _ (by simp)) (ih.2 n hn)
      · exact Nat.le_trans (h2 _ (List.mem_cons_of_mem _ (List.mem_map.2 ⟨p, hp, rfl⟩))) ((ihs p hp).2 n hn)

theorem max_spec {s : BitLengthSet} {L : Nat → Prop} (h : Denotes s L) : L s.maxValue ∧ ∀ n, L n → n ≤ s.maxValue := by
  induction h with
  | single n => exact ⟨rfl, fun m hm => by subst hm; exact Nat.le_refl _⟩
  | @ofLengths values s h =>
    unfold BitLengthSet.fromLengths at h
    split at h
    · cases h
    · rename_i hne
      cases h
      have := getLastD_greatest (sorted_collectSet values) (by simpa using hne)
      exact ⟨mem_collectSet.1 this.1, fun n hn => this.2 n (mem_collectSet.2 hn)⟩
  | @ofSet values s hs h =>
    unfold BitLengthSet.fromLengthSet at h
    split at h
    · cases h
    · rename_i hne
      cases h
      exact getLastD_greatest hs (by simpa using hne)
  | @pad s L a ha _ ih =>
    refine ⟨⟨s.maxValue, ih.1, (alignUp_iff ha).1 rfl⟩, ?_⟩
    rintro n ⟨m, hm, h⟩
    rw [(alignUp_iff ha).2 h]
    exact alignUp_mono (ih.2 m hm)
  | @repeated s L k _ ih =>
    refine ⟨⟨List.replicate k s.maxValue, by simp, fun m hm => ?_, ?_⟩, ?_⟩
    · rw [(List.mem_replicate.1 hm).2]; exact ih.1
    · rw [List.sum_replicate_nat, Nat.mul_comm]; rfl
    · rintro n ⟨ms, rfl, h2, rfl⟩
      exact sum_le_length_mul fun m hm => ih.2 m (h2 m hm)
  | @ranged s L k _ ih =>
    refine ⟨⟨List.replicate k s.maxValue, by simp, fun m hm => ?_, ?_⟩, ?_⟩
    · rw [(List.mem_replicate.1 hm).2]; exact ih.1
    · rw [List.sum_replicate_nat, Nat.mul_comm]; rfl
    · rintro n ⟨ms, h1, h2, rfl⟩
      exact Nat.le_trans (sum_le_length_mul fun m hm => ih.2 m (h2 m hm)) (Nat.mul_le_mul_left _ h1)
  | @concat s L parts _ _ ih ihs =>
    have e : (s.concatenate (parts.map (·.1))).maxValue = s.maxValue + (parts.map fun p => p.1.maxValue).sum := by
      show (Operator.maxAll (s.operator :: (parts.map (·.1)).map (·.operator))).sum = _
      rw [maxAll_eq]
      simp only [List.map_cons, List.sum_cons, List.map_map]
      rfl
    rw [e]
    refine ⟨⟨_, ih.1, parts.map fun p => p.1.maxValue, ?_, rfl⟩, ?_⟩
    · rw [List.forall₂_map_left_iff, List.forall₂_same]
      exact fun p hp => (ihs p hp).1
    · rintro n ⟨m, hm, ms, hms, rfl⟩
      refine Nat.add_le_add (ih.2 m hm) ?_
      clear e
      rename_i hd
      clear hd
      induction hms with
      | nil => exact Nat.le_refl _
      | cons h1 _ ihf =>
        simp only [List.map_cons, List.sum_cons]
        exact Nat.add_le_add ((ihs _ (by simp)).2 _ h1) (ihf fun q hq => ihs q (List.mem_cons_of_mem _ hq))
  | @united s L parts _ _ ih ihs =>
    have e : (s.unite (parts.map (·.1))).maxValue = maxOf (s.maxValue :: parts.map fun p => p.1.maxValue) := by
      show maxOf (Operator.maxAll (s.operator :: (parts.map (·.1)).map (·.operator))) = _
      rw [maxAll_eq]
      simp only [List.map_cons, List.map_map]
      rfl
    rw [e]
    obtain ⟨h1, h2⟩ := maxOf_cons s.maxValue (parts.map fun p => p.1.maxValue)
    constructor
    · rcases List.mem_cons.1 h1 with h | h
      · rw [h]; exact Or.inl ih.1
      · obtain ⟨p, hp, e⟩ := List.mem_map.1 h
        rw [← e]; exact Or.inr ⟨p, hp, (ihs p hp).1⟩
    · rintro n (hn | ⟨p, hp, hn⟩)
      · exact Nat.le_trans (ih.2 n hn) (h2 _ (by simp))
      · exact Nat.le_trans ((ihs p hp).2 n hn) (h2 _ (List.mem_cons_of_mem _ (List.mem_map.2 ⟨p, hp, rfl⟩)))

/-! ### Structural equality -/

mutual
theorem structuralEqual_sound : ∀ (a b : Operator), a.structuralEqual b = true → a = b
  | .leaf a, b, h => by cases b <;> simp_all [Operator.structuralEqual]
  | .padding c n, b, h => by
    cases b <;> simp [Operator.structuralEqual] at h
    rw [h.1, structuralEqual_sound _ _ h.2]
  | .concatenate cs, b, h => by
    cases b <;> simp [Operator.structuralEqual] at h
    rw [structuralEqualAll_sound _ _ h.1 h.2]
  | .repeat c n, b, h => by
    cases b <;> simp [Operator.structuralEqual] at h
    rw [h.1, structuralEqual_sound _ _ h.2]
  | .rangeRepeat c n, b, h => by
    cases b <;> simp [Operator.structuralEqual] at h
    rw [h.1, structuralEqual_sound _ _ h.2]
  | .union cs, b, h => by
    cases b <;> simp [Operator.structuralEqual] at h
    rw [structuralEqualAll_sound _ _ h.1 h.2]
theorem structuralEqualAll_sound : ∀ (as bs : List Operator), as.length = bs.length →
    Operator.structuralEqualAll as bs = true → as = bs
  | [], bs, hl, _ => by cases bs <;> simp_all
  | a :: as, [], hl, _ => by simp at hl
  | a :: as, b :: bs, hl, h => by
    simp [Operator.structuralEqualAll] at h hl
    rw [structuralEqual_sound _ _ h.1, structuralEqualAll_sound _ _ hl h.2]
end

end Verif.Bls
