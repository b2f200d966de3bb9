import Verif.Front.ExprOrder
import Verif.Front.LenMeans

/-!
What the operations on sets do to their elements.
-/

namespace Verif.Front

open Verif.Bls Verif.Dsdl

theorem proper_set {xs : List Value} : (Value.set xs).Proper ↔ (∀ x ∈ xs, x.Proper) ∧ (xs.Pairwise fun a b => a.cmp b = .lt) ∧ ∀ x ∈ xs, ∀ y ∈ xs, x.ty = y.ty := by
  rw [Value.Proper, properAll_iff]

theorem simple_set {xs : List Value} : (Value.set xs).Simple ↔ ∀ x ∈ xs, x.Simple := by rw [Value.Simple, simpleAll_iff]

theorem ty_of_head {xs : List Value} {t : ExprType} : ValueSet.ty xs = some t → ∃ x ∈ xs, x.ty = t := by
  cases xs with
  | nil => simp [ValueSet.ty]
  | cons x xs => intro h; exact ⟨x, by simp, by simpa [ValueSet.ty] using h⟩

theorem ty_none {xs : List Value} : ValueSet.ty xs = none ↔ xs = [] := by
  cases xs <;> simp [ValueSet.ty]

/-! ### Inserting -/

theorem mem_insertValue {x y : Value} {s : List Value} (h : y ∈ ValueSet.insertValue x s) : y = x ∨ y ∈ s := by
  induction s with
  | nil => simpa [ValueSet.insertValue] using h
  | cons z zs ih =>
    unfold ValueSet.insertValue at h
    split at h
    · simpa using h
    · exact .inr h
    · rcases List.mem_cons.1 h with rfl | h
      · exact .inr (by simp)
      · rcases ih h with h | h
        · exact .inl h
        · exact .inr (by simp [h])

theorem insertValue_subset {x y : Value} {s : List Value} (h : y ∈ s) : y ∈ ValueSet.insertValue x s := by
  induction s with
  | nil => simp at h
  | cons z zs ih =>
    unfold ValueSet.insertValue
    split
    · exact List.mem_cons_of_mem _ h
    · exact h
    · rcases List.mem_cons.1 h with rfl | h
      · simp
      · exact List.mem_cons_of_mem _ (ih h)

theorem insertValue_has (x : Value) (s : List Value) : ∃ y ∈ ValueSet.insertValue x s, x.cmp y = .eq := by
  induction s with
  | nil => exact ⟨x, by simp [ValueSet.insertValue], cmp_refl x⟩
  | cons z zs ih =>
    unfold ValueSet.insertValue
    split
    · exact ⟨x, by simp, cmp_refl x⟩
    · next h => exact ⟨z, by simp, h⟩
    · obtain ⟨y, hy, he⟩ := ih
      exact ⟨y, List.mem_cons_of_mem _ hy, he⟩

theorem insertValue_sorted {x : Value} {s : List Value} (h : s.Pairwise fun a b => a.cmp b = .lt) : (ValueSet.insertValue x s).Pairwise fun a b => a.cmp b = .lt := by
  induction s with
  | nil => simp [ValueSet.insertValue]
  | cons z zs ih =>
    have hz : ∀ {u}, u ∈ zs → z.cmp u = .lt := fun hu => List.rel_of_pairwise_cons h hu
    unfold ValueSet.insertValue
    split
    · next hl =>
      refine List.pairwise_cons.2 ⟨fun u hu => ?_, h⟩
      rcases List.mem_cons.1 hu with rfl | hu
      · exact hl
      · exact cmp_lt_trans hl (hz hu)
    · exact h
    · next hl =>
      refine List.pairwise_cons.2 ⟨fun u hu => ?_, ih h.of_cons⟩
      rcases mem_insertValue hu with rfl | hu
      · exact cmp_gt_iff.1 hl
      · exact hz hu

theorem insertValue_proper {x : Value} {s : List Value} (hs : (Value.set s).Proper) (hx : x.Proper) (ht : ∀ y ∈ s, y.ty = x.ty) : (Value.set (ValueSet.insertValue x s)).Proper := by
  rw [proper_set] at hs ⊢
  have hty : ∀ u ∈ ValueSet.insertValue x s, u.ty = x.ty := by
    intro u hu
    rcases mem_insertValue hu with rfl | hu
    · rfl
    · exact ht u hu
  refine ⟨fun u hu => ?_, insertValue_sorted hs.2.1, fun u hu v hv => by rw [hty u hu, hty v hv]⟩
  rcases mem_insertValue hu with rfl | hu
  · exact hx
  · exact hs.1 u hu

theorem insertValue_simple {x : Value} {s : List Value} (hs : (Value.set s).Simple) (hx : x.Simple) : (Value.set (ValueSet.insertValue x s)).Simple := by
  rw [simple_set] at hs ⊢
  intro u hu
  rcases mem_insertValue hu with rfl | hu
  · exact hx
  · exact hs u hu

theorem has_set {xs : List Value} {v : Value} : (Value.set xs).Has v ↔ ∃ y ∈ xs, v.Same y := Iff.rfl

theorem insertValue_iff {x : Value} {s : List Value} (hp : ∀ u ∈ s, u.Proper) (hs : ∀ u ∈ s, u.Simple) (hx : x.Proper) (sx : x.Simple) (v : Value) :
    (Value.set (ValueSet.insertValue x s)).Has v ↔ v.Same x ∨ (Value.set s).Has v := by
  rw [has_set, has_set]
  constructor
  · rintro ⟨y, hy, h⟩
    rcases mem_insertValue hy with rfl | hy
    · exact .inl h
    · exact .inr ⟨y, hy, h⟩
  · rintro (h | ⟨y, hy, h⟩)
    · obtain ⟨y, hy, he⟩ := insertValue_has x s
      rcases mem_insertValue hy with rfl | hy'
      · exact ⟨y, hy, h⟩
      · exact ⟨y, hy, same_trans h ((cmp_iff_same hx (hp y hy') sx (hs y hy')).1 he)⟩
    · exact ⟨y, insertValue_subset hy, h⟩

/-- Inserting every element of a list. -/
theorem foldl_insert {b a : List Value} (ha : (Value.set a).Proper) (hb : ∀ x ∈ b, x.Proper) (sa : (Value.set a).Simple) (sb : ∀ x ∈ b, x.Simple)
    (ht : ∀ x ∈ a ++ b, ∀ y ∈ a ++ b, x.ty = y.ty) : (Value.set (ValueSet.union a b)).Proper ∧ (Value.set (ValueSet.union a b)).Simple ∧
    ∀ v, (Value.set (ValueSet.union a b)).Has v ↔ (Value.set a).Has v ∨ (Value.set b).Has v := by
  induction b generalizing a with
  | nil => exact ⟨ha, sa, fun v => by simp [ValueSet.union, has_set]⟩
  | cons x b ih =>
    have hx := hb x (by simp)
    have sx := sb x (by simp)
    have hp := (proper_set.1 ha).1
    have hs := simple_set.1 sa
    have e : ValueSet.union a (x :: b) = ValueSet.union (ValueSet.insertValue x a) b := rfl
    have hmem : ∀ u ∈ ValueSet.insertValue x a ++ b, u ∈ a ++ x :: b := by
      intro u hu
      rcases List.mem_append.1 hu with hu | hu
      · rcases mem_insertValue hu with rfl | hu <;> simp [*]
      · simp [hu]
    obtain ⟨h1, h2, h3⟩ := ih (a := ValueSet.insertValue x a) (insertValue_proper ha hx fun y hy => ht y (by simp [hy]) x (by simp)) (fun u hu => hb u (by simp [hu]))
      (insertValue_simple sa sx) (fun u hu => sb u (by simp [hu])) fun u hu w hw => ht u (hmem u hu) w (hmem w hw)
    rw [e]
    refine ⟨h1, h2, fun v => ?_⟩
    rw [h3, insertValue_iff hp hs hx sx]
    simp only [has_set, List.mem_cons, exists_eq_or_imp]
    rw [or_assoc, or_left_comm]

/-! ### Searching -/

theorem contains_iff {s : List Value} {x : Value} : ValueSet.contains s x = true ↔ ∃ y ∈ s, x.cmp y = .eq := by
  simp [ValueSet.contains, List.any_eq_true]

theorem contains_has {s : List Value} {x : Value} (hp : ∀ u ∈ s, u.Proper) (hs : ∀ u ∈ s, u.Simple) (hx : x.Proper) (sx : x.Simple) :
    ValueSet.contains s x = true ↔ (Value.set s).Has x := by
  rw [contains_iff, has_set]
  constructor
  · rintro ⟨y, hy, h⟩; exact ⟨y, hy, (cmp_iff_same hx (hp y hy) sx (hs y hy)).1 h⟩
  · rintro ⟨y, hy, h⟩; exact ⟨y, hy, (cmp_iff_same hx (hp y hy) sx (hs y hy)).2 h⟩

theorem same_refl_of {x : Value} (hx : x.Proper) (sx : x.Simple) : x.Same x := (cmp_iff_same hx hx sx sx).1 (cmp_refl x)

theorem filter_proper {s : List Value} (h : (Value.set s).Proper) (p : Value → Bool) : (Value.set (s.filter p)).Proper := by
  rw [proper_set] at h ⊢
  exact ⟨fun x hx => h.1 x (List.mem_filter.1 hx).1, h.2.1.filter _, fun x hx y hy => h.2.2 x (List.mem_filter.1 hx).1 y (List.mem_filter.1 hy).1⟩

theorem filter_simple {s : List Value} (h : (Value.set s).Simple) (p : Value → Bool) : (Value.set (s.filter p)).Simple := by
  rw [simple_set] at h ⊢
  exact fun x hx => h x (List.mem_filter.1 hx).1

/-- Filtering by a condition that is the same for values that are the same. -/
theorem filter_has {s : List Value} {p : Value → Bool} {P : Value → Prop} (hp : ∀ x ∈ s, (p x = true ↔ P x)) (hc : ∀ u v, u.Same v → (P u ↔ P v)) (v : Value) :
    (Value.set (s.filter p)).Has v ↔ (Value.set s).Has v ∧ P v := by
  simp only [has_set, List.mem_filter]
  constructor
  · rintro ⟨y, ⟨hy, hpy⟩, h⟩; exact ⟨⟨y, hy, h⟩, (hc _ _ h).2 ((hp y hy).1 hpy)⟩
  · rintro ⟨⟨y, hy, h⟩, hv⟩; exact ⟨y, ⟨hy, (hp y hy).2 ((hc _ _ h).1 hv)⟩, h⟩

theorem has_congr {s u v : Value} (h : u.Same v) : s.Has u ↔ s.Has v :=
  ⟨fun ⟨y, hy, e⟩ => ⟨y, hy, same_trans (same_symm h) e⟩, fun ⟨y, hy, e⟩ => ⟨y, hy, same_trans h e⟩⟩

theorem compatible_iff {a b : List Value} (ha : (Value.set a).Proper) (hb : (Value.set b).Proper) : ValueSet.isCompatible a b = true ↔ Compatible (.set a) (.set b) := by
  unfold ValueSet.isCompatible Compatible
  show _ ↔ ∀ u ∈ a, ∀ v ∈ b, u.ty = v.ty
  cases a with
  | nil => simp [ValueSet.ty, ValueSet.typesMatch]
  | cons x a =>
    cases b with
    | nil => simp [ValueSet.ty, ValueSet.typesMatch]
    | cons y b =>
      have h1 := (proper_set.1 ha).2.2
      have h2 := (proper_set.1 hb).2.2
      simp only [ValueSet.ty, List.head?_cons, Option.map_some, ValueSet.typesMatch, beq_iff_eq]
      constructor
      · intro h u hu v hv
        rw [h1 u hu x (by simp), h, h2 y (by simp) v hv]
      · intro h
        exact h x (by simp) y (by simp)

/-! ### Comparing -/

theorem subset_has {a b : List Value} (ha : (Value.set a).Proper) (hb : (Value.set b).Proper) (sa : (Value.set a).Simple) (sb : (Value.set b).Simple) :
    ValueSet.isSubset a b = true ↔ ∀ v, (Value.set a).Has v → (Value.set b).Has v := by
  have pa := (proper_set.1 ha).1
  have pb := (proper_set.1 hb).1
  have qa := simple_set.1 sa
  have qb := simple_set.1 sb
  unfold ValueSet.isSubset
  rw [List.all_eq_true]
  constructor
  · rintro h v ⟨x, hx, e⟩
    exact (has_congr e).2 ((contains_has pb qb (pa x hx) (qa x hx)).1 (h x hx))
  · intro h x hx
    exact (contains_has pb qb (pa x hx) (qa x hx)).2 (h x ⟨x, hx, same_refl_of (pa x hx) (qa x hx)⟩)

theorem eq_has {a b : List Value} (ha : (Value.set a).Proper) (hb : (Value.set b).Proper) (sa : (Value.set a).Simple) (sb : (Value.set b).Simple) :
    ValueSet.eq a b = true ↔ ∀ v, (Value.set a).Has v ↔ (Value.set b).Has v := by
  have pa := proper_set.1 ha
  have pb := proper_set.1 hb
  have qa := simple_set.1 sa
  have qb := simple_set.1 sb
  unfold ValueSet.eq
  rw [beq_iff_eq]
  constructor
  · intro h v
    obtain ⟨h1, h2⟩ := cmpAll_mem h
    constructor
    · rintro ⟨x, hx, e⟩
      obtain ⟨y, hy, e'⟩ := h1 x hx
      exact ⟨y, hy, same_trans e ((cmp_iff_same (pa.1 x hx) (pb.1 y hy) (qa x hx) (qb y hy)).1 e')⟩
    · rintro ⟨y, hy, e⟩
      obtain ⟨x, hx, e'⟩ := h2 y hy
      exact ⟨x, hx, same_trans e (same_symm ((cmp_iff_same (pa.1 x hx) (pb.1 y hy) (qa x hx) (qb y hy)).1 e'))⟩
  · intro h
    refine sorted_eq pa.2.1 pb.2.1 (fun x hx => ?_) (fun y hy => ?_)
    · obtain ⟨y, hy, e⟩ := (h x).1 ⟨x, hx, same_refl_of (pa.1 x hx) (qa x hx)⟩
      exact ⟨y, hy, (cmp_iff_same (pa.1 x hx) (pb.1 y hy) (qa x hx) (qb y hy)).2 e⟩
    · obtain ⟨x, hx, e⟩ := (h y).2 ⟨y, hy, same_refl_of (pb.1 y hy) (qb y hy)⟩
      exact ⟨x, hx, (cmp_iff_same (pa.1 x hx) (pb.1 y hy) (qa x hx) (qb y hy)).2 (same_symm e)⟩

/-! ### Sets of numbers -/

theorem rational_same {q : ℚ} {v : Value} : v.Same (.rational q) ↔ v = .rational q := by
  unfold Value.Same
  cases v <;> simp only [Value.flat, Value.SameFlat] <;> simp

/-- A set of numbers in order. -/
theorem ofNats_proper {ns : List Nat} (h : ns.Pairwise (· < ·)) : (Value.set (ValueSet.ofNats ns)).Proper ∧ (Value.set (ValueSet.ofNats ns)).Simple := by
  rw [proper_set, simple_set]
  unfold ValueSet.ofNats
  refine ⟨⟨fun x hx => ?_, ?_, fun x hx y hy => ?_⟩, fun x hx => ?_⟩
  · obtain ⟨n, _, rfl⟩ := List.mem_map.1 hx; trivial
  · rw [List.pairwise_map]
    refine h.imp fun {a b} hab => ?_
    show compare (a : ℚ) (b : ℚ) = .lt
    rw [compare_lt_iff_lt]
    exact_mod_cast hab
  · obtain ⟨n, _, rfl⟩ := List.mem_map.1 hx
    obtain ⟨m, _, rfl⟩ := List.mem_map.1 hy
    rfl
  · obtain ⟨n, _, rfl⟩ := List.mem_map.1 hx; trivial

theorem has_ofNats {ns : List Nat} {v : Value} : (Value.set (ValueSet.ofNats ns)).Has v ↔ ∃ n ∈ ns, v = .rational (n : ℚ) := by
  rw [has_set]
  unfold ValueSet.ofNats
  constructor
  · rintro ⟨y, hy, e⟩
    obtain ⟨n, hn, rfl⟩ := List.mem_map.1 hy
    exact ⟨n, hn, rational_same.1 e⟩
  · rintro ⟨n, hn, rfl⟩
    exact ⟨_, List.mem_map.2 ⟨n, hn, rfl⟩, rational_same.2 rfl⟩

theorem expand_pairwise {l : BitLengthSet} (h : Reg l) : l.expand.Pairwise (· < ·) := by
  obtain ⟨⟨L, hL⟩, _⟩ := h
  exact (C48_expand hL).2.1

/-- Every set is a set of its elements, in order. -/
theorem expanded_set {A : Value} (hA : A.Proper) (fA : A.Flat) (hs : A.IsSet) :
    A.expanded = .set A.elements ∧ (Value.set A.elements).Proper ∧ (Value.set A.elements).Simple := by
  cases A with
  | set xs => exact ⟨rfl, hA, fA⟩
  | lengths l => exact ⟨rfl, ofNats_proper (expand_pairwise hA)⟩
  | _ => exact absurd hs (by simp [Value.IsSet])

theorem has_elements {A v : Value} : (Value.set A.elements).Has v ↔ A.Has v := Iff.rfl

/-- Collecting numbers into a set. -/
theorem insertAll_rationals (qs : List ℚ) (s : List Value) (hs : (Value.set s).Proper) (ss : (Value.set s).Simple) (ht : ∀ x ∈ s, ∃ q, x = .rational q) :
    ∃ s', ValueSet.insertAll s (qs.map Value.rational) = some s' ∧ (Value.set s').Proper ∧ (Value.set s').Simple ∧ (∀ x ∈ s', ∃ q, x = .rational q) ∧
      ∀ v, (Value.set s').Has v ↔ (Value.set s).Has v ∨ ∃ q ∈ qs, v = .rational q := by
  induction qs generalizing s with
  | nil => exact ⟨s, rfl, hs, ss, ht, fun v => by simp⟩
  | cons q qs ih =>
    have hins : ValueSet.insert s (.rational q) = some (ValueSet.insertValue (.rational q) s) := by
      unfold ValueSet.insert
      split
      · next t h =>
        obtain ⟨x, hx, rfl⟩ := ty_of_head h
        obtain ⟨p, rfl⟩ := ht x hx
        exact if_pos rfl
      · rfl
    have hty : ∀ y ∈ s, y.ty = (Value.rational q).ty := by
      intro y hy
      obtain ⟨p, rfl⟩ := ht y hy
      rfl
    obtain ⟨s', h1, h2, h3, h4, h5⟩ := ih (ValueSet.insertValue (.rational q) s) (insertValue_proper hs trivial hty) (insertValue_simple ss trivial) (by
      intro x hx
      rcases mem_insertValue hx with rfl | hx
      · exact ⟨q, rfl⟩
      · exact ht x hx)
    refine ⟨s', ?_, h2, h3, h4, fun v => ?_⟩
    · rw [List.map_cons, ValueSet.insertAll, hins]
      exact h1
    · rw [h5, insertValue_iff (x := .rational q) (proper_set.1 hs).1 (simple_set.1 ss) trivial trivial, rational_same]
      simp only [List.mem_cons, exists_eq_or_imp]
      tauto

theorem collect_rationals (qs : List ℚ) : ∃ s, ValueSet.collect (qs.map Value.rational) = some s ∧ (Value.set s).Proper ∧ (Value.set s).Simple ∧ (∀ x ∈ s, ∃ q, x = .rational q) ∧
    ∀ v, (Value.set s).Has v ↔ ∃ q ∈ qs, v = .rational q := by
  obtain ⟨s, h1, h2, h3, h4, h5⟩ := insertAll_rationals qs [] (proper_set.2 (by simp)) (simple_set.2 (by simp)) (by simp)
  exact ⟨s, h1, h2, h3, h4, fun v => by rw [h5]; simp [has_set]⟩

theorem rationals_eq {a b : List Value} (ha : ∀ x ∈ a, ∃ q, x = .rational q) (hb : ∀ x ∈ b, ∃ q, x = .rational q) (h : Value.cmpAll a b = .eq) : a = b := by
  induction a generalizing b with
  | nil => cases b <;> simp [Value.cmpAll] at h ⊢
  | cons x a ih =>
    cases b with
    | nil => simp [Value.cmpAll] at h
    | cons y b =>
      simp only [Value.cmpAll, Ordering.then_eq_eq] at h
      obtain ⟨p, rfl⟩ := ha x (by simp)
      obtain ⟨q, rfl⟩ := hb y (by simp)
      have hpq : p = q := Std.LawfulEqCmp.compare_eq_iff_eq (cmp := compare).1 h.1
      rw [hpq, ih (fun u hu => ha u (by simp [hu])) (fun u hu => hb u (by simp [hu])) h.2]

/-- The `unwrap` in `From<BTreeSet<u64>> for Set` does not fail, and the set is the list of the numbers in order. -/
theorem ofNats_collect {ns : List Nat} (h : ns.Pairwise (· < ·)) : ValueSet.collect (ns.map fun n : Nat => .rational (n : ℚ)) = some (ValueSet.ofNats ns) := by
  obtain ⟨s, h1, h2, h3, h4, h5⟩ := collect_rationals (ns.map fun n : Nat => (n : ℚ))
  rw [List.map_map] at h1
  refine h1.trans (congrArg some ?_)
  have hr : ∀ x ∈ ValueSet.ofNats ns, ∃ q, x = .rational q := by
    intro x hx
    obtain ⟨n, _, rfl⟩ := List.mem_map.1 hx
    exact ⟨_, rfl⟩
  refine rationals_eq h4 hr ?_
  have := (eq_has h2 (ofNats_proper h).1 h3 (ofNats_proper h).2).2 fun v => by
    rw [h5, has_ofNats]
    simp
  exact beq_iff_eq.1 this

end Verif.Front
