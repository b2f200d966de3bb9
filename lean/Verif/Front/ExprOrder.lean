import Verif.Front.ExprSpec
import Verif.Bls.Props

/-!
The order in which the compiler keeps the elements of a set, and that elements which are equal in it are the same values.
-/

namespace Verif.Front

open Verif.Bls

/-- What is needed of an order, for a value and any others. -/
def Lawful {α : Type} (cmp : α → α → Ordering) (a : α) : Prop :=
  cmp a a = .eq ∧ ∀ b c, (cmp a b = .eq → cmp a c = cmp b c) ∧ (cmp a b = .lt → cmp b c = .lt → cmp a c = .lt) ∧ (cmp a b = .lt → cmp b c = .eq → cmp a c = .lt) ∧
    (cmp a b = .gt ↔ cmp b a = .lt)

theorem lawful_of_trans {α : Type} {cmp : α → α → Ordering} [Std.TransCmp cmp] (a : α) : Lawful cmp a :=
  ⟨Std.ReflCmp.compare_self, fun _ _ => ⟨Std.TransCmp.congr_left, Std.TransCmp.lt_trans, Std.TransCmp.lt_of_lt_of_eq, Std.OrientedCmp.gt_iff_lt⟩⟩

instance : Std.TransCmp Ty.cmp :=
  inferInstanceAs (Std.TransCmp (compareLex (compareOn fun t : Ty => t.rank.1) (compareLex (compareOn fun t : Ty => t.rank.2.1)
    (compareLex (compareOn fun t : Ty => t.rank.2.2.1) (compareOn fun t : Ty => t.rank.2.2.2)))))

theorem lawful_lengths (a : BitLengthSet) : Lawful BitLengthSet.cmp a := by
  refine ⟨?_, fun b c => ⟨(C50_total_order a b c).2.2.2, (C50_total_order a b c).2.2.1, ?_, ?_⟩⟩
  · unfold BitLengthSet.cmp; rw [cmpSet_eq]
  · intro h1 h2
    have := ((C50_total_order b c a).2.2.2 h2)
    have h3 := (C50_total_order a b c).1.1 h1
    rw [this] at h3
    exact (C50_total_order a c b).1.2 h3
  · exact (C50_total_order b a c).1.symm

theorem cmp_of_rank {a b : Value} (h : a.rank ≠ b.rank) : a.cmp b = compare a.rank b.rank := by
  cases a <;> cases b <;> first | (exact absurd rfl h) | rfl

theorem rank_of_cmp {a b : Value} (h : a.cmp b = .eq) : a.rank = b.rank := by
  by_contra hn
  rw [cmp_of_rank hn] at h
  exact hn (Nat.compare_eq_eq.1 h)

/-- Values of another kind are less or greater by their kind. -/
theorem lawful_rank {a : Value} (hrefl : a.cmp a = .eq)
    (h : ∀ b, a.rank = b.rank → ((a.cmp b = .gt ↔ b.cmp a = .lt) ∧ ∀ c, a.rank = c.rank → (a.cmp b = .eq → a.cmp c = b.cmp c) ∧ (a.cmp b = .lt → b.cmp c = .lt → a.cmp c = .lt) ∧
      (a.cmp b = .lt → b.cmp c = .eq → a.cmp c = .lt))) : Lawful Value.cmp a := by
  refine ⟨hrefl, fun b c => ?_⟩
  have lt_rank : ∀ {u v : Value}, u.rank ≠ v.rank → (u.cmp v = .lt ↔ u.rank < v.rank) := by
    intro u v hn
    rw [cmp_of_rank hn, Nat.compare_eq_lt]
  have le_rank : ∀ {u v : Value}, u.cmp v = .lt → u.rank ≤ v.rank := by
    intro u v hu
    by_cases hn : u.rank = v.rank
    · exact hn.le
    · exact ((lt_rank hn).1 hu).le
  by_cases hb : a.rank = b.rank
  · obtain ⟨h1, h2⟩ := h b hb
    by_cases hc : a.rank = c.rank
    · obtain ⟨h3, h4, h5⟩ := h2 c hc
      exact ⟨h3, h4, h5, h1⟩
    · have hbc : b.rank ≠ c.rank := hb ▸ hc
      refine ⟨fun _ => by rw [cmp_of_rank hc, cmp_of_rank hbc, hb], fun _ h4 => ?_, fun _ h4 => absurd (rank_of_cmp h4) hbc, h1⟩
      rw [lt_rank hc]
      rw [lt_rank hbc] at h4
      omega
  · refine ⟨fun h4 => absurd (rank_of_cmp h4) hb, fun h4 h5 => ?_, fun h4 h5 => ?_, ?_⟩
    · have e1 := (lt_rank hb).1 h4
      have e2 := le_rank h5
      exact (lt_rank (by omega)).2 (by omega)
    · have e1 := (lt_rank hb).1 h4
      have e2 := rank_of_cmp h5
      exact (lt_rank (by omega)).2 (by omega)
    · rw [lt_rank (Ne.symm hb), cmp_of_rank hb, Nat.compare_eq_gt]

theorem lawful_base {α : Type} {cmp : α → α → Ordering} {make : α → Value} (hl : ∀ a, Lawful cmp a) (hc : ∀ a b, (make a).cmp (make b) = cmp a b)
    (hr : ∀ a b, (make a).rank = b.rank → ∃ a', b = make a') (a : α) : Lawful Value.cmp (make a) := by
  refine lawful_rank (by rw [hc]; exact (hl a).1) fun b hb => ?_
  obtain ⟨b, rfl⟩ := hr a b hb
  refine ⟨?_, fun c hc' => ?_⟩
  · rw [hc, hc]; exact ((hl a).2 b b).2.2.2
  · obtain ⟨c, rfl⟩ := hr a c hc'
    simp only [hc]
    exact ⟨((hl a).2 b c).1, ((hl a).2 b c).2.1, ((hl a).2 b c).2.2.1⟩

mutual
/-- The order of the values is an order. -/
theorem lawful : ∀ a : Value, Lawful Value.cmp a
  | .rational q => lawful_base (cmp := compare) (make := .rational) lawful_of_trans (fun _ _ => rfl) (fun a b h => by cases b <;> first | exact ⟨_, rfl⟩ | cases h) q
  | .string q => lawful_base (cmp := compare) (make := .string) lawful_of_trans (fun _ _ => rfl) (fun a b h => by cases b <;> first | exact ⟨_, rfl⟩ | cases h) q
  | .boolean q => lawful_base (cmp := compare) (make := .boolean) lawful_of_trans (fun _ _ => rfl) (fun a b h => by cases b <;> first | exact ⟨_, rfl⟩ | cases h) q
  | .type q => lawful_base (cmp := Ty.cmp) (make := .type) lawful_of_trans (fun _ _ => rfl) (fun a b h => by cases b <;> first | exact ⟨_, rfl⟩ | cases h) q
  | .lengths q => lawful_base (make := .lengths) lawful_lengths (fun _ _ => rfl) (fun a b h => by cases b <;> first | exact ⟨_, rfl⟩ | cases h) q
  | .set xs => by
    have hl := lawfulAll xs
    refine lawful_rank hl.1 fun b hb => ?_
    cases b <;> try (cases hb)
    rename_i ys
    refine ⟨(hl.2 ys ys).2.2.2, fun c hc => ?_⟩
    cases c <;> try (cases hc)
    rename_i zs
    exact ⟨(hl.2 ys zs).1, (hl.2 ys zs).2.1, (hl.2 ys zs).2.2.1⟩
/-- The order of sets is an order. -/
theorem lawfulAll : ∀ xs : List Value, Lawful Value.cmpAll xs
  | [] => by
    refine ⟨rfl, fun b c => ?_⟩
    cases b <;> cases c <;> simp [Value.cmpAll]
  | x :: xs => by
    have hx := lawful x
    have hxs := lawfulAll xs
    refine ⟨by rw [Value.cmpAll, hx.1, hxs.1]; rfl, fun b c => ?_⟩
    cases b with
    | nil => cases c <;> simp [Value.cmpAll]
    | cons y ys =>
      have hsym := (hx.2 y y).2.2.2
      have hsyms := (hxs.2 ys ys).2.2.2
      have heq : x.cmp y = .eq ↔ y.cmp x = .eq := by
        constructor
        · intro h; rw [← (hx.2 y x).1 h, hx.1]
        · intro h
          cases hh : x.cmp y with
          | eq => rfl
          | gt => rw [hsym.1 hh] at h; cases h
          | lt => have := (hx.2 y x).2.2.1 hh h; rw [hx.1] at this; cases this
      have hgt : Value.cmpAll (x :: xs) (y :: ys) = .gt ↔ Value.cmpAll (y :: ys) (x :: xs) = .lt := by
        simp only [Value.cmpAll, Ordering.then_eq_gt, Ordering.then_eq_lt]
        rw [hsym, hsyms, heq]
      cases c with
      | nil => simp [Value.cmpAll]; simpa [Value.cmpAll] using hgt
      | cons z zs =>
        obtain ⟨e1, e2, e3, _⟩ := hx.2 y z
        obtain ⟨f1, f2, f3, _⟩ := hxs.2 ys zs
        refine ⟨?_, ?_, ?_, hgt⟩
        · simp only [Value.cmpAll, Ordering.then_eq_eq]
          rintro ⟨h1, h2⟩
          rw [e1 h1, f1 h2]
        · simp only [Value.cmpAll, Ordering.then_eq_lt]
          rintro (h1 | ⟨h1, h2⟩) (h3 | ⟨h3, h4⟩)
          · exact .inl (e2 h1 h3)
          · exact .inl (e3 h1 h3)
          · exact .inl (by rw [e1 h1]; exact h3)
          · exact .inr ⟨by rw [e1 h1]; exact h3, f2 h2 h4⟩
        · simp only [Value.cmpAll, Ordering.then_eq_lt, Ordering.then_eq_eq]
          rintro (h1 | ⟨h1, h2⟩) ⟨h3, h4⟩
          · exact .inl (e3 h1 h3)
          · exact .inr ⟨by rw [e1 h1]; exact h3, f3 h2 h4⟩
end

theorem cmp_refl (a : Value) : a.cmp a = .eq := (lawful a).1
theorem cmp_congr {a b : Value} (h : a.cmp b = .eq) (c : Value) : a.cmp c = b.cmp c := ((lawful a).2 b c).1 h
theorem cmp_lt_trans {a b c : Value} (h : a.cmp b = .lt) (h' : b.cmp c = .lt) : a.cmp c = .lt := ((lawful a).2 b c).2.1 h h'
theorem cmp_gt_iff {a b : Value} : a.cmp b = .gt ↔ b.cmp a = .lt := ((lawful a).2 b b).2.2.2
theorem cmp_eq_symm {a b : Value} (h : a.cmp b = .eq) : b.cmp a = .eq := by rw [← cmp_congr h a, cmp_refl]
theorem cmp_eq_trans {a b c : Value} (h : a.cmp b = .eq) (h' : b.cmp c = .eq) : a.cmp c = .eq := by rw [cmp_congr h, h']
theorem cmp_lt_eq {a b c : Value} (h : a.cmp b = .lt) (h' : b.cmp c = .eq) : a.cmp c = .lt := ((lawful a).2 b c).2.2.1 h h'

/-! ### Equal in the order and the same -/

theorem prim_rank {p q : Prim} : p.rank = q.rank ↔ p = q := by
  have hm : ∀ m m' : CastMode, m.rank = m'.rank ↔ m = m' := by
    intro m m'
    cases m <;> cases m' <;> simp [CastMode.rank]
  cases p <;> cases q <;> simp [Prim.rank, hm]

theorem ty_cmp {a b : Ty} : a.cmp b = .eq ↔ a.Same b := by
  have h : a.cmp b = .eq ↔ a.rank = b.rank := by
    unfold Ty.cmp
    rw [compareLex_eq_eq, compareLex_eq_eq, compareLex_eq_eq]
    simp only [compareOn, Std.LawfulEqCmp.compare_eq_iff_eq]
    rw [Prod.ext_iff, Prod.ext_iff, Prod.ext_iff]
  rw [h]
  have hs : ∀ s t : ScalarTy, s.rank = t.rank ↔ s.Same t := by
    intro s t
    cases s <;> cases t <;> simp [ScalarTy.rank, ScalarTy.Same, SameName, Prod.ext_iff]
    exact prim_rank
  have hc : ∀ (l l' : List Nat) (n m : Nat), l ++ [n] = l' ++ [m] ↔ l = l' ∧ n = m := by
    intro l l' n m
    constructor
    · intro h; have := List.append_inj' h rfl; simpa using this
    · rintro ⟨rfl, rfl⟩; rfl
  cases a <;> cases b <;> simp only [Ty.rank, Ty.Same, ← hs, Prod.ext_iff, hc, List.cons.injEq, and_true, true_and] <;> tauto

mutual
theorem sameFlat_symm : ∀ {a b : Value}, a.SameFlat b → b.SameFlat a
  | .set xs, b, h => by
    cases b <;> simp only [Value.SameFlat] at h
    rename_i ys
    rw [Value.SameFlat, eachIn_iff]
    rw [eachIn_iff] at h
    refine ⟨fun y hy => ?_, fun x hx => ?_⟩
    · obtain ⟨x, hx, hs⟩ := sameAsOne_iff.1 (h.2 y hy)
      exact ⟨x, hx, symmAll xs x hx hs⟩
    · obtain ⟨y, hy, hs⟩ := h.1 x hx
      exact sameAsOne_iff.2 ⟨y, hy, symmAll xs x hx hs⟩
  | .rational a, b, h => by cases b <;> simp only [Value.SameFlat] at h ⊢; exact h.symm
  | .string a, b, h => by cases b <;> simp only [Value.SameFlat] at h ⊢; exact h.symm
  | .boolean a, b, h => by cases b <;> simp only [Value.SameFlat] at h ⊢; exact h.symm
  | .type a, b, h => by cases b <;> simp only [Value.SameFlat, ← ty_cmp] at h ⊢; exact Std.OrientedCmp.eq_symm h
  | .lengths a, b, h => by cases b <;> simp only [Value.SameFlat] at h
theorem symmAll : ∀ (xs : List Value), ∀ x ∈ xs, ∀ {y}, x.SameFlat y → y.SameFlat x
  | x :: xs, u, hu => by
    intro h
    rcases List.mem_cons.1 hu with he | hu
    · rw [he] at h ⊢; exact sameFlat_symm h
    · exact symmAll xs u hu h
end

mutual
theorem sameFlat_trans : ∀ {a b c : Value}, a.SameFlat b → b.SameFlat c → a.SameFlat c
  | .set xs, b, c, h, h' => by
    cases b <;> simp only [Value.SameFlat] at h
    cases c <;> simp only [Value.SameFlat] at h'
    rename_i ys zs
    rw [Value.SameFlat, eachIn_iff]
    rw [eachIn_iff] at h h'
    refine ⟨fun x hx => ?_, fun z hz => ?_⟩
    · obtain ⟨y, hy, hs⟩ := h.1 x hx
      obtain ⟨z, hz, hs'⟩ := h'.1 y hy
      exact ⟨z, hz, transAll xs x hx hs hs'⟩
    · obtain ⟨y, hy, hs'⟩ := sameAsOne_iff.1 (h'.2 z hz)
      obtain ⟨x, hx, hs⟩ := sameAsOne_iff.1 (h.2 y hy)
      exact sameAsOne_iff.2 ⟨x, hx, transAll xs x hx hs hs'⟩
  | .rational a, b, c, h, h' => by cases b <;> cases c <;> simp only [Value.SameFlat] at h h' ⊢; exact h.trans h'
  | .string a, b, c, h, h' => by cases b <;> cases c <;> simp only [Value.SameFlat] at h h' ⊢; exact h.trans h'
  | .boolean a, b, c, h, h' => by cases b <;> cases c <;> simp only [Value.SameFlat] at h h' ⊢; exact h.trans h'
  | .type a, b, c, h, h' => by cases b <;> cases c <;> simp only [Value.SameFlat, ← ty_cmp] at h h' ⊢; exact Std.TransCmp.eq_trans h h'
  | .lengths a, b, c, h, h' => by cases b <;> simp only [Value.SameFlat] at h
theorem transAll : ∀ (xs : List Value), ∀ x ∈ xs, ∀ {y z}, x.SameFlat y → y.SameFlat z → x.SameFlat z
  | x :: xs, u, hu => by
    intro h h'
    rcases List.mem_cons.1 hu with he | hu
    · rw [he] at h ⊢; exact sameFlat_trans h h'
    · exact transAll xs u hu h h'
end

theorem same_symm {a b : Value} (h : a.Same b) : b.Same a := sameFlat_symm h
theorem same_trans {a b c : Value} (h : a.Same b) (h' : b.Same c) : a.Same c := sameFlat_trans h h'

/-- Sorted lists with equal elements are equal. -/
theorem sorted_eq {xs ys : List Value} (hx : xs.Pairwise fun a b => a.cmp b = .lt) (hy : ys.Pairwise fun a b => a.cmp b = .lt)
    (h : ∀ x ∈ xs, ∃ y ∈ ys, x.cmp y = .eq) (h' : ∀ y ∈ ys, ∃ x ∈ xs, x.cmp y = .eq) : Value.cmpAll xs ys = .eq := by
  induction xs generalizing ys with
  | nil =>
    cases ys with
    | nil => rfl
    | cons y ys => obtain ⟨x, hx, _⟩ := h' y (by simp); simp at hx
  | cons x xs ih =>
    cases ys with
    | nil => obtain ⟨y, hy, _⟩ := h x (by simp); simp at hy
    | cons y ys =>
      have hxs : ∀ {u}, u ∈ xs → x.cmp u = .lt := fun hu => List.rel_of_pairwise_cons hx hu
      have hys : ∀ {u}, u ∈ ys → y.cmp u = .lt := fun hu => List.rel_of_pairwise_cons hy hu
      have hxy : x.cmp y = .eq := by
        obtain ⟨v, hv, e1⟩ := h x (by simp)
        obtain ⟨u, hu, e2⟩ := h' y (by simp)
        rcases List.mem_cons.1 hv with rfl | hv
        · exact e1
        · rcases List.mem_cons.1 hu with rfl | hu
          · exact e2
          · have l1 := cmp_lt_eq (hxs hu) e2
            have l2 := cmp_lt_eq (hys hv) (cmp_eq_symm e1)
            have := cmp_lt_trans l1 l2
            rw [cmp_refl] at this
            cases this
      rw [Value.cmpAll, hxy]
      show Value.cmpAll xs ys = .eq
      refine ih hx.of_cons hy.of_cons (fun u hu => ?_) (fun v hv => ?_)
      · obtain ⟨v, hv, e⟩ := h u (List.mem_cons_of_mem _ hu)
        rcases List.mem_cons.1 hv with rfl | hv
        · have := cmp_lt_eq (hxs hu) e
          rw [hxy] at this
          cases this
        · exact ⟨v, hv, e⟩
      · obtain ⟨u, hu, e⟩ := h' v (List.mem_cons_of_mem _ hv)
        rcases List.mem_cons.1 hu with rfl | hu
        · have := cmp_lt_eq (hys hv) (cmp_eq_symm e)
          rw [cmp_eq_symm hxy] at this
          cases this
        · exact ⟨u, hu, e⟩

theorem cmpAll_mem {xs ys : List Value} (h : Value.cmpAll xs ys = .eq) : (∀ x ∈ xs, ∃ y ∈ ys, x.cmp y = .eq) ∧ ∀ y ∈ ys, ∃ x ∈ xs, x.cmp y = .eq := by
  induction xs generalizing ys with
  | nil => cases ys <;> simp [Value.cmpAll] at h ⊢
  | cons x xs ih =>
    cases ys with
    | nil => simp [Value.cmpAll] at h
    | cons y ys =>
      simp only [Value.cmpAll, Ordering.then_eq_eq] at h
      obtain ⟨h1, h2⟩ := ih h.2
      refine ⟨fun u hu => ?_, fun v hv => ?_⟩
      · rcases List.mem_cons.1 hu with rfl | hu
        · exact ⟨y, by simp, h.1⟩
        · obtain ⟨v, hv, e⟩ := h1 u hu
          exact ⟨v, by simp [hv], e⟩
      · rcases List.mem_cons.1 hv with rfl | hv
        · exact ⟨x, by simp, h.1⟩
        · obtain ⟨u, hu, e⟩ := h2 v hv
          exact ⟨u, by simp [hu], e⟩

mutual
/-- Values are equal in the order exactly if they are the same. -/
theorem cmp_same : ∀ {a b : Value}, a.Proper → b.Proper → a.Simple → b.Simple → (a.cmp b = .eq ↔ a.SameFlat b)
  | .set xs, b, ha, hb, sa, sb => by
    cases b <;> simp only [Value.SameFlat, iff_false, Value.cmp] <;> try (rw [Nat.compare_eq_eq]; simp [Value.rank])
    rename_i ys
    rw [Value.Proper, properAll_iff] at ha hb
    rw [Value.Simple, simpleAll_iff] at sa sb
    rw [eachIn_iff]
    constructor
    · intro h
      obtain ⟨h1, h2⟩ := cmpAll_mem h
      refine ⟨fun x hx => ?_, fun y hy => ?_⟩
      · obtain ⟨y, hy, e⟩ := h1 x hx
        exact ⟨y, hy, (cmp_sameAll xs x hx (ha.1 x hx) (hb.1 y hy) (sa x hx) (sb y hy)).1 e⟩
      · obtain ⟨x, hx, e⟩ := h2 y hy
        exact sameAsOne_iff.2 ⟨x, hx, (cmp_sameAll xs x hx (ha.1 x hx) (hb.1 y hy) (sa x hx) (sb y hy)).1 e⟩
    · rintro ⟨h1, h2⟩
      refine sorted_eq ha.2.1 hb.2.1 (fun x hx => ?_) (fun y hy => ?_)
      · obtain ⟨y, hy, e⟩ := h1 x hx
        exact ⟨y, hy, (cmp_sameAll xs x hx (ha.1 x hx) (hb.1 y hy) (sa x hx) (sb y hy)).2 e⟩
      · obtain ⟨x, hx, e⟩ := sameAsOne_iff.1 (h2 y hy)
        exact ⟨x, hx, (cmp_sameAll xs x hx (ha.1 x hx) (hb.1 y hy) (sa x hx) (sb y hy)).2 e⟩
  | .rational a, b, _, _, _, _ => by
    cases b <;> simp only [Value.SameFlat, iff_false, Value.cmp] <;> first | exact Std.LawfulEqCmp.compare_eq_iff_eq | (rw [Nat.compare_eq_eq]; simp [Value.rank])
  | .string a, b, _, _, _, _ => by
    cases b <;> simp only [Value.SameFlat, iff_false, Value.cmp] <;> first | exact Std.LawfulEqCmp.compare_eq_iff_eq | (rw [Nat.compare_eq_eq]; simp [Value.rank])
  | .boolean a, b, _, _, _, _ => by
    cases b <;> simp only [Value.SameFlat, iff_false, Value.cmp] <;> first | exact Std.LawfulEqCmp.compare_eq_iff_eq | (rw [Nat.compare_eq_eq]; simp [Value.rank])
  | .type a, b, _, _, _, _ => by
    cases b <;> simp only [Value.SameFlat, iff_false, Value.cmp] <;> first | exact ty_cmp | (rw [Nat.compare_eq_eq]; simp [Value.rank])
  | .lengths a, b, _, _, sa, _ => by simp [Value.Simple] at sa
theorem cmp_sameAll : ∀ (xs : List Value), ∀ x ∈ xs, ∀ {b : Value}, x.Proper → b.Proper → x.Simple → b.Simple → (x.cmp b = .eq ↔ x.SameFlat b)
  | x :: xs, u, hu => by
    intro h1 h2 h3 h4
    rcases List.mem_cons.1 hu with he | hu
    · rw [he] at h1 h3 ⊢; exact cmp_same h1 h2 h3 h4
    · exact cmp_sameAll xs u hu h1 h2 h3 h4
end

mutual
theorem flat_simple : ∀ {a : Value}, a.Simple → a.flat = a
  | .set xs, h => by rw [Value.flat, flat_simpleAll xs (by rwa [Value.Simple] at h)]
  | .rational _, _ => rfl
  | .string _, _ => rfl
  | .boolean _, _ => rfl
  | .type _, _ => rfl
  | .lengths _, h => by simp [Value.Simple] at h
theorem flat_simpleAll : ∀ (xs : List Value), Value.SimpleAll xs → Value.flatAll xs = xs
  | [], _ => by rw [Value.flatAll]
  | x :: xs, h => by rw [Value.SimpleAll] at h; rw [Value.flatAll, flat_simple h.1, flat_simpleAll xs h.2]
end

/-- Values are equal in the order exactly if they are the same. -/
theorem cmp_iff_same {a b : Value} (ha : a.Proper) (hb : b.Proper) (sa : a.Simple) (sb : b.Simple) : a.cmp b = .eq ↔ a.Same b := by
  unfold Value.Same
  rw [flat_simple sa, flat_simple sb]
  exact cmp_same ha hb sa sb

end Verif.Front
