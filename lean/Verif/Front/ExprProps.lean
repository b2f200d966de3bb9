import Verif.Front.ExprCalc

/-!
C81: what the operators of DSDL expressions calculate. `ExprSpec.lean` says what the values are.
-/

namespace Verif.Front

open Verif.Bls Verif.Dsdl

/-! ### Numbers -/

/-- C81: an operator on two numbers gives the result that is defined for them, and no value if none is. A text of one character is a number, except for
the sum of two texts. -/
theorem C81_numbers (x : Externals) {op : BinOp} (hop : op.Arithmetic) {A B : Value} {a b : ℚ} (hA : A.Number a) (hB : B.Number b)
    (hs : op = .add → ¬ ∃ s t, A = .string s ∧ B = .string t) (v : Value) :
    evalBinary x op A B = .ok v ↔ ∃ r, v = .rational r ∧ Calculates x op a b r := by
  rw [eval_number hop hA hB hs]
  exact numberOp_iff hop

/-- C81: a comparison of two numbers says what it should. A text of one character is a number, except for the equality of two texts. -/
theorem C81_number_comparisons (x : Externals) {op : BinOp} (hop : op.Comparison) {A B : Value} {a b : ℚ} (hA : A.Number a) (hB : B.Number b)
    (hs : op = .equal ∨ op = .notEqual → ¬ ∃ s t, A = .string s ∧ B = .string t) : Says (evalBinary x op A B) (op.Compares a b) := by
  have hc : ∀ f g, rationalOrSetComparison f g A B = .ok (.boolean (f a b)) := by
    intro f g
    obtain ⟨e1, n1⟩ := expanded_number hA
    obtain ⟨e2, n2⟩ := expanded_number hB
    unfold rationalOrSetComparison
    rw [e1, e2]
    split
    · exact absurd rfl (n1 _)
    · exact rationalBinary_number _ hA hB
  have he : ∀ neg, (op = .equal ∨ op = .notEqual) → equalValues neg A B = .ok (.boolean ((a == b) != neg)) := by
    intro neg hop
    unfold equalValues
    split
    · exact absurd ⟨_, _, rfl, rfl⟩ (hs hop)
    · exact absurd hA (by simp [Value.Number])
    · exact hc _ _
  cases op with
  | equal => exact ⟨_, he false (.inl rfl), by simp [BinOp.Compares]⟩
  | notEqual => exact ⟨_, he true (.inr rfl), by simp [BinOp.Compares]⟩
  | lessOrEqual => exact ⟨_, hc _ _, decide_eq_true_iff⟩
  | greaterOrEqual => exact ⟨_, hc _ _, decide_eq_true_iff⟩
  | less => exact ⟨_, hc _ _, decide_eq_true_iff⟩
  | greater => exact ⟨_, hc _ _, decide_eq_true_iff⟩
  | _ => exact absurd hop (by simp [BinOp.Comparison])

/-- C81: texts are joined (and normalized) by `+`, and compared; truth values are compared and combined; a number keeps or changes its sign. -/
theorem C81_others (x : Externals) (s t : String) (p q : Bool) (r : ℚ) :
    evalBinary x .add (.string s) (.string t) = .ok (.string (x.nfc (s ++ t))) ∧
    Says (evalBinary x .equal (.string s) (.string t)) (s = t) ∧ Says (evalBinary x .notEqual (.string s) (.string t)) (s ≠ t) ∧
    Says (evalBinary x .equal (.boolean p) (.boolean q)) (p = q) ∧ Says (evalBinary x .notEqual (.boolean p) (.boolean q)) (p ≠ q) ∧
    Says (evalBinary x .logicalOr (.boolean p) (.boolean q)) (p = true ∨ q = true) ∧
    Says (evalBinary x .logicalAnd (.boolean p) (.boolean q)) (p = true ∧ q = true) ∧
    Says (evalUnary .not (.boolean p)) (¬ p = true) ∧ evalUnary .plus (.rational r) = .ok (.rational r) ∧
    evalUnary .minus (.rational r) = .ok (.rational (-r)) := by
  refine ⟨rfl, ⟨_, rfl, ?_⟩, ⟨_, rfl, ?_⟩, ⟨_, rfl, ?_⟩, ⟨_, rfl, ?_⟩, ⟨_, rfl, ?_⟩, ⟨_, rfl, ?_⟩, ⟨_, rfl, ?_⟩, rfl, rfl⟩ <;> simp

/-! ### Sets -/

/-- Unites two sets of lengths. -/
theorem has_unite {a b : BitLengthSet} (ha : Reg a) (hb : Reg b) (v : Value) : (Value.lengths (a.unite [b])).Has v ↔ (Value.lengths a).Has v ∨ (Value.lengths b).Has v := by
  have hm : Means (a.unite [b]) (fun n => n ∈ a.expand ∨ n ∈ b.expand) := Means.unite ⟨ha, fun _ => Iff.rfl⟩ ⟨hb, fun _ => Iff.rfl⟩
  have h : ∀ l : BitLengthSet, (Value.lengths l).Has v ↔ ∃ n ∈ l.expand, v = .rational (n : ℚ) := fun l => has_ofNats
  rw [h, h, h]
  simp only [hm.2]
  constructor
  · rintro ⟨n, hn | hn, rfl⟩
    · exact .inl ⟨n, hn, rfl⟩
    · exact .inr ⟨n, hn, rfl⟩
  · rintro (⟨n, hn, rfl⟩ | ⟨n, hn, rfl⟩)
    · exact ⟨n, .inl hn, rfl⟩
    · exact ⟨n, .inr hn, rfl⟩

/-- C81: the operators `|`, `&` and `^` on two sets with elements of one type give the union, the intersection, and the symmetric difference; for sets with
elements of different types they are errors. Here both are sets of lengths (`_offset_`, `_bit_length_`), or none is; see
`C81_counterexample_mixed` for the other case. -/
theorem C81_set_operations_partial (x : Externals) {op : BinOp} (hop : op.OnSets) {A B : Value} (hA : A.Proper) (hB : B.Proper) (fA : A.Flat) (fB : B.Flat)
    (hs : (∃ a b, A = .set a ∧ B = .set b) ∨ ∃ a b, A = .lengths a ∧ B = .lengths b) :
    (Compatible A B → ∃ R, evalBinary x op A B = .ok R ∧ R.IsSet ∧ ∀ v, R.Has v ↔ op.Combines A B v) ∧
    (¬ Compatible A B → evalBinary x op A B = .error) := by
  rcases hs with ⟨a, b, rfl, rfl⟩ | ⟨a, b, rfl, rfl⟩
  · have pa := proper_set.1 hA
    have pb := proper_set.1 hB
    have qa := simple_set.1 fA
    have qb := simple_set.1 fB
    constructor
    · intro hc
      have hi := (compatible_iff hA hB).2 hc
      have hin : ∀ v, (Value.set (ValueSet.intersection a b)).Has v ↔ (Value.set a).Has v ∧ (Value.set b).Has v :=
        filter_has (fun u hu => contains_has pb.1 qb (pa.1 u hu) (qa u hu)) fun u v h => has_congr h
      have hdiff : ∀ {c d : List Value}, (Value.set c).Proper → (Value.set d).Proper → (Value.set c).Simple → (Value.set d).Simple →
          ∀ v, (Value.set (c.filter fun u => !ValueSet.contains d u)).Has v ↔ (Value.set c).Has v ∧ ¬ (Value.set d).Has v := by
        intro c d hc hd sc sd
        refine filter_has (P := fun v => ¬ (Value.set d).Has v) (fun u hu => ?_) fun u v h => not_congr (has_congr h)
        rw [← contains_has (proper_set.1 hd).1 (simple_set.1 sd) ((proper_set.1 hc).1 u hu) (simple_set.1 sc u hu)]
        simp
      have hty : ∀ {c d : List Value}, (∀ u ∈ c, u ∈ a) → (∀ u ∈ d, u ∈ b) → ∀ u ∈ c ++ d, ∀ w ∈ c ++ d, u.ty = w.ty := by
        intro c d h1 h2 u hu w hw
        rcases List.mem_append.1 hu with hu | hu <;> rcases List.mem_append.1 hw with hw | hw
        · exact pa.2.2 u (h1 u hu) w (h1 w hw)
        · exact hc u (h1 u hu) w (h2 w hw)
        · exact (hc w (h1 w hw) u (h2 u hu)).symm
        · exact pb.2.2 u (h2 u hu) w (h2 w hw)
      cases op with
      | bitOr =>
        refine ⟨.set (ValueSet.union a b), if_pos hi, trivial, fun v => ?_⟩
        exact (foldl_insert hA pb.1 fA qb (hty (fun u h => h) fun u h => h)).2.2 v
      | bitAnd => exact ⟨.set (ValueSet.intersection a b), if_pos hi, trivial, hin⟩
      | bitXor =>
        refine ⟨.set (ValueSet.symmetricDifference a b), if_pos hi, trivial, fun v => ?_⟩
        have hf : ∀ {c : List Value} (p : Value → Bool), ∀ u ∈ c.filter p, u ∈ c := fun p u hu => (List.mem_filter.1 hu).1
        have h := (foldl_insert (filter_proper hA fun u => !ValueSet.contains b u) (proper_set.1 (filter_proper hB fun u => !ValueSet.contains a u)).1
          (filter_simple fA _) (simple_set.1 (filter_simple fB _)) (hty (hf _) (hf _))).2.2 v
        refine h.trans ?_
        rw [hdiff hA hB fA fB, hdiff hB hA fB fA]
        show _ ↔ ¬ (_ ↔ _)
        tauto
      | _ => exact absurd hop (by simp [BinOp.OnSets])
    · intro hc
      have hi : ¬ ValueSet.isCompatible a b = true := fun h => hc ((compatible_iff hA hB).1 h)
      cases op with
      | bitOr => exact if_neg hi
      | bitAnd => exact if_neg hi
      | bitXor => exact if_neg hi
      | _ => exact absurd hop (by simp [BinOp.OnSets])
  · have hc : Compatible (.lengths a) (.lengths b) := by
      intro u hu v hv
      obtain ⟨n, _, rfl⟩ := List.mem_map.1 hu
      obtain ⟨m, _, rfl⟩ := List.mem_map.1 hv
      rfl
    have h : ∀ l : BitLengthSet, ∀ v, (Value.lengths l).Has v ↔ ∃ n ∈ l.expand, v = .rational (n : ℚ) := fun l v => has_ofNats
    refine ⟨fun _ => ?_, fun hn => absurd hc hn⟩
    have inj : ∀ {n m : Nat}, Value.rational (n : ℚ) = .rational (m : ℚ) → n = m := by
      intro n m h
      exact_mod_cast Value.rational.inj h
    cases op with
    | bitOr => exact ⟨_, rfl, trivial, has_unite hA hB⟩
    | bitAnd =>
      refine ⟨_, rfl, trivial, fun v => ?_⟩
      show _ ↔ _ ∧ _
      rw [has_ofNats, h, h]
      unfold commonNats
      simp only [List.mem_filter, List.contains_iff_mem]
      constructor
      · rintro ⟨n, ⟨h1, h2⟩, rfl⟩; exact ⟨⟨n, h1, rfl⟩, n, h2, rfl⟩
      · rintro ⟨⟨n, h1, rfl⟩, m, h2, e⟩
        exact ⟨n, ⟨h1, inj e ▸ h2⟩, rfl⟩
    | bitXor =>
      refine ⟨_, rfl, trivial, fun v => ?_⟩
      show _ ↔ ¬ (_ ↔ _)
      rw [has_ofNats, h, h]
      unfold differentNats
      simp only [mem_collectSet, List.mem_append, List.mem_filter, Bool.not_eq_true']
      constructor
      · rintro ⟨n, ⟨h1, h2⟩ | ⟨h1, h2⟩, rfl⟩ he
        · obtain ⟨m, hm, e⟩ := he.1 ⟨n, h1, rfl⟩
          exact absurd (inj e ▸ hm) (by simpa using h2)
        · obtain ⟨m, hm, e⟩ := he.2 ⟨n, h1, rfl⟩
          exact absurd (inj e ▸ hm) (by simpa using h2)
      · intro hne
        by_contra hcon
        refine hne ⟨?_, ?_⟩
        · rintro ⟨n, hn, rfl⟩
          by_contra hb
          exact hcon ⟨n, .inl ⟨hn, by simpa using fun hm => hb ⟨n, hm, rfl⟩⟩, rfl⟩
        · rintro ⟨n, hn, rfl⟩
          by_contra hb
          exact hcon ⟨n, .inr ⟨hn, by simpa using fun hm => hb ⟨n, hm, rfl⟩⟩, rfl⟩
    | _ => exact absurd hop (by simp [BinOp.OnSets])

/-- C81: the comparisons of two sets with elements of one type say whether they are equal, or subsets; for sets with elements of different types they are
errors. A set of lengths can be compared with a set of numbers. Sets of lengths inside of other sets are excluded: see `C81_counterexample_nested`. -/
theorem C81_set_comparisons_partial (x : Externals) {op : BinOp} (hop : op.Comparison) {A B : Value} (hA : A.Proper) (hB : B.Proper) (fA : A.Flat) (fB : B.Flat)
    (sA : A.IsSet) (sB : B.IsSet) : (Compatible A B → Says (evalBinary x op A B) (op.ComparesSets A B)) ∧ (¬ Compatible A B → evalBinary x op A B = .error) := by
  obtain ⟨eA, pA, qA⟩ := expanded_set hA fA sA
  obtain ⟨eB, pB, qB⟩ := expanded_set hB fB sB
  have hev : ∀ f g, rationalOrSetComparison f g A B = if ValueSet.isCompatible A.elements B.elements then .ok (.boolean (g A.elements B.elements)) else .error := by
    intro f g
    unfold rationalOrSetComparison
    rw [eA, eB]
  have heq : ∀ neg, equalValues neg A B = if ValueSet.isCompatible A.elements B.elements then .ok (.boolean (ValueSet.eq A.elements B.elements != neg)) else .error := by
    intro neg
    unfold equalValues
    split
    · exact absurd sA (by simp [Value.IsSet])
    · exact absurd sA (by simp [Value.IsSet])
    · exact hev _ _
  have hiff := compatible_iff pA pB
  have hle := subset_has pA pB qA qB
  have hge := subset_has pB pA qB qA
  have hsame := eq_has pA pB qA qB
  simp only [has_elements] at hle hge hsame
  constructor
  · intro hc
    have hi := hiff.2 hc
    simp only [hi, if_true] at hev heq
    cases op with
    | equal => exact ⟨_, heq false, by rw [Bool.bne_false]; exact hsame⟩
    | notEqual =>
      refine ⟨_, heq true, ?_⟩
      show _ ↔ ∃ v, ¬ (A.Has v ↔ B.Has v)
      rw [← not_forall, ← hsame]
      simp
    | lessOrEqual => exact ⟨_, hev _ _, hle⟩
    | greaterOrEqual => exact ⟨_, hev _ _, hge⟩
    | less =>
      refine ⟨_, hev _ _, ?_⟩
      show _ ↔ (∀ v, A.Has v → B.Has v) ∧ ∃ v, B.Has v ∧ ¬ A.Has v
      rw [Bool.and_eq_true, hle, Bool.not_eq_true', ← Bool.not_eq_true, hsame]
      refine and_congr_right fun h => ?_
      rw [not_forall]
      exact exists_congr fun v => by have := h v; tauto
    | greater =>
      refine ⟨_, hev _ _, ?_⟩
      show _ ↔ (∀ v, B.Has v → A.Has v) ∧ ∃ v, A.Has v ∧ ¬ B.Has v
      have hge' : ValueSet.isSuperset A.elements B.elements = true ↔ _ := hge
      rw [Bool.and_eq_true, hge', Bool.not_eq_true', ← Bool.not_eq_true, hsame]
      refine and_congr_right fun h => ?_
      rw [not_forall]
      exact exists_congr fun v => by have := h v; tauto
    | _ => exact absurd hop (by simp [BinOp.Comparison])
  · intro hc
    have hi : ¬ ValueSet.isCompatible A.elements B.elements = true := fun h => hc (hiff.1 h)
    simp only [hi] at hev heq
    cases op with
    | equal => exact heq false
    | notEqual => exact heq true
    | lessOrEqual => exact hev _ _
    | greaterOrEqual => exact hev _ _
    | less => exact hev _ _
    | greater => exact hev _ _
    | _ => exact absurd hop (by simp [BinOp.Comparison])

/-! ### Numbers with sets -/

theorem numbers_list {xs : List Value} (h : ∀ u ∈ xs, ∃ q, u = .rational q) : ∃ qs : List ℚ, xs = qs.map Value.rational := by
  induction xs with
  | nil => exact ⟨[], rfl⟩
  | cons u xs ih =>
    obtain ⟨qs, rfl⟩ := ih fun w hw => h w (by simp [hw])
    obtain ⟨q, rfl⟩ := h u (by simp)
    exact ⟨q :: qs, rfl⟩

theorem has_rationals {qs : List ℚ} {a : ℚ} : (Value.set (qs.map Value.rational)).Has (.rational a) ↔ a ∈ qs := by
  rw [has_set]
  constructor
  · rintro ⟨y, hy, h⟩
    obtain ⟨q, hq, rfl⟩ := List.mem_map.1 hy
    rwa [same_rational.1 h]
  · intro h; exact ⟨_, List.mem_map.2 ⟨a, h, rfl⟩, same_rational.2 rfl⟩

theorem canHold_iff {xs : List Value} (hp : (Value.set xs).Proper) : ValueSet.canHold xs .rational = true ↔ ∀ u ∈ xs, ∃ q, u = .rational q := by
  have hty : ∀ u : Value, u.ty = .rational ↔ ∃ q, u = .rational q := by
    intro u
    constructor
    · intro h
      cases u with
      | rational q => exact ⟨q, rfl⟩
      | set xs => cases xs <;> simp [Value.ty] at h
      | _ => simp [Value.ty] at h
    · rintro ⟨q, rfl⟩; rfl
  unfold ValueSet.canHold
  cases xs with
  | nil => simp [ValueSet.ty, ValueSet.typesMatch]
  | cons u xs =>
    simp only [ValueSet.ty, List.head?_cons, Option.map_some, ValueSet.typesMatch, beq_iff_eq]
    constructor
    · intro h w hw
      exact (hty w).1 ((proper_set.1 hp).2.2 w hw u (by simp) |>.trans h)
    · intro h; exact (hty u).2 (h u (by simp))

/-- Each element of a set, for an operation whose results are numbers. -/
theorem mapSet_elements {x : Externals} {op : BinOp} (hop : op.Arithmetic) {xs : List Value} (hn : ∀ u ∈ xs, ∃ q, u = .rational q) (f : ℚ → ℚ × ℚ) :
    ((∃ R, mapSet (fun a => numberOp x op (f a).1 (f a).2) xs = .ok R) ↔ ∀ a, (Value.set xs).Has (.rational a) → ∃ r, Calculates x op (f a).1 (f a).2 r) ∧
    ∀ R, mapSet (fun a => numberOp x op (f a).1 (f a).2) xs = .ok R → R.IsSet ∧ ∀ v, R.Has v ↔ ∃ a r, (Value.set xs).Has (.rational a) ∧ Calculates x op (f a).1 (f a).2 r ∧ v = .rational r := by
  obtain ⟨qs, rfl⟩ := numbers_list hn
  obtain ⟨h1, h2⟩ := mapSet_iff (f := fun a => numberOp x op (f a).1 (f a).2) (fun q v h => ((numberOp_iff hop).1 h).imp fun r h => h.1) qs
  constructor
  · rw [h1]
    simp only [has_rationals, numberOp_iff hop]
    constructor
    · intro h a ha
      obtain ⟨v, r, -, hr⟩ := h a ha
      exact ⟨r, hr⟩
    · intro h a ha
      obtain ⟨r, hr⟩ := h a ha
      exact ⟨_, r, rfl, hr⟩
  · intro R hR
    obtain ⟨-, h3, -, -, h4⟩ := h2 R hR
    refine ⟨h3, fun v => ?_⟩
    rw [h4]
    simp only [has_rationals, numberOp_iff hop]
    constructor
    · rintro ⟨a, ha, r, rfl, hr⟩; exact ⟨a, r, ha, hr, rfl⟩
    · rintro ⟨a, r, ha, hr, rfl⟩; exact ⟨a, ha, r, rfl, hr⟩

theorem BinOp.Elementwise.arithmetic {op : BinOp} (h : op.Elementwise) : op.Arithmetic := by cases op <;> trivial

/-- Without the special case of `BitLengthSet % u64`, an operator between a set and a number is that on each element. -/
theorem eval_elementwise {x : Externals} {op : BinOp} (hop : op.Elementwise) {A B : Value} (h : A.IsSet ∨ B.IsSet)
    (hm : op = .modulo → ∀ l q, A = .lengths l → B = .rational q → isU64 q = false) : evalBinary x op A B = elementwiseBinary (numberOp x op) A B := by
  cases op with
  | modulo =>
    show moduloValues A B = _
    unfold moduloValues
    split
    · next l q => rw [hm rfl l q rfl rfl]; rfl
    · rfl
  | add =>
    show addValues x A B = _
    unfold addValues
    split
    · rcases h with h | h <;> exact absurd h (by simp [Value.IsSet])
    · rfl
  | exponent => rfl
  | multiply => rfl
  | divide => rfl
  | subtract => rfl
  | _ => exact absurd hop (by simp [BinOp.Elementwise])

theorem expanded_proper {A : Value} (hA : A.Proper) (sA : A.IsSet) : A.expanded = .set A.elements ∧ (Value.set A.elements).Proper := by
  cases A with
  | set xs => exact ⟨rfl, hA⟩
  | lengths l => exact ⟨rfl, (ofNats_proper (expand_pairwise hA)).1⟩
  | _ => exact absurd sA (by simp [Value.IsSet])

/-- The remainders of a set of lengths for a power of two. -/
theorem has_rem {l : BitLengthSet} (hl : Reg l) (k : Nat) (v : Value) : (Value.lengths (l.rem (2 ^ k))).Has v ↔ ∃ n ∈ l.expand, v = .rational ((n % 2 ^ k : Nat) : ℚ) := by
  obtain ⟨⟨L, hL⟩, hp⟩ := hl
  have h := C49_modulo_partial hL (d := 2 ^ k) (Nat.two_pow_pos k) fun a ha => by
    obtain ⟨j, rfl⟩ := hp a ha
    rcases Nat.le_total j k with hjk | hjk
    · exact .inl (Nat.pow_dvd_pow 2 hjk)
    · exact .inr (Nat.pow_dvd_pow 2 hjk)
  have e : (Value.lengths (l.rem (2 ^ k))).Has v ↔ ∃ n ∈ (l.rem (2 ^ k)).expand, v = .rational (n : ℚ) := has_ofNats
  rw [e]
  constructor
  · rintro ⟨r, hr, rfl⟩
    obtain ⟨n, hn, rfl⟩ := (h r).1 hr
    exact ⟨n, hn, rfl⟩
  · rintro ⟨n, hn, rfl⟩
    exact ⟨n % 2 ^ k, (h _).2 ⟨n, hn, rfl⟩, rfl⟩

theorem calculates_mod {x : Externals} {n d : Nat} (hd : 0 < d) {r : ℚ} : Calculates x .modulo n d r ↔ r = ((n % d : Nat) : ℚ) := by
  have hb : |((n % d : Nat) : ℚ)| < |(d : ℚ)| := by
    rw [abs_of_nonneg (by exact_mod_cast Nat.zero_le _), abs_of_nonneg (by exact_mod_cast Nat.zero_le _)]
    exact_mod_cast Nat.mod_lt n hd
  have hs : (0 : ℚ) ≤ ((n % d : Nat) : ℚ) * n := by exact_mod_cast Nat.zero_le _
  have he : (n : ℚ) = d * ((n / d : Nat) : ℤ) + ((n % d : Nat) : ℚ) := by
    have h : (n : ℚ) = ((d * (n / d) + n % d : Nat) : ℚ) := by rw [Nat.div_add_mod]
    rw [h]
    simp only [Nat.cast_add, Nat.cast_mul, Int.cast_natCast]
  constructor
  · rintro ⟨h1, h2, k, h3⟩; exact remainder_unique h1 hb h2 hs h3 he
  · rintro rfl; exact ⟨hb, hs, _, he⟩

/-- C81: an operator between a set of numbers and a number is applied to each element: the result is the set of the results, and there is one if the
operation is defined for every element. For the remainders of a set of lengths, the divisor has to be a power of two (or zero, for which there is no
result); see `C81_counterexample_remainder`. -/
theorem C81_elementwise_partial (x : Externals) {op : BinOp} (hop : op.Elementwise) {A : Value} (hA : A.Proper) (sA : A.IsSet) (q : ℚ)
    (hm : op = .modulo → ∀ l, A = .lengths l → q = 0 ∨ ∃ k : ℕ, q = 2 ^ k) :
    ((∀ u ∈ A.elements, ∃ a, u = .rational a) →
      ((∃ R, evalBinary x op A (.rational q) = .ok R) ↔ ∀ a, A.Has (.rational a) → ∃ r, Calculates x op a q r) ∧
      ∀ R, evalBinary x op A (.rational q) = .ok R → R.IsSet ∧ ∀ v, R.Has v ↔ ∃ a r, A.Has (.rational a) ∧ Calculates x op a q r ∧ v = .rational r) ∧
    ((∃ u ∈ A.elements, ∀ a, u ≠ .rational a) → evalBinary x op A (.rational q) = .error) := by
  obtain ⟨eA, pA⟩ := expanded_proper hA sA
  have hgen : (op = .modulo → ∀ l p, A = .lengths l → Value.rational q = .rational p → isU64 p = false) →
      evalBinary x op A (.rational q) = if ValueSet.canHold A.elements .rational then mapSet (fun a => numberOp x op a q) A.elements else .error := by
    intro h
    rw [eval_elementwise hop (.inl sA) h]
    unfold elementwiseBinary
    rw [eA]
    rfl
  constructor
  · intro hn
    by_cases hspecial : op = .modulo ∧ (∃ l, A = .lengths l) ∧ isU64 q = true
    · obtain ⟨rfl, ⟨l, rfl⟩, hu⟩ := hspecial
      have hev : evalBinary x .modulo (.lengths l) (.rational q) = if q.num = 0 then .panic else .ok (.lengths (l.rem q.num.toNat)) := by
        show moduloValues (.lengths l) (.rational q) = _
        unfold moduloValues
        simp only [hu, if_true]
      have hl : Reg l := hA
      have hhas : ∀ v, (Value.lengths l).Has v ↔ ∃ n ∈ l.expand, v = .rational (n : ℚ) := fun v => has_ofNats
      rcases hm rfl l rfl with rfl | ⟨k, rfl⟩
      · rw [hev]
        rw [if_pos (by simp)]
        constructor
        · constructor
          · rintro ⟨R, h⟩; cases h
          · intro h
            obtain ⟨r, h1, -⟩ := h (l.minValue : ℚ) ((hhas _).2 ⟨_, hl.min_mem, rfl⟩)
            rw [abs_zero] at h1
            exact absurd h1 (not_lt.2 (abs_nonneg r))
        · intro R h; cases h
      · have hnum : ((2 : ℚ) ^ k).num = 2 ^ k := num_of_int (n := 2 ^ k) (by push_cast; rfl)
        have hpos : (2 : ℤ) ^ k ≠ 0 := pow_ne_zero k (by omega)
        have hnat : ((2 : ℤ) ^ k).toNat = 2 ^ k := by
          rw [show (2 : ℤ) ^ k = ((2 ^ k : ℕ) : ℤ) by push_cast; rfl, Int.toNat_natCast]
        have hcast : (2 : ℚ) ^ k = ((2 ^ k : ℕ) : ℚ) := by push_cast; rfl
        rw [hev, hnum, if_neg hpos, hnat]
        constructor
        · refine ⟨fun _ a ha => ?_, fun _ => ⟨_, rfl⟩⟩
          obtain ⟨n, hn, h⟩ := (hhas _).1 ha
          obtain rfl := Value.rational.inj h
          rw [hcast]
          exact ⟨_, (calculates_mod (Nat.two_pow_pos k)).2 rfl⟩
        · intro R h
          cases h
          refine ⟨trivial, fun v => ?_⟩
          rw [has_rem hl, hcast]
          constructor
          · rintro ⟨n, hn, rfl⟩
            exact ⟨n, _, (hhas _).2 ⟨n, hn, rfl⟩, (calculates_mod (Nat.two_pow_pos k)).2 rfl, rfl⟩
          · rintro ⟨a, r, ha, hr, rfl⟩
            obtain ⟨n, hn, h⟩ := (hhas _).1 ha
            obtain rfl := Value.rational.inj h
            exact ⟨n, hn, by rw [(calculates_mod (Nat.two_pow_pos k)).1 hr]⟩
    · rw [hgen fun h1 l p h2 h3 => by
        obtain rfl := Value.rational.inj h3
        cases hu : isU64 q with
        | false => rfl
        | true => exact absurd ⟨h1, ⟨l, h2⟩, hu⟩ hspecial]
      rw [if_pos ((canHold_iff pA).2 hn)]
      exact mapSet_elements hop.arithmetic hn fun a => (a, q)
  · rintro ⟨u, hu, hne⟩
    have hno : ¬ ValueSet.canHold A.elements .rational = true := fun h => ((canHold_iff pA).1 h u hu).elim hne
    rw [hgen fun _ l p h2 _ => by
      subst h2
      obtain ⟨n, _, rfl⟩ := List.mem_map.1 hu
      exact absurd rfl (hne _)]
    exact if_neg hno

/-- C81: the same with the number on the left. -/
theorem C81_elementwise_left (x : Externals) {op : BinOp} (hop : op.Elementwise) {A : Value} (hA : A.Proper) (sA : A.IsSet) (q : ℚ) :
    ((∀ u ∈ A.elements, ∃ a, u = .rational a) →
      ((∃ R, evalBinary x op (.rational q) A = .ok R) ↔ ∀ a, A.Has (.rational a) → ∃ r, Calculates x op q a r) ∧
      ∀ R, evalBinary x op (.rational q) A = .ok R → R.IsSet ∧ ∀ v, R.Has v ↔ ∃ a r, A.Has (.rational a) ∧ Calculates x op q a r ∧ v = .rational r) ∧
    ((∃ u ∈ A.elements, ∀ a, u ≠ .rational a) → evalBinary x op (.rational q) A = .error) := by
  obtain ⟨eA, pA⟩ := expanded_proper hA sA
  have hgen : evalBinary x op (.rational q) A = if ValueSet.canHold A.elements .rational then mapSet (fun a => numberOp x op q a) A.elements else .error := by
    rw [eval_elementwise hop (.inr sA) fun _ l p h => by cases h]
    unfold elementwiseBinary
    rw [eA]
    rfl
  rw [hgen]
  constructor
  · intro hn
    rw [if_pos ((canHold_iff pA).2 hn)]
    exact mapSet_elements hop.arithmetic hn fun a => (q, a)
  · rintro ⟨u, hu, hne⟩
    exact if_neg fun h => ((canHold_iff pA).1 h u hu).elim hne

end Verif.Front
