import Verif.Front.ExprEval
import Mathlib.Tactic.NormNum

/-!
C81 for whole expressions: what holds for all values, set literals, and attributes of sets.
-/

namespace Verif.Front

open Verif.Bls Verif.Dsdl

/-! ### All values -/

/-- C81: in each file of a compilation, at any place, the value of any expression satisfies the condition of the other theorems for C81 (the elements of a set
are in order and have the same type; lengths were made by the functions for lengths). `before` are the types that were compiled before the file. -/
theorem C81_proper {x : Externals} (hx : SortsSets x) {files : List (TypeKey × File)} {types : List (TypeKey × Compiled)} (hd : DifferentNames files)
    (h : compile x files = .ok types) {before after : List (TypeKey × Compiled)} (ht : types = before ++ after) (path : List String)
    {earlier : List Statement} {cx cx' : Cx (List (TypeKey × Compiled))} (hs : runAll x table earlier ⟨.new path, before⟩ = .ok cx)
    {e : Expr} {v : Value} (he : e.eval x table cx = .ok (v, cx')) : v.Proper := by
  have hg := inOrder_good hx (C84_order x files types hd h).2
  have hb : ∀ u ∈ before, u.2.Good := fun u hu => hg u (by rw [ht]; simp [hu])
  have hc : (Cx.mk (FileState.new path) before).Good (fun known : List (TypeKey × Compiled) => ∀ e ∈ known, e.2.Good) := new_good hb
  exact (eval_good table_good hx e (runAll_good table_good hx hc hs) he).1

/-! ### Set literals -/

mutual
theorem cmp_eq_flat : ∀ {a b : Value}, a.cmp b = .eq → a.flat.SameFlat b.flat
  | .set xs, b, h => by
    have hr := rank_of_cmp h
    cases b <;> try (simp [Value.rank] at hr; done)
    rename_i ys
    obtain ⟨h1, h2⟩ := cmpAll_mem (xs := xs) (ys := ys) h
    rw [Value.flat, Value.flat, Value.SameFlat, eachIn_iff, flatAll_eq, flatAll_eq]
    simp only [sameAsOne_iff, List.mem_map, exists_exists_and_eq_and, forall_exists_index, and_imp, forall_apply_eq_imp_iff₂]
    refine ⟨fun x hx => ?_, fun y hy => ?_⟩
    · obtain ⟨y, hy, e⟩ := h1 x hx
      exact ⟨y, hy, cmp_eq_flatAll xs x hx e⟩
    · obtain ⟨x, hx, e⟩ := h2 y hy
      exact ⟨x, hx, cmp_eq_flatAll xs x hx e⟩
  | .lengths l, b, h => by
    have hr := rank_of_cmp h
    cases b <;> try (simp [Value.rank] at hr; done)
    rename_i l'
    have he : l.expand = l'.expand := by
      replace h : l.cmp l' = .eq := h
      unfold BitLengthSet.cmp at h
      exact (cmpSet_eq _ _).1 h
    rw [Value.flat, Value.flat, he, Value.SameFlat, eachIn_iff]
    refine ⟨fun x hx => ⟨x, hx, ?_⟩, fun y hy => sameAsOne_iff.2 ⟨y, hy, ?_⟩⟩
    · obtain ⟨n, _, rfl⟩ := List.mem_map.1 hx; exact same_rational.2 rfl
    · obtain ⟨n, _, rfl⟩ := List.mem_map.1 hy; exact same_rational.2 rfl
  | .rational a, b, h => by
    have hr := rank_of_cmp h
    cases b <;> try (simp [Value.rank] at hr; done)
    exact (cmp_same (a := .rational _) (b := .rational _) trivial trivial trivial trivial).1 h
  | .string a, b, h => by
    have hr := rank_of_cmp h
    cases b <;> try (simp [Value.rank] at hr; done)
    exact (cmp_same (a := .string _) (b := .string _) trivial trivial trivial trivial).1 h
  | .boolean a, b, h => by
    have hr := rank_of_cmp h
    cases b <;> try (simp [Value.rank] at hr; done)
    exact (cmp_same (a := .boolean _) (b := .boolean _) trivial trivial trivial trivial).1 h
  | .type a, b, h => by
    have hr := rank_of_cmp h
    cases b <;> try (simp [Value.rank] at hr; done)
    exact (cmp_same (a := .type _) (b := .type _) trivial trivial trivial trivial).1 h
theorem cmp_eq_flatAll : ∀ (xs : List Value), ∀ x ∈ xs, ∀ {b : Value}, x.cmp b = .eq → x.flat.SameFlat b.flat
  | x :: xs, u, hu => by
    intro h
    rcases List.mem_cons.1 hu with he | hu
    · rw [he] at h ⊢; exact cmp_eq_flat h
    · exact cmp_eq_flatAll xs u hu h
end

theorem same_refl (v : Value) : v.Same v := cmp_eq_flat (cmp_refl v)

theorem insertValue_has_iff (x : Value) (s : List Value) (v : Value) : (Value.set (ValueSet.insertValue x s)).Has v ↔ v.Same x ∨ (Value.set s).Has v := by
  rw [has_set, has_set]
  constructor
  · rintro ⟨y, hy, e⟩
    rcases mem_insertValue hy with rfl | hy
    · exact .inl e
    · exact .inr ⟨y, hy, e⟩
  · rintro (e | ⟨y, hy, e⟩)
    · obtain ⟨y, hy, c⟩ := insertValue_has x s
      exact ⟨y, hy, same_trans e (cmp_eq_flat c)⟩
    · exact ⟨y, insertValue_subset hy, e⟩

/-- The values of expressions that are evaluated one after the other. -/
inductive EvaluateTo {P : Type} (x : Externals) (lookup : Lookup P) : List Expr → Cx P → List Value → Cx P → Prop where
  | nil (cx : Cx P) : EvaluateTo x lookup [] cx [] cx
  | cons {e : Expr} {es : List Expr} {cx cx' cx'' : Cx P} {v : Value} {vs : List Value} :
    e.eval x lookup cx = .ok (v, cx') → EvaluateTo x lookup es cx' vs cx'' → EvaluateTo x lookup (e :: es) cx (v :: vs) cx''

/-- The element that a value gives a set whose first value is `first`: the value itself if it has the same type, and the code of a text of one character in a set of
numbers. -/
def ElementFrom (first v u : Value) : Prop := v.ty = first.ty ∧ u = v ∨ first.ty = .rational ∧ ∃ s q, v = .string s ∧ v.Number q ∧ u = .rational q

theorem insert_element {s : ValueSet} {first : Value} (hs : s ≠ []) (ht : ∀ y ∈ s, y.ty = first.ty) (v : Value) :
    (∀ u, ElementFrom first v u → s.insert v = some (ValueSet.insertValue u s) ∧ u.ty = first.ty) ∧ ((¬ ∃ u, ElementFrom first v u) → s.insert v = none) := by
  have hty : ValueSet.ty s = some first.ty := by
    cases s with
    | nil => exact absurd rfl hs
    | cons y ys => exact congrArg some (ht y (by simp))
  unfold ValueSet.insert
  rw [hty]
  dsimp only
  constructor
  · rintro u (⟨h1, rfl⟩ | ⟨h1, t, q, rfl, h2, rfl⟩)
    · rw [if_pos h1.symm]; exact ⟨rfl, h1⟩
    · rw [if_neg (by rw [h1]; exact fun h => by cases h)]
      obtain ⟨n, h3, rfl⟩ := number_string.1 h2
      dsimp only
      rw [h3]
      dsimp only
      rw [if_pos h1]
      exact ⟨rfl, h1.symm⟩
  · intro hno
    have h1 : ¬ first.ty = v.ty := fun e => hno ⟨v, .inl ⟨e.symm, rfl⟩⟩
    rw [if_neg h1]
    cases v with
    | string t =>
      dsimp only
      cases hi : implicitInt t with
      | none => rfl
      | some n =>
        dsimp only
        rw [if_neg]
        intro h2
        exact hno ⟨_, .inr ⟨h2, t, n, rfl, number_string.2 ⟨n, hi, rfl⟩, rfl⟩⟩
    | _ => rfl

theorem evalSet_elements {P : Type} {x : Externals} {lookup : Lookup P} {es : List Expr} {cx cx' : Cx P} {vs : List Value} (h : EvaluateTo x lookup es cx vs cx')
    {s : ValueSet} {first : Value} (hs : s ≠ []) (ht : ∀ y ∈ s, y.ty = first.ty) :
    ((∀ v ∈ vs, ∃ u, ElementFrom first v u) → ∃ s', Expr.evalSet x lookup es s cx = .ok (s', cx') ∧
      ∀ w, (Value.set s').Has w ↔ (Value.set s).Has w ∨ ∃ v ∈ vs, ∃ u, ElementFrom first v u ∧ w.Same u) ∧
    ((¬ ∀ v ∈ vs, ∃ u, ElementFrom first v u) → Expr.evalSet x lookup es s cx = .error) := by
  induction h generalizing s with
  | nil cx => exact ⟨fun _ => ⟨s, by rw [Expr.evalSet], by simp⟩, fun hn => absurd (by simp) hn⟩
  | @cons e es cx cx1 cx2 v vs he _ ih =>
    rw [Expr.evalSet, he]
    show (_ → ∃ s', (match s.insert v with | some s1 => Expr.evalSet x lookup es s1 cx1 | none => .error) = _ ∧ _) ∧
      (_ → (match s.insert v with | some s1 => Expr.evalSet x lookup es s1 cx1 | none => .error) = _)
    obtain ⟨k1, k2⟩ := insert_element hs ht v
    by_cases hv : ∃ u, ElementFrom first v u
    · obtain ⟨u, hu⟩ := hv
      obtain ⟨k3, k4⟩ := k1 u hu
      rw [k3]
      have hn : ValueSet.insertValue u s ≠ [] := fun h => by
        obtain ⟨y, hy, _⟩ := insertValue_has u s
        rw [h] at hy
        simp at hy
      obtain ⟨i1, i2⟩ := ih hn fun y hy => (mem_insertValue hy).elim (fun e => e ▸ k4) (ht y)
      refine ⟨fun ha => ?_, fun hno => i2 fun h' => hno fun w hw => ?_⟩
      · obtain ⟨s', e1, e2⟩ := i1 fun w hw => ha w (by simp [hw])
        refine ⟨s', e1, fun w => ?_⟩
        rw [e2, insertValue_has_iff]
        have uniq : ∀ u', ElementFrom first v u' → u' = u := by
          intro u' hu'
          rcases hu with ⟨a1, rfl⟩ | ⟨a1, t, q, rfl, a2, rfl⟩ <;> rcases hu' with ⟨b1, rfl⟩ | ⟨b1, t', q', b0, b2, rfl⟩
          · rfl
          · rw [b0, b1] at a1; cases a1
          · rw [a1] at b1; cases b1
          · obtain ⟨n, c1, c2⟩ := number_string.1 a2
            obtain ⟨m, d1, d2⟩ := number_string.1 b2
            rw [c1] at d1
            cases d1
            rw [c2, d2]
        constructor
        · rintro ((h1 | h1) | ⟨v', hv', u', h1, h2⟩)
          · exact .inr ⟨v, by simp, u, hu, h1⟩
          · exact .inl h1
          · exact .inr ⟨v', by simp [hv'], u', h1, h2⟩
        · rintro (h1 | ⟨v', hv', u', h1, h2⟩)
          · exact .inl (.inr h1)
          · rcases List.mem_cons.1 hv' with rfl | hv'
            · rw [uniq u' h1] at h2; exact .inl (.inl h2)
            · exact .inr ⟨v', hv', u', h1, h2⟩
      · rcases List.mem_cons.1 hw with rfl | hw
        · exact ⟨u, hu⟩
        · exact h' w hw
    · rw [k2 hv]
      exact ⟨fun ha => absurd (ha v (by simp)) hv, fun _ => rfl⟩

/-- C81: a set literal whose values all fit the first one is the set of these values, and an error if one does not fit. The literal without values is the empty set. -/
theorem C81_literal {P : Type} (x : Externals) (lookup : Lookup P) {es : List Expr} {cx cx' : Cx P} {vs : List Value} (h : EvaluateTo x lookup es cx vs cx') :
    (vs = [] → Expr.eval x lookup (.set es) cx = .ok (.set [], cx')) ∧
    ∀ first rest, vs = first :: rest →
      ((∀ v ∈ rest, ∃ u, ElementFrom first v u) → ∃ R, Expr.eval x lookup (.set es) cx = .ok (R, cx') ∧ R.IsSet ∧
        ∀ w, R.Has w ↔ w.Same first ∨ ∃ v ∈ rest, ∃ u, ElementFrom first v u ∧ w.Same u) ∧
      ((∃ v ∈ rest, ¬ ∃ u, ElementFrom first v u) → Expr.eval x lookup (.set es) cx = .error) := by
  cases h with
  | nil cx => exact ⟨fun _ => (by rw [Expr.eval, Expr.evalSet]; rfl), fun _ _ h => (by cases h)⟩
  | @cons e es _ cx1 _ v vs he ht =>
    refine ⟨fun h => (by cases h), ?_⟩
    intro first rest hv
    obtain ⟨rfl, rfl⟩ := List.cons.inj hv.symm
    obtain ⟨k1, k2⟩ := evalSet_elements ht (s := [first]) (first := first) (by simp) (by simp)
    have hev : Expr.evalSet x lookup (e :: es) [] cx = Expr.evalSet x lookup es [first] cx1 := by
      rw [Expr.evalSet, he]
      rfl
    refine ⟨fun ha => ?_, fun hn => ?_⟩
    · obtain ⟨s', e1, e2⟩ := k1 ha
      refine ⟨.set s', by rw [Expr.eval, hev, e1]; rfl, trivial, fun w => ?_⟩
      rw [e2, has_set]
      simp
    · rw [Expr.eval, hev, k2 (fun h => by obtain ⟨w, hw, hn⟩ := hn; exact hn (h w hw))]
      rfl

/-! ### Attributes of sets -/

/-- C81: `count` is the number of different elements. Sets of lengths inside of other sets are excluded: see `C81_counterexample_nested`. -/
theorem C81_count_partial {P : Type} (x : Externals) (lookup : Lookup P) (cx : Cx P) {A : Value} (hA : A.Proper) (fA : A.Flat) (sA : A.IsSet) :
    ∃ us : List Value, evalAttribute x lookup A "count" cx = .ok (.rational us.length, cx) ∧ (us.Pairwise fun a b => ¬ a.Same b) ∧
      ∀ v, A.Has v ↔ ∃ u ∈ us, v.Same u := by
  obtain ⟨_, pA, qA⟩ := expanded_set hA fA sA
  refine ⟨A.elements, ?_, ?_, fun v => Iff.rfl⟩
  · cases A with
    | set s => rfl
    | lengths l => show Outcome.ok (Value.rational l.expand.length, cx) = Outcome.ok (Value.rational (l.expand.map _).length, cx); rw [List.length_map]
    | _ => exact sA.elim
  · rw [proper_set] at pA
    rw [simple_set] at qA
    refine List.Pairwise.imp_of_mem (fun ha hb hlt hs => ?_) pA.2.1
    rw [(cmp_iff_same (pA.1 _ ha) (pA.1 _ hb) (qA _ ha) (qA _ hb)).2 hs] at hlt
    cases hlt

/-- The least (or, with `last`, the greatest) of some numbers. -/
def Extreme (last : Bool) (N : ℚ → Prop) (m : ℚ) : Prop := N m ∧ ∀ n, N n → if last then n ≤ m else m ≤ n

/-- The name of the attribute with the least or the greatest element. -/
def extremeName (last : Bool) : String := if last then "max" else "min"

theorem endOf_sorted {α : Type} {r : α → α → Prop} (last : Bool) {l : List α} (h : l.Pairwise r) (hn : l ≠ []) :
    ∃ m, endOf last l = some m ∧ m ∈ l ∧ ∀ n ∈ l, n = m ∨ if last then r n m else r m n := by
  cases last with
  | false =>
    cases l with
    | nil => exact absurd rfl hn
    | cons m l =>
      refine ⟨m, rfl, by simp, fun n h' => ?_⟩
      rcases List.mem_cons.1 h' with rfl | h'
      · exact .inl rfl
      · exact .inr ((List.pairwise_cons.1 h).1 n h')
  | true =>
    refine ⟨l.getLast hn, by simp [endOf, List.getLast?_eq_some_getLast hn], List.getLast_mem hn, fun n h' => ?_⟩
    rw [← List.dropLast_append_getLast hn] at h h'
    rcases List.mem_append.1 h' with h' | h'
    · exact .inr ((List.pairwise_append.1 h).2.2 n h' _ (by simp))
    · exact .inl (List.mem_singleton.1 h')

theorem attribute_set {P : Type} (x : Externals) (lookup : Lookup P) (cx : Cx P) (last : Bool) (s : ValueSet) :
    evalAttribute x lookup (.set s) (extremeName last) cx = (extremeValue x last s).bind fun v => .ok (v, cx) := by
  cases last <;> rfl

/-- C81: `min` and `max` of a set of numbers are its least and greatest elements; there is none in an empty set. -/
theorem C81_min_max_numbers {P : Type} (x : Externals) (lookup : Lookup P) (cx : Cx P) {A : Value} (hA : A.Proper) (sA : A.IsSet)
    (hn : ∀ u ∈ A.elements, ∃ a, u = .rational a) (last : Bool) :
    ((∃ a, A.Has (.rational a)) → ∃ m, evalAttribute x lookup A (extremeName last) cx = .ok (.rational m, cx) ∧ Extreme last (fun a => A.Has (.rational a)) m) ∧
    ((¬ ∃ a, A.Has (.rational a)) → evalAttribute x lookup A (extremeName last) cx = .error) := by
  have hmem : ∀ a, A.Has (.rational a) ↔ .rational a ∈ A.elements := by
    intro a
    constructor
    · rintro ⟨y, hy, e⟩
      obtain ⟨b, rfl⟩ := hn y hy
      rw [same_rational] at e
      rw [e]
      exact hy
    · exact fun h => ⟨_, h, same_refl _⟩
  cases A with
  | set s =>
    replace hn : ∀ u ∈ s, ∃ a, u = .rational a := hn
    replace hmem : ∀ a, (Value.set s).Has (.rational a) ↔ .rational a ∈ s := hmem
    rw [attribute_set]
    cases s with
    | nil => exact ⟨fun ⟨a, h⟩ => by simp [hmem] at h, fun _ => rfl⟩
    | cons y ys =>
      obtain ⟨b, rfl⟩ := hn y (by simp)
      refine ⟨fun _ => ?_, fun h => absurd ⟨b, (hmem b).2 (by simp)⟩ h⟩
      obtain ⟨m, h1, h2, h3⟩ := endOf_sorted last (proper_set.1 hA).2.1 (by simp)
      obtain ⟨q, rfl⟩ := hn m h2
      have hev : extremeValue x last (Value.rational b :: ys) = .ok (.rational q) := by
        show Outcome.ofOption (endOf last _) = _
        rw [h1]
        rfl
      refine ⟨q, by rw [hev]; rfl, (hmem q).2 h2, fun n hn' => ?_⟩
      rcases h3 _ ((hmem n).1 hn') with e | h3
      · cases e; split <;> exact le_refl _
      · cases last with
        | false => exact (compare_lt_iff_lt.1 h3).le
        | true => exact (compare_lt_iff_lt.1 h3).le
  | lengths l =>
    obtain ⟨⟨L, hL⟩, _⟩ := hA
    obtain ⟨⟨h1, h2⟩, h3, h4⟩ := C48_min_max hL
    have hl : ∀ a : ℚ, (Value.lengths l).Has (.rational a) ↔ ∃ n ∈ l.expand, a = (n : ℚ) := by
      intro a
      rw [hmem]
      show Value.rational a ∈ l.expand.map _ ↔ _
      rw [List.mem_map]
      constructor
      · rintro ⟨n, hn, e⟩; cases e; exact ⟨n, hn, rfl⟩
      · rintro ⟨n, hn, rfl⟩; exact ⟨n, hn, rfl⟩
    refine ⟨fun _ => ?_, fun h => absurd ⟨_, (hl _).2 ⟨_, h1, rfl⟩⟩ h⟩
    cases last with
    | false =>
      refine ⟨l.minValue, rfl, (hl _).2 ⟨_, h1, rfl⟩, fun n hn' => ?_⟩
      obtain ⟨k, hk, rfl⟩ := (hl n).1 hn'
      exact Nat.cast_le.2 (h2 k hk)
    | true =>
      refine ⟨l.maxValue, rfl, (hl _).2 ⟨_, h3, rfl⟩, fun n hn' => ?_⟩
      obtain ⟨k, hk, rfl⟩ := (hl n).1 hn'
      exact Nat.cast_le.2 (h4 k hk)
  | _ => exact sA.elim

theorem innerInts_spec {s : ValueSet} (hs : ∀ u ∈ s, ∃ t, u = .string t) :
    ((∀ u ∈ s, ∃ q, u.Number q) → ∃ ns, innerInts s = some ns ∧ ∀ n, n ∈ ns ↔ ∃ t, .string t ∈ s ∧ implicitInt t = some n) ∧
    ((¬ ∀ u ∈ s, ∃ q, u.Number q) → innerInts s = none) := by
  induction s with
  | nil => exact ⟨fun _ => ⟨[], rfl, by simp⟩, fun h => absurd (by simp) h⟩
  | cons u s ih =>
    obtain ⟨t, rfl⟩ := hs u (by simp)
    obtain ⟨i1, i2⟩ := ih fun v hv => hs v (by simp [hv])
    constructor
    · intro h
      obtain ⟨ns, k1, k2⟩ := i1 fun v hv => h v (by simp [hv])
      obtain ⟨q, hq⟩ := h (.string t) (by simp)
      obtain ⟨n, hn, -⟩ := number_string.1 hq
      refine ⟨n :: ns, by simp [innerInts, hn, k1], fun m => ?_⟩
      rw [List.mem_cons, k2]
      constructor
      · rintro (rfl | ⟨t', h1, h2⟩)
        · exact ⟨t, by simp, hn⟩
        · exact ⟨t', by simp [h1], h2⟩
      · rintro ⟨t', h1, h2⟩
        rcases List.mem_cons.1 h1 with e | h1
        · cases e; rw [hn] at h2; cases h2; exact .inl rfl
        · exact .inr ⟨t', h1, h2⟩
    · intro h
      cases hi : implicitInt t with
      | none => simp [innerInts, hi]
      | some n =>
        simp only [innerInts, hi]
        rw [i2]
        · rfl
        · intro h'
          refine h fun v hv => ?_
          rcases List.mem_cons.1 hv with rfl | hv
          · exact ⟨n, number_string.2 ⟨n, hi, rfl⟩⟩
          · exact h' v hv

theorem character_string {t : String} {n : Nat} (h : implicitInt t = some n) : characterString n = t := by
  unfold implicitInt at h
  split at h
  · next c hc =>
    split at h
    · cases h
      unfold characterString
      rw [Char.ofNat_toNat, ← String.toList_inj, hc]
      simp
    · cases h
  · cases h

/-- C81: `min` and `max` of a set of texts of one character are those with the least and the greatest code; if one text is not a character, they are errors. -/
theorem C81_min_max_texts {P : Type} (x : Externals) (lookup : Lookup P) (cx : Cx P) {s : List Value} (h0 : s ≠ []) (hs : ∀ u ∈ s, ∃ t, u = .string t) (last : Bool) :
    ((∀ u ∈ s, ∃ q, u.Number q) → ∃ t m, evalAttribute x lookup (.set s) (extremeName last) cx = .ok (.string (x.nfc t), cx) ∧ .string t ∈ s ∧ (Value.string t).Number m ∧
      Extreme last (fun a => ∃ u ∈ s, u.Number a) m) ∧
    ((¬ ∀ u ∈ s, ∃ q, u.Number q) → evalAttribute x lookup (.set s) (extremeName last) cx = .error) := by
  rw [attribute_set]
  have hty : ValueSet.ty s = some .string := by
    cases s with
    | nil => exact absurd rfl h0
    | cons u s => obtain ⟨t, rfl⟩ := hs u (by simp); rfl
  obtain ⟨k1, k2⟩ := innerInts_spec hs
  have hev : extremeValue x last s = match innerInts s with
      | some ns => ((endOf last (sortNats ns)).map fun n => Outcome.ok (.string (x.nfc (characterString n)))).getD .panic
      | none => .error := by
    unfold extremeValue
    rw [hty]
    rfl
  constructor
  · intro h
    obtain ⟨ns, e1, e2⟩ := k1 h
    have hn : sortNats ns ≠ [] := by
      intro hn
      have hp := (List.mergeSort_perm ns (fun a b => decide (a ≤ b)))
      unfold sortNats at hn
      rw [hn] at hp
      have h3 := hp.symm.eq_nil
      cases s with
      | nil => exact h0 rfl
      | cons u s =>
        obtain ⟨t, rfl⟩ := hs u (by simp)
        obtain ⟨q, hq⟩ := h _ (List.mem_cons_self ..)
        obtain ⟨n, hn, -⟩ := number_string.1 hq
        have := (e2 n).2 ⟨t, by simp, hn⟩
        rw [h3] at this
        simp at this
    have hsorted : (sortNats ns).Pairwise (· ≤ ·) := by
      have := List.pairwise_mergeSort (le := fun a b : Nat => decide (a ≤ b)) (by simp; omega) (by simp; omega) ns
      exact this.imp (by simp)
    obtain ⟨m, h1, h2, h3⟩ := endOf_sorted last hsorted hn
    have hm : ∀ n, n ∈ sortNats ns ↔ ∃ t, Value.string t ∈ s ∧ implicitInt t = some n := fun n => by
      rw [← e2]; exact List.mem_mergeSort
    obtain ⟨t, ht, hi⟩ := (hm m).1 h2
    refine ⟨t, m, ?_, ht, number_string.2 ⟨m, hi, rfl⟩, ⟨_, ht, number_string.2 ⟨m, hi, rfl⟩⟩, ?_⟩
    · rw [hev, e1]
      dsimp only
      rw [h1, ← character_string hi]
      rfl
    · rintro a ⟨u, hu, hn⟩
      obtain ⟨t', rfl⟩ := hs u hu
      obtain ⟨n, hi', rfl⟩ := number_string.1 hn
      rcases h3 n ((hm n).2 ⟨t', hu, hi'⟩) with rfl | h3
      · split <;> exact le_refl _
      · cases last with
        | false => exact Nat.cast_le.2 h3
        | true => exact Nat.cast_le.2 h3
  · intro h
    rw [hev, k2 h]
    rfl

/-- C81: sets have no other attributes, and sets of truth values or of types have no `min` and `max`. -/
theorem C81_no_attribute {P : Type} (x : Externals) (lookup : Lookup P) (cx : Cx P) {A : Value} (hA : A.Proper) (sA : A.IsSet) (name : String)
    (h : name ≠ "min" ∧ name ≠ "max" ∧ name ≠ "count" ∨ (name = "min" ∨ name = "max") ∧ ∃ u ∈ A.elements, u.ty = .boolean ∨ u.ty = .type) :
    evalAttribute x lookup A name cx = .error := by
  rcases h with ⟨h1, h2, h3⟩ | ⟨hn, u, hu, ht⟩
  · cases A with
    | set s =>
      unfold evalAttribute setAttribute
      simp [Outcome.bind]
    | lengths l =>
      unfold evalAttribute lengthsAttribute
      simp [Outcome.bind]
    | _ => exact sA.elim
  · cases A with
    | set s =>
      have hty : ValueSet.ty s = some u.ty := by
        cases s with
        | nil => simp [Value.elements] at hu
        | cons y ys => exact congrArg some ((proper_set.1 hA).2.2 y (by simp) u hu)
      have hev : ∀ last, extremeValue x last s = .error := by
        intro last
        unfold extremeValue
        rw [hty]
        rcases ht with ht | ht <;> rw [ht]
      have key : ∀ last, evalAttribute x lookup (.set s) (extremeName last) cx = .error := fun last => by rw [attribute_set, hev]; rfl
      rcases hn with rfl | rfl
      · exact key false
      · exact key true
    | lengths l =>
      obtain ⟨n, _, rfl⟩ := List.mem_map.1 hu
      rcases ht with ht | ht <;> cases ht
    | _ => exact sA.elim

/-! ### Cases -/

theorem proper_numbers {qs : List ℚ} (h : qs.Pairwise (· < ·)) : (Value.set (qs.map Value.rational)).Proper := by
  refine proper_set.2 ⟨fun x hx => ?_, ?_, fun x hx y hy => ?_⟩
  · obtain ⟨q, _, rfl⟩ := List.mem_map.1 hx; trivial
  · exact List.pairwise_map.2 (h.imp fun h => compare_lt_iff_lt.2 h)
  · obtain ⟨q, _, rfl⟩ := List.mem_map.1 hx; obtain ⟨r, _, rfl⟩ := List.mem_map.1 hy; rfl

/-- A context without fields. -/
def demoCx : Cx (List (TypeKey × Compiled)) := ⟨.new ["ns"], []⟩

-- `'a' + 1` is 98: a text of one character is a number.
example : BinOp.Arithmetic .add ∧ (Value.string "a").Number 97 ∧ (Value.rational 1).Number 1 ∧ Calculates demoX .add 97 1 98 ∧
    (BinOp.add = .add → ¬ ∃ s t, Value.string "a" = .string s ∧ Value.rational 1 = .string t) :=
  ⟨trivial, ⟨'a', by decide +kernel, by decide, by decide +kernel⟩, rfl, by norm_num [Calculates], fun _ ⟨_, _, _, h⟩ => by cases h⟩

-- `7 % -4` is 3 and `-7 % 4` is -3; `2 ** -2` is 1 / 4.
example : Calculates demoX .modulo 7 (-4) 3 ∧ Calculates demoX .modulo (-7) 4 (-3) ∧ Calculates demoX .exponent 2 (-2) (1 / 4) :=
  ⟨⟨by norm_num [abs], by norm_num, -1, by norm_num⟩, ⟨by norm_num [abs], by norm_num, -1, by norm_num⟩, .inr (.inl ⟨2, by norm_num, by norm_num, by norm_num⟩)⟩

-- Two sets of numbers.
example : (Value.set [.rational 1, .rational 2]).Proper ∧ (Value.set [.rational 1, .rational 2]).Flat ∧ Compatible (.set [.rational 1, .rational 2]) (.set [.rational 2]) ∧
    ¬ Compatible (.set [.rational 1, .rational 2]) (.set [.string "a"]) ∧ BinOp.Combines .bitXor (.set [.rational 1, .rational 2]) (.set [.rational 2]) (.rational 1) ∧
    BinOp.ComparesSets .greater (.set [.rational 1, .rational 2]) (.set [.rational 2]) := by
  refine ⟨proper_numbers (qs := [1, 2]) (by simp), simple_set.2 (by simp [Value.Simple]), ?_, ?_, ?_, ?_, .rational 1, ?_, ?_⟩
  · simp [Compatible, Value.elements, Value.ty]
  · simp [Compatible, Value.elements, Value.ty]
  · simp [BinOp.Combines, has_set, same_rational]
  · rintro v ⟨y, hy, e⟩
    exact ⟨y, by simp [Value.elements] at hy ⊢; exact .inr hy, e⟩
  · simp [has_set, same_rational]
  · simp [has_set, same_rational]

-- A set of lengths and a set of numbers; each element plus one.
example : (Value.lengths (.single 8)).Proper ∧ (Value.lengths (.single 8)).Flat ∧ (Value.lengths (.single 8)).IsSet ∧
    (∀ u ∈ (Value.lengths (.single 8)).elements, ∃ a, u = .rational a) ∧ BinOp.Elementwise .add ∧ BinOp.Elementwise .modulo ∧ ((8 : ℚ) = 0 ∨ ∃ k : ℕ, (8 : ℚ) = 2 ^ k) := by
  refine ⟨Reg.single 8, trivial, trivial, fun u hu => ?_, trivial, trivial, .inr ⟨3, by norm_num⟩⟩
  obtain ⟨n, _, rfl⟩ := List.mem_map.1 hu
  exact ⟨_, rfl⟩

-- After a field, `_offset_` is a value; the types compiled before are `C` and `B`.
example : SortsSets demoX ∧ DifferentNames demoFiles ∧ (∃ types, compile demoX demoFiles = .ok types) ∧
    ∃ cx, runAll demoX table [.field (.scalar (.prim (.uint 8 .saturated))) "x"] ⟨.new ["ns"], []⟩ = .ok cx ∧
      ∃ r, (Expr.identifier "_offset_").eval demoX table cx = .ok r := by
  refine ⟨fun l l' h s hs => by cases h; exact hs, (different_iff _).2 (by decide +kernel), ?_, _, rfl, _, (by rw [Expr.eval]; rfl)⟩
  · cases h : compile demoX demoFiles with
    | ok t => exact ⟨t, rfl⟩
    | error => exact absurd (show names (compile demoX demoFiles) ≠ .error by decide +kernel) (by rw [h]; simp [names])
    | panic => exact absurd (show names (compile demoX demoFiles) ≠ .panic by decide +kernel) (by rw [h]; simp [names])

-- The values of `{1, 'a'}`: the text stands for a number. In `{'a', 1}` the number does not fit.
example : EvaluateTo demoX table [.number 1, .string "a"] demoCx [.rational 1, .string "a"] demoCx ∧ ElementFrom (.rational 1) (.string "a") (.rational 97) ∧
    ¬ ∃ u, ElementFrom (.string "a") (.rational 1) u := by
  refine ⟨.cons (by rw [Expr.eval]) (.cons (by rw [Expr.eval]; rfl) (.nil _)), .inr ⟨rfl, "a", 97, rfl, ⟨'a', by decide +kernel, by decide, by decide +kernel⟩, rfl⟩, ?_⟩
  rintro ⟨u, ⟨h, _⟩ | ⟨h, _⟩⟩ <;> cases h

-- A set of texts.
example : ([.string "b", .string "a"] : List Value) ≠ [] ∧ (∀ u ∈ [Value.string "b", .string "a"], ∃ t, u = .string t) ∧ (∀ u ∈ [Value.string "b", .string "a"], ∃ q, u.Number q) ∧
    (∃ u ∈ (Value.set [.boolean true]).elements, u.ty = .boolean ∨ u.ty = .type) ∧ extremeName true = "max" := by
  refine ⟨by simp, by simp, ?_, ⟨.boolean true, by simp [Value.elements], .inl rfl⟩, rfl⟩
  intro u hu
  simp only [List.mem_cons, List.not_mem_nil, or_false] at hu
  rcases hu with rfl | rfl
  · exact ⟨98, 'b', by decide +kernel, by decide, by decide +kernel⟩
  · exact ⟨97, 'a', by decide +kernel, by decide, by decide +kernel⟩

/-! ### Where it fails -/

/-- **A set of lengths and a set of numbers cannot be combined**, though they can be compared: `_offset_ == {8}` is true, and `_offset_ | {8}` an error. -/
theorem C81_counterexample_mixed (x : Externals) : Compatible (.lengths (.single 8)) (.set [.rational 8]) ∧
    evalBinary x .equal (.lengths (.single 8)) (.set [.rational 8]) = .ok (.boolean true) ∧ evalBinary x .bitOr (.lengths (.single 8)) (.set [.rational 8]) = .error := by
  refine ⟨?_, ?_, rfl⟩
  · intro u hu v hv
    obtain ⟨n, _, rfl⟩ := List.mem_map.1 hu
    simp only [Value.elements, List.mem_singleton] at hv
    subst hv
    rfl
  · have e : (Value.lengths (.single 8)).expanded = .set [.rational 8] := by
      show Value.set (ValueSet.ofNats (BitLengthSet.single 8).expand) = _
      rw [show (BitLengthSet.single 8).expand = [8] by decide +kernel]
      rfl
    simp only [evalBinary, equalValues, rationalOrSetComparison]
    rw [e]
    show Outcome.ok (Value.boolean (ValueSet.eq [.rational 8] [.rational 8] != false)) = _
    rw [show ValueSet.eq [.rational 8] [.rational 8] = true by decide +kernel]
    rfl

/-- **A set of lengths in a set is not the same as the set of these numbers**: `{_offset_} == {{8}}` is false although `_offset_ == {8}` is true, and
`{_offset_, {8}}.count` is 2. -/
theorem C81_counterexample_nested (x : Externals) :
    (Value.set [.lengths (.single 8)]).Same (.set [.set [.rational 8]]) ∧
    evalBinary x .equal (.set [.lengths (.single 8)]) (.set [.set [.rational 8]]) = .ok (.boolean false) ∧
    ∃ s, ValueSet.insertAll [] [.lengths (.single 8), .set [.rational 8]] = some s ∧ setAttribute x s "count" = .ok (.rational 2) := by
  refine ⟨?_, ?_, ?_⟩
  · have h : (Value.lengths (.single 8)).Same (.set [.rational 8]) := by
      have h : (Value.set [.rational 8]).Same (.set [.rational 8]) := same_refl _
      have e : (Value.lengths (.single 8)).flat = (Value.set [.rational 8]).flat := by
        show Value.set ((BitLengthSet.single 8).expand.map fun n => .rational (n : ℚ)) = .set [.rational 8]
        rw [show (BitLengthSet.single 8).expand = [8] by decide +kernel]
        rfl
      unfold Value.Same
      rw [e]
      exact h
    simp [same_set, h]
  · rfl
  · exact ⟨[.set [.rational 8], .lengths (.single 8)], rfl, rfl⟩

/-- **The remainders of a set of lengths are wrong for some divisors**: a length of 8 that comes from padding 3 bits to 8 has the remainder 2 for the divisor 3, but the
remainders that are computed are those of 0. -/
theorem C81_counterexample_remainder (x : Externals) : ∃ l : BitLengthSet, (Value.lengths l).Proper ∧ (∀ v, (Value.lengths l).Has v ↔ v = .rational 8) ∧
    ∃ r, evalBinary x .modulo (.lengths l) (.rational 3) = .ok r ∧ r.Has (.rational 0) ∧ ¬ r.Has (.rational 2) := by
  refine ⟨(BitLengthSet.single 3).padToAlignment 8, (Reg.single 3).pad pow_eight, fun v => ?_, .lengths (((BitLengthSet.single 3).padToAlignment 8).rem 3), ?_, ?_, ?_⟩
  · simp only [Value.Has, Value.elements]
    rw [show ((BitLengthSet.single 3).padToAlignment 8).expand = [8] by decide +kernel]
    simp [rational_same]
  · rfl
  · simp only [Value.Has, Value.elements]
    rw [show (((BitLengthSet.single 3).padToAlignment 8).rem 3).expand = [0] by decide +kernel]
    simp [same_rational]
  · simp only [Value.Has, Value.elements]
    rw [show (((BitLengthSet.single 3).padToAlignment 8).rem 3).expand = [0] by decide +kernel]
    simp [same_rational]

/-- **Whether a set literal is accepted depends on the order of its elements**: `{1, 'a'}` is a set, `{'a', 1}` an error. -/
theorem C81_counterexample_order : (∃ R, Expr.eval demoX table (.set [.number 1, .string "a"]) demoCx = .ok R) ∧
    Expr.eval demoX table (.set [.string "a", .number 1]) demoCx = .error := by
  constructor
  · have h : EvaluateTo demoX table [.number 1, .string "a"] demoCx [.rational 1, .string "a"] demoCx := .cons (by rw [Expr.eval]) (.cons (by rw [Expr.eval]; rfl) (.nil _))
    obtain ⟨R, h1, _⟩ := ((C81_literal demoX table h).2 _ _ rfl).1 fun v hv => by
      simp only [List.mem_singleton] at hv
      subst hv
      exact ⟨_, .inr ⟨rfl, "a", 97, rfl, ⟨'a', by decide +kernel, by decide, by decide +kernel⟩, rfl⟩⟩
    exact ⟨_, h1⟩
  · have h : EvaluateTo demoX table [.string "a", .number 1] demoCx [.string "a", .rational 1] demoCx := .cons (by rw [Expr.eval]; rfl) (.cons (by rw [Expr.eval]) (.nil _))
    refine ((C81_literal demoX table h).2 _ _ rfl).2 ⟨.rational 1, by simp, ?_⟩
    rintro ⟨u, ⟨h, _⟩ | ⟨h, _⟩⟩ <;> cases h

end Verif.Front
