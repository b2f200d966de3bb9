import Verif.Front.ExprWhole
import Mathlib.Tactic.Linarith

/-!
Where the DSDL compiler panics: the specification for C82, and lemmas.
-/

namespace Verif.Front

open Verif.Bls Verif.Dsdl

/-! ### Specification -/

/-- The operation has no result for these numbers: a division by zero, or a negative power of zero. -/
def Undefined (op : BinOp) (a b : ℚ) : Prop :=
  (op = .divide ∨ op = .modulo) ∧ b = 0 ∨ op = .exponent ∧ a = 0 ∧ ∃ n : ℕ, 0 < n ∧ b = -n

/-- The number is the value, or one of its elements. -/
def Value.Holds (v : Value) (q : ℚ) : Prop := v.Number q ∨ v.Has (.rational q)

/-- The number that an expression is written as. -/
def Expr.literal : Expr → Option ℚ
  | .number q => some q
  | .parenthesized e => e.literal
  | .unary .plus e => e.literal
  | .unary .minus e => e.literal.map fun q => -q
  | _ => none

/-- One can see from the expressions that the operation is defined: the divisor is written as a number other than zero; the exponent as a number that is not
negative, or the base as a number other than zero. -/
def SafeOperation : BinOp → Expr → Expr → Prop
  | .divide, _, b => ∃ q, b.literal = some q ∧ q ≠ 0
  | .modulo, _, b => ∃ q, b.literal = some q ∧ q ≠ 0
  | .exponent, a, b => (∃ q, b.literal = some q ∧ 0 ≤ q) ∨ ∃ q, a.literal = some q ∧ q ≠ 0
  | _, _, _ => True

mutual
/-- All operations in an expression are safe. -/
def Expr.Safe : Expr → Prop
  | .parenthesized e => e.Safe
  | .arrayType _ _ length => length.Safe
  | .set es => Expr.SafeAll es
  | .unary _ e => e.Safe
  | .binary op a b => a.Safe ∧ b.Safe ∧ SafeOperation op a b
  | .attribute e _ => e.Safe
  | _ => True
/-- `Expr.Safe` for each expression. -/
def Expr.SafeAll : List Expr → Prop
  | [] => True
  | e :: es => e.Safe ∧ Expr.SafeAll es
end

/-- All operations in a statement are safe. -/
def Statement.Safe : Statement → Prop
  | .directive _ (some e) => e.Safe
  | .constant _ _ e => e.Safe
  | .field (.array _ _ length) _ => length.Safe
  | _ => True

/-- All operations in a file are safe. -/
def File.Safe (f : File) : Prop := ∀ ss, f.statements = some ss → ∀ s ∈ ss, s.Safe

/-- Sorting a list of sets does not panic, and gives these sets in some order. -/
def SortWorks (x : Externals) : Prop := ∀ l, ∃ l', x.sortSets l = some l' ∧ l'.Perm l

theorem SortWorks.sorts {x : Externals} (h : SortWorks x) : SortsSets x := by
  intro l l' he s hs
  obtain ⟨l'', h1, h2⟩ := h l
  rw [he] at h1
  cases h1
  exact h2.subset hs

/-! ### Outcomes -/

/-- The outcome is no panic, and a result satisfies the condition. -/
def Outcome.Sat {α : Type} (o : Outcome α) (Q : α → Prop) : Prop :=
  match o with
  | .ok a => Q a
  | .error => True
  | .panic => False

theorem Outcome.Sat.bind {α β : Type} {o : Outcome α} {f : α → Outcome β} {Q : α → Prop} {R : β → Prop} (h : o.Sat Q) (hf : ∀ a, Q a → (f a).Sat R) : (o.bind f).Sat R := by
  cases o with
  | ok a => exact hf a h
  | error => trivial
  | panic => exact h.elim

theorem Outcome.Sat.mono {α : Type} {o : Outcome α} {Q R : α → Prop} (h : o.Sat Q) (hf : ∀ a, o = .ok a → Q a → R a) : o.Sat R := by
  cases o with
  | ok a => exact hf a rfl h
  | error => trivial
  | panic => exact h.elim

theorem Outcome.Sat.and_ok {α : Type} {o : Outcome α} {Q R : α → Prop} (h : o.Sat Q) (hf : ∀ a, o = .ok a → R a) : o.Sat fun a => Q a ∧ R a := by
  cases o with
  | ok a => exact ⟨h, hf a rfl⟩
  | error => trivial
  | panic => exact h.elim

theorem Outcome.sat_true {α : Type} {o : Outcome α} : o.Sat (fun _ => True) ↔ o ≠ .panic := by
  cases o <;> simp [Outcome.Sat]

theorem Outcome.sat_ofOption {α : Type} (o : Option α) : (Outcome.ofOption o).Sat fun _ => True := by cases o <;> trivial

/-! ### Operators -/

theorem numberOp_panic {x : Externals} {op : BinOp} {a b : ℚ} : numberOp x op a b = .panic ↔ Undefined op a b := by
  unfold Undefined
  cases op with
  | exponent =>
    show rationalExponent x a b = .panic ↔ _
    unfold rationalExponent
    by_cases hi : isInteger b = true
    · rw [if_pos hi]
      obtain ⟨n, rfl⟩ := isInteger_iff.1 hi
      constructor
      · intro h
        split at h
        · next hc =>
          refine .inr ⟨rfl, hc.1, n.natAbs, ?_, ?_⟩
          · have := hc.2; simp only [Rat.num_intCast] at this; omega
          · have := hc.2; simp only [Rat.num_intCast] at this
            have e : n = -(n.natAbs : ℤ) := by omega
            conv_lhs => rw [e]
            simp
        · cases h
      · rintro (⟨h | h, _⟩ | ⟨_, h1, m, hm, h2⟩)
        · cases h
        · cases h
        · rw [if_pos]
          refine ⟨h1, ?_⟩
          rw [h2]
          have : (-(m : ℚ)).num = -(m : ℤ) := by
            have : (-(m : ℚ)) = ((-(m : ℤ) : ℤ) : ℚ) := by push_cast; rfl
            rw [this, Rat.num_intCast]
          rw [this]
          omega
    · rw [if_neg hi]
      constructor
      · intro h; split at h <;> cases h
      · rintro (⟨h | h, _⟩ | ⟨_, h1, m, hm, h2⟩)
        · cases h
        · cases h
        · exact absurd (isInteger_iff.2 ⟨-(m : ℤ), by rw [h2]; push_cast; rfl⟩) hi
  | divide =>
    show (if b = 0 then Outcome.panic else _) = _ ↔ _
    split <;> simp [*]
  | modulo =>
    show (if b = 0 then Outcome.panic else _) = _ ↔ _
    split <;> simp [*]
  | bitOr => simp [numberOp, rationalBitwise]; split <;> simp
  | bitAnd => simp [numberOp, rationalBitwise]; split <;> simp
  | bitXor => simp [numberOp, rationalBitwise]; split <;> simp
  | _ => simp [numberOp]

theorem mapAll_panic {α β : Type} {f : α → Outcome β} {xs : List α} (h : mapAll f xs = .panic) : ∃ a ∈ xs, f a = .panic := by
  induction xs with
  | nil => cases h
  | cons a xs ih =>
    unfold mapAll at h
    cases ha : f a with
    | panic => exact ⟨a, by simp, ha⟩
    | error => rw [ha] at h; cases h
    | ok b =>
      rw [ha] at h
      cases hm : mapAll f xs with
      | panic => obtain ⟨u, hu, e⟩ := ih hm; exact ⟨u, by simp [hu], e⟩
      | error => simp [hm, Outcome.bind] at h
      | ok ys => simp [hm, Outcome.bind] at h

theorem mapSet_panic {f : ℚ → Outcome Value} {s : List Value} (hn : ∀ u ∈ s, ∃ q, u = .rational q) (h : mapSet f s = .panic) : ∃ q, .rational q ∈ s ∧ f q = .panic := by
  obtain ⟨qs, rfl⟩ := numbers_list hn
  rw [mapSet_rationals] at h
  cases hm : mapAll f qs with
  | panic => obtain ⟨q, hq, e⟩ := mapAll_panic hm; exact ⟨q, List.mem_map.2 ⟨q, hq, rfl⟩, e⟩
  | error => rw [hm] at h; cases h
  | ok vs =>
    rw [hm] at h
    simp only [Outcome.bind] at h
    split at h <;> cases h

theorem rationalBinary_panic {op : ℚ → ℚ → Outcome Value} {A B : Value} (h : rationalBinary op A B = .panic) : ∃ a b, A.Number a ∧ B.Number b ∧ op a b = .panic := by
  by_cases hn : (∃ a, A.Number a) ∧ ∃ b, B.Number b
  · obtain ⟨⟨a, ha⟩, b, hb⟩ := hn
    rw [rationalBinary_number op ha hb] at h
    exact ⟨a, b, ha, hb, h⟩
  · rw [rationalBinary_error op hn] at h; cases h

theorem number_expanded {A : Value} {a : ℚ} (h : A.expanded.Number a) : A.Number a := by
  cases A <;> exact h

theorem elementwise_panic {op : ℚ → ℚ → Outcome Value} {A B : Value} (hA : A.Proper) (hB : B.Proper) (h : elementwiseBinary op A B = .panic) :
    ∃ a b, A.Holds a ∧ B.Holds b ∧ op a b = .panic := by
  have hset : ∀ {C : Value} {s : List Value}, C.Proper → C.expanded = .set s → (Value.set s).Proper ∧ ∀ q, .rational q ∈ s → C.Holds q := by
    intro C s hC he
    have hs : C.IsSet := by cases C <;> trivial
    obtain ⟨h1, h2⟩ := expanded_proper hC hs
    rw [he] at h1
    cases h1
    exact ⟨h2, fun q hq => .inr ⟨_, hq, same_refl _⟩⟩
  unfold elementwiseBinary at h
  split at h
  · next a s ea es =>
    obtain ⟨h1, h2⟩ := hset hB es
    split at h
    · next hc =>
      obtain ⟨q, hq, e⟩ := mapSet_panic ((canHold_iff h1).1 hc) h
      exact ⟨a, q, .inl (number_expanded (by rw [ea]; rfl)), h2 q hq, e⟩
    · cases h
  · next s b es eb =>
    obtain ⟨h1, h2⟩ := hset hA es
    split at h
    · next hc =>
      obtain ⟨q, hq, e⟩ := mapSet_panic ((canHold_iff h1).1 hc) h
      exact ⟨q, b, h2 q hq, .inl (number_expanded (by rw [eb]; rfl)), e⟩
    · cases h
  · obtain ⟨a, b, h1, h2, h3⟩ := rationalBinary_panic h
    exact ⟨a, b, .inl (number_expanded h1), .inl (number_expanded h2), h3⟩

theorem comparison_panic (f : ℚ → ℚ → Bool) (g : ValueSet → ValueSet → Bool) (A B : Value) : rationalOrSetComparison f g A B ≠ .panic := by
  unfold rationalOrSetComparison
  split
  · split <;> simp
  · intro h
    obtain ⟨a, b, -, -, h3⟩ := rationalBinary_panic h
    cases h3

theorem equal_panic (n : Bool) (A B : Value) : equalValues n A B ≠ .panic := by
  unfold equalValues
  split
  · simp
  · simp
  · exact comparison_panic _ _ _ _

theorem combination_panic {op : ℚ → ℚ → Outcome Value} (hop : ∀ a b, op a b ≠ .panic) (g : ValueSet → ValueSet → ValueSet) (k : BitLengthSet → BitLengthSet → Value) (A B : Value) :
    rationalOrSetBinary op g k A B ≠ .panic := by
  unfold rationalOrSetBinary
  split
  · split <;> simp
  · simp
  · intro h
    obtain ⟨a, b, -, -, h3⟩ := rationalBinary_panic h
    exact hop a b h3

theorem bitwise_panic (f : ℤ → ℤ → ℤ) (a b : ℚ) : rationalBitwise f a b ≠ .panic := by
  unfold rationalBitwise
  split <;> simp

theorem binary_panic {x : Externals} {op : BinOp} {A B : Value} (hA : A.Proper) (hB : B.Proper) (h : evalBinary x op A B = .panic) :
    ∃ a b, A.Holds a ∧ B.Holds b ∧ Undefined op a b := by
  have element : elementwiseBinary (numberOp x op) A B = .panic → ∃ a b, A.Holds a ∧ B.Holds b ∧ Undefined op a b := by
    intro h
    obtain ⟨a, b, h1, h2, h3⟩ := elementwise_panic hA hB h
    exact ⟨a, b, h1, h2, numberOp_panic.1 h3⟩
  cases op with
  | exponent => exact element h
  | multiply => exact element h
  | divide => exact element h
  | subtract => exact element h
  | modulo =>
    replace h : moduloValues A B = .panic := h
    unfold moduloValues at h
    split at h
    · next l q =>
      split at h
      · next hu =>
        split at h
        · next h0 =>
          obtain ⟨⟨L, hL⟩, _⟩ := hA
          obtain ⟨⟨h1, _⟩, _⟩ := C48_min_max hL
          refine ⟨l.minValue, q, .inr ⟨_, List.mem_map.2 ⟨_, h1, rfl⟩, same_refl _⟩, .inl rfl, .inl ⟨.inr rfl, ?_⟩⟩
          exact Rat.num_eq_zero.1 h0
        · cases h
      · exact element h
    · exact element h
  | add =>
    replace h : addValues x A B = .panic := h
    unfold addValues at h
    split at h
    · cases h
    · exact element h
  | bitOr => exact absurd h (combination_panic (bitwise_panic _) _ _ _ _)
  | bitXor => exact absurd h (combination_panic (bitwise_panic _) _ _ _ _)
  | bitAnd => exact absurd h (combination_panic (bitwise_panic _) _ _ _ _)
  | equal => exact absurd h (equal_panic _ _ _)
  | notEqual => exact absurd h (equal_panic _ _ _)
  | lessOrEqual => exact absurd h (comparison_panic _ _ _ _)
  | greaterOrEqual => exact absurd h (comparison_panic _ _ _ _)
  | less => exact absurd h (comparison_panic _ _ _ _)
  | greater => exact absurd h (comparison_panic _ _ _ _)
  | logicalOr => simp only [evalBinary] at h; split at h <;> cases h
  | logicalAnd => simp only [evalBinary] at h; split at h <;> cases h

theorem innerSets_some {s : List Value} (h : ∀ u ∈ s, u.IsSet) : ∃ l, innerSets s = some l ∧ l.length = s.length := by
  induction s with
  | nil => exact ⟨[], rfl, rfl⟩
  | cons u s ih =>
    obtain ⟨l, h1, h2⟩ := ih fun v hv => h v (by simp [hv])
    cases u with
    | set t => exact ⟨t :: l, by simp [innerSets, h1], by simp [h2]⟩
    | lengths t => exact ⟨ValueSet.ofNats t.expand :: l, by simp [innerSets, h1], by simp [h2]⟩
    | _ => exact (h _ (List.mem_cons_self ..)).elim

theorem endOf_some {α : Type} (last : Bool) {l : List α} (h : l ≠ []) : ∃ a, endOf last l = some a := by
  cases l with
  | nil => exact absurd rfl h
  | cons a l => cases last <;> simp [endOf, List.getLast?_cons]

theorem extreme_panic {x : Externals} (hx : SortWorks x) {s : List Value} (hs : (Value.set s).Proper) (last : Bool) : extremeValue x last s ≠ .panic := by
  have hall : ∀ t, ValueSet.ty s = some t → ∀ u ∈ s, u.ty = t := by
    intro t ht u hu
    obtain ⟨v, hv, rfl⟩ := ty_of_head ht
    exact (proper_set.1 hs).2.2 u hu v hv
  have sets : ∀ t, ValueSet.ty s = some t → (∀ u : Value, u.ty = t → u.IsSet) → (match (innerSets s).bind x.sortSets with
      | some sorted =>
        match endOf last sorted with
        | some v => Outcome.ok (Value.set v)
        | none => .panic
      | none => .panic) ≠ .panic := by
    intro t ht hset
    obtain ⟨l, h1, h2⟩ := innerSets_some fun u hu => hset u (hall t ht u hu)
    obtain ⟨l', h3, h4⟩ := hx l
    rw [h1]
    simp only [Option.bind_some, h3]
    have hne : l' ≠ [] := by
      intro e
      have : s = [] := List.length_eq_zero_iff.1 (by rw [← h2, ← h4.length_eq, e]; rfl)
      rw [this] at ht
      cases ht
    obtain ⟨a, ha⟩ := endOf_some last hne
    simp [ha]
  unfold extremeValue
  split
  · exact Outcome.sat_true.1 (Outcome.sat_ofOption _)
  · next ht => exact sets _ ht fun u hu => by cases u <;> trivial
  · next e ht => exact sets _ ht fun u hu => by cases u <;> trivial
  · next ht =>
    split
    · next ns hns =>
      have hne : sortNats ns ≠ [] := by
        intro e
        have hp := List.mergeSort_perm ns (fun a b => decide (a ≤ b))
        unfold sortNats at e
        rw [e] at hp
        have hnil := hp.symm.eq_nil
        subst hnil
        cases s with
        | nil => cases ht
        | cons u s =>
          cases u with
          | string t =>
            unfold innerInts at hns
            split at hns
            · cases hi : innerInts s <;> rw [hi] at hns <;> cases hns
            · cases hns
          | _ => cases hns
      obtain ⟨a, ha⟩ := endOf_some last hne
      simp [ha]
    · simp
  · simp

theorem setAttribute_panic {x : Externals} (hx : SortWorks x) {s : List Value} (hs : (Value.set s).Proper) (name : String) : setAttribute x s name ≠ .panic := by
  unfold setAttribute
  split
  · exact extreme_panic hx hs _
  · exact extreme_panic hx hs _
  · simp
  · simp

/-! ### Expressions -/

theorem literal_eval {P : Type} (x : Externals) (lookup : Lookup P) : ∀ (e : Expr) {q : ℚ}, e.literal = some q → ∀ cx : Cx P, e.eval x lookup cx = .ok (.rational q, cx)
  | .number q, q', h, cx => by cases h; rw [Expr.eval]
  | .parenthesized e, q, h, cx => by rw [Expr.literal] at h; rw [Expr.eval]; exact literal_eval x lookup e h cx
  | .unary .plus e, q, h, cx => by rw [Expr.literal] at h; rw [Expr.eval, literal_eval x lookup e h cx]; rfl
  | .unary .minus e, q, h, cx => by
    rw [Expr.literal] at h
    obtain ⟨r, hr, rfl⟩ := Option.map_eq_some_iff.1 h
    rw [Expr.eval, literal_eval x lookup e hr cx]
    rfl

theorem holds_rational {a b : ℚ} (h : (Value.rational a).Holds b) : b = a := by
  rcases h with h | ⟨y, hy, _⟩
  · exact h
  · simp [Value.elements] at hy

theorem unary_panic (op : UnOp) (v : Value) : evalUnary op v ≠ .panic := by
  unfold evalUnary
  split <;> simp

theorem arrayLength_panic (v : Value) : arrayLength v ≠ .panic := by
  unfold arrayLength
  split
  · split <;> simp
  · simp

theorem arrayType_panic (s : ScalarTy) (k : ArrayKind) (n : Nat) : arrayType s k n ≠ .panic := by
  unfold arrayType
  cases k with
  | exclusive => simp only; split <;> simp
  | _ => simp

theorem lengthsAttribute_panic (l : BitLengthSet) (name : String) : lengthsAttribute l name ≠ .panic := by
  unfold lengthsAttribute
  split <;> simp

theorem Outcome.ne_panic_bind {α β : Type} {o : Outcome α} {f : α → Outcome β} (h : o ≠ .panic) (hf : ∀ a, o = .ok a → f a ≠ .panic) : o.bind f ≠ .panic := by
  cases o with
  | ok a => exact hf a rfl
  | error => simp [Outcome.bind]
  | panic => exact absurd rfl h

section

variable {P : Type} {I : P → Prop} {lookup : Lookup P} (hl : GoodLookup I lookup) (hp : ∀ key p, I p → lookup key p ≠ .panic)

include hp

theorem typeByKey_panic {key : TypeKey} {cx : Cx P} (hcx : cx.Good I) : typeByKey lookup key cx ≠ .panic :=
  Outcome.ne_panic_bind (hp _ _ hcx.2.2) fun a _ => by simp

theorem scalarLengths_panic {s : ScalarTy} {cx : Cx P} (hcx : cx.Good I) : s.bitLengthSet lookup cx ≠ .panic := by
  cases s with
  | versioned key =>
    refine Outcome.ne_panic_bind (typeByKey_panic hp hcx) fun r _ => ?_
    split <;> simp
  | prim p => simp [ScalarTy.bitLengthSet]
  | void b => simp [ScalarTy.bitLengthSet]

theorem typeLengths_panic {t : Ty} {cx : Cx P} (hcx : cx.Good I) : t.bitLengthSet lookup cx ≠ .panic := by
  cases t with
  | scalar s => exact scalarLengths_panic hp hcx
  | fixedArray s n => exact Outcome.ne_panic_bind (scalarLengths_panic hp hcx) fun r _ => by simp
  | variableArray s n => exact Outcome.ne_panic_bind (scalarLengths_panic hp hcx) fun r _ => by simp

theorem typeAttribute_panic {t : Ty} {name : String} {cx : Cx P} (hcx : cx.Good I) : typeAttribute lookup t name cx ≠ .panic := by
  unfold typeAttribute
  split
  · exact Outcome.ne_panic_bind (typeLengths_panic hp hcx) fun r _ => by simp
  · split
    · refine Outcome.ne_panic_bind (typeByKey_panic hp hcx) fun r _ => ?_
      split
      · split <;> simp
      · simp
    · simp

theorem evalAttribute_panic {x : Externals} (hx : SortWorks x) {u : Value} {name : String} {cx : Cx P} (hu : u.Proper) (hcx : cx.Good I) :
    evalAttribute x lookup u name cx ≠ .panic := by
  unfold evalAttribute
  split
  · exact Outcome.ne_panic_bind (setAttribute_panic hx hu _) fun r _ => by simp
  · exact Outcome.ne_panic_bind (lengthsAttribute_panic _ _) fun r _ => by simp
  · exact typeAttribute_panic hp hcx
  · simp

theorem resolve_panic {t : Ty} {cx : Cx P} (hcx : cx.Good I) : t.resolve lookup cx ≠ .panic := by
  have scalar : ∀ s : ScalarTy, s.resolve lookup cx ≠ .panic := by
    intro s
    cases s with
    | versioned key =>
      refine Outcome.ne_panic_bind (typeByKey_panic hp hcx) fun r _ => ?_
      split <;> simp
    | prim p => simp [ScalarTy.resolve]
    | void b => simp [ScalarTy.resolve]
  cases t with
  | scalar s => exact Outcome.ne_panic_bind (scalar s) fun r _ => by simp
  | fixedArray s n => exact Outcome.ne_panic_bind (scalar s) fun r _ => by simp
  | variableArray s n => exact Outcome.ne_panic_bind (scalar s) fun r _ => by simp

include hl

mutual
theorem eval_panic {x : Externals} (hx : SortWorks x) : ∀ (e : Expr) {cx : Cx P}, e.Safe → cx.Good I → e.eval x lookup cx ≠ .panic
  | .parenthesized e, cx, hs, hcx => by rw [Expr.Safe] at hs; rw [Expr.eval]; exact eval_panic hx e hs hcx
  | .scalarType s, cx, hs, hcx => by rw [Expr.eval]; simp
  | .arrayType s kind length, cx, hs, hcx => by
    rw [Expr.Safe] at hs
    rw [Expr.eval]
    refine Outcome.ne_panic_bind (eval_panic hx length hs hcx) fun r _ => Outcome.ne_panic_bind (arrayLength_panic _) fun n _ =>
      Outcome.ne_panic_bind (arrayType_panic _ _ _) fun t _ => by simp
  | .set es, cx, hs, hcx => by
    rw [Expr.Safe] at hs
    rw [Expr.eval]
    exact Outcome.ne_panic_bind (evalSet_panic hx es hs (proper_set.2 (by simp)) hcx) fun r _ => by simp
  | .number q, cx, hs, hcx => by rw [Expr.eval]; simp
  | .string s, cx, hs, hcx => by rw [Expr.eval]; simp
  | .boolean b, cx, hs, hcx => by rw [Expr.eval]; simp
  | .identifier name, cx, hs, hcx => by
    rw [Expr.eval]
    unfold evalIdentifier
    split
    · simp
    · split <;> simp
  | .unary op e, cx, hs, hcx => by
    rw [Expr.Safe] at hs
    rw [Expr.eval]
    exact Outcome.ne_panic_bind (eval_panic hx e hs hcx) fun r _ => Outcome.ne_panic_bind (unary_panic _ _) fun v _ => by simp
  | .binary op a b, cx, hs, hcx => by
    rw [Expr.Safe] at hs
    rw [Expr.eval]
    refine Outcome.ne_panic_bind (eval_panic hx a hs.1 hcx) fun r hr => ?_
    obtain ⟨p1, g1⟩ := eval_good hl hx.sorts a hcx (v := r.1) (cx' := r.2) hr
    refine Outcome.ne_panic_bind (eval_panic hx b hs.2.1 g1) fun r' hr' => ?_
    obtain ⟨p2, g2⟩ := eval_good hl hx.sorts b g1 (v := r'.1) (cx' := r'.2) hr'
    refine Outcome.ne_panic_bind (fun h => ?_) fun v _ => by simp
    obtain ⟨q1, q2, h1, h2, h3⟩ := binary_panic p1 p2 h
    have right : ∀ q, b.literal = some q → q2 = q := by
      intro q hq
      rw [literal_eval x lookup b hq] at hr'
      cases hr'
      exact holds_rational h2
    have left : ∀ q, a.literal = some q → q1 = q := by
      intro q hq
      rw [literal_eval x lookup a hq] at hr
      cases hr
      exact holds_rational h1
    have hop := hs.2.2
    rcases h3 with ⟨rfl | rfl, h0⟩ | ⟨rfl, h0, n, hn, h4⟩
    · obtain ⟨q, hq, hne⟩ := hop
      exact hne ((right q hq).symm.trans h0)
    · obtain ⟨q, hq, hne⟩ := hop
      exact hne ((right q hq).symm.trans h0)
    · rcases hop with ⟨q, hq, hge⟩ | ⟨q, hq, hne⟩
      · rw [← right q hq, h4] at hge
        have : (0 : ℚ) < n := by exact_mod_cast hn
        linarith
      · exact hne ((left q hq).symm.trans h0)
  | .attribute e name, cx, hs, hcx => by
    rw [Expr.Safe] at hs
    rw [Expr.eval]
    refine Outcome.ne_panic_bind (eval_panic hx e hs hcx) fun r hr => ?_
    obtain ⟨p1, g1⟩ := eval_good hl hx.sorts e hcx (v := r.1) (cx' := r.2) hr
    exact evalAttribute_panic hp hx p1 g1
theorem evalSet_panic {x : Externals} (hx : SortWorks x) : ∀ (es : List Expr) {s : ValueSet} {cx : Cx P}, Expr.SafeAll es → (Value.set s).Proper → cx.Good I →
    Expr.evalSet x lookup es s cx ≠ .panic
  | [], s, cx, hs, hset, hcx => by rw [Expr.evalSet]; simp
  | e :: es, s, cx, hs, hset, hcx => by
    rw [Expr.SafeAll] at hs
    rw [Expr.evalSet]
    refine Outcome.ne_panic_bind (eval_panic hx e hs.1 hcx) fun r hr => ?_
    obtain ⟨p1, g1⟩ := eval_good hl hx.sorts e hcx (v := r.1) (cx' := r.2) hr
    cases hi : ValueSet.insert s r.1 with
    | some s1 => exact evalSet_panic hx es hs.2 (insert_proper hset p1 hi) g1
    | none => simp
end

/-! ### Statements -/

omit hl hp in
theorem withState_panic {cx : Cx P} {s : Outcome State} (h : s ≠ .panic) : cx.withState s ≠ .panic := Outcome.ne_panic_bind h fun a _ => by simp

omit hl hp in
theorem finish_panic (e : Option Nat) (s : State) : s.finish e ≠ .panic := by
  have st : ∀ t : StructState, t.finish e ≠ .panic := by intro t; unfold StructState.finish; split <;> simp
  have un : ∀ u : UnionState, u.finish e ≠ .panic := by
    intro u
    unfold UnionState.finish
    split
    · simp
    · split <;> simp
    · split <;> simp
  unfold State.finish
  split
  · simp
  · simp
  · exact Outcome.ne_panic_bind (st _) fun a _ => by simp
  · exact Outcome.ne_panic_bind (st _) fun a _ => by simp
  · exact Outcome.ne_panic_bind (un _) fun a _ => by simp
  · exact Outcome.ne_panic_bind (un _) fun a _ => by simp

omit hl hp in
theorem addField_panic (r : RScalar) (a : Arity) (name : String) (s : State) : s.addField r a name ≠ .panic := by
  have ofOption : ∀ {α : Type} (o : Option α), Outcome.ofOption o ≠ .panic := fun o => by cases o <;> simp [Outcome.ofOption]
  unfold State.addField
  split
  · simp
  · simp
  · exact Outcome.ne_panic_bind (ofOption _) fun a _ => by simp
  · exact Outcome.ne_panic_bind (ofOption _) fun a _ => by simp
  · exact Outcome.ne_panic_bind (ofOption _) fun a _ => by simp
  · exact Outcome.ne_panic_bind (ofOption _) fun a _ => by simp
  · simp

theorem run_panic {x : Externals} (hx : SortWorks x) {s : Statement} {cx : Cx P} (hs : s.Safe) (hcx : cx.Good I) : s.run x lookup cx ≠ .panic := by
  cases s with
  | directive name value =>
    show evalDirective x lookup name value cx ≠ .panic
    unfold evalDirective
    split
    · refine withState_panic ?_
      unfold State.handleUnion
      split <;> simp
    · refine Outcome.ne_panic_bind (eval_panic hl hp hx _ hs hcx) fun r _ => Outcome.ne_panic_bind ?_ fun n _ => withState_panic (finish_panic _ _)
      unfold extentValue
      split
      · split <;> simp
      · simp
    · exact withState_panic (finish_panic _ _)
    · refine Outcome.ne_panic_bind ?_ fun f _ => by simp
      unfold FileState.handleDeprecated
      split
      · simp
      · split
        · simp
        · split <;> simp
        · simp
    · refine Outcome.ne_panic_bind (eval_panic hl hp hx _ hs hcx) fun r _ => ?_
      split <;> simp
    · exact Outcome.ne_panic_bind (eval_panic hl hp hx _ hs hcx) fun r _ => by simp
    · simp
    · simp
  | constant ty name value =>
    unfold Statement.run
    dsimp only
    split
    · simp
    · refine Outcome.ne_panic_bind ?_ fun r _ => by simp
      unfold evalConstant
      split
      · simp
      · refine Outcome.ne_panic_bind (eval_panic hl hp hx _ hs hcx) fun r _ => Outcome.ne_panic_bind ?_ fun v _ => by simp
        have ofOption : ∀ {α : Type} (o : Option α), Outcome.ofOption o ≠ .panic := fun o => by cases o <;> simp [Outcome.ofOption]
        unfold checkType
        split
        · simp
        · split
          · split <;> simp
          · simp
        · split <;> simp
        · split <;> simp
        · exact Outcome.ne_panic_bind (ofOption _) fun a _ => by simp
        · exact Outcome.ne_panic_bind (ofOption _) fun a _ => by simp
        · exact Outcome.ne_panic_bind (ofOption _) fun a _ => by simp
        · simp
  | field ty name =>
    have hc : convertType x lookup ty cx ≠ .panic := by
      cases ty with
      | scalar s => simp [convertType]
      | array s kind length =>
        exact Outcome.ne_panic_bind (eval_panic hl hp hx _ hs hcx) fun r _ => Outcome.ne_panic_bind (arrayLength_panic _) fun n _ =>
          Outcome.ne_panic_bind (arrayType_panic _ _ _) fun t _ => by simp
    refine Outcome.ne_panic_bind hc fun t ht => ?_
    have g1 := convertType_good hl hx.sorts hcx (r := t.1) (cx' := t.2) ht
    refine Outcome.ne_panic_bind (resolve_panic hp g1) fun r _ => ?_
    split
    · simp
    · exact withState_panic (addField_panic _ _ _ _)
  | padding bits =>
    refine withState_panic ?_
    unfold State.addPadding
    split <;> simp
  | responseMarker =>
    refine Outcome.ne_panic_bind ?_ fun f _ => by simp
    unfold FileState.handleMarker
    split <;> simp

theorem runAll_panic {x : Externals} (hx : SortWorks x) {ss : List Statement} {cx : Cx P} (hs : ∀ s ∈ ss, s.Safe) (hcx : cx.Good I) : runAll x lookup ss cx ≠ .panic := by
  induction ss generalizing cx with
  | nil => simp [runAll]
  | cons s ss ih =>
    exact Outcome.ne_panic_bind (run_panic hl hp hx (hs s (by simp)) hcx) fun cx1 h1 => ih (fun t ht => hs t (by simp [ht])) (run_good hl hx.sorts hcx h1)

theorem compileFile_panic {x : Externals} (hx : SortWorks x) {key : TypeKey} {file : File} {p : P} (hs : file.Safe) (hI : I p) : compileFile x lookup key file p ≠ .panic := by
  unfold compileFile
  split
  · next ss hss =>
    refine Outcome.ne_panic_bind (runAll_panic hl hp hx (hs ss hss) (new_good hI)) fun cx _ => Outcome.ne_panic_bind ?_ fun c _ => by simp
    unfold FileState.finish
    split <;> simp
  · simp

end

/-! ### All files -/

/-- What holds for the compiled types and pending files; `keys` are the names of both. -/
structure Sane (keys : List (List String × String × List Nat)) (p : Persistent) : Prop where
  done : ∀ e ∈ p.done, e.2.Good
  safe : ∀ e ∈ p.pending, e.2.Safe
  keys : p.keys.Perm keys

/-- A file that was taken out of `pending` is compiled and put into `done`. -/
theorem taken_sane {x : Externals} (hx : SortWorks x) {lookup : Lookup Persistent} {keys : List (List String × String × List Nat)} (hk : keys.Nodup) {p : Persistent} (hp : Sane keys p)
    {key : TypeKey} {file : File} {rest : List (TypeKey × File)} (hsub : rest.Sublist p.pending)
    (hkeys : (p.pending.map fun e => e.1.folded).Perm (key.folded :: rest.map fun e => e.1.folded)) (hfile : file.Safe)
    (hl : ∀ keys, keys.Nodup → GoodLookup (Sane keys) lookup) (hn : ∀ keys, keys.Nodup → ∀ key p, Sane keys p → lookup key p ≠ .panic) :
    compileFile x lookup key file { p with pending := rest } ≠ .panic ∧
      ∀ c q, compileFile x lookup key file { p with pending := rest } = .ok (c, q) → c.Good ∧ ∃ r, insertDone q key c = .ok r ∧ Sane keys r := by
  have hperm : (key.folded :: (Persistent.mk rest p.done).keys).Perm keys := by
    refine List.Perm.trans ?_ hp.keys
    unfold Persistent.keys
    exact (hkeys.append_right _).symm
  have hnd := hperm.nodup_iff.2 hk
  obtain ⟨hnew, hnd'⟩ := List.nodup_cons.1 hnd
  have hs : Sane (Persistent.mk rest p.done).keys (Persistent.mk rest p.done) := ⟨hp.done, fun e he => hp.safe e (hsub.subset he), .refl _⟩
  refine ⟨compileFile_panic (hl _ hnd') (hn _ hnd') hx hfile hs, fun c q h => ?_⟩
  obtain ⟨hc, hq⟩ := compileFile_good (hl _ hnd') hx.sorts hs h
  refine ⟨hc, ?_⟩
  have hno : key.folded ∉ q.done.map fun e => e.1.folded := fun hm => hnew (hq.keys.subset (by unfold Persistent.keys; simp only [List.mem_append]; exact .inr hm))
  have hg : getKeyValue q.done key = none := by
    cases hg : getKeyValue q.done key with
    | none => rfl
    | some e => exact absurd (List.mem_map.2 ⟨e, (getKeyValue_some hg).1, (getKeyValue_some hg).2⟩) hno
  refine ⟨{ q with done := q.done ++ [(key, c)] }, by unfold insertDone; rw [hg], ⟨?_, hq.safe, ?_⟩⟩
  · intro e he
    rcases List.mem_append.1 he with he | he
    · exact hq.done e he
    · rw [List.mem_singleton] at he; subst he; exact hc
  · refine List.Perm.trans ?_ hperm
    unfold Persistent.keys
    rw [List.map_append, ← List.append_assoc]
    exact List.perm_append_comm.trans (List.Perm.cons _ hq.keys)

theorem lookup_sane {x : Externals} (hx : SortWorks x) : ∀ fuel, (∀ keys, keys.Nodup → GoodLookup (Sane keys) (Persistent.typeByKey x fuel)) ∧
    ∀ keys, keys.Nodup → ∀ key p, Sane keys p → Persistent.typeByKey x fuel key p ≠ .panic := by
  intro fuel
  induction fuel with
  | zero =>
    have hz : ∀ key p, Persistent.typeByKey x 0 key p = match getCaseSensitive p.done key with | some c => .ok (c, p) | none => .error := by
      intro key p
      rw [Persistent.typeByKey]
      cases getCaseSensitive p.done key <;> rfl
    refine ⟨fun keys hk key p c p' hp h => ?_, fun keys hk key p hp => ?_⟩
    · rw [hz] at h
      cases hg : getCaseSensitive p.done key with
      | some d => rw [hg] at h; cases h; exact ⟨hp.done _ (getCaseSensitive_some hg), hp⟩
      | none => rw [hg] at h; cases h
    · rw [hz]; split <;> simp
  | succ fuel ih =>
    obtain ⟨hl, hn⟩ := ih
    have hz : ∀ key p, Persistent.typeByKey x (fuel + 1) key p = match getCaseSensitive p.done key with
        | some c => .ok (c, p)
        | none => match removeKey p.pending key with
          | some (file, pending) =>
            (compileFile x (Persistent.typeByKey x fuel) key file { p with pending := pending }).bind fun r =>
              (insertDone r.2 key r.1).bind fun p => .ok (r.1, p)
          | none => .error := by
      intro key p
      rw [Persistent.typeByKey]
      rfl
    have taken : ∀ keys, keys.Nodup → ∀ key p, Sane keys p → ∀ file rest, removeKey p.pending key = some (file, rest) →
        compileFile x (Persistent.typeByKey x fuel) key file { p with pending := rest } ≠ .panic ∧
        ∀ c q, compileFile x (Persistent.typeByKey x fuel) key file { p with pending := rest } = .ok (c, q) → c.Good ∧ ∃ r, insertDone q key c = .ok r ∧ Sane keys r := by
      intro keys hk key p hp file rest hr
      obtain ⟨⟨name, hm, hname⟩, hrest⟩ := removeKey_some hr
      have hpn : (p.pending.map fun e => e.1.folded).Nodup := (List.nodup_append.1 (hp.keys.nodup_iff.2 hk)).1
      have hkp := filter_keys_perm (m := p.pending) (key := key) hpn (List.mem_map.2 ⟨_, hm, hname⟩)
      subst hrest
      exact taken_sane hx hk hp List.filter_sublist hkp (hp.safe _ hm) hl hn
    refine ⟨fun keys hk key p c p' hp h => ?_, fun keys hk key p hp => ?_⟩
    · rw [hz] at h
      cases hg : getCaseSensitive p.done key with
      | some d => rw [hg] at h; cases h; exact ⟨hp.done _ (getCaseSensitive_some hg), hp⟩
      | none =>
        rw [hg] at h
        dsimp only at h
        cases hr : removeKey p.pending key with
        | none => rw [hr] at h; cases h
        | some fr =>
          obtain ⟨file, rest⟩ := fr
          rw [hr] at h
          obtain ⟨⟨d, q⟩, h1, h2⟩ := Outcome.bind_ok h
          obtain ⟨r, h3, h4⟩ := Outcome.bind_ok h2
          cases h4
          obtain ⟨hc, r', h5, h6⟩ := (taken keys hk key p hp file rest hr).2 _ _ h1
          rw [h5] at h3
          cases h3
          exact ⟨hc, h6⟩
    · rw [hz]
      cases hg : getCaseSensitive p.done key with
      | some d => simp
      | none =>
        cases hr : removeKey p.pending key with
        | none => simp
        | some fr =>
          obtain ⟨file, rest⟩ := fr
          obtain ⟨h1, h2⟩ := taken keys hk key p hp file rest hr
          refine Outcome.ne_panic_bind h1 fun r hr' => ?_
          obtain ⟨_, r', h5, -⟩ := h2 r.1 r.2 hr'
          rw [h5]
          simp [Outcome.bind]

theorem compileAll_panic {x : Externals} (hx : SortWorks x) (rounds : Nat) {keys : List (List String × String × List Nat)} (hk : keys.Nodup) {p : Persistent} (hp : Sane keys p) :
    p.compileAll x rounds ≠ .panic := by
  induction rounds generalizing p with
  | zero =>
    rw [Persistent.compileAll]
    split <;> simp
  | succ rounds ih =>
    rw [Persistent.compileAll]
    split
    · simp
    · next key file pending hpend =>
      obtain ⟨hl, hn⟩ := lookup_sane hx pending.length
      obtain ⟨h1, h2⟩ := taken_sane hx hk hp (key := key) (file := file) (rest := pending) (by rw [hpend]; exact List.sublist_cons_self _ _) (by rw [hpend]; exact .refl _)
        (hp.safe (key, file) (by rw [hpend]; simp)) hl hn
      refine Outcome.ne_panic_bind h1 fun r hr => ?_
      obtain ⟨_, r', h5, h6⟩ := h2 r.1 r.2 hr
      rw [h5]
      exact ih h6

end Verif.Front
