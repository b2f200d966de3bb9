import Verif.Front.ExprSets
import Mathlib.Algebra.Order.Field.Basic
import Mathlib.Data.Rat.Floor
import Mathlib.Tactic.Linarith
import Mathlib.Tactic.FieldSimp
import Mathlib.Tactic.Ring

/-!
What the operators on numbers calculate.
-/

namespace Verif.Front

open Verif.Bls Verif.Dsdl

theorem isInteger_iff {q : ℚ} : isInteger q = true ↔ ∃ n : ℤ, q = n := by
  unfold isInteger
  rw [beq_iff_eq]
  constructor
  · intro h; exact ⟨q.num, (Rat.coe_int_num_of_den_eq_one h).symm⟩
  · rintro ⟨n, rfl⟩; rfl

theorem num_of_int {q : ℚ} {n : ℤ} (h : q = n) : q.num = n := by rw [h]; rfl

/-! ### Remainders -/

theorem tmod_sign (a : ℤ) (b : ℤ) : 0 ≤ a.tmod b * a := by
  rcases le_total 0 a with h | h
  · exact mul_nonneg (Int.tmod_nonneg b h) h
  · have := Int.tmod_nonneg b (a := -a) (by omega)
    rw [Int.neg_tmod] at this
    exact mul_nonneg_of_nonpos_of_nonpos (by omega) h

/-- The division that rounds toward zero. -/
theorem tdiv_bounds (c : ℚ) : |c - (c.num.tdiv c.den : ℤ)| < 1 ∧ 0 ≤ (c - (c.num.tdiv c.den : ℤ)) * c := by
  have hd : (0 : ℚ) < c.den := by exact_mod_cast c.den_pos
  have hdz : (0 : ℤ) < c.den := by exact_mod_cast c.den_pos
  have hc : c * c.den = c.num := Rat.mul_den_eq_num c
  have h : (c.den : ℚ) * (c.num.tdiv c.den : ℤ) + (c.num.tmod c.den : ℤ) = c.num := by
    exact_mod_cast Int.mul_tdiv_add_tmod c.num c.den
  have h1 : ((c.num.tmod c.den : ℤ) : ℚ) < c.den := by exact_mod_cast Int.tmod_lt_of_pos c.num hdz
  have h2 : -(c.den : ℚ) < (c.num.tmod c.den : ℤ) := by exact_mod_cast Int.lt_tmod_of_pos c.num hdz
  have h3 : (0 : ℚ) ≤ (c.num.tmod c.den : ℤ) * c.num := by exact_mod_cast tmod_sign c.num c.den
  generalize ((c.num.tdiv c.den : ℤ) : ℚ) = t at *
  generalize ((c.num.tmod c.den : ℤ) : ℚ) = m at *
  have he : (c - t) * c.den = m := by linarith
  constructor
  · rw [abs_lt]
    constructor
    · by_contra hn
      have : (c - t) * c.den ≤ -1 * c.den := mul_le_mul_of_nonneg_right (not_lt.1 hn) hd.le
      linarith
    · by_contra hn
      have : 1 * (c.den : ℚ) ≤ (c - t) * c.den := mul_le_mul_of_nonneg_right (not_lt.1 hn) hd.le
      linarith
  · rw [← he, ← hc] at h3
    by_contra hn
    have h4 := mul_neg_of_neg_of_pos (not_le.1 hn) (mul_pos hd hd)
    have : (c - t) * c * ((c.den : ℚ) * c.den) = (c - t) * c.den * (c * c.den) := by ring
    linarith

theorem remainder_spec {a b : ℚ} (hb : b ≠ 0) : |remainder a b| < |b| ∧ 0 ≤ remainder a b * a ∧ ∃ k : ℤ, a = b * k + remainder a b := by
  obtain ⟨h1, h2⟩ := tdiv_bounds (a / b)
  unfold remainder
  refine ⟨?_, ?_, ⟨_, by ring⟩⟩
  all_goals generalize ((a / b).num.tdiv (a / b).den) = t at *
  · have e : a - b * (t : ℚ) = b * (a / b - t) := by field_simp
    rw [e, abs_mul]
    calc |b| * |a / b - t| < |b| * 1 := mul_lt_mul_of_pos_left h1 (abs_pos.2 hb)
      _ = |b| := mul_one _
  · have e : (a - b * (t : ℚ)) * a = (b * b) * ((a / b - t) * (a / b)) := by field_simp
    rw [e]
    exact mul_nonneg (mul_self_nonneg b) h2

/-- A remainder is unique. -/
theorem remainder_unique {a b r s : ℚ} (hr : |r| < |b|) (hs : |s| < |b|) (ra : 0 ≤ r * a) (sa : 0 ≤ s * a) {k l : ℤ} (hk : a = b * k + r) (hl : a = b * l + s) : r = s := by
  have hd : r - s = b * ((l - k : ℤ) : ℚ) := by push_cast; linarith
  have hlt : a ≠ 0 → |r - s| < |b| := by
    intro ha
    rw [abs_lt] at hr hs ⊢
    rcases lt_or_gt_of_ne ha with h | h
    · have h1 : r ≤ 0 := by by_contra hn; exact absurd (mul_neg_of_pos_of_neg (not_le.1 hn) h) (not_lt.2 ra)
      have h2 : s ≤ 0 := by by_contra hn; exact absurd (mul_neg_of_pos_of_neg (not_le.1 hn) h) (not_lt.2 sa)
      constructor <;> linarith
    · have h1 : 0 ≤ r := by by_contra hn; exact absurd (mul_neg_of_neg_of_pos (not_le.1 hn) h) (not_lt.2 ra)
      have h2 : 0 ≤ s := by by_contra hn; exact absurd (mul_neg_of_neg_of_pos (not_le.1 hn) h) (not_lt.2 sa)
      constructor <;> linarith
  have hint : ∀ {c : ℚ} {n : ℤ}, c = b * (n : ℚ) → |c| < |b| → c = 0 := by
    intro c n hc h
    rw [hc, abs_mul] at h
    have hb : 0 < |b| := lt_of_le_of_lt (mul_nonneg (abs_nonneg _) (abs_nonneg _)) h
    have h1 : |(n : ℚ)| < 1 := by
      by_contra hn
      have := mul_le_mul_of_nonneg_left (not_lt.1 hn) hb.le
      linarith
    have h2 : |n| < 1 := by exact_mod_cast h1
    rw [hc, Int.abs_lt_one_iff.1 h2]
    simp
  by_cases ha : a = 0
  · have h1 : r = b * ((-k : ℤ) : ℚ) := by push_cast; linarith
    have h2 : s = b * ((-l : ℤ) : ℚ) := by push_cast; linarith
    rw [hint h1 hr, hint h2 hs]
  · have := hint hd (hlt ha)
    linarith

/-! ### Bits -/

theorem int_ext {m n : ℤ} (h : ∀ i, m.testBit i = n.testBit i) : m = n := by
  have mixed : ∀ a b : ℕ, ¬ ∀ i, (Int.ofNat a).testBit i = (Int.negSucc b).testBit i := by
    intro a b h
    have := h (a + b)
    have h1 : a < 2 ^ (a + b) := lt_of_lt_of_le Nat.lt_two_pow_self (Nat.pow_le_pow_right (by omega) (by omega))
    have h2 : b < 2 ^ (a + b) := lt_of_lt_of_le Nat.lt_two_pow_self (Nat.pow_le_pow_right (by omega) (by omega))
    simp only [Int.testBit, Nat.testBit_lt_two_pow h1, Nat.testBit_lt_two_pow h2] at this
    simp at this
  cases m with
  | ofNat a =>
    cases n with
    | ofNat b => exact congrArg Int.ofNat (Nat.eq_of_testBit_eq h)
    | negSucc b => exact absurd h (mixed a b)
  | negSucc a =>
    cases n with
    | ofNat b => exact absurd (fun i => (h i).symm) (mixed b a)
    | negSucc b =>
      refine congrArg Int.negSucc (Nat.eq_of_testBit_eq fun i => ?_)
      have := h i
      simpa [Int.testBit] using this

theorem bitwise_iff {f : ℤ → ℤ → ℤ} {g : Bool → Bool → Bool} (hf : ∀ m n i, (f m n).testBit i = g (m.testBit i) (n.testBit i)) {a b : ℚ} {v : Value} :
    rationalBitwise f a b = .ok v ↔ ∃ r, v = .rational r ∧ ∃ m n k : ℤ, a = m ∧ b = n ∧ r = k ∧ ∀ i, k.testBit i = g (m.testBit i) (n.testBit i) := by
  unfold rationalBitwise
  split
  · next h =>
    rw [Bool.and_eq_true, isInteger_iff, isInteger_iff] at h
    obtain ⟨⟨m, hm⟩, n, hn⟩ := h
    rw [num_of_int hm, num_of_int hn]
    simp only [Outcome.ok.injEq]
    constructor
    · rintro rfl; exact ⟨_, rfl, m, n, f m n, hm, hn, rfl, hf m n⟩
    · rintro ⟨r, rfl, m', n', k, hm', hn', rfl, hk⟩
      have e1 : m' = m := by exact_mod_cast hm'.symm.trans hm
      have e2 : n' = n := by exact_mod_cast hn'.symm.trans hn
      rw [int_ext (m := k) (n := f m n) fun i => by rw [hk, hf, e1, e2]]
  · next h =>
    simp only [reduceCtorEq, false_iff]
    rintro ⟨r, rfl, m, n, k, hm, hn, -, -⟩
    exact h (by rw [Bool.and_eq_true, isInteger_iff, isInteger_iff]; exact ⟨⟨m, hm⟩, n, hn⟩)

/-! ### Numbers as operands -/

theorem implicitInt_iff {s : String} {n : Nat} : implicitInt s = some n ↔ ∃ c : Char, s.toList = [c] ∧ c.toNat < 128 ∧ n = c.toNat := by
  unfold implicitInt
  split
  · next c h =>
    constructor
    · intro h'
      split at h'
      · next hc => exact ⟨c, h, hc, (Option.some.inj h').symm⟩
      · cases h'
    · rintro ⟨c', h', hc, rfl⟩
      rw [h] at h'
      obtain rfl := (List.cons.inj h').1
      rw [if_pos hc]
  · next h =>
    simp only [reduceCtorEq, false_iff]
    rintro ⟨c, hc, -⟩
    exact h c hc

theorem number_string {s : String} {r : ℚ} : (Value.string s).Number r ↔ ∃ n : Nat, implicitInt s = some n ∧ r = n := by
  constructor
  · rintro ⟨c, h1, h2, rfl⟩; exact ⟨c.toNat, implicitInt_iff.2 ⟨c, h1, h2, rfl⟩, rfl⟩
  · rintro ⟨n, h, rfl⟩
    obtain ⟨c, h1, h2, rfl⟩ := implicitInt_iff.1 h
    exact ⟨c, h1, h2, rfl⟩

theorem rationalBinary_number (op : ℚ → ℚ → Outcome Value) {A B : Value} {a b : ℚ} (hA : A.Number a) (hB : B.Number b) : rationalBinary op A B = op a b := by
  cases A with
  | rational q =>
    obtain rfl : a = q := hA
    cases B with
    | rational p => obtain rfl : b = p := hB; rfl
    | string s =>
      obtain ⟨n, h, rfl⟩ := number_string.1 hB
      simp only [rationalBinary, h]
    | _ => exact absurd hB (by simp [Value.Number])
  | string s =>
    obtain ⟨n, h, rfl⟩ := number_string.1 hA
    cases B with
    | rational p => obtain rfl : b = p := hB; simp only [rationalBinary, h]
    | string s =>
      obtain ⟨n, h', rfl⟩ := number_string.1 hB
      simp only [rationalBinary, h, h']
    | _ => exact absurd hB (by simp [Value.Number])
  | _ => exact absurd hA (by simp [Value.Number])

theorem rationalBinary_error (op : ℚ → ℚ → Outcome Value) {A B : Value} (h : ¬ ((∃ a, A.Number a) ∧ ∃ b, B.Number b)) : rationalBinary op A B = .error := by
  unfold rationalBinary
  split
  · exact absurd ⟨⟨_, rfl⟩, _, rfl⟩ h
  · split
    · next hn => exact absurd ⟨⟨_, number_string.2 ⟨_, hn, rfl⟩⟩, _, rfl⟩ h
    · rfl
  · split
    · next hn => exact absurd ⟨⟨_, rfl⟩, _, number_string.2 ⟨_, hn, rfl⟩⟩ h
    · rfl
  · split
    · next hn hm => exact absurd ⟨⟨_, number_string.2 ⟨_, hn, rfl⟩⟩, _, number_string.2 ⟨_, hm, rfl⟩⟩ h
    · rfl
  · rfl

theorem expanded_number {A : Value} {a : ℚ} (h : A.Number a) : A.expanded = A ∧ ∀ s, A ≠ .set s := by
  cases A <;> simp_all [Value.Number, Value.expanded]

theorem elementwise_number (op : ℚ → ℚ → Outcome Value) {A B : Value} {a b : ℚ} (hA : A.Number a) (hB : B.Number b) : elementwiseBinary op A B = op a b := by
  obtain ⟨e1, n1⟩ := expanded_number hA
  obtain ⟨e2, n2⟩ := expanded_number hB
  unfold elementwiseBinary
  rw [e1, e2]
  split
  · exact absurd rfl (n2 _)
  · exact absurd rfl (n1 _)
  · exact rationalBinary_number op hA hB

/-! ### Each operator -/

/-- What an operator calculates for two numbers (`types/expression.rs`, `operators/*.rs`). -/
def numberOp (x : Externals) : BinOp → ℚ → ℚ → Outcome Value
  | .exponent, a, b => rationalExponent x a b
  | .multiply, a, b => .ok (.rational (a * b))
  | .divide, a, b => if b = 0 then .panic else .ok (.rational (a / b))
  | .modulo, a, b => if b = 0 then .panic else .ok (.rational (remainder a b))
  | .add, a, b => .ok (.rational (a + b))
  | .subtract, a, b => .ok (.rational (a - b))
  | .bitOr, a, b => rationalBitwise Int.lor a b
  | .bitXor, a, b => rationalBitwise Int.xor a b
  | .bitAnd, a, b => rationalBitwise Int.land a b
  | _, _, _ => .error

theorem exponent_iff {x : Externals} {a b : ℚ} {v : Value} : rationalExponent x a b = .ok v ↔ ∃ r, v = .rational r ∧ Calculates x .exponent a b r := by
  unfold rationalExponent
  split
  · next h =>
    obtain ⟨n, rfl⟩ := isInteger_iff.1 h
    rw [num_of_int rfl]
    have hnot : ¬ ¬ ∃ m : ℤ, (n : ℚ) = m := fun h => h ⟨n, rfl⟩
    simp only [Calculates, hnot, false_and, or_false]
    cases n with
    | ofNat k =>
      have hneg : ¬ ∃ m : ℕ, 0 < m ∧ ((Int.ofNat k : ℤ) : ℚ) = -m ∧ True := by
        rintro ⟨m, hm, h, -⟩
        have : (Int.ofNat k : ℤ) = -(m : ℤ) := by exact_mod_cast h
        simp at this
        omega
      rw [if_neg (by simp)]
      simp only [Outcome.ok.injEq]
      constructor
      · rintro rfl; exact ⟨_, rfl, .inl ⟨k, rfl, zpow_natCast a k⟩⟩
      · rintro ⟨r, rfl, ⟨m, hm, rfl⟩ | ⟨m, hm, h, -⟩⟩
        · have : k = m := Int.ofNat.inj (by exact_mod_cast hm)
          rw [this]; exact congrArg Value.rational (zpow_natCast a m)
        · exact absurd ⟨m, hm, h, trivial⟩ hneg
    | negSucc k =>
      have hval : ((Int.negSucc k : ℤ) : ℚ) = -((k + 1 : ℕ) : ℚ) := by rw [Int.negSucc_eq]; push_cast; ring
      have hz : (∃ r, v = .rational r ∧ ((∃ n : ℕ, ((Int.negSucc k : ℤ) : ℚ) = n ∧ r = a ^ n) ∨ ∃ n : ℕ, 0 < n ∧ ((Int.negSucc k : ℤ) : ℚ) = -n ∧ r * a ^ n = 1)) ↔
          ∃ r, v = .rational r ∧ r * a ^ (k + 1) = 1 := by
        constructor
        · rintro ⟨r, rfl, ⟨m, hm, -⟩ | ⟨m, hm, h, e⟩⟩
          · have : (Int.negSucc k : ℤ) = (m : ℤ) := by exact_mod_cast hm
            omega
          · rw [hval] at h
            have : k + 1 = m := by exact_mod_cast neg_injective h
            exact ⟨r, rfl, this ▸ e⟩
        · rintro ⟨r, rfl, e⟩
          exact ⟨r, rfl, .inr ⟨k + 1, by omega, hval, e⟩⟩
      rw [hz]
      split
      · next h0 =>
        simp only [reduceCtorEq, false_iff]
        rintro ⟨r, -, e⟩
        rw [h0.1, zero_pow (by omega), mul_zero] at e
        exact zero_ne_one e
      · next h0 =>
        have ha : a ≠ 0 := fun e => h0 ⟨e, Int.negSucc_lt_zero k⟩
        have hp := pow_ne_zero (k + 1) ha
        simp only [Outcome.ok.injEq]
        rw [zpow_negSucc]
        constructor
        · rintro rfl; exact ⟨_, rfl, inv_mul_cancel₀ hp⟩
        · rintro ⟨r, rfl, e⟩
          rw [eq_inv_of_mul_eq_one_left e]
  · next h =>
    have hno : ¬ ∃ n : ℤ, b = n := fun hn => h (isInteger_iff.2 hn)
    have hn1 : ∀ n : ℕ, b ≠ n := fun n e => hno ⟨n, by exact_mod_cast e⟩
    have hn2 : ∀ n : ℕ, b ≠ -n := fun n e => hno ⟨-n, by push_cast; exact e⟩
    simp only [Calculates, hno, hn1, hn2, not_false_eq_true, true_and, false_and, and_false, exists_false, false_or]
    cases x.power a b with
    | none => simp
    | some q =>
      simp only [Outcome.ok.injEq, Option.some.injEq]
      constructor
      · rintro rfl; exact ⟨q, rfl, rfl⟩
      · rintro ⟨r, rfl, rfl⟩; rfl

theorem numberOp_iff {x : Externals} {op : BinOp} (hop : op.Arithmetic) {a b : ℚ} {v : Value} : numberOp x op a b = .ok v ↔ ∃ r, v = .rational r ∧ Calculates x op a b r := by
  have simpleOp : ∀ {o : ℚ} , (Outcome.ok (Value.rational o) = .ok v) ↔ ∃ r, v = .rational r ∧ r = o := by
    intro o
    simp only [Outcome.ok.injEq]
    constructor
    · rintro rfl; exact ⟨o, rfl, rfl⟩
    · rintro ⟨r, rfl, rfl⟩; rfl
  cases op with
  | exponent => exact exponent_iff
  | multiply => exact simpleOp
  | add => exact simpleOp
  | subtract => exact simpleOp
  | bitOr => exact bitwise_iff (g := or) Int.testBit_lor
  | bitXor => exact bitwise_iff (g := xor) Int.testBit_lxor
  | bitAnd => exact bitwise_iff (g := and) Int.testBit_land
  | divide =>
    show (if b = 0 then _ else _) = _ ↔ ∃ r, v = .rational r ∧ b ≠ 0 ∧ r * b = a
    split
    · next hb => simp [hb]
    · next hb =>
      rw [simpleOp]
      simp only [ne_eq, hb, not_false_eq_true, true_and, eq_div_iff hb]
  | modulo =>
    show (if b = 0 then _ else _) = _ ↔ ∃ r, v = .rational r ∧ |r| < |b| ∧ 0 ≤ r * a ∧ ∃ k : ℤ, a = b * k + r
    split
    · next hb =>
      simp only [hb, abs_zero, reduceCtorEq, false_iff]
      rintro ⟨r, -, h, -⟩
      exact absurd h (not_lt.2 (abs_nonneg r))
    · next hb =>
      rw [simpleOp]
      obtain ⟨h1, h2, k, h3⟩ := remainder_spec (a := a) hb
      constructor
      · rintro ⟨r, rfl, rfl⟩; exact ⟨_, rfl, h1, h2, k, h3⟩
      · rintro ⟨r, rfl, h4, h5, l, h6⟩; exact ⟨_, rfl, remainder_unique h4 h1 h5 h2 h6 h3⟩
  | _ => exact absurd hop (by simp [BinOp.Arithmetic])

theorem eval_number {x : Externals} {op : BinOp} (hop : op.Arithmetic) {A B : Value} {a b : ℚ} (hA : A.Number a) (hB : B.Number b)
    (hs : op = .add → ¬ ∃ s t, A = .string s ∧ B = .string t) : evalBinary x op A B = numberOp x op a b := by
  have hl : ∀ l, A ≠ .lengths l := fun l e => by subst e; exact hA
  have hset : ∀ {f g h}, rationalOrSetBinary f g h A B = f a b := by
    intro f g h
    unfold rationalOrSetBinary
    split
    · exact absurd hA (by simp [Value.Number])
    · exact absurd hA (by simp [Value.Number])
    · exact rationalBinary_number f hA hB
  cases op with
  | exponent => exact elementwise_number _ hA hB
  | multiply => exact elementwise_number _ hA hB
  | divide => exact elementwise_number _ hA hB
  | subtract => exact elementwise_number _ hA hB
  | modulo =>
    show moduloValues A B = _
    unfold moduloValues
    split
    · exact absurd rfl (hl _)
    · exact elementwise_number _ hA hB
  | add =>
    show addValues x A B = _
    unfold addValues
    split
    · exact absurd ⟨_, _, rfl, rfl⟩ (hs rfl)
    · exact elementwise_number _ hA hB
  | bitOr => exact hset
  | bitXor => exact hset
  | bitAnd => exact hset
  | _ => exact absurd hop (by simp [BinOp.Arithmetic])

/-! ### Each element of a set -/

theorem mapAll_ok {α β : Type} {f : α → Outcome β} {xs : List α} {ys : List β} : mapAll f xs = .ok ys ↔ List.Forall₂ (fun a b => f a = .ok b) xs ys := by
  induction xs generalizing ys with
  | nil =>
    simp only [mapAll, Outcome.ok.injEq]
    constructor
    · rintro rfl; exact .nil
    · rintro ⟨⟩; rfl
  | cons a xs ih =>
    simp only [mapAll]
    constructor
    · intro h
      cases ha : f a with
      | ok b =>
        rw [ha] at h
        cases hr : mapAll f xs with
        | ok bs =>
          rw [hr] at h
          cases h
          exact .cons ha (ih.1 hr)
        | error => rw [hr] at h; cases h
        | panic => rw [hr] at h; cases h
      | error => rw [ha] at h; cases h
      | panic => rw [ha] at h; cases h
    · rintro (⟨⟩ | ⟨ha, hr⟩)
      rw [ha, Outcome.bind, ih.2 hr]
      rfl

theorem mapAll_total {α β : Type} {f : α → Outcome β} {xs : List α} (h : ∀ a ∈ xs, ∃ b, f a = .ok b) : ∃ ys, mapAll f xs = .ok ys := by
  induction xs with
  | nil => exact ⟨[], rfl⟩
  | cons a xs ih =>
    obtain ⟨b, hb⟩ := h a (by simp)
    obtain ⟨bs, hbs⟩ := ih fun a ha => h a (by simp [ha])
    exact ⟨b :: bs, by simp only [mapAll, hb, Outcome.bind, hbs]⟩

theorem mapSet_rationals (f : ℚ → Outcome Value) (qs : List ℚ) : mapSet f (qs.map Value.rational) =
    (mapAll f qs).bind fun vs => match ValueSet.collect vs with
      | some s' => .ok (.set s')
      | none => .error := by
  unfold mapSet
  congr 1
  induction qs with
  | nil => rfl
  | cons q qs ih => simp only [List.map_cons, mapAll, ih]

theorem forall₂_left {α β : Type} {R : α → β → Prop} {xs : List α} {ys : List β} (h : List.Forall₂ R xs ys) {a : α} (ha : a ∈ xs) : ∃ b ∈ ys, R a b := by
  induction h with
  | nil => simp at ha
  | cons hab _ ih =>
    rcases List.mem_cons.1 ha with rfl | ha
    · exact ⟨_, by simp, hab⟩
    · obtain ⟨b, hb, h⟩ := ih ha
      exact ⟨b, by simp [hb], h⟩

theorem forall₂_right {α β : Type} {R : α → β → Prop} {xs : List α} {ys : List β} (h : List.Forall₂ R xs ys) {b : β} (hb : b ∈ ys) : ∃ a ∈ xs, R a b :=
  forall₂_left h.flip hb

/-- The operation on each element succeeds if it does for every element, and the result has the results as elements. -/
theorem mapSet_iff {f : ℚ → Outcome Value} (hf : ∀ q v, f q = .ok v → ∃ r, v = .rational r) (qs : List ℚ) :
    ((∃ R, mapSet f (qs.map Value.rational) = .ok R) ↔ ∀ q ∈ qs, ∃ v, f q = .ok v) ∧
    ∀ R, mapSet f (qs.map Value.rational) = .ok R → R.Proper ∧ R.IsSet ∧ (∀ l, R ≠ .lengths l) ∧ R.Simple ∧ ∀ v, R.Has v ↔ ∃ q ∈ qs, f q = .ok v := by
  rw [mapSet_rationals]
  cases hm : mapAll f qs with
  | ok vs =>
    rw [mapAll_ok] at hm
    have hall : ∀ v ∈ vs, ∃ q ∈ qs, f q = .ok v := fun v hv => forall₂_right hm hv
    have hall' : ∀ q ∈ qs, ∃ v ∈ vs, f q = .ok v := fun q hq => forall₂_left hm hq
    obtain ⟨rs, rfl⟩ : ∃ rs : List ℚ, vs = rs.map Value.rational := by
      clear hm hall'
      induction vs with
      | nil => exact ⟨[], rfl⟩
      | cons v vs ih =>
        obtain ⟨rs, rfl⟩ := ih fun u hu => hall u (by simp [hu])
        obtain ⟨q, _, h⟩ := hall v (by simp)
        obtain ⟨r, rfl⟩ := hf q v h
        exact ⟨r :: rs, rfl⟩
    obtain ⟨s, h1, h2, h3, h4, h5⟩ := collect_rationals rs
    simp only [Outcome.bind, h1, Outcome.ok.injEq, exists_eq', true_iff]
    refine ⟨fun q hq => (hall' q hq).imp fun v h => h.2, ?_⟩
    rintro R rfl
    refine ⟨h2, trivial, fun l h => (by cases h), h3, fun v => ?_⟩
    rw [h5]
    constructor
    · rintro ⟨r, hr, rfl⟩; exact hall _ (List.mem_map.2 ⟨r, hr, rfl⟩)
    · rintro ⟨q, hq, h⟩
      obtain ⟨u, hu, h'⟩ := hall' q hq
      rw [h] at h'
      cases h'
      obtain ⟨r, hr, rfl⟩ := List.mem_map.1 hu
      exact ⟨r, hr, rfl⟩
  | error =>
    refine ⟨⟨fun ⟨R, h⟩ => (by cases h), fun h => ?_⟩, fun R h => (by cases h)⟩
    obtain ⟨ys, hy⟩ := mapAll_total h
    rw [hm] at hy; cases hy
  | panic =>
    refine ⟨⟨fun ⟨R, h⟩ => (by cases h), fun h => ?_⟩, fun R h => (by cases h)⟩
    obtain ⟨ys, hy⟩ := mapAll_total h
    rw [hm] at hy; cases hy

end Verif.Front
