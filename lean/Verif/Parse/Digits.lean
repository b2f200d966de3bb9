import Mathlib.Data.List.Induction
import Verif.Parse.NoPanic

/-!
The digits and the escape sequences that the parser reads, and their specification.
-/

namespace Verif.Parse

open Verif.Front

/-! ### Digits -/

theorem hexDigit_some {c : Char} {d : Nat} : hexDigit c = some d ↔ DigitChar c d := by
  have h0 : '0'.toNat = 48 := rfl
  have h9 : '9'.toNat = 57 := rfl
  have ha : 'a'.toNat = 97 := rfl
  have hf : 'f'.toNat = 102 := rfl
  have hA : 'A'.toNat = 65 := rfl
  have hF : 'F'.toNat = 70 := rfl
  unfold hexDigit DigitChar
  simp only [char_le, h0, h9, ha, hf, hA, hF]
  split
  · rw [Option.some.injEq]; omega
  · split
    · rw [Option.some.injEq]; omega
    · split
      · rw [Option.some.injEq]; omega
      · constructor
        · nofun
        · omega

theorem digitOf_some {base : Nat} {c : Char} {d : Nat} : digitOf base c = some d ↔ DigitChar c d ∧ d < base := by
  unfold digitOf
  rw [Option.bind_eq_some_iff]
  constructor
  · rintro ⟨d', h, h'⟩
    split at h'
    · cases h'; exact ⟨hexDigit_some.1 h, by assumption⟩
    · cases h'
  · rintro ⟨h, h'⟩
    exact ⟨d, hexDigit_some.2 h, by rw [if_pos h']⟩

theorem digit_ne {c : Char} {d : Nat} (h : DigitChar c d) : c ≠ '_' := by
  rintro rfl
  have h0 : '0'.toNat = 48 := rfl
  have ha : 'a'.toNat = 97 := rfl
  have hA : 'A'.toNat = 65 := rfl
  have hu : '_'.toNat = 95 := rfl
  unfold DigitChar at h
  rw [h0, ha, hA, hu] at h
  omega

theorem parseDigits_append {base : Nat} {t u : List Char} {v : Nat} : parseDigits base (t ++ u) v = (parseDigits base t v).bind (parseDigits base u) := by
  induction t generalizing v with
  | nil => rfl
  | cons c t ih =>
    rw [List.cons_append, parseDigits, parseDigits]
    split
    · exact ih
    · cases digitOf base c with
      | none => rfl
      | some d => exact ih

/-- The loop over the digits computes their value. -/
theorem parseDigits_ok {base : Nat} {t : List Char} {n : Nat} : parseDigits base t 0 = .ok n ↔ Digits base t n := by
  constructor
  · intro h
    induction t using List.reverseRecOn generalizing n with
    | nil => cases h; exact .nil
    | append_singleton t c ih =>
      rw [parseDigits_append] at h
      obtain ⟨m, h1, h2⟩ := ok_of_bind h
      rw [parseDigits] at h2
      split at h2
      · next hc => subst hc; cases h2; exact .skip (ih h1)
      · cases hd : digitOf base c with
        | none => rw [hd] at h2; cases h2
        | some d =>
          rw [hd] at h2
          cases h2
          obtain ⟨h3, h4⟩ := digitOf_some.1 hd
          exact .digit (ih h1) h3 h4
  · intro h
    induction h with
    | nil => rfl
    | @digit t n c d _ h1 h2 ih =>
      rw [parseDigits_append, ih]
      show parseDigits base [c] n = _
      rw [parseDigits, if_neg (digit_ne h1), digitOf_some.2 ⟨h1, h2⟩]
      rfl
    | skip _ ih =>
      rw [parseDigits_append, ih]
      rfl

theorem Digits.unique {base : Nat} {t : List Char} {n m : Nat} (h : Digits base t n) (h' : Digits base t m) : n = m := by
  have := (parseDigits_ok.2 h).symm.trans (parseDigits_ok.2 h')
  cases this
  rfl

theorem mapM_append {α β : Type} {f : α → Option β} {a b : List α} : (a ++ b).mapM f = (a.mapM f).bind fun x => (b.mapM f).map (x ++ ·) := by
  rw [List.mapM_append]
  cases a.mapM f with
  | none => rfl
  | some x => cases b.mapM f <;> rfl

theorem mapM_one {α β : Type} {f : α → Option β} {a : α} : [a].mapM f = (f a).map ([·]) := by
  rw [List.mapM_cons]
  cases f a <;> rfl

theorem positional_snoc {base : Nat} {ds : List Nat} {d : Nat} : positional base (ds ++ [d]) = positional base ds * base + d := by
  simp [positional]

/-- Reading all digits and then computing their value is the same. -/
theorem mapM_digits {base : Nat} {t : List Char} {n : Nat} :
    (∃ ds, (t.filter (· ≠ '_')).mapM (digitOf base) = some ds ∧ positional base ds = n) ↔ Digits base t n := by
  constructor
  · rintro ⟨ds, h, rfl⟩
    induction t using List.reverseRecOn generalizing ds with
    | nil => cases h; exact .nil
    | append_singleton t c ih =>
      rw [List.filter_append] at h
      by_cases hc : c = '_'
      · subst hc
        simp only [ne_eq, not_true_eq_false, decide_false, Bool.false_eq_true, not_false_eq_true, List.filter_cons_of_neg, List.filter_nil, List.append_nil] at h
        exact .skip (ih ds h)
      · have : [c].filter (fun x => decide (x ≠ '_')) = [c] := by simp [hc]
        rw [this, mapM_append, mapM_one] at h
        cases h1 : (t.filter (· ≠ '_')).mapM (digitOf base) with
        | none => rw [h1] at h; cases h
        | some es =>
          rw [h1] at h
          cases hd : digitOf base c with
          | none => rw [hd] at h; cases h
          | some d =>
            rw [hd] at h
            cases h
            obtain ⟨h3, h4⟩ := digitOf_some.1 hd
            rw [positional_snoc]
            exact .digit (ih es h1) h3 h4
  · intro h
    induction h with
    | nil => exact ⟨[], rfl, rfl⟩
    | @digit t n c d _ h1 h2 ih =>
      obtain ⟨ds, h3, rfl⟩ := ih
      refine ⟨ds ++ [d], ?_, positional_snoc⟩
      have : [c].filter (fun x => decide (x ≠ '_')) = [c] := by simp [digit_ne h1]
      rw [List.filter_append, this, mapM_append, h3, mapM_one, digitOf_some.2 ⟨h1, h2⟩]
      rfl
    | skip _ ih =>
      obtain ⟨ds, h3, rfl⟩ := ih
      refine ⟨ds, ?_, rfl⟩
      rw [List.filter_append]
      simpa using h3

theorem parseBigInt_some {t : List Char} {n : Nat} : parseBigInt t = some n ↔ t ≠ [] ∧ t.head? ≠ some '_' ∧ Digits 10 t n := by
  rw [parseBigInt]
  split
  · next h =>
    constructor
    · nofun
    · rintro ⟨h1, h2, -⟩
      rcases h with h | h
      · exact absurd (List.isEmpty_iff.1 h) h1
      · exact absurd h h2
  · next h =>
    rw [Option.map_eq_some_iff, mapM_digits]
    simp only [List.isEmpty_iff] at h
    tauto

theorem fromStrRadix_some {radix max : Nat} {t : List Char} {n : Nat} (ht : t.head? ≠ some '+') :
    fromStrRadix radix max t = some n ↔ Digits radix t n ∧ '_' ∉ t ∧ t ≠ [] ∧ n ≤ max := by
  have : fromStrRadix radix max t = if t.isEmpty then none else (t.mapM (digitOf radix)).bind fun ds => if positional radix ds ≤ max then some (positional radix ds) else none := by
    have : afterPlus t = t := by
      unfold afterPlus
      split
      · simp at ht
      · rfl
    rw [fromStrRadix, this]
  rw [this]
  split
  · next h =>
    constructor
    · nofun
    · rintro ⟨-, -, h', -⟩
      exact absurd (List.isEmpty_iff.1 h) h'
  · next hne =>
    rw [List.isEmpty_iff] at hne
    have hund : ∀ ds, t.mapM (digitOf radix) = some ds → '_' ∉ t := by
      intro ds h hu
      clear this ht hne
      induction t generalizing ds with
      | nil => cases hu
      | cons c t ih =>
        rw [List.mapM_cons] at h
        cases hd : digitOf radix c with
        | none => rw [hd] at h; cases h
        | some d =>
          rw [hd] at h
          cases h1 : t.mapM (digitOf radix) with
          | none => rw [h1] at h; cases h
          | some es =>
            rcases List.mem_cons.1 hu with rfl | hu
            · exact digit_ne (digitOf_some.1 hd).1 rfl
            · exact ih es h1 hu
    have hfil : '_' ∉ t → t.filter (· ≠ '_') = t := by
      intro h
      rw [List.filter_eq_self]
      intro c hc
      simp only [ne_eq, decide_not, Bool.not_eq_eq_eq_not, Bool.not_true, decide_eq_false_iff_not]
      rintro rfl
      exact h hc
    rw [Option.bind_eq_some_iff]
    constructor
    · rintro ⟨ds, h1, h2⟩
      split at h2
      · next hmax =>
        cases h2
        refine ⟨mapM_digits.1 ⟨ds, ?_, rfl⟩, hund ds h1, hne, hmax⟩
        rw [hfil (hund ds h1)]
        exact h1
      · cases h2
    · rintro ⟨h1, h2, -, h4⟩
      obtain ⟨ds, h5, rfl⟩ := mapM_digits.2 h1
      rw [hfil h2] at h5
      exact ⟨ds, h5, by rw [if_pos h4]⟩

/-! ### Escape sequences -/

theorem simpleEscape_some {c d : Char} : simpleEscape c = some d ↔ (c, d) ∈ escapes := by
  constructor
  · intro h
    unfold simpleEscape at h
    split at h <;> first | (cases h; decide) | cases h
  · intro h
    simp only [escapes, List.mem_cons, Prod.mk.injEq, List.not_mem_nil, or_false] at h
    rcases h with ⟨rfl, rfl⟩ | ⟨rfl, rfl⟩ | ⟨rfl, rfl⟩ | ⟨rfl, rfl⟩ | ⟨rfl, rfl⟩ | ⟨rfl, rfl⟩ <;> rfl

theorem escapes_not_unicode {c d : Char} (h : (c, d) ∈ escapes) : c ≠ 'u' ∧ c ≠ 'U' := by
  simp only [escapes, List.mem_cons, Prod.mk.injEq, List.not_mem_nil, or_false] at h
  rcases h with ⟨rfl, rfl⟩ | ⟨rfl, rfl⟩ | ⟨rfl, rfl⟩ | ⟨rfl, rfl⟩ | ⟨rfl, rfl⟩ | ⟨rfl, rfl⟩ <;> decide

/-- Collecting the digits of an escape sequence. -/
theorem unescape_unicode {n : Nat} {chars ds t : List Char} (h : chars.length + ds.length = n) (hds : ds ≠ []) :
    unescape (.unicode n chars) (ds ++ t) = match unicodeChar (chars ++ ds) with
      | some d => (unescape .idle t).map (d :: ·)
      | none => none := by
  induction ds generalizing chars with
  | nil => exact absurd rfl hds
  | cons c ds ih =>
    rw [List.cons_append, unescape]
    cases ds with
    | nil =>
      rw [if_neg (by simp at h; omega)]
      rfl
    | cons c' ds =>
      rw [if_pos (by simp at h; omega), ih (by simp at h ⊢; omega) (by simp), List.append_assoc]
      rfl

/-- An escape sequence with too few characters. -/
theorem unescape_short {n : Nat} {chars ds : List Char} (h : chars.length + ds.length < n) : unescape (.unicode n chars) ds = none := by
  induction ds generalizing chars with
  | nil => rfl
  | cons c ds ih =>
    rw [unescape, if_pos (by simp at h; omega), ih (by simp at h ⊢; omega)]

theorem digits_lt {base : Nat} {t : List Char} {n : Nat} (h : Digits base t n) : n < base ^ t.length ∨ base = 0 := by
  induction h with
  | nil => simp
  | @digit t n c d _ _ hd ih =>
    rcases ih with ih | ih
    · left
      rw [List.length_append, List.length_singleton, pow_succ]
      have : (n + 1) * base ≤ base ^ t.length * base := Nat.mul_le_mul_right _ ih
      rw [Nat.add_mul] at this
      omega
    · exact .inr ih
  | @skip t n _ ih =>
    rcases ih with ih | ih
    · by_cases hb : base = 0
      · exact .inr hb
      · left
        rw [List.length_append, List.length_singleton, pow_succ]
        have : base ^ t.length * 1 ≤ base ^ t.length * base := Nat.mul_le_mul_left _ (by omega)
        omega
    · exact .inr ih

theorem digit_not_plus {base : Nat} {ds : List Char} {n : Nat} (h : Digits base ds n) : '+' ∉ ds := by
  induction h with
  | nil => simp
  | @digit t n c d _ hc _ ih =>
    intro hm
    rcases List.mem_append.1 hm with hm | hm
    · exact ih hm
    · simp only [List.mem_singleton] at hm
      subst hm
      have h0 : '0'.toNat = 48 := rfl
      have ha : 'a'.toNat = 97 := rfl
      have hA : 'A'.toNat = 65 := rfl
      have hu : '+'.toNat = 43 := rfl
      unfold DigitChar at hc
      rw [h0, ha, hA, hu] at hc
      omega
  | skip _ ih =>
    intro hm
    rcases List.mem_append.1 hm with hm | hm
    · exact ih hm
    · revert hm; decide

theorem fromStrRadix_plus {radix max : Nat} {t : List Char} (ht : t.head? ≠ some '+') : fromStrRadix radix max ('+' :: t) = fromStrRadix radix max t := by
  have : afterPlus t = t := by
    unfold afterPlus
    split
    · simp at ht
    · rfl
  rw [fromStrRadix, fromStrRadix, this]
  rfl

theorem fromStrRadix_hex {max : Nat} {t : List Char} {n : Nat} (hmax : 16 ^ t.length ≤ max + 1) :
    fromStrRadix 16 max t = some n ↔ HexPlus t n ∧ t ≠ [] := by
  by_cases ht : t.head? = some '+'
  · obtain ⟨u, rfl⟩ : ∃ u, t = '+' :: u := by
      cases t with
      | nil => cases ht
      | cons c u => cases ht; exact ⟨u, rfl⟩
    have hpow : 16 ^ u.length ≤ max := by
      rw [List.length_cons, pow_succ] at hmax
      have : 0 < 16 ^ u.length := by positivity
      omega
    by_cases hu : u.head? = some '+'
    · obtain ⟨v, rfl⟩ : ∃ v, u = '+' :: v := by
        cases u with
        | nil => cases hu
        | cons c v => cases hu; exact ⟨v, rfl⟩
      constructor
      · intro h
        exfalso
        rw [fromStrRadix] at h
        have hd : digitOf 16 '+' = none := by decide
        simp [afterPlus, List.mapM_cons, hd] at h
      · rintro ⟨⟨-, h⟩ | ⟨rest, h1, h2, -, h⟩, -⟩
        · exact absurd (by simp) (digit_not_plus h)
        · cases h1; exact absurd (by simp) (digit_not_plus h)
    · rw [fromStrRadix_plus hu, fromStrRadix_some hu]
      constructor
      · rintro ⟨h1, h2, h3, -⟩
        exact ⟨.inr ⟨u, rfl, h3, h2, h1⟩, by simp⟩
      · rintro ⟨⟨-, h⟩ | ⟨rest, h1, h2, h3, h⟩, -⟩
        · exact absurd (by simp) (digit_not_plus h)
        · cases h1
          have := digits_lt h
          exact ⟨h, h3, h2, by omega⟩
  · rw [fromStrRadix_some ht]
    constructor
    · rintro ⟨h1, h2, h3, -⟩
      exact ⟨.inl ⟨h2, h1⟩, h3⟩
    · rintro ⟨⟨h1, h⟩ | ⟨rest, rfl, -⟩, h2⟩
      · have := digits_lt h
        exact ⟨h, h1, h2, by omega⟩
      · exact absurd rfl ht

theorem unicodeChar_some {ds : List Char} {d : Char} : unicodeChar ds = some d ↔ ∃ n, HexPlus ds n ∧ ds ≠ [] ∧ n.isValidChar ∧ d = Char.ofNat n := by
  have hmax : 16 ^ ds.length ≤ 16 ^ ds.length - 1 + 1 := by omega
  rw [unicodeChar, Option.bind_eq_some_iff]
  constructor
  · rintro ⟨n, h, h'⟩
    obtain ⟨h1, h2⟩ := (fromStrRadix_hex hmax).1 h
    split at h'
    · next hv => cases h'; exact ⟨n, h1, h2, hv, rfl⟩
    · cases h'
  · rintro ⟨n, h1, h2, h3, rfl⟩
    exact ⟨n, (fromStrRadix_hex hmax).2 ⟨h1, h2⟩, by rw [if_pos h3]⟩

/-- The characters between two quotation marks, as the grammar has them. -/
inductive Between (q : Char) : List Char → Prop
  | nil : Between q []
  | plain {c t} : c ≠ '\\' → c ≠ q → Between q t → Between q (c :: t)
  | escape {c t} : c ≠ '\r' → c ≠ '\n' → Between q t → Between q ('\\' :: c :: t)

theorem digit_char_of_mem {base : Nat} {ds : List Char} {n : Nat} (h : Digits base ds n) : ∀ c ∈ ds, c = '_' ∨ ∃ d, DigitChar c d := by
  induction h with
  | nil => nofun
  | digit _ hc _ ih =>
    intro x hx
    rcases List.mem_append.1 hx with hx | hx
    · exact ih x hx
    · simp only [List.mem_singleton] at hx; subst hx; exact .inr ⟨_, hc⟩
  | skip _ ih =>
    intro x hx
    rcases List.mem_append.1 hx with hx | hx
    · exact ih x hx
    · simp only [List.mem_singleton] at hx; subst hx; exact .inl rfl

/-- Digits of an escape sequence are no quotation marks and no backslashes, so that what comes after them is between the quotation marks too. -/
theorem between_after {q : Char} {ds t : List Char} (hd : ∀ c ∈ ds, c = '+' ∨ ∃ d, DigitChar c d) (h : Between q (ds ++ t)) : Between q t := by
  induction ds with
  | nil => exact h
  | cons c ds ih =>
    rw [List.cons_append] at h
    have hc := hd c (by simp)
    generalize hs : ds ++ t = s at h ih
    cases h with
    | plain h1 h2 h3 => exact ih (fun x hx => hd x (by simp [hx])) h3
    | escape =>
      exfalso
      have h0 : '0'.toNat = 48 := rfl
      have ha : 'a'.toNat = 97 := rfl
      have hA : 'A'.toNat = 65 := rfl
      have hu : '\\'.toNat = 92 := rfl
      rcases hc with hc | ⟨d, hc⟩
      · revert hc; decide
      · unfold DigitChar at hc
        rw [h0, ha, hA, hu] at hc
        omega

theorem hexPlus_chars {ds : List Char} {n : Nat} (h : HexPlus ds n) : ∀ c ∈ ds, c = '+' ∨ ∃ d, DigitChar c d := by
  have hex : ∀ {ds}, Hex ds n → ∀ c ∈ ds, ∃ d, DigitChar c d := by
    rintro ds ⟨h1, h2⟩ c hc
    rcases digit_char_of_mem h2 c hc with rfl | h
    · exact absurd hc h1
    · exact h
  intro c hc
  rcases h with h | ⟨rest, rfl, -, h⟩
  · exact .inr (hex h c hc)
  · rcases List.mem_cons.1 hc with rfl | hc
    · exact .inl rfl
    · exact .inr (hex h c hc)

/-- What may be written is read as it says. -/
theorem unescape_of_quoted {q : Char} {t v : List Char} (h : Quoted HexPlus q t v) : unescape .idle t = some v := by
  have uni : ∀ {n : Nat} {ds t v : List Char} {m : Nat}, ds.length = n → 0 < n → HexPlus ds m → m.isValidChar → unescape .idle t = some v →
      unescape (.unicode n []) (ds ++ t) = some (Char.ofNat m :: v) := by
    intro n ds t v m h1 h0 h3 h4 h5
    have hne : ds ≠ [] := by rintro rfl; simp at h1; omega
    rw [unescape_unicode (by simpa using h1) hne, List.nil_append, unicodeChar_some.2 ⟨m, h3, hne, h4, rfl⟩]
    simp [h5]
  induction h with
  | nil => rfl
  | plain h1 _ _ ih => rw [unescape, if_neg h1, ih]; rfl
  | @escape c d t v h1 _ ih =>
    obtain ⟨h2, h3⟩ := escapes_not_unicode h1
    rw [unescape, if_pos rfl, unescape, if_neg h2, if_neg h3, simpleEscape_some.2 h1]
    simp [ih]
  | @unicode4 ds n t v h1 h3 h4 _ ih =>
    simp only [List.cons_append]
    rw [unescape, if_pos rfl, unescape, if_pos rfl]
    exact uni h1 (by omega) h3 h4 ih
  | @unicode8 ds n t v h1 h3 h4 _ ih =>
    simp only [List.cons_append]
    rw [unescape, if_pos rfl, unescape, if_neg (by decide), if_pos rfl]
    exact uni h1 (by omega) h3 h4 ih

/-- What is read is what was written. -/
theorem quoted_of_unescape {q : Char} {t v : List Char} (hb : Between q t) (h : unescape .idle t = some v) : Quoted HexPlus q t v := by
  have : ∀ k (t v : List Char), t.length = k → Between q t → unescape .idle t = some v → Quoted HexPlus q t v := by
    intro k
    induction k using Nat.strong_induction_on with
    | _ k ih =>
      intro t v hk hb h
      cases hb with
      | nil => cases h; exact .nil
      | @plain c t h1 h2 h3 =>
        rw [unescape, if_neg h1, Option.map_eq_some_iff] at h
        obtain ⟨w, h4, rfl⟩ := h
        exact .plain h1 h2 (ih t.length (by simp at hk; omega) t w rfl h3 h4)
      | @escape c t h1 h2 h3 =>
        have uni : ∀ n, 0 < n → unescape (.unicode n []) t = some v →
            ∃ ds m s w, t = ds ++ s ∧ ds.length = n ∧ HexPlus ds m ∧ m.isValidChar ∧ v = Char.ofNat m :: w ∧ Quoted HexPlus q s w := by
          intro n h0 h
          by_cases hl : t.length < n
          · rw [unescape_short (by simpa using hl)] at h
            cases h
          · have hlen : (t.take n).length = n := by rw [List.length_take]; omega
            have htake : t.take n ≠ [] := by
              intro hh
              rw [hh] at hlen
              simp at hlen
              omega
            have hsplit : t.take n ++ t.drop n = t := List.take_append_drop n t
            rw [← hsplit, unescape_unicode (by simpa using hlen) htake, List.nil_append] at h
            cases hc : unicodeChar (t.take n) with
            | none => rw [hc] at h; cases h
            | some d =>
              rw [hc] at h
              simp only at h
              rw [Option.map_eq_some_iff] at h
              obtain ⟨w, h4, rfl⟩ := h
              obtain ⟨m, h5, h7, h8, rfl⟩ := unicodeChar_some.1 hc
              refine ⟨t.take n, m, t.drop n, w, hsplit.symm, hlen, h5, h8, rfl, ?_⟩
              refine ih (t.drop n).length (by simp at hk ⊢; omega) _ w rfl ?_ h4
              exact between_after (ds := t.take n) (hexPlus_chars h5) (by rw [hsplit]; exact h3)
        rw [unescape, if_pos rfl, unescape] at h
        split at h
        · next hc =>
          obtain ⟨ds, m, s, w, rfl, h5, h7, h8, rfl, h9⟩ := uni 4 (by omega) h
          subst hc
          exact .unicode4 h5 h7 h8 h9
        · split at h
          · next hc =>
            obtain ⟨ds, m, s, w, rfl, h5, h7, h8, rfl, h9⟩ := uni 8 (by omega) h
            subst hc
            exact .unicode8 h5 h7 h8 h9
          · cases hs : simpleEscape c with
            | none => rw [hs] at h; cases h
            | some d =>
              rw [hs] at h
              simp only at h
              rw [Option.map_eq_some_iff] at h
              obtain ⟨w, h4, rfl⟩ := h
              exact .escape (simpleEscape_some.1 hs) (ih t.length (by simp at hk; omega) t w rfl h3 h4)
  exact this _ t v rfl hb h

end Verif.Parse
