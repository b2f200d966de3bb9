import Verif.Parse.Specified
import Verif.Parse.Check

/-!
C90 and C91: what the DSDL parser does with any text at all. `Verif.Parse.WrittenSpec` says what a text stands for.
-/

namespace Verif.Parse

open Verif.Front

/-! ### C90: the parser comes to an end, and does not panic -/

/-- C90: matching comes to an end for every text and every rule of the grammar. -/
theorem C90_matching_ends (r : Rule) (text : List Char) : ∃ depth, run dsdl text depth (.rule r) text ≠ .timeout :=
  ⟨_, run_enough r text⟩

/-- C90: whatever the text is, the parser gives lines or an error. Here no number in the text is 2¹²⁸ or more; see `C90_counterexample_exponent`. -/
theorem C90_no_panic_partial {text : String} (h : ∀ d n, d <:+: text.toList → Digits 10 d n → n < 2 ^ 128) :
    parse text = .error ∨ ∃ lines, parse text = .ok lines := by
  have h1 := parse_np (text := text) fun d n hd hn => h d n hd (parseDigits_ok.1 hn)
  cases h2 : parse text with
  | ok ls => exact .inr ⟨ls, rfl⟩
  | error => exact .inl rfl
  | panic => exact absurd h2 h1

theorem digitsSmall {d : List Char} {n : Nat} (h : Digits 10 d n) : n < 10 ^ d.length := by
  induction h with
  | nil => norm_num
  | digit _ _ hd ih => rw [List.length_append, List.length_singleton, pow_succ]; omega
  | skip _ ih => rw [List.length_append, List.length_singleton, pow_succ]; omega

/-- Any text of up to 38 characters meets the hypothesis of `C90_no_panic_partial`. -/
theorem C90_no_panic_short {text : String} (h : text.length ≤ 38) : parse text = .error ∨ ∃ lines, parse text = .ok lines := by
  refine C90_no_panic_partial fun d n hd hn => (digitsSmall hn).trans_le ?_
  have h1 : d.length ≤ 38 := hd.length_le.trans (by rw [String.length_toList]; exact h)
  exact (Nat.pow_le_pow_right (by norm_num) h1).trans (by norm_num)

example : (∃ lines, parse "uint8[<=2 ** 3] data # bytes\n@sealed" = .ok lines) ∧ parse "uint8[<=2 ** data" = .error :=
  ⟨⟨[.statement (.field (.array (.prim (.uint 8 .saturated)) .inclusive (.binary .exponent (.number 2) (.number 3))) "data"), .comment " bytes",
      .statement (.directive "sealed" none)], parse_of_reads (by decide +kernel)⟩, parse_of_refuses (by decide +kernel)⟩

/-- C90 does not hold for all texts: a number with an exponent of 2¹²⁸ makes the parser panic. -/
theorem C90_counterexample_exponent : parse "@print 1e340282366920938463463374607431768211456" = .panic :=
  parse_of_panics (by decide +kernel)

/-! ### C91: what the parser gives is what the text stands for -/

/-- C91: the lines the parser gives are those that the text stands for by the specification: each statement, each operator by its precedence, each
literal with its value. Here the text has no `_` between digits after a point, and no `\u+`; see the counterexamples. -/
theorem C91_reads_partial {text : String} {lines : List Line} (h : parse text = .ok lines) (h1 : ¬ SplitFraction text.toList) (h2 : ¬ PlusEscape text.toList) :
    DefinitionText specified lines text.toList := (parse_sound h).specified ⟨h1, h2⟩

/-- C91: for every text, the lines the parser gives are those that the text stands for, when a `_` counts as a place after the point and the digits of a
Unicode escape sequence may begin with `+`. -/
theorem C91_reads_exact {text : String} {lines : List Line} (h : parse text = .ok lines) : DefinitionText accepted lines text.toList := parse_sound h

/-- The expression `-2 ** 2 * x.min`: a power before the sign, and the sign before the product. -/
example : parse "@print -2 ** 2 * x.min" = .ok [.statement (.directive "print" (some
      (.binary .multiply (.unary .minus (.binary .exponent (.number 2) (.number 2))) (.attribute (.identifier "x") "min"))))] ∧
    ¬ SplitFraction "@print -2 ** 2 * x.min".toList ∧ ¬ PlusEscape "@print -2 ** 2 * x.min".toList := by
  refine ⟨parse_of_reads (by decide +kernel), ?_, ?_⟩
  · rintro ⟨w, f, r, h, h1, -⟩
    have : '_' ∈ "@print -2 ** 2 * x.min".toList := by rw [h]; simp [h1]
    revert this; decide
  · rintro ⟨a, u, b, h, -⟩
    have : '\\' ∈ "@print -2 ** 2 * x.min".toList := by rw [h]; simp
    revert this; decide

/-- C91 does not hold for all texts: `0.1_5` stands for 0.15, and the parser gives 0.015. -/
theorem C91_counterexample_fraction :
    parse "@print 0.1_5" = .ok [.statement (.directive "print" (some (.number (3 / 200))))] ∧
      DefinitionText specified [.statement (.directive "print" (some (.number (3 / 20))))] "@print 0.1_5".toList := by
  refine ⟨parse_of_reads (by decide +kernel), .last ?_⟩
  have d0 : Digits 10 ['0'] 0 := Digits.digit (d := 0) .nil (.inl ⟨by decide, rfl⟩) (by decide)
  have d1 : Digits 10 ['1'] 1 := Digits.digit (d := 1) .nil (.inl ⟨by decide, rfl⟩) (by decide)
  have d15 : Digits 10 ['1', '_', '5'] 15 := Digits.digit (d := 5) (.skip d1) (.inl ⟨by decide, rfl⟩) (by decide)
  have g0 : Group ['0'] 0 := ⟨⟨d0, .digit (by decide) .nil, by simp⟩, by simp⟩
  have g15 : Group ['1', '_', '5'] 15 := ⟨⟨d15, .digit (by decide) (.skip (by decide) .nil), by simp⟩, by simp⟩
  have hn : specified.number "0.1_5".toList (3 / 20) := by
    have h := Mantissa.fraction (count := digitCount) g0 g15
    have e : ((0 : Nat) : ℚ) + ((15 : Nat) : ℚ) / 10 ^ digitCount ['1', '_', '5'] = 3 / 20 := by
      rw [show digitCount ['1', '_', '5'] = 2 from rfl]; norm_num
    rw [e] at h
    exact .real h (by decide)
  have hw : ∀ k ≤ 9, Written specified (.expr (9 - k) (.number (3 / 20))) "0.1_5".toList := by
    intro k hk
    induction k with
    | zero => exact .number hn
    | succ k ih =>
      refine .tighter (by omega) ?_
      rw [show 9 - (k + 1) + 1 = 9 - k by omega]
      exact ih (by omega)
  have hname : Name "print".toList := ⟨'p', "rint".toList, rfl, by simp only [NameStart]; decide, by simp only [NameChar, NameStart]; decide⟩
  exact LineText.statement (x := []) (.directiveExpr (n := "print".toList) (x := [' ']) hname ⟨by simp [Blank], by simp⟩ (hw 9 (le_refl _))) (by simp [Blank])

/-- C91 does not hold for all texts: `'\u+041'` is no string by the specification, and the parser gives `A`. -/
theorem C91_counterexample_escape :
    parse "@print '\\u+041'" = .ok [.statement (.directive "print" (some (.string "A")))] ∧ ∀ s, ¬ StringText Hex "'\\u+041'".toList s := by
  refine ⟨parse_of_reads (by decide +kernel), ?_⟩
  rintro s ⟨q, body, -, h, hq⟩
  have hb : body = ['\\', 'u', '+', '0', '4', '1'] := by
    have e : "'\\u+041'".toList = ['\'', '\\', 'u', '+', '0', '4', '1', '\''] := rfl
    rw [e] at h
    have h' := (List.cons.inj h).2
    have h2 := congrArg List.dropLast h'
    simpa using h2.symm
  generalize s.toList = v at hq
  cases hq with
  | nil => cases hb
  | plain h1 => exact h1 (List.cons.inj hb).1
  | escape h1 =>
    obtain ⟨rfl, -⟩ := List.cons.inj (List.cons.inj hb).2
    simp [escapes] at h1
  | unicode8 => exact absurd (List.cons.inj (List.cons.inj hb).2).1 (by decide)
  | @unicode4 ds n t v h1 h2 =>
    have : ds = ['+', '0', '4', '1'] := by
      have := congrArg (List.take 4) (List.cons.inj (List.cons.inj hb).2).2
      simpa [List.take_append, h1] using this
    subst this
    rcases digit_char_of_mem h2.2 '+' (by simp) with h | ⟨d, h⟩
    · revert h; decide
    · rcases h with ⟨_, h⟩ | ⟨_, _, h | h⟩ <;> (have e1 : '+'.toNat = 43 := rfl; have e2 : '0'.toNat = 48 := rfl; have e3 : 'a'.toNat = 97 := rfl; have e4 : 'A'.toNat = 65 := rfl; omega)

end Verif.Parse
