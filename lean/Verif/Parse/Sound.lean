import Verif.Parse.Forward

/-!
What the parser accepts stands for the statements that it gives, after the specification in `WrittenSpec`.
-/

namespace Verif.Parse

open Verif.Front

/-! ### Each pair is the result of matching its rule -/

section

variable {R : Type} {g : Grammar R} {whole : List Char}

/-- A property of all pairs of a tree. -/
inductive Pair.All (I : R → List Char → List (Pair R) → Prop) : Pair R → Prop
  | node {r t qs} : I r t qs → (∀ q ∈ qs, Pair.All I q) → Pair.All I (.node r t qs)

/-- The rule matches the text of the pair, followed by something. -/
def Ran (g : Grammar R) (whole : List Char) (r : R) (t : List Char) (qs : List (Pair R)) : Prop := ∃ rest, Ok g whole (g.body r) (t ++ rest) qs rest

theorem run_tree {n : Nat} : ∀ {e : Peg R} {s ps rest}, run g whole n e s = .ok ps rest → ∀ p ∈ ps, p.All (Ran g whole) := by
  induction n with
  | zero => intro e s ps rest h; cases h
  | succ n ih =>
    intro e s ps rest h
    rw [run_succ] at h
    cases e with
    | lit l => simp only at h; split at h <;> cases h; nofun
    | range a b => simp only at h; split at h <;> [split at h; skip] <;> cases h; nofun
    | any => simp only at h; split at h <;> cases h; nofun
    | soi => simp only at h; split at h <;> cases h; nofun
    | eoi => simp only at h; split at h <;> cases h; nofun
    | rule r =>
      simp only at h
      cases hb : run g whole n (g.body r) s with
      | timeout => rw [hb] at h; cases h
      | fail => rw [hb] at h; cases h
      | ok qs rest' =>
        rw [hb] at h
        simp only at h
        have hq := ih hb
        split at h
        · cases h; exact hq
        · cases h
          intro p hp
          simp only [List.mem_singleton] at hp
          subst hp
          obtain ⟨t, rfl, -⟩ := run_derives hb
          have : (t ++ rest).take ((t ++ rest).length - rest.length) = t := by simp
          rw [this]
          exact .node ⟨rest, n, hb⟩ hq
    | seq a b =>
      simp only at h
      cases h1 : run g whole n a s with
      | timeout => rw [h1] at h; cases h
      | fail => rw [h1] at h; cases h
      | ok qs rest' =>
        rw [h1] at h
        simp only at h
        cases h2 : run g whole n b rest' with
        | timeout => rw [h2] at h; cases h
        | fail => rw [h2] at h; cases h
        | ok qs' rest'' =>
          rw [h2] at h
          cases h
          intro p hp
          rcases List.mem_append.1 hp with hp | hp
          exacts [ih h1 p hp, ih h2 p hp]
    | choice a b =>
      simp only at h
      cases h1 : run g whole n a s with
      | timeout => rw [h1] at h; cases h
      | fail => rw [h1] at h; exact ih h
      | ok qs rest' => rw [h1] at h; cases h; exact ih h1
    | opt a =>
      simp only at h
      cases h1 : run g whole n a s with
      | timeout => rw [h1] at h; cases h
      | fail => rw [h1] at h; cases h; nofun
      | ok qs rest' => rw [h1] at h; cases h; exact ih h1
    | star a =>
      simp only at h
      cases h1 : run g whole n a s with
      | timeout => rw [h1] at h; cases h
      | fail => rw [h1] at h; cases h; nofun
      | ok qs rest' =>
        rw [h1] at h
        simp only at h
        cases h2 : run g whole n (.star a) rest' with
        | timeout => rw [h2] at h; cases h
        | fail => rw [h2] at h; cases h
        | ok qs' rest'' =>
          rw [h2] at h
          cases h
          intro p hp
          rcases List.mem_append.1 hp with hp | hp
          exacts [ih h1 p hp, ih h2 p hp]
    | not a =>
      simp only at h
      cases h1 : run g whole n a s with
      | timeout => rw [h1] at h; cases h
      | fail => rw [h1] at h; cases h; nofun
      | ok qs rest' => rw [h1] at h; cases h

end

/-- All pairs of a tree come from matching their rules. -/
def Tree (p : Pair Rule) : Prop := ∃ whole, p.All (Ran dsdl whole)

theorem Tree.ran {r : Rule} {t qs} (h : Tree (.node r t qs)) : ∃ whole rest, Ok dsdl whole r.body (t ++ rest) qs rest := by
  obtain ⟨whole, h⟩ := h
  cases h with
  | node h _ => exact ⟨whole, h⟩

theorem Tree.inner {r : Rule} {t qs} (h : Tree (.node r t qs)) : ∀ q ∈ qs, Tree q := by
  obtain ⟨whole, h⟩ := h
  cases h with
  | node _ h => exact fun q hq => ⟨whole, h q hq⟩

/-! ### White space -/

theorem ws_text {t ps} (h : Derives dsdl (.rule .ws) t ps) : ps = [] ∧ Blanks t := by
  refine ⟨ws_pairs h, (silent_rule rfl h).only ?_, h.not_nullable dsdl_guarded.nullable rfl⟩
  simp [Rule.body, Peg.Only]

theorem ows_text {t ps} (h : Derives dsdl ows t ps) : ps = [] ∧ Blank t := by
  rcases d_opt.1 h with ⟨rfl, rfl⟩ | h
  · exact ⟨rfl, nofun⟩
  · exact ⟨(ws_text h).1, (ws_text h).2.1⟩

/-! ### Names -/

theorem name_text {p} (h : Good .identifier p) : Name p.text := by
  obtain ⟨t, qs, h, rfl⟩ := h
  replace h := d_seq.1 h
  obtain ⟨t₁, _, t₂, _, h1, h2, rfl, -⟩ := h
  have hstart : ∃ c, t₁ = [c] ∧ NameStart c := by
    simp only [d_choice, d_range, d_lit] at h1
    rcases h1 with ⟨⟨c, ha, hb, rfl⟩, -⟩ | ⟨⟨c, ha, hb, rfl⟩, -⟩ | ⟨rfl, -⟩
    · exact ⟨c, rfl, .inl ⟨ha, hb⟩⟩
    · exact ⟨c, rfl, .inr (.inl ⟨ha, hb⟩)⟩
    · exact ⟨'_', rfl, .inr (.inr rfl)⟩
  obtain ⟨c, rfl, hc⟩ := hstart
  refine ⟨c, t₂, rfl, hc, h2.only (S := NameChar) ?_⟩
  simp only [Peg.Only]
  refine ⟨fun c h1 h2 => .inl (.inl ⟨h1, h2⟩), fun c h1 h2 => .inl (.inr (.inl ⟨h1, h2⟩)), fun c h1 h2 => .inr ⟨h1, h2⟩, ?_⟩
  intro c hc
  simp at hc
  exact .inl (.inr (.inr hc))

/-! ### Numbers -/

theorem parseU8_ok {t : List Char} {n : Nat} {r : Rule} {qs} (ht : t.head? ≠ some '+') (h : parseU8 (.node r t qs) = .ok n) :
    Digits 10 t n ∧ '_' ∉ t ∧ t ≠ [] ∧ n ≤ 255 := by
  have : fromStrRadix 10 255 t = some n := by
    unfold parseU8 at h
    cases hf : fromStrRadix 10 255 (Pair.node r t qs).text with
    | none => rw [hf] at h; cases h
    | some m => rw [hf] at h; cases h; exact hf
  exact (fromStrRadix_some ht).1 this

theorem no_plus_of_digits {base : Nat} {t : List Char} (h : ∀ c ∈ t, IsDigit base c) : t.head? ≠ some '+' := by
  intro hh
  rcases h _ (List.mem_of_mem_head? hh) with h | h
  · revert h; decide
  · rw [Option.isSome_iff_exists] at h
    obtain ⟨d, h⟩ := h
    obtain ⟨hc, -⟩ := digitOf_some.1 h
    have h0 : '0'.toNat = 48 := rfl
    have ha : 'a'.toNat = 97 := rfl
    have hA : 'A'.toNat = 65 := rfl
    have hu : '+'.toNat = 43 := rfl
    unfold DigitChar at hc
    rw [h0, ha, hA, hu] at hc
    omega

theorem Separated.append {t u : List Char} (h : Separated t) (h' : Separated u) : Separated (t ++ u) := by
  induction h with
  | nil => exact h'
  | digit hc _ ih => exact .digit hc ih
  | skip hc _ ih => exact .skip hc ih

/-- Digits that may each have a `_` before them. -/
theorem separated_star {D : Peg Rule} (hD : ∀ u qs, Derives dsdl D u qs → ∃ c, u = [c] ∧ c ≠ '_') {t ps}
    (h : Derives dsdl (many (.seq (opt (.lit "_")) D)) t ps) : Separated t := by
  generalize he : many (.seq (opt (.lit "_")) D) = a at h
  induction h with
  | starNil => exact .nil
  | starCons h1 _ _ ih =>
    cases he
    obtain ⟨_, _, _, _, h2, h3, rfl, -⟩ := d_seq.1 h1
    obtain ⟨c, rfl, hc⟩ := hD _ _ h3
    simp only [d_opt, d_lit] at h2
    rcases h2 with ⟨rfl, -⟩ | ⟨rfl, -⟩
    · exact .digit hc (ih rfl)
    · exact .skip hc (ih rfl)
  | _ => cases he

theorem separated_some {D : Peg Rule} (hD : ∀ u qs, Derives dsdl D u qs → ∃ c, u = [c] ∧ c ≠ '_') {t ps}
    (h : Derives dsdl (some' (.seq (opt (.lit "_")) D)) t ps) : Separated t := by
  obtain ⟨_, _, _, _, h1, h2, rfl, -⟩ := d_seq.1 h
  have := separated_star hD (Derives.starCons h1 .starNil)
  rw [List.append_nil] at this
  exact this.append (separated_star hD h2)

theorem range_digit {a b : Char} (hb : b.toNat < 95 ∨ 95 < a.toNat) {u qs} (h : Derives dsdl (.range a b) u qs) : ∃ c, u = [c] ∧ c ≠ '_' := by
  obtain ⟨⟨c, h1, h2, rfl⟩, -⟩ := d_range.1 h
  refine ⟨c, rfl, ?_⟩
  rintro rfl
  rw [char_le] at h1 h2
  have : '_'.toNat = 95 := rfl
  omega

theorem group_of_digits {t qs n} (h : Derives dsdl Rule.literal_real_digits.body t qs) (hn : Digits 10 t n) : Group t n := by
  obtain ⟨_, _, _, _, h1, h2, rfl, -⟩ := d_seq.1 h
  obtain ⟨c, rfl, hc⟩ := range_digit (by decide) h1
  exact ⟨⟨hn, .digit hc (separated_star (fun _ _ h => range_digit (by decide) h) h2), by simp⟩, by simpa using hc⟩

theorem digits_zero {t : List Char} {n : Nat} (h : Digits 10 t n) (ht : ∀ c ∈ t, c = '0' ∨ c = '_') : n = 0 := by
  induction h with
  | nil => rfl
  | @digit t n c d _ hc _ ih =>
    rcases ht c (by simp) with rfl | rfl
    · have : d = 0 := by
        have h0 : '0'.toNat = 48 := rfl
        have ha : 'a'.toNat = 97 := rfl
        have hA : 'A'.toNat = 65 := rfl
        unfold DigitChar at hc
        rw [h0, ha, hA] at hc
        omega
      rw [ih fun c hc => ht c (by simp [hc]), this]
    · exact absurd rfl (digit_ne hc)
  | skip _ ih => exact ih fun c hc => ht c (by simp [hc])

/-- Decimal integers: zeros, or a number that does not begin with one. -/
theorem group_of_decimal {t qs n} (h : Derives dsdl Rule.literal_integer_decimal.body t qs) (hn : Digits 10 t n) : Group t n ∧ (t.head? = some '0' → n = 0) := by
  rcases d_choice.1 h with h | h
  · have zero : ∀ u qs, Derives dsdl (.lit "0") u qs → ∃ c, u = [c] ∧ c ≠ '_' := by
      intro u qs h
      obtain ⟨rfl, -⟩ := d_lit.1 h
      exact ⟨'0', rfl, by decide⟩
    have part : ∀ {t ps}, Derives dsdl (.seq (.lit "0") (many (.seq (opt (.lit "_")) (.lit "0")))) t ps → Separated t ∧ t.head? = some '0' := by
      intro t ps h
      obtain ⟨_, _, _, _, h1, h2, rfl, -⟩ := d_seq.1 h
      obtain ⟨rfl, -⟩ := d_lit.1 h1
      exact ⟨.digit (by decide) (separated_star zero h2), rfl⟩
    have sep : Separated t ∧ t.head? = some '0' := by
      obtain ⟨_, _, t₂, ps₂, h1, h2, ht, -⟩ := d_seq.1 h
      have h3 := part h1
      rw [ht]
      clear h ht h1
      refine ⟨h3.1.append ?_, by rw [List.head?_append, h3.2]; rfl⟩
      have clean : ∀ {t ps}, Derives dsdl (.star (.seq (.lit "0") (many (.seq (opt (.lit "_")) (.lit "0"))))) t ps → Separated t := ?_
      · exact clean h2
      intro t ps h2
      generalize he : Peg.star (.seq (.lit "0") (many (.seq (opt (.lit "_")) (.lit "0")))) = a at h2
      induction h2 with
      | starNil => exact .nil
      | starCons h1 _ _ ih => cases he; exact (part h1).1.append (ih rfl)
      | _ => cases he
    have all : ∀ c ∈ t, c = '0' ∨ c = '_' := by
      refine h.only ?_
      simp [Peg.Only]
    refine ⟨⟨⟨hn, sep.1, ?_⟩, ?_⟩, fun _ => digits_zero hn all⟩
    · rintro rfl; simp at sep
    · rw [sep.2]; decide
  · obtain ⟨_, _, _, _, h1, h2, rfl, -⟩ := d_seq.1 h
    obtain ⟨c, hc0, hc⟩ := range_digit (by decide) h1
    obtain ⟨⟨c', h3, -, rfl⟩, -⟩ := d_range.1 h1
    cases hc0
    refine ⟨⟨⟨hn, .digit hc (separated_star (fun _ _ h => range_digit (by decide) h) h2), by simp⟩, by simpa using hc⟩, ?_⟩
    intro h0
    simp only [List.cons_append, List.nil_append, List.head?_cons, Option.some.injEq] at h0
    subst h0
    exact absurd h3 (by decide)

theorem head_append {α : Type} {a b : List α} (h : a ≠ []) : (a ++ b).head? = a.head? := by
  cases a with
  | nil => exact absurd rfl h
  | cons x a => rfl

theorem no_point {t n} (h : Group t n) : t.head? ≠ some '.' := by
  intro hh
  rcases digit_char_of_mem h.1.1 '.' (List.mem_of_mem_head? hh) with h6 | ⟨d, h6⟩
  · revert h6; decide
  · have h0 : '0'.toNat = 48 := rfl
    have ha : 'a'.toNat = 97 := rfl
    have hA : 'A'.toNat = 65 := rfl
    have hu : '.'.toNat = 46 := rfl
    unfold DigitChar at h6
    rw [h0, ha, hA, hu] at h6
    omega

theorem integer_text {p n} (h : Good .literal_integer p) (ho : parseIntegerLiteral p = .ok n) : accepted.number p.text n := by
  obtain ⟨t, qs, h, rfl⟩ := h
  have pre : ∀ {base : Nat} {x y : Char} {D : Peg Rule} {u rs}, (∀ u qs, Derives dsdl D u qs → ∃ c, u = [c] ∧ c ≠ '_') →
      Derives dsdl (.seq (.lit "0") (.seq (.choice (.lit (String.ofList [x])) (.lit (String.ofList [y]))) (some' (.seq (opt (.lit "_")) D)))) u rs →
      parseDigits base (u.drop 2) 0 = .ok n → ∃ z v, u = '0' :: z :: v ∧ (z = x ∨ z = y) ∧ Spaced base v n := by
    intro base x y D u rs hD hd ho
    rw [d_seq] at hd
    obtain ⟨_, _, _, _, h0, hd, rfl, rfl⟩ := hd
    obtain ⟨rfl, rfl⟩ := d_lit.1 h0
    rw [d_seq] at hd
    obtain ⟨t₁, _, t₂, _, h1, h2, rfl, rfl⟩ := hd
    simp only [d_choice, d_lit] at h1
    have hsep := separated_some hD h2
    have hne : t₂ ≠ [] := by
      obtain ⟨_, _, _, _, h3, -, rfl, -⟩ := d_seq.1 h2
      obtain ⟨_, _, _, _, -, h4, rfl, -⟩ := d_seq.1 h3
      obtain ⟨c, rfl, -⟩ := hD _ _ h4
      simp
    rcases h1 with ⟨rfl, -⟩ | ⟨rfl, -⟩
    · exact ⟨x, t₂, by simp, .inl rfl, parseDigits_ok.1 (by simpa using ho), hsep, hne⟩
    · exact ⟨y, t₂, by simp, .inr rfl, parseDigits_ok.1 (by simpa using ho), hsep, hne⟩
  have binaryDigit : ∀ u qs, Derives dsdl (.choice (.lit "0") (.lit "1")) u qs → ∃ c, u = [c] ∧ c ≠ '_' := by
    intro u qs h
    simp only [d_choice, d_lit] at h
    rcases h with ⟨rfl, -⟩ | ⟨rfl, -⟩
    exacts [⟨'0', rfl, by decide⟩, ⟨'1', rfl, by decide⟩]
  have octalDigit : ∀ u qs, Derives dsdl (.range '0' '7') u qs → ∃ c, u = [c] ∧ c ≠ '_' := fun _ _ h => range_digit (by decide) h
  have hexadecimalDigit : ∀ u qs, Derives dsdl (.choice (.range '0' '9') (.choice (.range 'a' 'f') (.range 'A' 'F'))) u qs → ∃ c, u = [c] ∧ c ≠ '_' := by
    intro u qs h
    rcases d_choice.1 h with h | h
    · exact range_digit (by decide) h
    · rcases d_choice.1 h with h | h <;> exact range_digit (by decide) h
  simp only [Rule.body, d_choice] at h
  rcases h with h | h | h | h
  · obtain ⟨q, rfl, ⟨u, rs, hb, rfl⟩, rfl⟩ := good_rule rfl h
    obtain ⟨z, v, hu, h1, h2⟩ := pre (x := 'b') (y := 'B') binaryDigit hb ho
    simp only [Pair.text, hu]
    exact ⟨.binary h1 h2, by simp⟩
  · obtain ⟨q, rfl, ⟨u, rs, hb, rfl⟩, rfl⟩ := good_rule rfl h
    obtain ⟨z, v, hu, h1, h2⟩ := pre (x := 'o') (y := 'O') octalDigit hb ho
    simp only [Pair.text, hu]
    exact ⟨.octal h1 h2, by simp⟩
  · obtain ⟨q, rfl, ⟨u, rs, hb, rfl⟩, rfl⟩ := good_rule rfl h
    obtain ⟨z, v, hu, h1, h2⟩ := pre (x := 'x') (y := 'X') hexadecimalDigit hb ho
    simp only [Pair.text, hu]
    exact ⟨.hexadecimal h1 h2, by simp⟩
  · obtain ⟨q, rfl, ⟨u, rs, hb, rfl⟩, rfl⟩ := good_rule rfl h
    obtain ⟨h1, h2⟩ := group_of_decimal hb (parseDigits_ok.1 ho)
    exact ⟨.integer h1 h2, no_point h1⟩

theorem text_node {R : Type} {r : R} {t qs} : (Pair.node r t qs).text = t := rfl

theorem bigInt_ok {t : List Char} {n : Nat} (h : Outcome.ofOption (parseBigInt t) = .ok n) : t ≠ [] ∧ Digits 10 t n := by
  cases hf : parseBigInt t with
  | none => rw [hf] at h; cases h
  | some m =>
    rw [hf] at h
    cases h
    obtain ⟨h1, -, h2⟩ := parseBigInt_some.1 hf
    exact ⟨h1, h2⟩

/-- A number without exponent; its text. -/
theorem point_text {p q} (h : Good .literal_real_point_notation p) (ho : parseRealPointNotation p = .ok q) :
    Mantissa List.length p.text q ∧ '.' ∈ p.text ∧ p.text.head? ≠ some '.' := by
  obtain ⟨t, qs, h, rfl⟩ := h
  simp only [Rule.body, opt, d_choice, d_seq, d_opt, d_lit] at h
  rcases h with ⟨_, ps₁, _, ps₂, h1, h2, rfl, rfl⟩ | ⟨_, _, _, _, h1, ⟨rfl, rfl⟩, rfl, rfl⟩
  · obtain ⟨f, rfl, ⟨u, rs, h3, rfl⟩, rfl⟩ := good_rule rfl h2
    simp only [Rule.body, d_seq, d_lit] at h3
    obtain ⟨_, _, _, _, ⟨rfl, rfl⟩, h4, rfl, rfl⟩ := h3
    obtain ⟨d, rfl, hd, rfl⟩ := good_rule rfl h4
    rcases h1 with ⟨rfl, rfl⟩ | h1
    · exfalso
      simp only [parseRealPointNotation, Pair.inner, List.nil_append] at ho
      obtain ⟨n, hn, -⟩ := ok_of_bind ho
      obtain ⟨-, h5⟩ := bigInt_ok hn
      have h6 := digit_char_of_mem h5 '.' (by simp [Pair.text])
      rcases h6 with h6 | ⟨d, h6⟩
      · revert h6; decide
      · have h0 : '0'.toNat = 48 := rfl
        have ha : 'a'.toNat = 97 := rfl
        have hA : 'A'.toNat = 65 := rfl
        have hu : '.'.toNat = 46 := rfl
        unfold DigitChar at h6
        rw [h0, ha, hA, hu] at h6
        omega
    · obtain ⟨w, rfl, hw, rfl⟩ := good_rule rfl h1
      simp only [parseRealPointNotation, Pair.inner, List.cons_append, List.nil_append] at ho
      obtain ⟨d', hd', ho⟩ := ok_of_bind ho
      cases hd'
      obtain ⟨n, hn, ho⟩ := ok_of_bind ho
      obtain ⟨m, hm, ho⟩ := ok_of_bind ho
      cases ho
      rw [parseFraction] at hm
      obtain ⟨k, hk, hm⟩ := ok_of_bind hm
      cases hm
      obtain ⟨h5, h6⟩ := bigInt_ok hn
      obtain ⟨h7, h8⟩ := bigInt_ok hk
      obtain ⟨tw, qw, hw, rfl⟩ := hw
      obtain ⟨td, qd, hd, rfl⟩ := hd
      have hg := group_of_digits hw h6
      refine ⟨.fraction hg (group_of_digits hd h8), by simp [Pair.text], ?_⟩
      rw [text_node, head_append h5]
      exact no_point hg
  · obtain ⟨w, rfl, hw, rfl⟩ := good_rule rfl h1
    simp only [parseRealPointNotation, Pair.inner, List.cons_append, List.nil_append] at ho
    obtain ⟨n, hn, ho⟩ := ok_of_bind ho
    cases ho
    obtain ⟨h5, h6⟩ := bigInt_ok hn
    obtain ⟨tw, qw, hw, rfl⟩ := hw
    have hg := group_of_digits hw h6
    refine ⟨.point hg, by simp [Pair.text], ?_⟩
    rw [text_node, head_append h5]
    exact no_point hg

/-- The value after the exponent was read. -/
def exponentValue (b : ℚ) (exp digits : List Char) : Outcome ℚ :=
  match exp[1]? with
  | none => .panic
  | some sign => (parseDigits 10 digits 0).bind fun e => (powerOfTen sign e).bind fun s => .ok (b * s)

theorem powerOfTen_ok {b q : ℚ} {sign : Char} {e : Nat} (h : ((powerOfTen sign e).bind fun s => .ok (b * s)) = Outcome.ok q) :
    q = b * (10 : ℚ) ^ (if sign = '-' then -(e : ℤ) else (e : ℤ)) ∧ e < 2 ^ 128 := by
  unfold powerOfTen at h
  split at h
  · cases h; exact ⟨rfl, by assumption⟩
  · cases h

theorem exponent_text {t s d : List Char} {b q : ℚ} {x : Char} (hm : Mantissa List.length t b) (hx : x = 'e' ∨ x = 'E') (hd : ∀ n, Digits 10 d n → Group d n)
    (hne : d ≠ []) (hdigit : ∀ c ∈ d, c ≠ '-') (hs : s = [] ∨ s = "+".toList ∨ s = "-".toList) (ho : exponentValue b ([x] ++ (s ++ d)) d = .ok q) :
    Numeral List.length (· < 2 ^ 128) (t ++ ([x] ++ (s ++ d))) q := by
  rw [exponentValue] at ho
  rcases hs with rfl | rfl | rfl
  · cases d with
    | nil => exact absurd rfl hne
    | cons c cs =>
      have hc : c ≠ '-' := hdigit c (by simp)
      replace ho : ((parseDigits 10 (c :: cs) 0).bind fun e => (powerOfTen c e).bind fun s => .ok (b * s)) = .ok q := ho
      obtain ⟨n, hn, ho⟩ := ok_of_bind ho
      obtain ⟨ho, hlimit⟩ := powerOfTen_ok ho
      rw [if_neg hc, zpow_natCast] at ho
      cases ho
      exact .exponent hm hx (hd n (parseDigits_ok.1 hn)) hlimit
  · replace ho : ((parseDigits 10 d 0).bind fun e => (powerOfTen '+' e).bind fun s => .ok (b * s)) = .ok q := ho
    obtain ⟨n, hn, ho⟩ := ok_of_bind ho
    obtain ⟨ho, hlimit⟩ := powerOfTen_ok ho
    rw [if_neg (by decide), zpow_natCast] at ho
    cases ho
    exact .exponentPlus hm hx (hd n (parseDigits_ok.1 hn)) hlimit
  · replace ho : ((parseDigits 10 d 0).bind fun e => (powerOfTen '-' e).bind fun s => .ok (b * s)) = .ok q := ho
    obtain ⟨n, hn, ho⟩ := ok_of_bind ho
    obtain ⟨ho, hlimit⟩ := powerOfTen_ok ho
    rw [if_pos rfl, zpow_neg, zpow_natCast, ← div_eq_mul_inv] at ho
    cases ho
    exact .exponentMinus hm hx (hd n (parseDigits_ok.1 hn)) hlimit

theorem real_text {p q} (h : Good .literal_real p) (ho : parseRealLiteral p = .ok q) : accepted.number p.text q := by
  obtain ⟨t, qs, h, rfl⟩ := h
  simp only [Rule.body, d_choice] at h
  rcases h with h | h
  · obtain ⟨r, rfl, hr, rfl⟩ := good_rule rfl h
    rw [parseRealLiteral] at ho
    simp only [Pair.inner, first, Outcome.bind, hr.rule] at ho
    obtain ⟨t, qs, hr, rfl⟩ := hr
    simp only [Rule.body, d_seq] at hr
    obtain ⟨t₁, _, _, _, h1, h2, rfl, rfl⟩ := hr
    obtain ⟨x, rfl, ⟨tx, rs, hx, rfl⟩, rfl⟩ := good_rule rfl h2
    simp only [Rule.body, opt, d_choice, d_seq, d_opt, d_lit] at hx
    obtain ⟨t₂, ps₁, _, ps₂, h3, ⟨t₃, ps₃, _, _, h4, h5, rfl, rfl⟩, rfl, rfl⟩ := hx
    obtain ⟨d, rfl, hd, rfl⟩ := good_rule rfl h5
    have hdne := real_digits_ne hd
    have hbase : ∃ b, Mantissa List.length t₁ b ∧ t₁.head? ≠ some '.' ∧ t₁ ≠ [] ∧
        exponentValue b (t₂ ++ (t₃ ++ d.text)) d.text = .ok q := by
      have hp1 : ps₁ = [] := by tauto
      have hp3 : ps₃ = [] := by tauto
      subst hp1 hp3
      rcases d_choice.1 h1 with h1 | h1
      · obtain ⟨y, rfl, hy, rfl⟩ := good_rule rfl h1
        simp only [parseRealExponentNotation, Pair.inner, List.cons_append, List.nil_append, hy.rule, Pair.text, first, bind_ok'] at ho
        obtain ⟨b, hb, ho⟩ := ok_of_bind ho
        have hp := point_text hy hb
        exact ⟨b, hp.1, hp.2.2, by intro h; rw [h] at hp; simp at hp, ho⟩
      · obtain ⟨y, rfl, hy, rfl⟩ := good_rule rfl h1
        simp only [parseRealExponentNotation, Pair.inner, List.cons_append, List.nil_append, hy.rule, Pair.text, first, bind_ok'] at ho
        obtain ⟨b, hb, ho⟩ := ok_of_bind ho
        obtain ⟨n, hn, hb⟩ := ok_of_bind hb
        cases hb
        have hne := real_digits_ne hy
        have hg : Group y.text n := by
          obtain ⟨ty, qy, hy, rfl⟩ := hy
          exact group_of_digits hy (parseDigits_ok.1 hn)
        exact ⟨n, .whole hg, no_point hg, hne, ho⟩
    obtain ⟨b, hm, hhead, hne, ho⟩ := hbase
    obtain ⟨x, rfl, hx⟩ : ∃ x, t₂ = [x] ∧ (x = 'e' ∨ x = 'E') := by
      rcases h3 with ⟨rfl, -⟩ | ⟨rfl, -⟩
      · exact ⟨'e', rfl, .inl rfl⟩
      · exact ⟨'E', rfl, .inr rfl⟩
    simp only [Pair.text]
    have hdigit : ∀ c ∈ d.text, c ≠ '-' := by
      obtain ⟨td, qd, hd, rfl⟩ := hd
      rintro c hc rfl
      rcases real_digits_only hd _ hc with h | h
      · revert h; decide
      · revert h; decide
    have hgroup : ∀ n, Digits 10 d.text n → Group d.text n := by
      obtain ⟨td, qd, hd, rfl⟩ := hd
      exact fun n hn => group_of_digits hd hn
    refine ⟨exponent_text hm hx hgroup hdne hdigit ?_ ho, ?_⟩
    · tauto
    · rw [head_append hne]
      exact hhead
  · obtain ⟨r, rfl, hr, rfl⟩ := good_rule rfl h
    rw [parseRealLiteral] at ho
    simp only [Pair.inner, first, Outcome.bind, hr.rule] at ho
    have := point_text hr ho
    exact ⟨.real this.1 this.2.1, this.2.2⟩

/-! ### Strings -/

theorem star_induct {R : Type} {g : Grammar R} {whole : List Char} {a : Peg R} {P : List Char → List (Pair R) → List Char → Prop} (hnil : ∀ s, No g whole a s → P s [] s)
    (hcons : ∀ s ps r qs r', Ok g whole a s ps r → P r qs r' → P s (ps ++ qs) r') {s ps r} (h : Ok g whole (.star a) s ps r) : P s ps r := by
  obtain ⟨n, h⟩ := h
  induction n generalizing s ps r with
  | zero => cases h
  | succ n ih =>
    rw [run_succ] at h
    simp only at h
    cases h1 : run g whole n a s with
    | timeout => rw [h1] at h; cases h
    | fail => rw [h1] at h; cases h; exact hnil _ ⟨n, h1⟩
    | ok qs rest' =>
      rw [h1] at h
      simp only at h
      cases h2 : run g whole n (.star a) rest' with
      | timeout => rw [h2] at h; cases h
      | fail => rw [h2] at h; cases h
      | ok qs' rest'' =>
        rw [h2] at h
        cases h
        exact hcons _ _ _ _ _ ⟨n, h1⟩ (ih h2)

theorem Between.append {q : Char} {u v : List Char} (h : Between q u) (h' : Between q v) : Between q (u ++ v) := by
  induction h with
  | nil => exact h'
  | plain h1 h2 _ ih => exact .plain h1 h2 ih
  | escape h1 h2 _ ih => exact .escape h1 h2 ih

theorem except_ok {whole : List Char} {a b : String} {x y : Char} (ha : a.toList = [x]) (hb : b.toList = [y]) {s ps r}
    (h : Ok dsdl whole (except a b) s ps r) : ∃ c, s = c :: r ∧ c ≠ x ∧ c ≠ y := by
  rw [ok_seq] at h
  obtain ⟨qs, r', qs', h1, h2, -⟩ := h
  rw [ok_not, no_choice, no_lit, no_lit, ha, hb] at h1
  obtain ⟨⟨h3, h4⟩, -, rfl⟩ := h1
  obtain ⟨-, c, rfl⟩ := ok_any.1 h2
  refine ⟨c, rfl, ?_, ?_⟩
  · rintro rfl; exact h3 ⟨r, rfl⟩
  · rintro rfl; exact h4 ⟨r, rfl⟩

theorem plain_star {whole : List Char} {q : String} {c : Char} (hq : q.toList = [c]) {s ps r} (h : Ok dsdl whole (many (except q "\\")) s ps r) :
    ∃ u, s = u ++ r ∧ Between c u := by
  refine star_induct (P := fun s ps r => ∃ u, s = u ++ r ∧ Between c u) (fun s _ => ⟨[], rfl, .nil⟩) ?_ h
  rintro s ps r qs r' h1 ⟨u, rfl, h2⟩
  obtain ⟨d, rfl, h3, h4⟩ := except_ok hq (b := "\\") rfl h1
  exact ⟨d :: u, rfl, .plain h4 h3 h2⟩

theorem escape_star {whole : List Char} {q : String} {c : Char} (hq : q.toList = [c]) {s ps r}
    (h : Ok dsdl whole (many (.seq (.lit "\\") (.seq (except "\r" "\n") (many (except q "\\"))))) s ps r) : ∃ u, s = u ++ r ∧ Between c u := by
  refine star_induct (P := fun s ps r => ∃ u, s = u ++ r ∧ Between c u) (fun s _ => ⟨[], rfl, .nil⟩) ?_ h
  rintro s ps r qs r' h1 ⟨u, rfl, h2⟩
  rw [ok_seq] at h1
  obtain ⟨_, _, _, h3, h4, -⟩ := h1
  obtain ⟨-, rfl⟩ := ok_lit.1 h3
  rw [ok_seq] at h4
  obtain ⟨_, _, _, h5, h6, -⟩ := h4
  obtain ⟨d, rfl, h7, h8⟩ := except_ok (a := "\r") (b := "\n") rfl rfl h5
  obtain ⟨v, rfl, h9⟩ := plain_star hq h6
  refine ⟨'\\' :: d :: v ++ u, by simp, .escape h7 h8 (h9.append h2)⟩

theorem quoted_ok {whole : List Char} {q : String} {c : Char} (hq : q.toList = [c]) {s ps r} (h : Ok dsdl whole (quoted q) s ps r) :
    ∃ u, s = c :: u ++ [c] ++ r ∧ Between c u := by
  rw [ok_seq] at h
  obtain ⟨_, _, _, h1, h2, -⟩ := h
  rw [ok_seq] at h2
  obtain ⟨_, _, _, h3, h4, -⟩ := h2
  rw [ok_seq] at h4
  obtain ⟨_, _, _, h5, h6, -⟩ := h4
  obtain ⟨-, rfl⟩ := ok_lit.1 h1
  obtain ⟨-, rfl⟩ := ok_lit.1 h6
  obtain ⟨u, rfl, hu⟩ := plain_star hq h3
  obtain ⟨v, rfl, hv⟩ := escape_star hq h5
  exact ⟨u ++ v, by rw [hq]; simp, hu.append hv⟩

theorem string_text {p s} (h : Good .literal_string p) (ht : Tree p) (ho : parseStringLiteral p = .ok s) : StringText HexPlus p.text s := by
  obtain ⟨t, qs, h, rfl⟩ := h
  have : ∃ q c u, qs = [q] ∧ (c = '\'' ∨ c = '"') ∧ isQuote c = true ∧ q.text = c :: u ++ [c] ∧ t = q.text ∧ Between c u := by
    simp only [Rule.body, d_choice] at h
    rcases h with h | h
    · obtain ⟨q, rfl, ⟨u, rs, hb, rfl⟩, rfl⟩ := good_rule rfl h
      obtain ⟨whole, rest, hr⟩ := (ht.inner _ (List.mem_singleton.2 rfl)).ran
      obtain ⟨v, h1, h2⟩ := quoted_ok (c := '\'') rfl hr
      exact ⟨_, _, v, rfl, .inl rfl, by decide, List.append_cancel_right h1, rfl, h2⟩
    · obtain ⟨q, rfl, ⟨u, rs, hb, rfl⟩, rfl⟩ := good_rule rfl h
      obtain ⟨whole, rest, hr⟩ := (ht.inner _ (List.mem_singleton.2 rfl)).ran
      obtain ⟨v, h1, h2⟩ := quoted_ok (c := '"') rfl hr
      exact ⟨_, _, v, rfl, .inr rfl, by decide, List.append_cancel_right h1, rfl, h2⟩
  obtain ⟨q, c, u, rfl, hc, hc', hqt, rfl, hb⟩ := this
  simp only [parseStringLiteral, Pair.inner, first, bind_ok', hqt, betweenQuotes_ok hc'] at ho
  obtain ⟨v, hv, ho⟩ := ok_of_bind ho
  cases ho
  have hv : unescape .idle u = some v := by
    cases hf : unescape .idle u with
    | none => rw [hf] at hv; cases hv
    | some w => rw [hf] at hv; cases hv; rfl
  exact ⟨c, u, hc, hqt, by simpa using quoted_of_unescape hb hv⟩

/-! ### Types -/

theorem suffix_text {p n} (h : Good .type_bit_length_suffix p) (ho : parseU8 p = .ok n) : Decimal p.text n := by
  obtain ⟨t, qs, h, rfl⟩ := h
  have hd : ∀ c ∈ t, IsDigit 10 c := by
    refine h.only ?_
    simp only [Rule.body, Peg.Only]
    exact ⟨digits_only '1' '9' (by decide) (by decide) 10 (by decide), digits_only '0' '9' (by decide) (by decide) 10 (by decide)⟩
  obtain ⟨h1, h2, h3, -⟩ := parseU8_ok (no_plus_of_digits hd) ho
  refine ⟨h1, h2, h3, ?_⟩
  intro h0
  obtain ⟨_, _, _, _, h4, -, ht, -⟩ := d_seq.1 h
  obtain ⟨⟨c, h5, -, rfl⟩, -⟩ := d_range.1 h4
  rw [text_node, ht] at h0
  cases h0
  exact absurd h5 (by decide)

theorem version_text {p n} (h : Good .literal_integer_decimal p) (ho : parseU8 p = .ok n) : Decimal p.text n ∧ n ≤ 255 := by
  obtain ⟨t, qs, h, rfl⟩ := h
  obtain ⟨h1, h2, h3, h4⟩ := parseU8_ok (no_plus_of_digits (decimal_only h)) ho
  exact ⟨⟨h1, h2, h3, (group_of_decimal h h1).2⟩, h4⟩

theorem primitiveName_text {p : Pair Rule} {m prim x} (h : Good .type_primitive_name p) (hx : ModeText m x) (ho : parsePrimitiveTypeName p m = .ok prim) :
    PrimText prim (x ++ p.text) := by
  obtain ⟨t, qs, h, rfl⟩ := h
  simp only [Rule.body, d_choice] at h
  rcases h with h | h | h
  · obtain ⟨q, rfl, ⟨u, rs, hb, rfl⟩, rfl⟩ := good_rule rfl h
    simp only [Rule.body, d_seq, d_lit] at hb
    obtain ⟨_, _, _, _, ⟨rfl, rfl⟩, h1, rfl, rfl⟩ := hb
    obtain ⟨s, rfl, hs, rfl⟩ := good_rule rfl h1
    simp only [parsePrimitiveTypeName, Pair.inner, first, bind_ok', Pair.rule] at ho
    obtain ⟨n, hn, ho⟩ := ok_of_bind ho
    simp only [primitiveOf] at ho
    split at ho
    · next hbits =>
      cases ho
      simp only [text_node]
      rw [← List.append_assoc]
      exact .uint hx (suffix_text hs hn) hbits.1 hbits.2
    · cases ho
  · obtain ⟨q, rfl, ⟨u, rs, hb, rfl⟩, rfl⟩ := good_rule rfl h
    simp only [Rule.body, d_seq, d_lit] at hb
    obtain ⟨_, _, _, _, ⟨rfl, rfl⟩, h1, rfl, rfl⟩ := hb
    obtain ⟨s, rfl, hs, rfl⟩ := good_rule rfl h1
    simp only [parsePrimitiveTypeName, Pair.inner, first, bind_ok', Pair.rule] at ho
    obtain ⟨n, hn, ho⟩ := ok_of_bind ho
    simp only [primitiveOf] at ho
    split at ho
    · next hbits =>
      cases m with
      | truncated => cases ho
      | saturated =>
        cases ho
        simp only [text_node]
        rw [← List.append_assoc]
        exact .int hx (suffix_text hs hn) hbits.1 hbits.2
    · cases ho
  · obtain ⟨q, rfl, ⟨u, rs, hb, rfl⟩, rfl⟩ := good_rule rfl h
    simp only [Rule.body, d_seq, d_lit] at hb
    obtain ⟨_, _, _, _, ⟨rfl, rfl⟩, h1, rfl, rfl⟩ := hb
    obtain ⟨s, rfl, hs, rfl⟩ := good_rule rfl h1
    simp only [parsePrimitiveTypeName, Pair.inner, first, bind_ok', Pair.rule] at ho
    obtain ⟨n, hn, ho⟩ := ok_of_bind ho
    have hs := suffix_text hs hn
    simp only [primitiveOf] at ho
    simp only [text_node]
    rw [← List.append_assoc]
    split at ho
    · cases ho; exact .float16 hx hs
    · cases ho; exact .float32 hx hs
    · cases ho; exact .float64 hx hs
    · cases ho

theorem primitive_text {p prim} (h : Good .type_primitive p) (ho : parsePrimitiveType p = .ok prim) : PrimText prim p.text := by
  obtain ⟨t, qs, h, rfl⟩ := h
  simp only [Rule.body, d_choice] at h
  rcases h with h | h | h | h | h
  · obtain ⟨q, rfl, ⟨u, rs, hb, rfl⟩, rfl⟩ := good_rule rfl h
    simp only [Rule.body, d_seq, d_lit] at hb
    obtain ⟨_, _, _, _, ⟨rfl, rfl⟩, ⟨_, _, _, _, h1, h2, rfl, rfl⟩, rfl, rfl⟩ := hb
    obtain ⟨rfl, hw⟩ := ws_text h1
    obtain ⟨s, rfl, hs, rfl⟩ := good_rule rfl h2
    replace ho : parsePrimitiveTypeName s .truncated = .ok prim := ho
    simp only [text_node]
    rw [← List.append_assoc]
    exact primitiveName_text hs (.truncated hw) ho
  · obtain ⟨q, rfl, ⟨u, rs, hb, rfl⟩, rfl⟩ := good_rule rfl h
    simp only [Rule.body, opt, d_seq, d_opt, d_lit] at hb
    obtain ⟨t₁, ps₁, _, _, h1, h2, rfl, rfl⟩ := hb
    have : ps₁ = [] ∧ ModeText .saturated t₁ := by
      rcases h1 with ⟨rfl, rfl⟩ | ⟨_, _, _, _, ⟨rfl, rfl⟩, h1, rfl, rfl⟩
      · exact ⟨rfl, .default⟩
      · obtain ⟨rfl, hw⟩ := ws_text h1
        exact ⟨rfl, .saturated hw⟩
    obtain ⟨rfl, hm⟩ := this
    obtain ⟨s, rfl, hs, rfl⟩ := good_rule rfl h2
    replace ho : parsePrimitiveTypeName s .saturated = .ok prim := ho
    exact primitiveName_text hs hm ho
  · obtain ⟨q, rfl, ⟨u, rs, hb, rfl⟩, rfl⟩ := good_rule rfl h
    obtain ⟨s, rfl, ⟨v, vs, hs, rfl⟩, rfl⟩ := good_rule rfl hb
    obtain ⟨rfl, -⟩ := d_lit.1 hs
    cases ho
    exact .boolean
  · obtain ⟨q, rfl, ⟨u, rs, hb, rfl⟩, rfl⟩ := good_rule rfl h
    obtain ⟨rfl, -⟩ := d_lit.1 hb
    cases ho
    exact .utf8
  · obtain ⟨q, rfl, ⟨u, rs, hb, rfl⟩, rfl⟩ := good_rule rfl h
    obtain ⟨rfl, -⟩ := d_lit.1 hb
    cases ho
    exact .byte

theorem void_text {p n} (h : Good .type_void p) (ho : parseVoid p = .ok n) : ScalarText (.void n) p.text := by
  obtain ⟨t, qs, h, rfl⟩ := h
  simp only [Rule.body, d_seq, d_lit] at h
  obtain ⟨_, _, _, _, ⟨rfl, rfl⟩, h1, rfl, rfl⟩ := h
  obtain ⟨s, rfl, hs, rfl⟩ := good_rule rfl h1
  replace ho : ((parseU8 s).bind fun bits => if 1 ≤ bits ∧ bits ≤ 64 then .ok bits else .error) = .ok n := ho
  obtain ⟨m, hm, ho⟩ := ok_of_bind ho
  split at ho
  · next hb => cases ho; exact .void (suffix_text hs hm) hb.1 hb.2
  · cases ho

/-- The names of a type, and their text. -/
theorem path_text {t : List Char} {ps : List (Pair Rule)} {ns : List String} {p : List Char} (hp : Path ns p)
    (h : Derives dsdl (many (.seq (.lit ".") (.rule .identifier))) t ps) :
    Path (ns ++ ps.map fun i => String.ofList i.text) (p ++ t) ∧ ∀ i ∈ ps, Good .identifier i := by
  generalize he : many (.seq (.lit ".") (.rule .identifier)) = e at h
  induction h generalizing ns p with
  | starNil => exact ⟨by simpa using hp, nofun⟩
  | @starCons a t u ps qs h1 _ _ ih =>
    cases he
    simp only [d_seq, d_lit] at h1
    obtain ⟨_, _, _, _, ⟨rfl, rfl⟩, h1, rfl, rfl⟩ := h1
    obtain ⟨i, rfl, hi, rfl⟩ := good_rule rfl h1
    obtain ⟨h2, h3⟩ := ih (.more hp (name_text hi)) rfl
    refine ⟨by simpa using h2, ?_⟩
    intro j hj
    simp only [List.nil_append, List.cons_append, List.mem_cons] at hj
    rcases hj with rfl | hj
    exacts [hi, h3 j hj]
  | _ => cases he

theorem versioned_text {p k} (h : Good .type_versioned p) (ho : parseVersionedType p = .ok k) : ScalarText (.versioned k) p.text := by
  obtain ⟨t, qs, h, rfl⟩ := h
  simp only [Rule.body, d_seq] at h
  obtain ⟨_, _, _, _, h1, ⟨t₂, is, _, _, h2, ⟨_, _, _, _, hdot, h3, rfl, rfl⟩, rfl, rfl⟩, rfl, rfl⟩ := h
  obtain ⟨rfl, rfl⟩ := d_lit.1 hdot
  obtain ⟨i, rfl, hi, rfl⟩ := good_rule rfl h1
  obtain ⟨v, rfl, ⟨tv, vs, hv, rfl⟩, rfl⟩ := good_rule rfl h3
  simp only [Rule.body, d_seq, d_lit] at hv
  obtain ⟨_, _, _, _, h4, ⟨_, _, _, _, ⟨rfl, rfl⟩, h5, rfl, rfl⟩, rfl, rfl⟩ := hv
  obtain ⟨a, rfl, ha, rfl⟩ := good_rule rfl h4
  obtain ⟨b, rfl, hb, rfl⟩ := good_rule rfl h5
  obtain ⟨hpath, his⟩ := path_text (.one (name_text hi)) h2
  have hnames : ∀ j ∈ i :: is, Good .identifier j := by
    intro j hj
    rcases List.mem_cons.1 hj with rfl | hj
    exacts [hi, his j hj]
  rw [parseVersionedType] at ho
  simp only [Pair.inner, List.nil_append] at ho
  rw [show ([i] ++ (is ++ [Pair.node Rule.type_version_specifier (a.text ++ (".".toList ++ b.text)) ([a] ++ [b])])) =
    (i :: is) ++ [Pair.node Rule.type_version_specifier (a.text ++ (".".toList ++ b.text)) [a, b]] by simp, parseVersionedParts_names hnames] at ho
  simp only [parseVersionedParts, Pair.rule, Pair.inner] at ho
  obtain ⟨r, hr, ho⟩ := ok_of_bind ho
  obtain ⟨m, hm, hr⟩ := ok_of_bind hr
  obtain ⟨n, hn, hr⟩ := ok_of_bind hr
  cases hr
  have hne : ([] ++ List.map (fun i => String.ofList i.text) (i :: is)) ≠ [] := by simp
  obtain ⟨hmt, hm'⟩ := version_text ha hm
  obtain ⟨hnt, hn'⟩ := version_text hb hn
  simp only [List.getLast?_eq_some_getLast hne] at ho
  cases ho
  simp only [text_node]
  have htext : i.text ++ (t₂ ++ (".".toList ++ (a.text ++ (".".toList ++ b.text)))) = (i.text ++ t₂) ++ '.' :: a.text ++ '.' :: b.text := by simp
  rw [htext]
  refine .versioned ?_ hmt hnt hm' hn'
  rw [List.dropLast_concat_getLast]
  simpa using hpath

theorem scalar_text {p s} (h : Good .type_scalar p) (ho : parseScalarType p = .ok s) : ScalarText s p.text := by
  obtain ⟨t, qs, h, rfl⟩ := h
  simp only [Rule.body, d_choice] at h
  rcases h with h | h | h
  · obtain ⟨q, rfl, hq, rfl⟩ := good_rule rfl h
    simp only [parseScalarType, Pair.inner, first, bind_ok', hq.rule] at ho
    obtain ⟨k, hk, ho⟩ := ok_of_bind ho
    cases ho
    rw [text_node]
    exact versioned_text hq hk
  · obtain ⟨q, rfl, hq, rfl⟩ := good_rule rfl h
    simp only [parseScalarType, Pair.inner, first, bind_ok', hq.rule] at ho
    obtain ⟨k, hk, ho⟩ := ok_of_bind ho
    cases ho
    rw [text_node]
    exact .prim (primitive_text hq hk)
  · obtain ⟨q, rfl, hq, rfl⟩ := good_rule rfl h
    simp only [parseScalarType, Pair.inner, first, bind_ok', hq.rule] at ho
    obtain ⟨k, hk, ho⟩ := ok_of_bind ho
    cases ho
    rw [text_node]
    exact void_text hq hk

/-! ### Expressions -/

/-- The precedence of the operators of a rule. -/
def levelOf : Rule → Nat
  | .op1_form_log_not => 1
  | .ex_comparison => 2
  | .ex_bitwise => 3
  | .ex_additive => 4
  | .ex_multiplicative => 5
  | .op1_form_inv_pos | .op1_form_inv_neg => 6
  | .ex_exponential => 7
  | .ex_attribute => 8
  | .expression_atom => 9
  | _ => 0

theorem Written.looser {S : Style} {e : Expr} {t : List Char} {j k : Nat} (h : Written S (.expr k e) t) (hjk : j ≤ k) (hk : k ≤ 9) : Written S (.expr j e) t := by
  induction k generalizing j with
  | zero => obtain rfl : j = 0 := by omega
            exact h
  | succ k ih =>
    by_cases hj : j = k + 1
    · subst hj; exact h
    · exact ih (.tighter (by omega) h) (by omega) (by omega)

/-- A pair of an expression with at least this precedence. -/
def ExprAt (k : Nat) (p : Pair Rule) : Prop := ∃ r, ExprRule r ∧ k ≤ levelOf r ∧ Good r p

/-- The pair of an operator with this precedence. -/
def OpAt (r : Rule) (p : Pair Rule) : Prop := ∃ s op, (s, op, levelOf r) ∈ operators ∧ p.text = s.toList ∧ binaryOf r (deepestRule p) = .ok op

/-- Pairs that a rule gives: a single one, with the text. -/
def One (e : Rule) (G : Pair Rule → Prop) : Prop := ∀ t ps, Derives dsdl (.rule e) t ps → ∃ p, ps = [p] ∧ p.text = t ∧ G p

theorem one_expr {r : Rule} {k : Nat} (hr : r.silent = false := by rfl) (h : ExprRule r := by trivial) (hk : k ≤ levelOf r := by decide) : One r (ExprAt k) := by
  intro t ps hd
  obtain ⟨p, h1, h2, h3⟩ := good_rule hr hd
  exact ⟨p, h1, h3, r, h, hk, h2⟩

theorem one_logical_not : One .ex_logical_not (ExprAt 1) := by
  intro t ps h
  rcases d_choice.1 (silent_rule rfl h) with h | h
  · exact one_expr (r := .op1_form_log_not) rfl trivial (by decide) t ps h
  · exact one_expr (r := .ex_comparison) rfl trivial (by decide) t ps h

theorem one_inversion : One .ex_inversion (ExprAt 6) := by
  intro t ps h
  have h := silent_rule rfl h
  simp only [Rule.body, d_choice] at h
  rcases h with h | h | h
  · exact one_expr (r := .op1_form_inv_pos) rfl trivial (by decide) t ps h
  · exact one_expr (r := .op1_form_inv_neg) rfl trivial (by decide) t ps h
  · exact one_expr (r := .ex_exponential) rfl trivial (by decide) t ps h

theorem one_log : One .op2_log (OpAt .ex_logical) := by
  intro t ps h
  obtain ⟨p, rfl, ⟨u, qs, hb, rfl⟩, htext⟩ := good_rule rfl h
  refine ⟨_, rfl, htext, ?_⟩
  simp only [Rule.body, d_choice] at hb
  rcases hb with hb | hb
  all_goals
    obtain ⟨q, rfl, ⟨v, rs, hc, rfl⟩, rfl⟩ := good_rule rfl hb
    obtain ⟨rfl, rfl⟩ := d_lit.1 hc
    exact ⟨_, _, by decide, rfl, rfl⟩

theorem one_cmp : One .op2_cmp (OpAt .ex_comparison) := by
  intro t ps h
  obtain ⟨p, rfl, ⟨u, qs, hb, rfl⟩, htext⟩ := good_rule rfl h
  refine ⟨_, rfl, htext, ?_⟩
  simp only [Rule.body, d_choice] at hb
  rcases hb with hb | hb | hb | hb | hb | hb
  all_goals
    obtain ⟨q, rfl, ⟨v, rs, hc, rfl⟩, rfl⟩ := good_rule rfl hb
    obtain ⟨rfl, rfl⟩ := d_lit.1 hc
    exact ⟨_, _, by decide, rfl, rfl⟩

theorem one_bit : One .op2_bit (OpAt .ex_bitwise) := by
  intro t ps h
  obtain ⟨p, rfl, ⟨u, qs, hb, rfl⟩, htext⟩ := good_rule rfl h
  refine ⟨_, rfl, htext, ?_⟩
  simp only [Rule.body, d_choice] at hb
  rcases hb with hb | hb | hb
  all_goals
    obtain ⟨q, rfl, ⟨v, rs, hc, rfl⟩, rfl⟩ := good_rule rfl hb
    obtain ⟨rfl, rfl⟩ := d_lit.1 hc
    exact ⟨_, _, by decide, rfl, rfl⟩

theorem one_add : One .op2_add (OpAt .ex_additive) := by
  intro t ps h
  obtain ⟨p, rfl, ⟨u, qs, hb, rfl⟩, htext⟩ := good_rule rfl h
  refine ⟨_, rfl, htext, ?_⟩
  simp only [Rule.body, d_choice] at hb
  rcases hb with hb | hb
  all_goals
    obtain ⟨q, rfl, ⟨v, rs, hc, rfl⟩, rfl⟩ := good_rule rfl hb
    obtain ⟨rfl, rfl⟩ := d_lit.1 hc
    exact ⟨_, _, by decide, rfl, rfl⟩

theorem one_mul : One .op2_mul (OpAt .ex_multiplicative) := by
  intro t ps h
  obtain ⟨p, rfl, ⟨u, qs, hb, rfl⟩, htext⟩ := good_rule rfl h
  refine ⟨_, rfl, htext, ?_⟩
  simp only [Rule.body, d_choice] at hb
  rcases hb with hb | hb | hb
  all_goals
    obtain ⟨q, rfl, ⟨v, rs, hc, rfl⟩, rfl⟩ := good_rule rfl hb
    obtain ⟨rfl, rfl⟩ := d_lit.1 hc
    exact ⟨_, _, by decide, rfl, rfl⟩

/-- Pairs of operators and operands in turn, with their text. -/
inductive Chain (O E : Pair Rule → Prop) : List (Pair Rule) → List Char → Prop
  | nil : Chain O E [] []
  | cons {o q ps x y t} : O o → E q → Blank x → Blank y → Chain O E ps t → Chain O E (o :: q :: ps) (x ++ o.text ++ y ++ q.text ++ t)

theorem operands_text {e op e' : Rule} {E O E' : Pair Rule → Prop} (hE : One e E) (hO : One op O) (hE' : One e' E') {t ps}
    (h : Derives dsdl (operands e op e') t ps) : ∃ p rest u, ps = p :: rest ∧ t = p.text ++ u ∧ E p ∧ Chain O E' rest u := by
  replace h := d_seq.1 h
  obtain ⟨_, _, u, ps₂, h1, h2, rfl, rfl⟩ := h
  obtain ⟨p, rfl, rfl, hp⟩ := hE _ _ h1
  refine ⟨p, ps₂, u, rfl, rfl, hp, ?_⟩
  clear h1 hp
  generalize he : many (.seq ows (.seq (.rule op) (.seq ows (.rule e')))) = a at h2
  induction h2 with
  | starNil => exact .nil
  | starCons h1 _ _ ih =>
    cases he
    simp only [d_seq] at h1
    obtain ⟨x, qs₁, _, _, h3, ⟨_, qs₂, _, _, h4, ⟨y, qs₃, _, qs₄, h5, h6, rfl, rfl⟩, rfl, rfl⟩, rfl, rfl⟩ := h1
    obtain ⟨rfl, hx⟩ := ows_text h3
    obtain ⟨rfl, hy⟩ := ows_text h5
    obtain ⟨o, rfl, rfl, ho⟩ := hO _ _ h4
    obtain ⟨q, rfl, rfl, hq⟩ := hE' _ _ h6
    have := Chain.cons ho hq hx hy (ih rfl)
    simpa using this
  | _ => cases he

/-- What the steps that call each other give for a pair. -/
structure Sound (p : Pair Rule) : Prop where
  expr : ∀ k e, ExprAt k p → parseExpression p = .ok e → Written accepted (.expr k e) p.text
  type : ∀ ty, Good .type_array p ∨ Good .type_scalar p → parseArrayOrScalar p = .ok ty → Written accepted (.expr 9 (typeExpr ty)) p.text
  array : ∀ ty, Good .type_array_variable_inclusive p ∨ Good .type_array_variable_exclusive p ∨ Good .type_array_fixed p →
    parseArrayVariant p = .ok ty → Written accepted (.expr 9 (typeExpr ty)) p.text
  literal : ∀ e, Good .literal_set p ∨ Good .literal_real p ∨ Good .literal_integer p ∨ Good .literal_string p ∨ Good .literal_boolean p →
    parseLiteral p = .ok e → Written accepted (.expr 9 e) p.text
  atom : ∀ e, Good .expression_parenthesized p ∨ Good .dtype p ∨ Good .literal p → parseAtom p = .ok e → Written accepted (.expr 9 e) p.text
  list : ∀ es, Good .expression_list p → parseExpressionList p = .ok es → es = [] ∧ p.text = [] ∨ Written accepted (.list es) p.text

theorem parseOperands_sound {r : Rule} {rest : List (Pair Rule)} {u : List Char} (h : Chain (OpAt r) (ExprAt (levelOf r + 1)) rest u) (ih : ∀ q ∈ rest, Sound q)
    {e e' : Expr} {t : List Char} (he : Written accepted (.expr (levelOf r) e) t) (ho : parseOperands r rest e = .ok e') :
    Written accepted (.expr (levelOf r) e') (t ++ u) := by
  induction h generalizing e t with
  | nil => rw [parseOperands] at ho; cases ho; simpa using he
  | @cons o q ps x y u h1 h2 h3 h4 _ ih2 =>
    rw [parseOperands] at ho
    obtain ⟨b, hb, ho⟩ := ok_of_bind ho
    obtain ⟨op, hop, ho⟩ := ok_of_bind ho
    obtain ⟨s, op', h5, h6, h7⟩ := h1
    rw [h7] at hop
    cases hop
    have := ih2 (fun q hq => ih q (by simp [hq])) (.binary h5 he h3 h4 ((ih q (by simp)).expr _ b h2 hb)) ho
    rw [h6]
    simpa using this

theorem no_letter {t n} {c : Char} (hd : c ≠ '_' ∧ ¬ ('0' ≤ c ∧ c ≤ '9')) (h : Group t n) : c ∉ t := by
  intro hc
  rcases group_chars h.1.1 c hc with h | h
  exacts [hd.1 h, hd.2 h]

theorem no_point_mem {t n} (h : Group t n) : '.' ∉ t := no_letter (by decide) h

theorem parseAttributes_sound {rest : List (Pair Rule)} {u : List Char} (h : Chain (fun o => o.text = ".".toList ∧ o.rule = .op2_attrib) (Good .identifier) rest u)
    {e e' : Expr} {t : List Char} (he : Written accepted (.expr 8 e) t) (hc : u.head? = some '.' → ∀ n, ¬ Group t n) (ho : parseAttributes rest e = .ok e') :
    Written accepted (.expr 8 e') (t ++ u) := by
  induction h generalizing e t with
  | nil => rw [parseAttributes] at ho; cases ho; simpa using he
  | @cons o q ps x y u h1 h2 h3 h4 _ ih2 =>
    rw [parseAttributes, if_pos ⟨h1.2, h2.rule⟩] at ho
    have hclose : accepted.close t x := by
      cases x with
      | nil => exact .inr (hc (by rw [h1.1]; rfl))
      | cons c x => exact .inl (by simp)
    have := ih2 (.attribute he h3 h4 (name_text h2) hclose) (fun _ n hn => no_point_mem hn (by simp)) ho
    rw [h1.1]
    simpa using this

theorem no_body {whole : List Char} {r : Rule} {s : List Char} : No dsdl whole (.rule r) s ↔ No dsdl whole r.body s := no_rule

theorem ok_normal_body {whole : List Char} {r : Rule} {s rest : List Char} {ps} (h : Ok dsdl whole (.rule r) s ps rest) : ∃ qs, Ok dsdl whole r.body s qs rest := by
  obtain ⟨n, h⟩ := h
  cases n with
  | zero => cases h
  | succ n =>
    rw [run_succ] at h
    simp only at h
    cases h1 : run dsdl whole n (dsdl.body r) s with
    | timeout => rw [h1] at h; cases h
    | fail => rw [h1] at h; cases h
    | ok qs rest' =>
      rw [h1] at h; simp only at h
      split at h <;> (cases h; exact ⟨_, n, h1⟩)

/-- A real number has a point or an exponent. -/
theorem real_mark {t : List Char} {qs : List (Pair Rule)} (h : Derives dsdl Rule.literal_real.body t qs) : '.' ∈ t ∨ 'e' ∈ t ∨ 'E' ∈ t := by
  rcases d_choice.1 h with h | h
  · obtain ⟨p, -, ⟨u, rs, hb, rfl⟩, rfl⟩ := good_rule rfl h
    obtain ⟨_, _, _, _, -, h2, rfl, -⟩ := d_seq.1 hb
    obtain ⟨p, -, ⟨u, rs, hb2, rfl⟩, rfl⟩ := good_rule rfl h2
    obtain ⟨_, _, _, _, h3, -, rfl, -⟩ := d_seq.1 hb2
    simp only [d_choice, d_lit] at h3
    rcases h3 with ⟨rfl, -⟩ | ⟨rfl, -⟩ <;> simp [text_node]
  · obtain ⟨p, -, ⟨u, rs, hb, rfl⟩, rfl⟩ := good_rule rfl h
    rcases d_choice.1 hb with hb | hb
    · obtain ⟨_, _, _, _, -, h2, rfl, -⟩ := d_seq.1 hb
      obtain ⟨p, -, ⟨u, rs, hb2, rfl⟩, rfl⟩ := good_rule rfl h2
      obtain ⟨_, _, _, _, h3, -, rfl, -⟩ := d_seq.1 hb2
      obtain ⟨rfl, -⟩ := d_lit.1 h3
      simp [text_node]
    · obtain ⟨_, _, _, _, -, h2, rfl, -⟩ := d_seq.1 hb
      obtain ⟨rfl, -⟩ := d_lit.1 h2
      simp [text_node]

theorem real_no {whole s v : List Char} {ps} (h : Ok dsdl whole (.rule .literal_real_digits) s ps ('.' :: v)) (hr : No dsdl whole (.rule .literal_real) s) : False := by
  have hr := no_body.1 hr
  simp only [Rule.body, no_choice] at hr
  have hp := no_body.1 hr.2
  rw [show Rule.literal_real_point_notation.body = .choice (.seq (opt (.rule .literal_real_digits)) (.rule .literal_real_fraction))
    (.seq (.rule .literal_real_digits) (.lit ".")) from rfl, no_choice] at hp
  exact Ok.not_no (okSeq h (okChar (c := '.'))) hp.2

/-- A decimal integer is not matched if a point follows: it is a real number then. -/
theorem integer_point {whole t v : List Char} {n : Nat} {p : Pair Rule} (hg : Group t n)
    (h : Ok dsdl whole (.rule .expression_atom) (t ++ '.' :: v) [p] ('.' :: v)) : False := by
  obtain ⟨c, u, hcu, hc, -⟩ := hg.cons
  have hstart : Starts [(48, 57)] (t ++ '.' :: v) := by
    rw [hcu]
    refine starts_cons ⟨_, List.mem_singleton.2 rfl, ?_⟩
    have h0 : '0'.toNat = 48 := rfl
    have h9 : '9'.toNat = 57 := rfl
    simpa only [char_le, h0, h9] using hc
  have hbody := ok_normal_body h
  obtain ⟨ps, hbody⟩ := hbody
  simp only [Rule.body, ok_choice] at hbody
  have hdot : Ok dsdl whole (.rule .literal_real_digits) (t ++ '.' :: v) _ ('.' :: v) := digits_ok hg (by intro c u hc; cases hc; decide)
  rcases hbody with hb | ⟨-, hb | ⟨-, hb | ⟨hl, -⟩⟩⟩
  · exact hb.not_no (no_starts hstart rfl (by decide +kernel))
  · exact hb.not_no (no_starts hstart rfl (by decide +kernel))
  · obtain ⟨qs, hb⟩ := ok_normal_body hb
    simp only [Rule.body, ok_choice] at hb
    rcases hb with hb | ⟨-, hb | ⟨hr, -⟩⟩
    · exact hb.not_no (no_starts hstart rfl (by decide +kernel))
    · obtain ⟨t', ht', hd⟩ := hb.derives
      obtain rfl := List.append_cancel_right ht'
      obtain ⟨q, -, ⟨u', qs', hq, hq'⟩, hqt⟩ := good_rule rfl hd
      subst hq'
      obtain rfl : u' = t := hqt
      have := real_mark hq
      rcases this with h | h | h
      · exact no_point_mem hg h
      · exact no_letter (by decide) hg h
      · exact no_letter (by decide) hg h
    · exact real_no hdot hr
  · have hl := no_body.1 hl
    simp only [Rule.body, no_choice] at hl
    exact real_no hdot hl.2.1

theorem atom_not_reserved {whole t rest : List Char} {p : Pair Rule} (h : Ok dsdl whole Rule.expression_atom.body (t ++ rest) [p] rest) (hp : Good .identifier p) :
    ¬ Reserved t := by
  have only : ∀ {r : Rule}, r.silent = false → r ≠ .identifier → ¬ Ok dsdl whole (.rule r) (t ++ rest) [p] rest := by
    intro r hr hne h
    obtain ⟨u, -, hd⟩ := h.derives
    obtain ⟨q, hq, hg, -⟩ := good_rule hr hd
    cases hq
    exact hne (hg.rule.symm.trans hp.rule)
  simp only [Rule.body, ok_choice] at h
  rcases h with h | ⟨-, h | ⟨hd, h | ⟨hl, -⟩⟩⟩
  · exact absurd h (only rfl (by decide))
  · exact absurd h (only rfl (by decide))
  · exact absurd h (only rfl (by decide))
  · have hs : No dsdl whole (.rule .type_scalar) (t ++ rest) := by
      rw [no_body, show Rule.dtype.body = .choice (.rule .type_array) (.rule .type_scalar) from rfl, no_choice] at hd
      exact hd.2
    rw [no_body, show Rule.type_scalar.body = .choice (.rule .type_versioned) (.choice (.rule .type_primitive) (.rule .type_void)) from rfl, no_choice, no_choice] at hs
    obtain ⟨-, hprim, hvoid⟩ := hs
    have hprim := no_body.1 hprim
    simp only [Rule.body, no_choice] at hprim
    obtain ⟨-, hsat, hbool, hutf8, hbyte⟩ := hprim
    have hbool := no_body.1 (no_body.1 hbool)
    have hutf8 := no_body.1 hutf8
    have hbyte := no_body.1 hbyte
    have hlit := no_body.1 hl
    simp only [Rule.body, no_choice] at hlit
    have hboolean := no_body.1 hlit.2.2.2.2
    simp only [Rule.body, no_choice] at hboolean
    have htrue := no_body.1 hboolean.1
    have hfalse := no_body.1 hboolean.2
    have suffix : ∀ {w : String} {d : Char}, '1' ≤ d → d ≤ '9' → No dsdl whole (.seq (.lit w) (.rule .type_bit_length_suffix)) (t ++ rest) →
        ¬ w.toList ++ [d] <+: t := by
      rintro w d h1 h2 hno ⟨v, rfl⟩
      rw [no_seq] at hno
      rcases hno with hno | ⟨ps, r, hno, hno'⟩
      · exact no_lit.1 hno ⟨d :: v ++ rest, by simp⟩
      · obtain ⟨-, hr⟩ := ok_lit.1 hno
        rw [List.append_assoc, List.append_assoc, List.append_cancel_left_eq] at hr
        subst hr
        have hno' := no_body.1 hno'
        rw [show Rule.type_bit_length_suffix.body = .seq (.range '1' '9') (.star (.range '0' '9')) from rfl, no_seq] at hno'
        rcases hno' with hno' | ⟨_, _, _, hno'⟩
        · exact no_range.1 hno' d _ rfl ⟨h1, h2⟩
        · exact no_star hno'
    have hname : ∀ {w : String}, w.toList.head? ≠ some 's' → w.toList ≠ [] → w.toList <+: t → No dsdl whole (.rule .type_primitive_name) (t ++ rest) := by
      rintro w hw hne ⟨v, rfl⟩
      have h := no_body.1 hsat
      rw [show Rule.type_primitive_saturated.body = .seq (.opt (.seq (.lit "saturated") (.rule .ws))) (.rule .type_primitive_name) from rfl, no_seq] at h
      rcases h with h | ⟨ps, r, h, h'⟩
      · exact absurd h no_opt
      · rcases ok_opt.1 h with h | ⟨-, -, rfl⟩
        · obtain ⟨_, _, _, h, -⟩ := ok_seq.1 h
          obtain ⟨-, h⟩ := ok_lit.1 h
          exfalso
          cases hl : w.toList with
          | nil => exact hne hl
          | cons c cs =>
            rw [hl] at hw h
            simp only [List.cons_append] at h
            have : c = 's' := by
              have := congrArg List.head? h
              simpa using this
            subst this
            simp at hw
        · exact h'
    have hint : ∀ {w : String} {d : Char} {r : Rule}, '1' ≤ d → d ≤ '9' → w.toList.head? ≠ some 's' → w.toList ≠ [] →
        (No dsdl whole (.rule .type_primitive_name) (t ++ rest) → No dsdl whole (.rule r) (t ++ rest)) → r.body = .seq (.lit w) (.rule .type_bit_length_suffix) →
        ¬ w.toList ++ [d] <+: t := by
      intro w d r h1 h2 h3 h4 h5 h6 h7
      refine suffix h1 h2 ?_ h7
      rw [← h6]
      exact no_body.1 (h5 (hname h3 h4 ((List.prefix_append _ _).trans h7)))
    have lit : ∀ {w : String}, No dsdl whole (.lit w) (t ++ rest) → ¬ w.toList <+: t := by
      rintro w h ⟨v, rfl⟩
      exact no_lit.1 h ⟨v ++ rest, by simp⟩
    rintro (⟨w, hw, hpre⟩ | ⟨w, hw, d, h1, h2, hpre⟩)
    · simp only [List.mem_cons, List.not_mem_nil, or_false] at hw
      rcases hw with rfl | rfl | rfl | rfl | rfl
      · exact lit hbool hpre
      · exact lit hutf8 hpre
      · exact lit hbyte hpre
      · exact lit htrue hpre
      · exact lit hfalse hpre
    · simp only [List.mem_cons, List.not_mem_nil, or_false] at hw
      rcases hw with rfl | rfl | rfl | rfl
      · refine hint (r := .type_primitive_name_unsigned_integer) h1 h2 (by decide) (by decide) (fun h => ?_) rfl hpre
        have h := no_body.1 h
        simp only [Rule.body, no_choice] at h
        exact h.1
      · refine hint (r := .type_primitive_name_signed_integer) h1 h2 (by decide) (by decide) (fun h => ?_) rfl hpre
        have h := no_body.1 h
        simp only [Rule.body, no_choice] at h
        exact h.2.1
      · refine hint (r := .type_primitive_name_floating_point) h1 h2 (by decide) (by decide) (fun h => ?_) rfl hpre
        have h := no_body.1 h
        simp only [Rule.body, no_choice] at h
        exact h.2.2
      · exact suffix h1 h2 (no_body.1 hvoid) hpre

theorem expr_sound {r : Rule} {t : List Char} {qs : List (Pair Rule)} {e : Expr} (hr : ExprRule r) (h : Derives dsdl r.body t qs) (ht : Tree (.node r t qs))
    (ih : ∀ q ∈ qs, Sound q) (ho : parseExpression (.node r t qs) = .ok e) : Written accepted (.expr (levelOf r) e) t := by
  have bin : ∀ {r e' op : Rule} {qs : List (Pair Rule)} {e : Expr}, (∀ q ∈ qs, Sound q) → One e' (ExprAt (levelOf r + 1)) → One op (OpAt r) →
      Derives dsdl (operands e' op e') t qs → levelOf r < 9 → (match qs with
        | c :: rest => (parseExpression c).bind fun e => parseOperands r rest e
        | [] => .panic) = .ok e → Written accepted (.expr (levelOf r) e) t := by
    clear ho ht h
    intro r e' op qs e ih h1 h2 h h9 ho
    obtain ⟨p, rest, u, rfl, rfl, hp, hrest⟩ := operands_text h1 h2 h1 h
    obtain ⟨a, ha, ho⟩ := ok_of_bind ho
    exact parseOperands_sound hrest (fun q hq => ih q (by simp [hq])) (.tighter h9 ((ih p (by simp)).expr _ a hp ha)) ho
  have un : ∀ {e' : Rule} {k : Nat} {l : String} {f : Expr → Expr} {qs : List (Pair Rule)} {e : Expr}, (∀ q ∈ qs, Sound q) → One e' (ExprAt k) →
      Derives dsdl (.seq (.lit l) (.seq ows (.rule e'))) t qs → (match qs with
        | c :: _ => (parseExpression c).bind fun e => .ok (f e)
        | [] => .panic) = .ok e → ∃ x u a, t = l.toList ++ x ++ u ∧ Blank x ∧ Written accepted (.expr k a) u ∧ e = f a := by
    clear ho ht h
    intro e' k l f qs e ih h1 h ho
    simp only [d_seq, d_lit] at h
    obtain ⟨_, _, _, _, ⟨rfl, rfl⟩, ⟨x, _, _, _, h2, h3, rfl, rfl⟩, rfl, rfl⟩ := h
    obtain ⟨rfl, hx⟩ := ows_text h2
    obtain ⟨p, rfl, rfl, hp⟩ := h1 _ _ h3
    obtain ⟨a, ha, ho⟩ := ok_of_bind ho
    cases ho
    exact ⟨x, p.text, a, by simp, hx, (ih p (by simp)).expr _ a hp ha, rfl⟩
  cases r <;> first | exact hr.elim | skip
  case expression =>
    obtain ⟨q, rfl, rfl, hq⟩ := one_expr (r := .ex_logical) (k := 0) rfl trivial (by decide) _ _ h
    simp only [parseExpression] at ho
    exact (ih q (by simp)).expr 0 e hq ho
  case expression_atom =>
    have h0 := h
    simp only [Rule.body, d_choice] at h
    simp only [levelOf]
    rcases h with h | h | h | h
    · obtain ⟨q, rfl, hq, rfl⟩ := good_rule rfl h
      simp only [parseExpression] at ho
      exact (ih q (by simp)).atom e (by tauto) ho
    · obtain ⟨q, rfl, hq, rfl⟩ := good_rule rfl h
      simp only [parseExpression] at ho
      exact (ih q (by simp)).atom e (by tauto) ho
    · obtain ⟨q, rfl, hq, rfl⟩ := good_rule rfl h
      simp only [parseExpression] at ho
      exact (ih q (by simp)).atom e (by tauto) ho
    · obtain ⟨q, rfl, hq, rfl⟩ := good_rule rfl h
      simp only [parseExpression] at ho
      obtain ⟨whole, rest, hran⟩ := ht.ran
      have hres := atom_not_reserved hran hq
      have hname := name_text hq
      obtain ⟨tq, rs, -, rfl⟩ := hq
      simp only [parseAtom] at ho
      cases ho
      exact .identifier hname hres
  case ex_logical => rw [parseExpression.eq_def] at ho; exact bin (r := .ex_logical) ih one_logical_not one_log h (by decide) ho
  case ex_comparison => rw [parseExpression.eq_def] at ho; exact bin (r := .ex_comparison) ih (one_expr (r := .ex_bitwise)) one_cmp h (by decide) ho
  case ex_bitwise => rw [parseExpression.eq_def] at ho; exact bin (r := .ex_bitwise) ih (one_expr (r := .ex_additive)) one_bit h (by decide) ho
  case ex_additive => rw [parseExpression.eq_def] at ho; exact bin (r := .ex_additive) ih (one_expr (r := .ex_multiplicative)) one_add h (by decide) ho
  case ex_multiplicative => rw [parseExpression.eq_def] at ho; exact bin (r := .ex_multiplicative) ih one_inversion one_mul h (by decide) ho
  case ex_exponential =>
    simp only [Rule.body, opt, d_seq, d_opt] at h
    obtain ⟨_, _, _, _, h1, h2, rfl, rfl⟩ := h
    obtain ⟨p, rfl, rfl, hp⟩ := one_expr (r := .ex_attribute) (k := 8) rfl trivial (by decide) _ _ h1
    simp only [parseExpression, List.cons_append, List.nil_append] at ho
    obtain ⟨a, ha, ho⟩ := ok_of_bind ho
    have ha := (ih p (by simp)).expr _ a hp ha
    rcases h2 with ⟨rfl, rfl⟩ | ⟨x, _, _, _, h3, ⟨_, _, _, _, h4, ⟨y, _, _, _, h5, h6, rfl, rfl⟩, rfl, rfl⟩, rfl, rfl⟩
    · rw [parseOperands] at ho
      cases ho
      have := ha.tighter (by decide)
      simpa [levelOf] using this
    · obtain ⟨rfl, hx⟩ := ows_text (d_opt.2 h3)
      obtain ⟨rfl, hy⟩ := ows_text (d_opt.2 h5)
      obtain ⟨o, rfl, ⟨to₁, os, hop, rfl⟩, rfl⟩ := good_rule rfl h4
      obtain ⟨o', rfl, ⟨to₂, os', hop', rfl⟩, rfl⟩ := good_rule rfl hop
      obtain ⟨rfl, rfl⟩ := d_lit.1 hop'
      obtain ⟨q, rfl, rfl, hq⟩ := one_inversion _ _ h6
      simp only [List.nil_append, List.cons_append] at ho
      rw [parseOperands] at ho
      obtain ⟨b, hb, ho⟩ := ok_of_bind ho
      replace ho : parseOperands .ex_exponential [] (.binary .exponent a b) = .ok e := ho
      rw [parseOperands] at ho
      cases ho
      have := Written.power ha hx hy ((ih q (by simp)).expr _ b hq hb)
      simpa [text_node, levelOf] using this
  case ex_attribute =>
    have hop : One .op2_attrib (fun o => o.text = ".".toList ∧ o.rule = .op2_attrib) := by
      intro t ps h
      obtain ⟨p, rfl, ⟨u, rs, hb, rfl⟩, rfl⟩ := good_rule rfl h
      exact ⟨_, rfl, rfl, (d_lit.1 hb).1, rfl⟩
    have hid : One .identifier (Good .identifier) := by
      intro t ps h
      obtain ⟨p, rfl, hp, hp'⟩ := good_rule rfl h
      exact ⟨p, rfl, hp', hp⟩
    obtain ⟨p, rest, u, rfl, rfl, hp, hrest⟩ := operands_text (one_expr (r := .expression_atom) (k := 9)) hop hid h
    simp only [parseExpression] at ho
    obtain ⟨a, ha, ho⟩ := ok_of_bind ho
    refine parseAttributes_sound hrest (.tighter (by decide) ((ih p (by simp)).expr _ a hp ha)) ?_ ho
    intro hu n hn
    obtain ⟨whole, rest', hok⟩ := ht.ran
    obtain ⟨ps₁, r₁, ps₂, h1, -, hps⟩ := ok_seq.1 hok
    obtain ⟨t', ht', hd⟩ := h1.derives
    obtain ⟨q, rfl, -, rfl⟩ := good_rule rfl hd
    simp only [List.cons_append, List.nil_append, List.cons.injEq] at hps
    obtain ⟨rfl, -⟩ := hps
    rw [List.append_assoc, List.append_cancel_left_eq] at ht'
    subst ht'
    cases u with
    | nil => simp at hu
    | cons c u =>
      simp only [List.head?_cons, Option.some.injEq] at hu
      subst hu
      rw [List.append_assoc] at h1
      exact integer_point hn h1
  case op1_form_log_not =>
    rw [parseExpression.eq_def] at ho
    obtain ⟨x, u, a, rfl, hx, ha, rfl⟩ := un ih one_logical_not h ho
    have := Written.not hx ha
    simpa [levelOf] using this
  case op1_form_inv_pos =>
    rw [parseExpression.eq_def] at ho
    obtain ⟨x, u, a, rfl, hx, ha, rfl⟩ := un ih (one_expr (r := .ex_exponential) (k := 7)) h ho
    have := Written.sign (c := '+') (op := .plus) (by decide) hx ha
    simpa [levelOf] using this
  case op1_form_inv_neg =>
    rw [parseExpression.eq_def] at ho
    obtain ⟨x, u, a, rfl, hx, ha, rfl⟩ := un ih (one_expr (r := .ex_exponential) (k := 7)) h ho
    have := Written.sign (c := '-') (op := .minus) (by decide) hx ha
    simpa [levelOf] using this

/-- The elements of a list after the first one. -/
theorem elements_sound {t : List Char} {ps : List (Pair Rule)} {es es' : List Expr} {u : List Char} (hu : Written accepted (.list es) u)
    (h : Derives dsdl (many (.seq ows (.seq (.lit ",") (.seq ows (.rule .expression))))) t ps) (ih : ∀ q ∈ ps, Sound q) (ho : parseExpressions ps = .ok es') :
    Written accepted (.list (es ++ es')) (u ++ t) := by
  generalize he : many (.seq ows (.seq (.lit ",") (.seq ows (.rule .expression)))) = a at h
  induction h generalizing es es' u with
  | starNil => rw [parseExpressions] at ho; cases ho; simpa using hu
  | @starCons b t v ps qs h1 _ _ ih2 =>
    cases he
    simp only [d_seq, d_lit] at h1
    obtain ⟨x, _, _, _, h3, ⟨_, _, _, _, ⟨rfl, rfl⟩, ⟨y, _, _, _, h4, h5, rfl, rfl⟩, rfl, rfl⟩, rfl, rfl⟩ := h1
    obtain ⟨rfl, hx⟩ := ows_text h3
    obtain ⟨rfl, hy⟩ := ows_text h4
    obtain ⟨p, rfl, rfl, hp⟩ := one_expr (r := .expression) (k := 0) rfl trivial (by decide) _ _ h5
    simp only [List.nil_append, List.cons_append] at ho
    rw [parseExpressions] at ho
    obtain ⟨e, he, ho⟩ := ok_of_bind ho
    obtain ⟨es'', hes, ho⟩ := ok_of_bind ho
    cases ho
    have := ih2 (.more hu hx hy ((ih p (by simp)).expr 0 e hp he)) (fun q hq => ih q (by simp [hq])) hes rfl
    simpa using this
  | _ => cases he

theorem list_sound {t : List Char} {qs : List (Pair Rule)} {es : List Expr} (h : Derives dsdl Rule.expression_list.body t qs) (ih : ∀ q ∈ qs, Sound q)
    (ho : parseExpressions qs = .ok es) : es = [] ∧ t = [] ∨ Written accepted (.list es) t := by
  rcases d_opt.1 h with ⟨rfl, rfl⟩ | h
  · rw [parseExpressions] at ho
    cases ho
    exact .inl ⟨rfl, rfl⟩
  · obtain ⟨_, _, t₂, ps, h1, h2, rfl, rfl⟩ := d_seq.1 h
    obtain ⟨p, rfl, rfl, hp⟩ := one_expr (r := .expression) (k := 0) rfl trivial (by decide) _ _ h1
    simp only [List.nil_append, List.cons_append] at ho
    rw [parseExpressions] at ho
    obtain ⟨e, he, ho⟩ := ok_of_bind ho
    obtain ⟨es', hes, ho⟩ := ok_of_bind ho
    cases ho
    exact .inr (elements_sound (.one ((ih p (by simp)).expr 0 e hp he)) h2 (fun q hq => ih q (by simp [hq])) hes)

theorem array_sound {r : Rule} {t : List Char} {qs : List (Pair Rule)} {ty : TypeAst} (h : Derives dsdl r.body t qs) (ih : ∀ q ∈ qs, Sound q)
    (hr : r = .type_array_variable_inclusive ∨ r = .type_array_variable_exclusive ∨ r = .type_array_fixed) (ho : parseArrayVariant (.node r t qs) = .ok ty) :
    Written accepted (.expr 9 (typeExpr ty)) t := by
  have var : ∀ {l : String} {k : ArrayKind}, Derives dsdl (.seq (.rule .type_scalar) (.seq ows (.seq (.lit "[") (.seq ows (.seq (.lit l) (.seq ows (.seq (.rule .expression)
      (.seq ows (.lit "]"))))))))) t qs → arrayKind r = .ok k → arrayOpen k = l.toList → k ≠ .fixed → Written accepted (.expr 9 (typeExpr ty)) t := by
    intro l k h hk hl hkf
    simp only [d_seq, d_lit] at h
    obtain ⟨_, _, _, _, h1, ⟨x, _, _, _, h2, ⟨_, _, _, _, ⟨rfl, rfl⟩, ⟨y, _, _, _, h3, ⟨_, _, _, _, ⟨rfl, rfl⟩,
      ⟨z, _, _, _, h4, ⟨_, _, _, _, h5, ⟨w, _, _, _, h6, ⟨rfl, rfl⟩, rfl, rfl⟩, rfl, rfl⟩, rfl, rfl⟩, rfl, rfl⟩, rfl, rfl⟩, rfl, rfl⟩, rfl, rfl⟩, rfl, rfl⟩ := h
    obtain ⟨a, rfl, ha, rfl⟩ := good_rule rfl h1
    obtain ⟨b, rfl, rfl, hb⟩ := one_expr (r := .expression) (k := 0) rfl trivial (by decide) _ _ h5
    obtain ⟨rfl, hx⟩ := ows_text h2
    obtain ⟨rfl, hy⟩ := ows_text h3
    obtain ⟨rfl, hz⟩ := ows_text h4
    obtain ⟨rfl, hw⟩ := ows_text h6
    simp only [parseArrayVariant, List.cons_append, List.nil_append] at ho
    obtain ⟨s, hs, ho⟩ := ok_of_bind ho
    obtain ⟨e, he, ho⟩ := ok_of_bind ho
    rw [hk] at ho
    cases ho
    have := Written.arrayType (S := accepted) (k := k) (scalar_text ha hs) hx hy hz hw (fun h => absurd h hkf) ((ih b (by simp)).expr 0 e hb he)
    rw [hl] at this
    simpa [typeExpr] using this
  rcases hr with rfl | rfl | rfl
  · exact var h rfl rfl (by decide)
  · exact var h rfl rfl (by decide)
  · simp only [Rule.body, d_seq, d_lit] at h
    obtain ⟨_, _, _, _, h1, ⟨x, _, _, _, h2, ⟨_, _, _, _, ⟨rfl, rfl⟩,
      ⟨y, _, _, _, h4, ⟨_, _, _, _, h5, ⟨w, _, _, _, h6, ⟨rfl, rfl⟩, rfl, rfl⟩, rfl, rfl⟩, rfl, rfl⟩, rfl, rfl⟩, rfl, rfl⟩, rfl, rfl⟩ := h
    obtain ⟨a, rfl, ha, rfl⟩ := good_rule rfl h1
    obtain ⟨b, rfl, rfl, hb⟩ := one_expr (r := .expression) (k := 0) rfl trivial (by decide) _ _ h5
    obtain ⟨rfl, hx⟩ := ows_text h2
    obtain ⟨rfl, hy⟩ := ows_text h4
    obtain ⟨rfl, hw⟩ := ows_text h6
    simp only [parseArrayVariant, List.cons_append, List.nil_append] at ho
    obtain ⟨s, hs, ho⟩ := ok_of_bind ho
    obtain ⟨e, he, ho⟩ := ok_of_bind ho
    cases ho
    have := Written.arrayType (S := accepted) (k := .fixed) (z := []) (scalar_text ha hs) hx hy nofun hw (fun _ => rfl) ((ih b (by simp)).expr 0 e hb he)
    simpa [typeExpr, arrayOpen] using this

theorem sound (p : Pair Rule) (ht : Tree p) : Sound p := by
  have : ∀ n (p : Pair Rule), Tree p → sizeOf p = n → Sound p := by
    intro n
    induction n using Nat.strong_induction_on with
    | _ n ih =>
      rintro ⟨r, t, qs⟩ ht hn
      have ih : ∀ q ∈ qs, Sound q := by
        intro q hq
        refine ih _ ?_ q (ht.inner q hq) rfl
        have := List.sizeOf_lt_of_mem hq
        simp only [Pair.node.sizeOf_spec] at hn
        omega
      refine ⟨?_, ?_, ?_, ?_, ?_, ?_⟩
      · rintro k e ⟨r', hr, hk, _, _, h, he⟩ ho
        cases he
        have h9 : levelOf r ≤ 9 := by cases r <;> decide
        exact (expr_sound hr h ht ih ho).looser hk h9
      · rintro ty (⟨_, _, h, he⟩ | ⟨_, _, h, he⟩) ho <;> cases he
        · simp only [Rule.body, d_choice] at h
          rcases h with h | h | h
          all_goals
            obtain ⟨q, rfl, hq, rfl⟩ := good_rule rfl h
            simp only [parseArrayOrScalar] at ho
            exact (ih q (by simp)).array ty (by tauto) ho
        · simp only [parseArrayOrScalar] at ho
          obtain ⟨s, hs, ho⟩ := ok_of_bind ho
          cases ho
          exact .scalarType (scalar_text ⟨_, _, h, rfl⟩ hs)
      · rintro ty (⟨_, _, h, he⟩ | ⟨_, _, h, he⟩ | ⟨_, _, h, he⟩) ho <;> cases he
        · exact array_sound h ih (by tauto) ho
        · exact array_sound h ih (by tauto) ho
        · exact array_sound h ih (by tauto) ho
      · rintro e (⟨_, _, h, he⟩ | ⟨_, _, h, he⟩ | ⟨_, _, h, he⟩ | ⟨_, _, h, he⟩ | ⟨_, _, h, he⟩) ho <;> cases he
        · simp only [Rule.body, d_seq, d_lit] at h
          obtain ⟨_, _, _, _, ⟨rfl, rfl⟩, ⟨x, _, _, _, h1, ⟨_, _, _, _, h2, ⟨y, _, _, _, h3, ⟨rfl, rfl⟩, rfl, rfl⟩, rfl, rfl⟩, rfl, rfl⟩, rfl, rfl⟩ := h
          obtain ⟨rfl, hx⟩ := ows_text h1
          obtain ⟨rfl, hy⟩ := ows_text h3
          obtain ⟨q, rfl, hq, rfl⟩ := good_rule rfl h2
          simp only [parseLiteral, List.cons_append, List.nil_append] at ho
          obtain ⟨es, hes, ho⟩ := ok_of_bind ho
          cases ho
          rcases (ih q (by simp)).list es hq hes with ⟨rfl, h0⟩ | h
          · have := Written.emptySet (S := accepted) hx hy
            rw [h0]
            simpa [text_node] using this
          · have := Written.set hx hy h
            simpa [text_node] using this
        · simp only [parseLiteral] at ho
          obtain ⟨q, hq, ho⟩ := ok_of_bind ho
          cases ho
          exact .number (real_text ⟨_, _, h, rfl⟩ hq)
        · simp only [parseLiteral] at ho
          obtain ⟨q, hq, ho⟩ := ok_of_bind ho
          cases ho
          exact .number (integer_text ⟨_, _, h, rfl⟩ hq)
        · simp only [parseLiteral] at ho
          obtain ⟨q, hq, ho⟩ := ok_of_bind ho
          cases ho
          exact .string (string_text ⟨_, _, h, rfl⟩ ht hq)
        · simp only [Rule.body, d_choice] at h
          rcases h with h | h
          · obtain ⟨q, rfl, ⟨u, rs, hb, rfl⟩, rfl⟩ := good_rule rfl h
            obtain ⟨rfl, rfl⟩ := d_lit.1 hb
            simp only [parseLiteral, first, bind_ok', Pair.rule] at ho
            cases ho
            exact .true
          · obtain ⟨q, rfl, ⟨u, rs, hb, rfl⟩, rfl⟩ := good_rule rfl h
            obtain ⟨rfl, rfl⟩ := d_lit.1 hb
            simp only [parseLiteral, first, bind_ok', Pair.rule] at ho
            cases ho
            exact .false
      · rintro e (⟨_, _, h, he⟩ | ⟨_, _, h, he⟩ | ⟨_, _, h, he⟩) ho <;> cases he
        · simp only [Rule.body, d_seq, d_lit] at h
          obtain ⟨_, _, _, _, ⟨rfl, rfl⟩, ⟨x, _, _, _, h1, ⟨_, _, _, _, h2, ⟨y, _, _, _, h3, ⟨rfl, rfl⟩, rfl, rfl⟩, rfl, rfl⟩, rfl, rfl⟩, rfl, rfl⟩ := h
          obtain ⟨rfl, hx⟩ := ows_text h1
          obtain ⟨rfl, hy⟩ := ows_text h3
          obtain ⟨q, rfl, rfl, hq⟩ := one_expr (r := .expression) (k := 0) rfl trivial (by decide) _ _ h2
          simp only [parseAtom, List.cons_append, List.nil_append] at ho
          obtain ⟨a, ha, ho⟩ := ok_of_bind ho
          cases ho
          have := Written.parenthesized hx hy ((ih q (by simp)).expr 0 a hq ha)
          simpa [text_node] using this
        · simp only [Rule.body, d_choice] at h
          rcases h with h | h
          all_goals
            obtain ⟨q, rfl, hq, rfl⟩ := good_rule rfl h
            simp only [parseAtom] at ho
            obtain ⟨a, ha, ho⟩ := ok_of_bind ho
            cases ho
            exact (ih q (by simp)).type a (by tauto) ha
        · simp only [Rule.body, d_choice] at h
          rcases h with h | h | h | h | h
          all_goals
            obtain ⟨q, rfl, hq, rfl⟩ := good_rule rfl h
            simp only [parseAtom] at ho
            exact (ih q (by simp)).literal e (by tauto) ho
      · rintro es ⟨_, _, h, he⟩ ho
        cases he
        simp only [parseExpressionList] at ho
        exact list_sound h ih ho
  exact this _ p ht rfl

/-! ### Statements -/

theorem comment_text {p : Pair Rule} (h : Good .comment_content p) (ht : Tree p) : '\r' ∉ p.text ∧ '\n' ∉ p.text := by
  obtain ⟨t, qs, -, rfl⟩ := h
  obtain ⟨whole, rest, h⟩ := ht.ran
  have key : ∀ {s ps r}, Ok dsdl whole (many (except "\r" "\n")) s ps r → ∃ t, s = t ++ r ∧ '\r' ∉ t ∧ '\n' ∉ t := by
    intro s ps r h
    refine star_induct (P := fun s _ r => ∃ t, s = t ++ r ∧ '\r' ∉ t ∧ '\n' ∉ t) (fun s _ => ⟨[], rfl, by simp, by simp⟩) ?_ h
    intro s ps r qs r' h1 h2
    obtain ⟨_, m, _, h3, h4, -⟩ := ok_seq.1 h1
    obtain ⟨h3, -, rfl⟩ := ok_not.1 h3
    obtain ⟨-, c, rfl⟩ := ok_any.1 h4
    obtain ⟨t, rfl, hr, hn⟩ := h2
    refine ⟨c :: t, rfl, ?_, ?_⟩
    · simp only [List.mem_cons, not_or]
      refine ⟨?_, hr⟩
      rintro rfl
      exact no_lit.1 (no_choice.1 h3).1 ⟨_, rfl⟩
    · simp only [List.mem_cons, not_or]
      refine ⟨?_, hn⟩
      rintro rfl
      exact no_lit.1 (no_choice.1 h3).2 ⟨_, rfl⟩
  obtain ⟨u, hu, hr, hn⟩ := key h
  obtain rfl := List.append_cancel_right hu
  exact ⟨hr, hn⟩

theorem directive_text {p : Pair Rule} {st : Statement} (h : Good .statement_directive p) (ht : Tree p) (ho : parseDirective p = .ok st) :
    StatementText accepted st p.text := by
  obtain ⟨t, qs, h, rfl⟩ := h
  simp only [Rule.body, d_choice] at h
  rcases h with h | h
  · obtain ⟨q, rfl, hq, rfl⟩ := good_rule rfl h
    simp only [parseDirective, Pair.inner, first, bind_ok', hq.rule] at ho
    have htq := ht.inner q (by simp)
    obtain ⟨t, qs, hq, rfl⟩ := hq
    simp only [Rule.body, d_seq, d_lit] at hq
    obtain ⟨_, _, _, _, ⟨rfl, rfl⟩, ⟨_, _, _, _, h1, ⟨x, _, _, _, h2, h3, rfl, rfl⟩, rfl, rfl⟩, rfl, rfl⟩ := hq
    obtain ⟨a, rfl, ha, rfl⟩ := good_rule rfl h1
    obtain ⟨rfl, hx⟩ := ws_text h2
    obtain ⟨b, rfl, rfl, hb⟩ := one_expr (r := .expression) (k := 0) rfl trivial (by decide) _ _ h3
    simp only [List.nil_append, List.cons_append] at ho
    obtain ⟨e, he, ho⟩ := ok_of_bind ho
    cases ho
    have := StatementText.directiveExpr (name_text ha) hx ((sound b (htq.inner b (by simp))).expr 0 e hb he)
    simpa [text_node] using this
  · obtain ⟨q, rfl, hq, rfl⟩ := good_rule rfl h
    simp only [parseDirective, Pair.inner, first, bind_ok', hq.rule] at ho
    obtain ⟨t, qs, hq, rfl⟩ := hq
    simp only [Rule.body, d_seq, d_lit] at hq
    obtain ⟨_, _, _, _, ⟨rfl, rfl⟩, h1, rfl, rfl⟩ := hq
    obtain ⟨a, rfl, ha, rfl⟩ := good_rule rfl h1
    cases ho
    have := StatementText.directive (S := accepted) (name_text ha)
    simpa [text_node] using this

theorem constant_text {p : Pair Rule} {st : Statement} (h : Good .statement_constant p) (ht : Tree p) (ho : parseConstant p = .ok st) :
    StatementText accepted st p.text := by
  obtain ⟨t, qs, h, rfl⟩ := h
  simp only [Rule.body, d_seq, d_lit] at h
  obtain ⟨_, _, _, _, h1, ⟨x, _, _, _, h2, ⟨_, _, _, _, h3, ⟨y, _, _, _, h4, ⟨_, _, _, _, ⟨rfl, rfl⟩, ⟨z, _, _, _, h5, h6, rfl, rfl⟩, rfl, rfl⟩, rfl, rfl⟩, rfl, rfl⟩, rfl, rfl⟩, rfl, rfl⟩ := h
  obtain ⟨a, rfl, ha, rfl⟩ := good_rule rfl h1
  obtain ⟨rfl, hx⟩ := ws_text h2
  obtain ⟨n, rfl, hn, rfl⟩ := good_rule rfl h3
  obtain ⟨rfl, hy⟩ := ows_text h4
  obtain ⟨rfl, hz⟩ := ows_text h5
  obtain ⟨b, rfl, rfl, hb⟩ := one_expr (r := .expression) (k := 0) rfl trivial (by decide) _ _ h6
  simp only [parseConstant, Pair.inner, List.nil_append, List.cons_append] at ho
  obtain ⟨ty, hty, ho⟩ := ok_of_bind ho
  obtain ⟨e, he, ho⟩ := ok_of_bind ho
  cases ho
  have := StatementText.constant (S := accepted) (.prim (primitive_text ha hty)) hx (name_text hn) hy hz ((sound b (ht.inner b (by simp))).expr 0 e hb he)
  simpa [text_node] using this

theorem dtype_text {p : Pair Rule} {ty : TypeAst} (h : Good .dtype p) (ht : Tree p) (ho : parseDataType p = .ok ty) : Written accepted (.expr 9 (typeExpr ty)) p.text := by
  obtain ⟨t, qs, h, rfl⟩ := h
  simp only [Rule.body, d_choice] at h
  rcases h with h | h
  all_goals
    obtain ⟨q, rfl, hq, rfl⟩ := good_rule rfl h
    simp only [parseDataType, Pair.inner, first, bind_ok'] at ho
    exact (sound q (ht.inner q (by simp))).type ty (by tauto) ho

theorem fieldType_typeExpr {ty : TypeAst} (h : fieldTypeAllowed ty = true) : FieldType (typeExpr ty) ty := by
  cases ty with
  | scalar s =>
    refine ⟨rfl, ?_, ?_⟩
    · rintro rfl; cases h
    · rintro rfl; cases h
  | array s k e =>
    refine ⟨rfl, ?_⟩
    rintro ⟨rfl, rfl⟩
    cases h

theorem field_text {p : Pair Rule} {st : Statement} (h : Good .statement_field p) (ht : Tree p) (ho : parseField p = .ok st) : StatementText accepted st p.text := by
  obtain ⟨t, qs, h, rfl⟩ := h
  simp only [Rule.body, d_seq] at h
  obtain ⟨_, _, _, _, h1, ⟨x, _, _, _, h2, h3, rfl, rfl⟩, rfl, rfl⟩ := h
  obtain ⟨a, rfl, ha, rfl⟩ := good_rule rfl h1
  obtain ⟨rfl, hx⟩ := ws_text h2
  obtain ⟨n, rfl, hn, rfl⟩ := good_rule rfl h3
  simp only [parseField, Pair.inner, List.nil_append, List.cons_append] at ho
  obtain ⟨ty, hty, ho⟩ := ok_of_bind ho
  split at ho
  · next hf =>
    cases ho
    have := StatementText.field (dtype_text ha (ht.inner a (by simp)) hty) (fieldType_typeExpr hf) hx (name_text hn)
    simpa [text_node] using this
  · cases ho

theorem padding_text {p : Pair Rule} {st : Statement} (h : Good .statement_padding_field p) (ho : parsePaddingField p = .ok st) : StatementText accepted st p.text := by
  obtain ⟨t, qs, h, rfl⟩ := h
  simp only [Rule.body, d_seq, d_lit] at h
  obtain ⟨_, _, _, _, h1, ⟨rfl, rfl⟩, rfl, rfl⟩ := h
  obtain ⟨a, rfl, ha, rfl⟩ := good_rule rfl h1
  simp only [parsePaddingField, Pair.inner, first, bind_ok', List.append_nil] at ho
  obtain ⟨n, hn, ho⟩ := ok_of_bind ho
  cases ho
  have := StatementText.padding (S := accepted) (void_text ha hn)
  simpa [text_node] using this

theorem marker_text {p : Pair Rule} (h : Good .statement_service_response_marker p) : StatementText accepted .responseMarker p.text := by
  obtain ⟨t, qs, h, rfl⟩ := h
  obtain ⟨_, _, _, _, h1, h2, rfl, -⟩ := d_seq.1 h
  obtain ⟨rfl, -⟩ := d_lit.1 h1
  have h2 := h2.only (S := fun c => c = '-') (by simp [Peg.Only])
  rw [text_node]
  refine .responseMarker (by simp) ?_
  intro c hc
  rcases List.mem_append.1 hc with hc | hc
  · simpa using hc
  · exact h2 c hc

/-! ### Lines -/

theorem parseLines_append {ps qs : List (Pair Rule)} {r : List Line × Bool} (h : parseLines (ps ++ qs) = .ok r) :
    ∃ r₁ r₂, parseLines ps = .ok r₁ ∧ parseLines qs = .ok r₂ ∧ r.1 = r₁.1 ++ r₂.1 := by
  induction ps generalizing r with
  | nil => exact ⟨([], false), r, rfl, h, rfl⟩
  | cons p ps ih =>
    rw [List.cons_append, parseLines] at h
    rw [parseLines]
    have more : ∀ (line : Outcome (List Line)) (b : Bool), (line.bind fun l => (parseLines (ps ++ qs)).bind fun r => .ok (l ++ r.1, r.2 || b)) = .ok r →
        ∃ r₁ r₂, (line.bind fun l => (parseLines ps).bind fun r => .ok (l ++ r.1, r.2 || b)) = .ok r₁ ∧ parseLines qs = .ok r₂ ∧ r.1 = r₁.1 ++ r₂.1 := by
      intro line b h
      obtain ⟨l, hl, h⟩ := ok_of_bind h
      obtain ⟨r', h', h⟩ := ok_of_bind h
      cases h
      obtain ⟨r₁, r₂, h1, h2, h3⟩ := ih h'
      exact ⟨_, r₂, by rw [hl, h1]; rfl, h2, by simp [h3]⟩
    cases hr : p.rule <;> simp only [hr] at h ⊢ <;> first | exact more _ _ h | cases h

theorem statement_sound {t ps r} (h : Derives dsdl (.rule .statement) t ps) (ht : ∀ p ∈ ps, Tree p) (ho : parseLines ps = .ok r) :
    ∃ s, r.1 = [.statement s] ∧ StatementText accepted s t := by
  have h := silent_rule rfl h
  have one : ∀ {f : Outcome Statement}, ((f.bind fun s => .ok [Line.statement s]).bind fun l => (parseLines []).bind fun r => .ok (l ++ r.1, r.2 || false)) = .ok r →
      ∃ s, f = .ok s ∧ r.1 = [.statement s] := by
    intro f h
    obtain ⟨_, h1, h⟩ := ok_of_bind h
    obtain ⟨s, h2, h1⟩ := ok_of_bind h1
    cases h1
    rw [parseLines, bind_ok'] at h
    cases h
    exact ⟨s, h2, rfl⟩
  simp only [Rule.body, d_choice] at h
  rcases h with h | h | h
  · obtain ⟨q, rfl, hq, rfl⟩ := good_rule rfl h
    rw [parseLines, hq.rule] at ho
    obtain ⟨s, h1, h2⟩ := one ho
    exact ⟨s, h2, directive_text hq (ht q (by simp)) h1⟩
  · obtain ⟨q, rfl, hq, rfl⟩ := good_rule rfl h
    rw [parseLines, hq.rule] at ho
    cases ho
    exact ⟨_, rfl, marker_text hq⟩
  · have h := silent_rule rfl h
    simp only [Rule.body, d_choice] at h
    rcases h with h | h | h
    · obtain ⟨q, rfl, hq, rfl⟩ := good_rule rfl h
      rw [parseLines, hq.rule] at ho
      obtain ⟨s, h1, h2⟩ := one ho
      exact ⟨s, h2, constant_text hq (ht q (by simp)) h1⟩
    · obtain ⟨q, rfl, hq, rfl⟩ := good_rule rfl h
      rw [parseLines, hq.rule] at ho
      obtain ⟨s, h1, h2⟩ := one ho
      exact ⟨s, h2, field_text hq (ht q (by simp)) h1⟩
    · obtain ⟨q, rfl, hq, rfl⟩ := good_rule rfl h
      rw [parseLines, hq.rule] at ho
      obtain ⟨s, h1, h2⟩ := one ho
      exact ⟨s, h2, padding_text hq h1⟩

theorem line_sound {t ps r} (h : Derives dsdl (.rule .line) t ps) (ht : ∀ p ∈ ps, Tree p) (ho : parseLines ps = .ok r) : LineText accepted r.1 t := by
  have h := silent_rule rfl h
  simp only [Rule.body, opt, d_seq, d_opt] at h
  obtain ⟨t₁, ps₁, _, _, h1, ⟨x, _, t₃, ps₃, h2, h3, rfl, rfl⟩, rfl, rfl⟩ := h
  obtain ⟨rfl, hx⟩ := ows_text (d_opt.2 h2)
  obtain ⟨r₁, r₂, ho1, ho2, hr⟩ := parseLines_append ho
  rw [hr]
  rw [List.nil_append] at ho2
  have hc : r₂.1 = [] ∧ t₃ = [] ∨ ∃ c, r₂.1 = [.comment (String.ofList c)] ∧ t₃ = '#' :: c ∧ '\r' ∉ c ∧ '\n' ∉ c := by
    rcases h3 with ⟨rfl, rfl⟩ | h3
    · rw [parseLines] at ho2; cases ho2; exact .inl ⟨rfl, rfl⟩
    · have h3 := silent_rule rfl h3
      simp only [Rule.body, d_seq, d_lit] at h3
      obtain ⟨_, _, _, _, ⟨rfl, rfl⟩, h3, rfl, rfl⟩ := h3
      obtain ⟨q, rfl, hq, rfl⟩ := good_rule rfl h3
      rw [parseLines, hq.rule] at ho2
      cases ho2
      exact .inr ⟨q.text, rfl, rfl, comment_text hq (ht q (by simp))⟩
  rcases h1 with ⟨rfl, rfl⟩ | h1
  · rw [parseLines] at ho1
    cases ho1
    rcases hc with ⟨hc, rfl⟩ | ⟨c, hc, rfl, h4, h5⟩
    · rw [hc]; simpa using LineText.empty hx
    · rw [hc]; simpa using LineText.comment hx h4 h5
  · obtain ⟨s, hs, hs'⟩ := statement_sound h1 (fun p hp => ht p (by simp [hp])) ho1
    rw [hs]
    rcases hc with ⟨hc, rfl⟩ | ⟨c, hc, rfl, h4, h5⟩
    · rw [hc]; simpa using LineText.statement hs' hx
    · rw [hc]; simpa using LineText.both hs' hx h4 h5

theorem lines_sound {t ps r u ls} (hu : LineText accepted ls u) (h : Derives dsdl (many (.seq (.rule .end_of_line) (.rule .line))) t ps) (ht : ∀ p ∈ ps, Tree p)
    (ho : parseLines ps = .ok r) : DefinitionText accepted (ls ++ r.1) (u ++ t) := by
  generalize he : many (.seq (.rule .end_of_line) (.rule .line)) = a at h
  induction h generalizing ls u r with
  | starNil => rw [parseLines] at ho; cases ho; simpa using DefinitionText.last hu
  | @starCons b t v ps qs h1 _ _ ih2 =>
    cases he
    obtain ⟨e, _, w, _, h3, h4, rfl, rfl⟩ := d_seq.1 h1
    obtain rfl := (silent_rule rfl h3).pairless rfl
    have he : LineEnd e := by
      have h3 := silent_rule rfl h3
      simp only [Rule.body, d_seq, opt, d_opt, d_lit] at h3
      obtain ⟨_, _, _, _, h5, ⟨rfl, -⟩, rfl, -⟩ := h3
      rcases h5 with ⟨rfl, -⟩ | ⟨rfl, -⟩
      · exact .inl rfl
      · exact .inr rfl
    obtain ⟨r₁, r₂, ho1, ho2, hr⟩ := parseLines_append ho
    rw [List.nil_append] at ho1
    have hl := line_sound h4 (fun p hp => ht p (by simp [hp])) ho1
    have := DefinitionText.line hu he (ih2 hl (fun p hp => ht p (by simp [hp])) ho2 rfl)
    rw [hr]
    simpa using this
  | _ => cases he

theorem parse_sound {text : String} {ls : List Line} (h : parse text = .ok ls) : DefinitionText accepted ls text.toList := by
  rw [parse] at h
  cases hp : parsePairs text.toList with
  | none => rw [hp] at h; cases h
  | some ps =>
    rw [hp] at h
    obtain ⟨rest, hok⟩ := parsePairs_some.1 hp
    have htree : ∀ p ∈ ps, Tree p := by
      obtain ⟨n, hn⟩ := hok
      exact fun p hp => ⟨_, run_tree hn p hp⟩
    have hrest : rest = [] := by
      have h1 := (ok_silent (g := dsdl) rfl).1 hok
      obtain ⟨_, _, _, _, h1, -⟩ := ok_seq.1 h1
      obtain ⟨_, _, _, _, h1, -⟩ := ok_seq.1 h1
      obtain ⟨_, _, _, _, h1, -⟩ := ok_seq.1 h1
      obtain ⟨n, h1⟩ := h1
      cases n with
      | zero => cases h1
      | succ n =>
        rw [run_succ] at h1
        simp only at h1
        split at h1
        · next h2 =>
          have h2 := (ok_eoi.1 ⟨_, h2⟩).2.2
          subst h2
          split at h1 <;> (cases h1; rfl)
        · exact (ok_eoi.1 ⟨_, h1⟩).2.2
    subst hrest
    obtain ⟨t, ht, hd⟩ := hok.derives
    rw [List.append_nil] at ht
    subst ht
    have hd := silent_rule rfl hd
    simp only [Rule.body, d_seq, d_soi] at hd
    obtain ⟨_, _, _, _, ⟨rfl, rfl⟩, ⟨_, ps₁, _, _, h1, ⟨_, ps₂, _, _, h2, h3, rfl, rfl⟩, rfl, rfl⟩, hl, rfl⟩ := hd
    obtain ⟨e, rfl, ⟨_, _, he, rfl⟩, rfl⟩ := good_rule rfl h3
    obtain ⟨rfl, rfl⟩ := d_eoi.1 he
    obtain ⟨r, hr, h⟩ := ok_of_bind h
    rw [List.nil_append] at hr
    obtain ⟨r₁, r', hr1, hr', hrr⟩ := parseLines_append hr
    obtain ⟨r₂, r₃, hr2, hr3, hrr'⟩ := parseLines_append hr'
    rw [parseLines] at hr3
    cases hr3
    split at h
    · cases h
      rw [hl, hrr, hrr']
      have := lines_sound (line_sound h1 (fun p hp => htree p (by simp [hp])) hr1) h2 (fun p hp => htree p (by simp [hp])) hr2
      simpa [text_node] using this
    · cases h

end Verif.Parse
