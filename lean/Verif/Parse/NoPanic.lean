import Verif.Parse.Shape

/-!
Parsing does not panic: the steps that would are not reached with pairs from the grammar.
-/

namespace Verif.Parse

open Verif.Front

theorem np_bind {α β : Type} {x : Outcome α} {f : α → Outcome β} (h1 : x ≠ .panic) (h2 : ∀ a, x = .ok a → f a ≠ .panic) : x.bind f ≠ .panic := by
  cases x with
  | ok a => exact h2 a rfl
  | error => nofun
  | panic => exact absurd rfl h1

theorem ok_of_bind {α β : Type} {x : Outcome α} {f : α → Outcome β} {b : β} (h : x.bind f = .ok b) : ∃ a, x = .ok a ∧ f a = .ok b := by
  cases x with
  | ok a => exact ⟨a, rfl, h⟩
  | error => cases h
  | panic => cases h

theorem np_ofOption {α : Type} (x : Option α) : Outcome.ofOption x ≠ .panic := by cases x <;> nofun

theorem np_first {α β : Type} {x : α} {xs : List α} {f : α → Outcome β} (h : f x ≠ .panic) : (first (x :: xs)).bind f ≠ .panic := h

/-! ### Numbers -/

theorem parseDigits_np {base : Nat} {cs : List Char} (h : ∀ c ∈ cs, c = '_' ∨ (digitOf base c).isSome) (v : Nat) : parseDigits base cs v ≠ .panic := by
  induction cs generalizing v with
  | nil => nofun
  | cons c cs ih =>
    have ih := ih fun d hd => h d (by simp [hd])
    rw [parseDigits]
    split
    · exact ih v
    · rcases h c (by simp) with hc | hc
      · contradiction
      · cases hd : digitOf base c with
        | none => rw [hd] at hc; cases hc
        | some d => exact ih _

/-- Digits to a base, or `_`. -/
def IsDigit (base : Nat) (c : Char) : Prop := c = '_' ∨ (digitOf base c).isSome

theorem char_le {a b : Char} : a ≤ b ↔ a.toNat ≤ b.toNat := by
  rw [Char.le_def, UInt32.le_iff_toNat_le]; rfl

theorem digit_range {base : Nat} {a b c : Char} (ha : '0' ≤ a) (hb : b ≤ '9') (hbase : b.toNat - '0'.toNat < base) (h1 : a ≤ c) (h2 : c ≤ b) : IsDigit base c := by
  right
  have h3 : '0' ≤ c := char_le.2 (Nat.le_trans (char_le.1 ha) (char_le.1 h1))
  have h4 : c ≤ '9' := char_le.2 (Nat.le_trans (char_le.1 h2) (char_le.1 hb))
  have : hexDigit c = some (c.toNat - '0'.toNat) := by rw [hexDigit, if_pos ⟨h3, h4⟩]
  rw [digitOf, this]
  have : c.toNat - '0'.toNat < base := by
    have := char_le.1 h2
    omega
  simp only [Option.bind_some]
  rw [if_pos this]
  rfl

theorem digit_hex_lower {c : Char} (h1 : 'a' ≤ c) (h2 : c ≤ 'f') : IsDigit 16 c := by
  right
  have h3 : ¬ c ≤ '9' := by
    rw [char_le] at h1 ⊢
    simp at h1 ⊢
    omega
  have : hexDigit c = some (c.toNat - 'a'.toNat + 10) := by
    rw [hexDigit, if_neg (by tauto), if_pos ⟨h1, h2⟩]
  rw [digitOf, this]
  have : c.toNat - 'a'.toNat + 10 < 16 := by
    rw [char_le] at h1 h2
    simp at h1 h2 ⊢
    omega
  simp only [Option.bind_some]
  rw [if_pos this]
  rfl

theorem digit_hex_upper {c : Char} (h1 : 'A' ≤ c) (h2 : c ≤ 'F') : IsDigit 16 c := by
  right
  rw [char_le] at h1 h2
  have h3 : ¬ c ≤ '9' := by
    rw [char_le]
    simp at h1 ⊢
    omega
  have h4 : ¬ 'a' ≤ c := by
    rw [char_le]
    simp at h2 ⊢
    omega
  have : hexDigit c = some (c.toNat - 'A'.toNat + 10) := by
    rw [hexDigit, if_neg (by tauto), if_neg (by tauto), if_pos ⟨char_le.2 h1, char_le.2 h2⟩]
  rw [digitOf, this]
  have : c.toNat - 'A'.toNat + 10 < 16 := by
    simp at h1 h2 ⊢
    omega
  simp only [Option.bind_some]
  rw [if_pos this]
  rfl

theorem Good.of {r : Rule} {p} (h : Good r p) : ∃ t qs, Derives dsdl r.body t qs ∧ p = .node r t qs := h

theorem digits_only (a b : Char) (ha : '0' ≤ a) (hb : b ≤ '9') (base : Nat) (hbase : b.toNat - '0'.toNat < base) :
    (Peg.range a b : Peg Rule).Only (IsDigit base) := fun _ h1 h2 => digit_range ha hb hbase h1 h2

theorem decimal_only {t ps} (h : Derives dsdl Rule.literal_integer_decimal.body t ps) : ∀ c ∈ t, IsDigit 10 c := by
  refine h.only ?_
  simp only [Rule.body, some', many, opt, Peg.Only]
  refine ⟨⟨⟨?_, ?_, ?_⟩, ⟨?_, ?_, ?_⟩⟩, ⟨?_, ?_, ?_⟩⟩
  all_goals first
    | exact digits_only _ _ (by decide) (by decide) _ (by decide)
    | (intro c hc; simp at hc; subst hc; first | exact .inl rfl | exact .inr rfl)

theorem real_digits_only {t ps} (h : Derives dsdl Rule.literal_real_digits.body t ps) : ∀ c ∈ t, IsDigit 10 c := by
  refine h.only ?_
  simp only [Rule.body, many, opt, Peg.Only]
  refine ⟨?_, ?_, ?_⟩
  all_goals first
    | exact digits_only _ _ (by decide) (by decide) _ (by decide)
    | (intro c hc; simp at hc; subst hc; exact .inl rfl)

/-- After the prefix of an integer literal there are digits. -/
theorem prefixed_only {base : Nat} {x y : String} {e : Peg Rule} {t ps} (hx : x.toList.length = 1) (hy : y.toList.length = 1) (he : e.Only (IsDigit base))
    (h : Derives dsdl (.seq (.lit "0") (.seq (.choice (.lit x) (.lit y)) e)) t ps) : ∀ c ∈ t.drop 2, IsDigit base c := by
  simp only [d_seq, d_choice, d_lit] at h
  obtain ⟨_, _, _, _, ⟨rfl, rfl⟩, ⟨t₁, _, t₂, _, h1, h2, rfl, rfl⟩, rfl, rfl⟩ := h
  have ht : t₁.length = 1 := by rcases h1 with ⟨rfl, -⟩ | ⟨rfl, -⟩ <;> assumption
  have : ("0".toList ++ (t₁ ++ t₂)).drop 2 = t₂ := by
    match t₁, ht with
    | [c], _ => rfl
  rw [this]
  exact h2.only he

theorem parseIntegerLiteral_np {p} (h : Good .literal_integer p) : parseIntegerLiteral p ≠ .panic := by
  obtain ⟨t, qs, h, rfl⟩ := h
  simp only [Rule.body, d_choice] at h
  rcases h with h | h | h | h
  all_goals
    obtain ⟨q, rfl, ⟨u, rs, hb, rfl⟩, -⟩ := good_rule rfl h
    refine np_first (parseDigits_np ?_ 0)
  · refine prefixed_only (by rfl) (by rfl) ?_ hb
    simp only [Peg.Only]
    have h0 : ∀ c ∈ "0".toList, IsDigit 2 c := by intro c hc; simp at hc; subst hc; exact .inr rfl
    have h1 : ∀ c ∈ "1".toList, IsDigit 2 c := by intro c hc; simp at hc; subst hc; exact .inr rfl
    have h2 : ∀ c ∈ "_".toList, IsDigit 2 c := by intro c hc; simp at hc; subst hc; exact .inl rfl
    exact ⟨⟨h2, h0, h1⟩, h2, h0, h1⟩
  · refine prefixed_only (by rfl) (by rfl) ?_ hb
    simp only [Peg.Only]
    have h1 := digits_only '0' '7' (by decide) (by decide) 8 (by decide)
    have h2 : ∀ c ∈ "_".toList, IsDigit 8 c := by intro c hc; simp at hc; subst hc; exact .inl rfl
    exact ⟨⟨h2, h1⟩, h2, h1⟩
  · refine prefixed_only (by rfl) (by rfl) ?_ hb
    simp only [Peg.Only]
    have h1 := digits_only '0' '9' (by decide) (by decide) 16 (by decide)
    have h2 : ∀ c ∈ "_".toList, IsDigit 16 c := by intro c hc; simp at hc; subst hc; exact .inl rfl
    have h3 : ∀ c, 'a' ≤ c → c ≤ 'f' → IsDigit 16 c := fun c => digit_hex_lower
    have h4 : ∀ c, 'A' ≤ c → c ≤ 'F' → IsDigit 16 c := fun c => digit_hex_upper
    exact ⟨⟨h2, h1, h3, h4⟩, h2, h1, h3, h4⟩
  · exact decimal_only hb

/-- The two shapes of the pairs of a real literal without exponent, and a third for one without digits before the point. -/
theorem point_shape {p} (h : Good .literal_real_point_notation p) :
    (∃ w, p.inner = [w] ∧ Good .literal_real_digits w) ∨ (∃ w f d, p.inner = [w, f] ∧ Good .literal_real_digits w ∧ f.inner = [d] ∧ Good .literal_real_digits d)
      ∨ ∃ f d, p.inner = [f] ∧ f.text = '.' :: d.text ∧ Good .literal_real_digits d := by
  obtain ⟨t, qs, h, rfl⟩ := h
  simp only [Rule.body, opt, d_choice, d_seq, d_opt, d_lit] at h
  rcases h with ⟨_, ps₁, _, ps₂, h1, h2, -, rfl⟩ | ⟨_, _, _, _, h1, ⟨-, rfl⟩, -, rfl⟩
  · obtain ⟨f, rfl, ⟨u, rs, h3, rfl⟩, -⟩ := good_rule rfl h2
    simp only [Rule.body, d_seq, d_lit] at h3
    obtain ⟨_, _, _, _, ⟨rfl, rfl⟩, h4, rfl, rfl⟩ := h3
    obtain ⟨d, rfl, hd, htext⟩ := good_rule rfl h4
    rcases h1 with ⟨-, rfl⟩ | h1
    · exact .inr (.inr ⟨_, d, rfl, by simp [Pair.text, ← htext], hd⟩)
    · obtain ⟨w, rfl, hw, -⟩ := good_rule rfl h1
      exact .inr (.inl ⟨w, _, d, rfl, hw, rfl, hd⟩)
  · obtain ⟨w, rfl, hw, -⟩ := good_rule rfl h1
    exact .inl ⟨w, rfl, hw⟩

theorem parseFraction_np (t : List Char) : parseFraction t ≠ .panic := np_bind (np_ofOption _) (fun _ _ => nofun)

theorem parseRealPointNotation_np {p} (h : Good .literal_real_point_notation p) : parseRealPointNotation p ≠ .panic := by
  rcases point_shape h with ⟨w, h1, -⟩ | ⟨w, f, d, h1, -, h2, -⟩ | ⟨f, d, h1, -, -⟩
  · rw [parseRealPointNotation, h1]
    exact np_bind (np_ofOption _) (fun _ _ => nofun)
  · rw [parseRealPointNotation, h1]
    simp only [h2]
    exact np_first (np_bind (np_ofOption _) fun _ _ => np_bind (parseFraction_np _) fun _ _ => nofun)
  · rw [parseRealPointNotation, h1]
    exact np_bind (np_ofOption _) (fun _ _ => nofun)

theorem real_digits_np {p} (h : Good .literal_real_digits p) : parseDigits 10 p.text 0 ≠ .panic := by
  obtain ⟨t, qs, h, rfl⟩ := h
  exact parseDigits_np (real_digits_only h) 0

theorem real_digits_ne {p} (h : Good .literal_real_digits p) : p.text ≠ [] := by
  obtain ⟨t, qs, h, rfl⟩ := h
  exact h.not_nullable dsdl_guarded.nullable rfl

/-- The exponent of a real literal: its second character, and its digits. -/
theorem exponent_shape {p} (h : Good .literal_real_exponent p) : (∃ c, p.text[1]? = some c) ∧ ∃ d, p.inner = [d] ∧ Good .literal_real_digits d := by
  obtain ⟨t, qs, h, rfl⟩ := h
  simp only [Rule.body, opt, d_choice, d_seq, d_opt, d_lit] at h
  obtain ⟨_, ps₁, _, ps₂, h1, ⟨_, _, _, _, h2, h3, rfl, rfl⟩, rfl, rfl⟩ := h
  obtain ⟨d, rfl, hd, rfl⟩ := good_rule rfl h3
  have hne := real_digits_ne hd
  obtain rfl : ps₁ = [] := by tauto
  refine ⟨?_, d, ?_, hd⟩
  · cases ht : d.text with
    | nil => exact absurd ht hne
    | cons c cs =>
      rcases h1 with ⟨rfl, -⟩ | ⟨rfl, -⟩ <;> rcases h2 with ⟨rfl, -⟩ | ⟨rfl, -⟩ | ⟨rfl, -⟩ <;> simp [Pair.text]
  · rcases h2 with ⟨-, rfl⟩ | ⟨-, rfl⟩ | ⟨-, rfl⟩ <;> rfl

/-- No stretch of decimal digits stands for a number of 2^128 or more. -/
def Small (t : List Char) : Prop := ∀ d n, d <:+: t → parseDigits 10 d 0 = .ok n → n < 2 ^ 128

theorem Small.infix {t u : List Char} (h : Small t) (hu : u <:+: t) : Small u := fun d n hd hn => h d n (hd.trans hu) hn

theorem Derives.infix {R : Type} {g : Grammar R} {e : Peg R} {t : List Char} {ps : List (Pair R)} (h : Derives g e t ps) : ∀ p ∈ ps, p.text <:+: t := by
  induction h with
  | normal _ _ _ => simp [Pair.text]
  | seq _ _ ih1 ih2 =>
    intro p hp
    rcases List.mem_append.1 hp with hp | hp
    · exact (ih1 p hp).trans ⟨[], _, rfl⟩
    · exact (ih2 p hp).trans (List.suffix_append _ _).isInfix
  | starCons _ _ ih1 ih2 =>
    intro p hp
    rcases List.mem_append.1 hp with hp | hp
    · exact (ih1 p hp).trans ⟨[], _, rfl⟩
    · exact (ih2 p hp).trans (List.suffix_append _ _).isInfix
  | _ => first | assumption | simp

theorem Derives.good {e : Peg Rule} {t : List Char} {ps : List (Pair Rule)} (h : Derives dsdl e t ps) : ∀ p ∈ ps, ∃ r, Good r p := by
  induction h with
  | normal _ h _ => simp only [List.mem_singleton, forall_eq]; exact ⟨_, _, _, h, rfl⟩
  | seq _ _ ih1 ih2 => exact fun p hp => (List.mem_append.1 hp).elim (ih1 p) (ih2 p)
  | starCons _ _ ih1 ih2 => exact fun p hp => (List.mem_append.1 hp).elim (ih1 p) (ih2 p)
  | _ => first | assumption | simp

theorem Good.small {r : Rule} {t : List Char} {qs : List (Pair Rule)} (h : Derives dsdl r.body t qs) (hs : Small t) : ∀ q ∈ qs, Small q.text :=
  fun q hq => hs.infix (h.infix q hq)

theorem parseRealExponentNotation_np {p} (h : Good .literal_real_exponent_notation p) (hs : Small p.text) : parseRealExponentNotation p ≠ .panic := by
  obtain ⟨t, qs, h, rfl⟩ := h
  replace hs := Good.small h hs
  simp only [Rule.body, d_choice, d_seq] at h
  obtain ⟨_, _, _, _, h1, h2, -, rfl⟩ := h
  obtain ⟨x, rfl, hx, -⟩ := good_rule rfl h2
  replace hs := hs x (by simp)
  obtain ⟨⟨c, hc⟩, d, hd, hd'⟩ := exponent_shape hx
  have hds : Small d.text := by
    obtain ⟨_, _, hx, rfl⟩ := hx
    exact Good.small hx hs d (by have : _ = [d] := hd; simp [Pair.inner] at this; simp [this])
  have hrest : ∀ b : ℚ, (match x.text[1]? with
      | none => .panic
      | some sign => (first x.inner).bind fun d => (parseDigits 10 d.text 0).bind fun e => (powerOfTen sign e).bind fun s => .ok (b * s) : Outcome ℚ) ≠ .panic := by
    intro b
    rw [hc, hd]
    refine np_first (np_bind (real_digits_np hd') fun e he => np_bind ?_ fun _ _ => nofun)
    rw [powerOfTen, if_pos (hds _ _ List.infix_rfl he)]
    nofun
  rcases h1 with h1 | h1
  · obtain ⟨y, rfl, hy, -⟩ := good_rule rfl h1
    have hr := hy.rule
    simp only [parseRealExponentNotation, Pair.inner, List.cons_append, List.nil_append, hr]
    exact np_bind (parseRealPointNotation_np hy) fun b _ => hrest b
  · obtain ⟨y, rfl, hy, -⟩ := good_rule rfl h1
    have hr := hy.rule
    simp only [parseRealExponentNotation, Pair.inner, List.cons_append, List.nil_append, hr]
    exact np_bind (np_bind (real_digits_np hy) fun _ _ => nofun) fun b _ => hrest b

theorem parseRealLiteral_np {p} (h : Good .literal_real p) (hs : Small p.text) : parseRealLiteral p ≠ .panic := by
  obtain ⟨t, qs, h, rfl⟩ := h
  replace hs := Good.small h hs
  simp only [Rule.body, d_choice] at h
  rcases h with h | h
  · obtain ⟨q, rfl, hq, -⟩ := good_rule rfl h
    refine np_first ?_
    rw [hq.rule]
    exact parseRealExponentNotation_np hq (hs q (by simp))
  · obtain ⟨q, rfl, hq, -⟩ := good_rule rfl h
    refine np_first ?_
    rw [hq.rule]
    exact parseRealPointNotation_np hq

/-! ### Strings -/

theorem quoted_shape {q : String} {c : Char} (hq : q.toList = [c]) {t ps} (h : Derives dsdl (quoted q) t ps) : ∃ u, t = c :: u ++ [c] := by
  simp only [quoted, d_seq, d_lit] at h
  obtain ⟨_, _, _, _, ⟨rfl, rfl⟩, ⟨t₁, _, _, _, -, ⟨t₂, _, _, _, -, ⟨rfl, rfl⟩, rfl, rfl⟩, rfl, rfl⟩, rfl, rfl⟩ := h
  exact ⟨t₁ ++ t₂, by rw [hq]; simp⟩

theorem betweenQuotes_ok {c : Char} (hc : isQuote c = true) (u : List Char) : betweenQuotes (c :: u ++ [c]) = .ok u := by
  simp [betweenQuotes, hc]

theorem parseStringLiteral_np {p} (h : Good .literal_string p) : parseStringLiteral p ≠ .panic := by
  obtain ⟨t, qs, h, rfl⟩ := h
  simp only [Rule.body, d_choice] at h
  have : ∃ q c u, qs = [q] ∧ isQuote c = true ∧ q.text = c :: u ++ [c] := by
    rcases h with h | h
    · obtain ⟨q, rfl, ⟨u, rs, hb, rfl⟩, -⟩ := good_rule rfl h
      obtain ⟨v, rfl⟩ := quoted_shape (c := '\'') rfl hb
      exact ⟨_, _, _, rfl, by decide, rfl⟩
    · obtain ⟨q, rfl, ⟨u, rs, hb, rfl⟩, -⟩ := good_rule rfl h
      obtain ⟨v, rfl⟩ := quoted_shape (c := '"') rfl hb
      exact ⟨_, _, _, rfl, by decide, rfl⟩
  obtain ⟨q, c, u, rfl, hc, ht⟩ := this
  refine np_first ?_
  rw [ht, betweenQuotes_ok hc]
  refine np_bind nofun fun _ _ => ?_
  exact np_bind (np_ofOption _) fun _ _ => nofun

/-! ### Types -/

theorem parseU8_np (p : Pair Rule) : parseU8 p ≠ .panic := np_ofOption _

theorem primitiveOf_np {r : Rule} {bits mode} (h : r = .type_primitive_name_unsigned_integer ∨ r = .type_primitive_name_signed_integer ∨
    r = .type_primitive_name_floating_point) : primitiveOf r bits mode ≠ .panic := by
  rcases h with rfl | rfl | rfl
  · simp only [primitiveOf]; split <;> nofun
  · simp only [primitiveOf]; split
    · cases mode <;> nofun
    · nofun
  · simp only [primitiveOf]; split <;> nofun

theorem parsePrimitiveTypeName_np {p mode} (h : Good .type_primitive_name p) : parsePrimitiveTypeName p mode ≠ .panic := by
  obtain ⟨t, qs, h, rfl⟩ := h
  simp only [Rule.body, d_choice] at h
  rcases h with h | h | h
  all_goals
    obtain ⟨q, rfl, ⟨u, rs, hb, rfl⟩, -⟩ := good_rule rfl h
    simp only [Rule.body, d_seq, d_lit] at hb
    obtain ⟨_, _, _, _, ⟨rfl, rfl⟩, h1, -, rfl⟩ := hb
    obtain ⟨s, rfl, -, -⟩ := good_rule rfl h1
    exact np_first (np_first (np_bind (parseU8_np _) fun _ _ => primitiveOf_np (by simp [Pair.rule])))

theorem parsePrimitiveType_np {p} (h : Good .type_primitive p) : parsePrimitiveType p ≠ .panic := by
  obtain ⟨t, qs, h, rfl⟩ := h
  simp only [Rule.body, d_choice] at h
  rcases h with h | h | h | h | h
  · obtain ⟨q, rfl, ⟨u, rs, hb, rfl⟩, -⟩ := good_rule rfl h
    simp only [Rule.body, d_seq, d_lit] at hb
    obtain ⟨_, _, _, _, ⟨rfl, rfl⟩, ⟨_, _, _, _, h1, h2, -, rfl⟩, -, rfl⟩ := hb
    obtain rfl := ws_pairs h1
    obtain ⟨s, rfl, hs, -⟩ := good_rule rfl h2
    exact np_first (parsePrimitiveTypeName_np hs)
  · obtain ⟨q, rfl, ⟨u, rs, hb, rfl⟩, -⟩ := good_rule rfl h
    simp only [Rule.body, opt, d_seq, d_opt, d_lit] at hb
    obtain ⟨_, ps₁, _, _, h1, h2, -, rfl⟩ := hb
    have : ps₁ = [] := by
      rcases h1 with ⟨-, rfl⟩ | ⟨_, _, _, _, ⟨rfl, rfl⟩, h1, -, rfl⟩
      · rfl
      · obtain rfl := ws_pairs h1; rfl
    subst this
    obtain ⟨s, rfl, hs, -⟩ := good_rule rfl h2
    exact np_first (parsePrimitiveTypeName_np hs)
  · obtain ⟨q, rfl, ⟨u, rs, hb, rfl⟩, -⟩ := good_rule rfl h
    obtain ⟨s, rfl, hs, -⟩ := good_rule rfl hb
    refine np_first (np_first ?_)
    rw [hs.rule]; nofun
  · obtain ⟨q, rfl, hq, -⟩ := good_rule rfl h
    refine np_first ?_
    rw [hq.rule]; nofun
  · obtain ⟨q, rfl, hq, -⟩ := good_rule rfl h
    refine np_first ?_
    rw [hq.rule]; nofun

theorem version_shape {p} (h : Good .type_version_specifier p) :
    ∃ a b, p.inner = [a, b] ∧ Good .literal_integer_decimal a ∧ Good .literal_integer_decimal b := by
  obtain ⟨t, qs, h, rfl⟩ := h
  simp only [Rule.body, d_seq, d_lit] at h
  obtain ⟨_, _, _, _, h1, ⟨_, _, _, _, ⟨-, rfl⟩, h2, -, rfl⟩, -, rfl⟩ := h
  obtain ⟨a, rfl, ha, -⟩ := good_rule rfl h1
  obtain ⟨b, rfl, hb, -⟩ := good_rule rfl h2
  exact ⟨a, b, rfl, ha, hb⟩

/-- The pairs of a name with a version: identifiers, at least one, and the version. -/
theorem versioned_shape {p} (h : Good .type_versioned p) :
    ∃ a is v, p.inner = a :: is ++ [v] ∧ Good .identifier a ∧ (∀ i ∈ is, Good .identifier i) ∧ Good .type_version_specifier v := by
  obtain ⟨t, qs, h, rfl⟩ := h
  simp only [Rule.body, d_seq, d_lit] at h
  obtain ⟨_, _, _, _, h1, ⟨_, _, _, _, h2, ⟨_, _, _, _, ⟨-, rfl⟩, h3, -, rfl⟩, -, rfl⟩, -, rfl⟩ := h
  obtain ⟨a, rfl, ha, -⟩ := good_rule rfl h1
  obtain ⟨v, rfl, hv, -⟩ := good_rule rfl h3
  obtain ⟨parts, hp, -, rfl⟩ := d_star h2
  refine ⟨a, _, v, rfl, ha, ?_, hv⟩
  intro i hi
  simp only [List.mem_flatten, List.mem_map] at hi
  obtain ⟨_, ⟨x, hx, rfl⟩, hi⟩ := hi
  have := hp x hx
  simp only [d_seq, d_lit] at this
  obtain ⟨_, _, _, _, ⟨-, rfl⟩, h4, -, h5⟩ := this
  obtain ⟨j, rfl, hj, -⟩ := good_rule rfl h4
  rw [h5] at hi
  simp only [List.nil_append, List.mem_singleton] at hi
  subst hi
  exact hj

theorem parseVersionedParts_names {is : List (Pair Rule)} (h : ∀ i ∈ is, Good .identifier i) (rest : List (Pair Rule)) (names : List String) :
    parseVersionedParts (is ++ rest) names = parseVersionedParts rest (names ++ is.map fun i => String.ofList i.text) := by
  induction is generalizing names with
  | nil => simp
  | cons i is ih =>
    rw [List.cons_append, parseVersionedParts, (h i (by simp)).rule]
    simp only
    rw [ih fun j hj => h j (by simp [hj])]
    simp

theorem parseVersionedType_np {p} (h : Good .type_versioned p) : parseVersionedType p ≠ .panic := by
  obtain ⟨a, is, v, h1, ha, his, hv⟩ := versioned_shape h
  obtain ⟨x, y, h2, -, -⟩ := version_shape hv
  have hnames : ∀ i ∈ a :: is, Good .identifier i := by
    intro i hi
    rcases List.mem_cons.1 hi with rfl | hi
    exacts [ha, his i hi]
  rw [parseVersionedType, h1, parseVersionedParts_names hnames]
  rw [parseVersionedParts, hv.rule]
  simp only [h2]
  cases hx : parseU8 x with
  | panic => exact absurd hx (parseU8_np x)
  | error => nofun
  | ok m =>
    cases hy : parseU8 y with
    | panic => exact absurd hy (parseU8_np y)
    | error => nofun
    | ok n =>
      simp only [Outcome.bind, List.map_cons, List.nil_append]
      rw [List.getLast?_cons]
      nofun

theorem parseVoid_np {p} (h : Good .type_void p) : parseVoid p ≠ .panic := by
  obtain ⟨t, qs, h, rfl⟩ := h
  simp only [Rule.body, d_seq, d_lit] at h
  obtain ⟨_, _, _, _, ⟨rfl, rfl⟩, h1, -, rfl⟩ := h
  obtain ⟨s, rfl, -, -⟩ := good_rule rfl h1
  refine np_first (np_bind (parseU8_np _) fun _ _ => ?_)
  split <;> nofun

theorem parseScalarType_np {p} (h : Good .type_scalar p) : parseScalarType p ≠ .panic := by
  obtain ⟨t, qs, h, rfl⟩ := h
  simp only [Rule.body, d_choice] at h
  rcases h with h | h | h
  · obtain ⟨q, rfl, hq, -⟩ := good_rule rfl h
    refine np_first ?_
    rw [hq.rule]
    exact np_bind (parseVersionedType_np hq) fun _ _ => nofun
  · obtain ⟨q, rfl, hq, -⟩ := good_rule rfl h
    refine np_first ?_
    rw [hq.rule]
    exact np_bind (parsePrimitiveType_np hq) fun _ _ => nofun
  · obtain ⟨q, rfl, hq, -⟩ := good_rule rfl h
    refine np_first ?_
    rw [hq.rule]
    exact np_bind (parseVoid_np hq) fun _ _ => nofun

/-! ### Expressions -/

/-- The rules of the pairs for which `parse_expression` is called. -/
def ExprRule : Rule → Prop
  | .expression | .expression_atom | .ex_logical | .ex_comparison | .ex_bitwise | .ex_additive | .ex_multiplicative | .ex_exponential | .ex_attribute
  | .op1_form_log_not | .op1_form_inv_pos | .op1_form_inv_neg => True
  | _ => False

/-- A pair for which `parse_expression` is called. -/
def IsExpr (p : Pair Rule) : Prop := ∃ r, ExprRule r ∧ Good r p

theorem single_expr {r : Rule} (hr : r.silent = false := by rfl) (h : ExprRule r := by trivial) : Single r IsExpr := by
  intro t ps hd
  obtain ⟨p, h1, h2, -⟩ := good_rule hr hd
  exact ⟨p, h1, r, h, h2⟩

theorem single_logical_not : Single .ex_logical_not IsExpr := by
  intro t ps h
  have h := silent_rule rfl h
  rcases d_choice.1 h with h | h
  · exact single_expr (r := .op1_form_log_not) rfl trivial t ps h
  · exact single_expr (r := .ex_comparison) rfl trivial t ps h

theorem single_inversion : Single .ex_inversion IsExpr := by
  intro t ps h
  have h := silent_rule rfl h
  simp only [Rule.body, d_choice] at h
  rcases h with h | h | h
  · exact single_expr (r := .op1_form_inv_pos) rfl trivial t ps h
  · exact single_expr (r := .op1_form_inv_neg) rfl trivial t ps h
  · exact single_expr (r := .ex_exponential) rfl trivial t ps h

/-- An operator that `parse_binary_op` can find for a rule. -/
def IsOp (r : Rule) (p : Pair Rule) : Prop := ∃ o, binaryOf r (deepestRule p) = .ok o

theorem lit_pairs {l : String} {t : List Char} {ps : List (Pair Rule)} (h : Derives dsdl (.lit l) t ps) : ps = [] := (d_lit.1 h).2

theorem single_log : Single .op2_log (IsOp .ex_logical) := by
  intro t ps h
  obtain ⟨p, rfl, ⟨u, qs, hb, rfl⟩, -⟩ := good_rule rfl h
  refine ⟨_, rfl, ?_⟩
  simp only [Rule.body, d_choice] at hb
  rcases hb with hb | hb
  all_goals
    obtain ⟨q, rfl, ⟨u, rs, hc, rfl⟩, -⟩ := good_rule rfl hb
    obtain rfl := lit_pairs hc
    exact ⟨_, rfl⟩

theorem single_cmp : Single .op2_cmp (IsOp .ex_comparison) := by
  intro t ps h
  obtain ⟨p, rfl, ⟨u, qs, hb, rfl⟩, -⟩ := good_rule rfl h
  refine ⟨_, rfl, ?_⟩
  simp only [Rule.body, d_choice] at hb
  rcases hb with hb | hb | hb | hb | hb | hb
  all_goals
    obtain ⟨q, rfl, ⟨u, rs, hc, rfl⟩, -⟩ := good_rule rfl hb
    obtain rfl := lit_pairs hc
    exact ⟨_, rfl⟩

theorem single_bit : Single .op2_bit (IsOp .ex_bitwise) := by
  intro t ps h
  obtain ⟨p, rfl, ⟨u, qs, hb, rfl⟩, -⟩ := good_rule rfl h
  refine ⟨_, rfl, ?_⟩
  simp only [Rule.body, d_choice] at hb
  rcases hb with hb | hb | hb
  all_goals
    obtain ⟨q, rfl, ⟨u, rs, hc, rfl⟩, -⟩ := good_rule rfl hb
    obtain rfl := lit_pairs hc
    exact ⟨_, rfl⟩

theorem single_add : Single .op2_add (IsOp .ex_additive) := by
  intro t ps h
  obtain ⟨p, rfl, ⟨u, qs, hb, rfl⟩, -⟩ := good_rule rfl h
  refine ⟨_, rfl, ?_⟩
  simp only [Rule.body, d_choice] at hb
  rcases hb with hb | hb
  all_goals
    obtain ⟨q, rfl, ⟨u, rs, hc, rfl⟩, -⟩ := good_rule rfl hb
    obtain rfl := lit_pairs hc
    exact ⟨_, rfl⟩

theorem single_mul : Single .op2_mul (IsOp .ex_multiplicative) := by
  intro t ps h
  obtain ⟨p, rfl, ⟨u, qs, hb, rfl⟩, -⟩ := good_rule rfl h
  refine ⟨_, rfl, ?_⟩
  simp only [Rule.body, d_choice] at hb
  rcases hb with hb | hb | hb
  all_goals
    obtain ⟨q, rfl, ⟨u, rs, hc, rfl⟩, -⟩ := good_rule rfl hb
    obtain rfl := lit_pairs hc
    exact ⟨_, rfl⟩

theorem single_exp : Single .op2_exp (IsOp .ex_exponential) := by
  intro t ps h
  obtain ⟨p, rfl, ⟨u, qs, hb, rfl⟩, -⟩ := good_rule rfl h
  refine ⟨_, rfl, ?_⟩
  obtain ⟨q, rfl, ⟨u, rs, hc, rfl⟩, -⟩ := good_rule rfl hb
  obtain rfl := lit_pairs hc
  exact ⟨_, rfl⟩

/-- What the steps that call each other need for a pair. -/
structure Fine (p : Pair Rule) : Prop where
  expr : IsExpr p → parseExpression p ≠ .panic
  atom : Good .expression_parenthesized p ∨ Good .dtype p ∨ Good .literal p ∨ Good .identifier p → parseAtom p ≠ .panic
  type : Good .type_array p ∨ Good .type_scalar p → parseArrayOrScalar p ≠ .panic
  array : Good .type_array_variable_inclusive p ∨ Good .type_array_variable_exclusive p ∨ Good .type_array_fixed p → parseArrayVariant p ≠ .panic
  literal : Good .literal_set p ∨ Good .literal_real p ∨ Good .literal_integer p ∨ Good .literal_string p ∨ Good .literal_boolean p → parseLiteral p ≠ .panic
  list : Good .expression_list p → parseExpressionList p ≠ .panic

theorem parseOperands_np {r : Rule} {rest : List (Pair Rule)} (h : Alternate (IsOp r) IsExpr rest) (ih : ∀ q ∈ rest, Fine q) (e : Expr) :
    parseOperands r rest e ≠ .panic := by
  induction h generalizing e with
  | nil => rw [parseOperands]; nofun
  | @cons p q ps hp hq _ ih2 =>
    rw [parseOperands]
    obtain ⟨o, ho⟩ := hp
    refine np_bind ((ih q (by simp)).expr hq) fun e' _ => ?_
    rw [ho]
    exact ih2 (fun x hx => ih x (by simp [hx])) _

theorem parseAttributes_np {rest : List (Pair Rule)} (h : Alternate (Good .op2_attrib) (Good .identifier) rest) (e : Expr) :
    parseAttributes rest e ≠ .panic := by
  induction h generalizing e with
  | nil => rw [parseAttributes]; nofun
  | @cons p q ps hp hq _ ih2 =>
    rw [parseAttributes, if_pos ⟨hp.rule, hq.rule⟩]
    exact ih2 _

theorem parseExpressions_np {ps : List (Pair Rule)} (h : ∀ p ∈ ps, IsExpr p) (ih : ∀ q ∈ ps, Fine q) : parseExpressions ps ≠ .panic := by
  induction ps with
  | nil => rw [parseExpressions]; nofun
  | cons p ps ih2 =>
    rw [parseExpressions]
    refine np_bind ((ih p (by simp)).expr (h p (by simp))) fun e _ => ?_
    exact np_bind (ih2 (fun q hq => h q (by simp [hq])) fun q hq => ih q (by simp [hq])) fun _ _ => nofun

/-- The elements of a list of expressions. -/
theorem list_shape {p} (h : Good .expression_list p) : ∀ q ∈ p.inner, IsExpr q := by
  obtain ⟨t, qs, h, rfl⟩ := h
  simp only [Rule.body, opt, d_opt, d_seq] at h
  rcases h with ⟨-, rfl⟩ | ⟨_, _, _, _, h1, h2, -, rfl⟩
  · nofun
  · obtain ⟨q, rfl, hq⟩ := single_expr (r := .expression) rfl trivial _ _ h1
    intro x hx
    rcases List.mem_cons.1 hx with rfl | hx
    · exact hq
    · obtain ⟨parts, hparts, -, rfl⟩ := d_star h2
      replace hx : x ∈ (parts.map (·.2)).flatten := hx
      simp only [List.mem_flatten, List.mem_map] at hx
      obtain ⟨_, ⟨y, hy, rfl⟩, hx⟩ := hx
      have := hparts y hy
      simp only [d_seq, d_lit] at this
      obtain ⟨_, _, _, _, h3, ⟨_, _, _, _, ⟨-, rfl⟩, ⟨_, _, _, _, h4, h5, -, rfl⟩, -, rfl⟩, -, h6⟩ := this
      obtain rfl := ows_pairs h3
      obtain rfl := ows_pairs h4
      obtain ⟨z, rfl, hz⟩ := single_expr (r := .expression) rfl trivial _ _ h5
      rw [h6] at hx
      simp only [List.nil_append, List.mem_singleton] at hx
      subst hx
      exact hz

/-- The pairs of an array type. -/
theorem array_shape {r : Rule} {p} (h : Good r p) (hr : r = .type_array_variable_inclusive ∨ r = .type_array_variable_exclusive ∨ r = .type_array_fixed) :
    ∃ a b, p.inner = [a, b] ∧ Good .type_scalar a ∧ IsExpr b := by
  obtain ⟨t, qs, h, rfl⟩ := h
  rcases hr with rfl | rfl | rfl
  · simp only [Rule.body, d_seq, d_lit] at h
    obtain ⟨_, _, _, _, h1, ⟨_, _, _, _, h2, ⟨_, _, _, _, ⟨-, rfl⟩, ⟨_, _, _, _, h3, ⟨_, _, _, _, ⟨-, rfl⟩,
      ⟨_, _, _, _, h4, ⟨_, _, _, _, h5, ⟨_, _, _, _, h6, ⟨-, rfl⟩, -, rfl⟩, -, rfl⟩, -, rfl⟩, -, rfl⟩, -, rfl⟩, -, rfl⟩, -, rfl⟩, -, rfl⟩ := h
    obtain ⟨a, rfl, ha, -⟩ := good_rule rfl h1
    obtain ⟨b, rfl, hb⟩ := single_expr (r := .expression) rfl trivial _ _ h5
    obtain rfl := ows_pairs h2
    obtain rfl := ows_pairs h3
    obtain rfl := ows_pairs h4
    obtain rfl := ows_pairs h6
    exact ⟨a, b, rfl, ha, hb⟩
  · simp only [Rule.body, d_seq, d_lit] at h
    obtain ⟨_, _, _, _, h1, ⟨_, _, _, _, h2, ⟨_, _, _, _, ⟨-, rfl⟩, ⟨_, _, _, _, h3, ⟨_, _, _, _, ⟨-, rfl⟩,
      ⟨_, _, _, _, h4, ⟨_, _, _, _, h5, ⟨_, _, _, _, h6, ⟨-, rfl⟩, -, rfl⟩, -, rfl⟩, -, rfl⟩, -, rfl⟩, -, rfl⟩, -, rfl⟩, -, rfl⟩, -, rfl⟩ := h
    obtain ⟨a, rfl, ha, -⟩ := good_rule rfl h1
    obtain ⟨b, rfl, hb⟩ := single_expr (r := .expression) rfl trivial _ _ h5
    obtain rfl := ows_pairs h2
    obtain rfl := ows_pairs h3
    obtain rfl := ows_pairs h4
    obtain rfl := ows_pairs h6
    exact ⟨a, b, rfl, ha, hb⟩
  · simp only [Rule.body, d_seq, d_lit] at h
    obtain ⟨_, _, _, _, h1, ⟨_, _, _, _, h2, ⟨_, _, _, _, ⟨-, rfl⟩,
      ⟨_, _, _, _, h4, ⟨_, _, _, _, h5, ⟨_, _, _, _, h6, ⟨-, rfl⟩, -, rfl⟩, -, rfl⟩, -, rfl⟩, -, rfl⟩, -, rfl⟩, -, rfl⟩ := h
    obtain ⟨a, rfl, ha, -⟩ := good_rule rfl h1
    obtain ⟨b, rfl, hb⟩ := single_expr (r := .expression) rfl trivial _ _ h5
    obtain rfl := ows_pairs h2
    obtain rfl := ows_pairs h4
    obtain rfl := ows_pairs h6
    exact ⟨a, b, rfl, ha, hb⟩

theorem good_identifier {t ps} (h : Derives dsdl (.rule .identifier) t ps) : ∃ p, ps = [p] ∧ Good .identifier p ∧ p.text = t := good_rule rfl h

theorem expr_fine {r : Rule} {t : List Char} {qs : List (Pair Rule)} (hr : ExprRule r) (h : Derives dsdl r.body t qs) (ih : ∀ q ∈ qs, Fine q) :
    parseExpression (.node r t qs) ≠ .panic := by
  have bin : ∀ {r e op e' : Rule} {qs : List (Pair Rule)}, (∀ q ∈ qs, Fine q) → Single e IsExpr → Single op (IsOp r) → Single e' IsExpr →
      Derives dsdl (operands e op e') t qs → (match qs with
        | c :: rest => (parseExpression c).bind fun e => parseOperands r rest e
        | [] => .panic) ≠ .panic := by
    intro r e op e' qs ih h1 h2 h3 h
    obtain ⟨p, rest, rfl, hp, hrest⟩ := operands_shape h1 h2 h3 h
    exact np_bind ((ih p (by simp)).expr hp) fun x _ => parseOperands_np hrest (fun q hq => ih q (by simp [hq])) x
  have un : ∀ {e : Rule} {l : String} {f : Expr → Expr} {qs : List (Pair Rule)}, (∀ q ∈ qs, Fine q) → Single e IsExpr →
      Derives dsdl (.seq (.lit l) (.seq ows (.rule e))) t qs → (match qs with
        | c :: _ => (parseExpression c).bind fun e => .ok (f e)
        | [] => .panic) ≠ .panic := by
    intro e l f qs ih h1 h
    simp only [d_seq, d_lit] at h
    obtain ⟨_, _, _, _, ⟨-, rfl⟩, ⟨_, _, _, _, h2, h3, -, rfl⟩, -, rfl⟩ := h
    obtain rfl := ows_pairs h2
    obtain ⟨p, rfl, hp⟩ := h1 _ _ h3
    exact np_bind ((ih p (by simp)).expr hp) fun x _ => nofun
  cases r <;> first | exact hr.elim | skip
  case expression =>
    obtain ⟨q, rfl, hq⟩ := single_expr (r := .ex_logical) rfl trivial _ _ h
    simp only [parseExpression]
    exact (ih q (by simp)).expr hq
  case expression_atom =>
    simp only [Rule.body, d_choice] at h
    have : ∃ q, qs = [q] ∧ (Good .expression_parenthesized q ∨ Good .dtype q ∨ Good .literal q ∨ Good .identifier q) := by
      rcases h with h | h | h | h
      · obtain ⟨q, rfl, hq, -⟩ := good_rule rfl h; exact ⟨q, rfl, by tauto⟩
      · obtain ⟨q, rfl, hq, -⟩ := good_rule rfl h; exact ⟨q, rfl, by tauto⟩
      · obtain ⟨q, rfl, hq, -⟩ := good_rule rfl h; exact ⟨q, rfl, by tauto⟩
      · obtain ⟨q, rfl, hq, -⟩ := good_rule rfl h; exact ⟨q, rfl, by tauto⟩
    obtain ⟨q, rfl, hq⟩ := this
    simp only [parseExpression]
    exact (ih q (by simp)).atom hq
  case ex_logical => rw [parseExpression.eq_def]; exact bin ih single_logical_not single_log single_logical_not h
  case ex_comparison => rw [parseExpression.eq_def]; exact bin ih (single_expr (r := .ex_bitwise)) single_cmp (single_expr (r := .ex_bitwise)) h
  case ex_bitwise => rw [parseExpression.eq_def]; exact bin ih (single_expr (r := .ex_additive)) single_bit (single_expr (r := .ex_additive)) h
  case ex_additive => rw [parseExpression.eq_def]; exact bin ih (single_expr (r := .ex_multiplicative)) single_add (single_expr (r := .ex_multiplicative)) h
  case ex_multiplicative => rw [parseExpression.eq_def]; exact bin ih single_inversion single_mul single_inversion h
  case ex_exponential =>
    simp only [Rule.body, opt, d_seq, d_opt] at h
    obtain ⟨_, _, _, _, h1, h2, -, rfl⟩ := h
    obtain ⟨p, rfl, hp⟩ := single_expr (r := .ex_attribute) rfl trivial _ _ h1
    simp only [parseExpression, List.cons_append, List.nil_append]
    refine np_bind ((ih p (by simp)).expr hp) fun x _ => parseOperands_np ?_ (fun q hq => ih q (by simp [hq])) x
    rcases h2 with ⟨-, rfl⟩ | ⟨_, _, _, _, h3, ⟨_, _, _, _, h4, ⟨_, _, _, _, h5, h6, -, rfl⟩, -, rfl⟩, -, rfl⟩
    · exact .nil
    · have h3 := ows_pairs (d_opt.2 h3)
      have h5 := ows_pairs (d_opt.2 h5)
      subst h3 h5
      obtain ⟨o, rfl, ho⟩ := single_exp _ _ h4
      obtain ⟨q, rfl, hq⟩ := single_inversion _ _ h6
      exact .cons ho hq .nil
  case ex_attribute =>
    obtain ⟨p, rest, rfl, hp, hrest⟩ := operands_shape (single_expr (r := .expression_atom)) (single_normal (r := .op2_attrib)) (single_normal (r := .identifier)) h
    simp only [parseExpression]
    exact np_bind ((ih p (by simp)).expr hp) fun x _ => parseAttributes_np hrest x
  case op1_form_log_not => rw [parseExpression.eq_def]; exact un ih single_logical_not h
  case op1_form_inv_pos => rw [parseExpression.eq_def]; exact un ih (single_expr (r := .ex_exponential)) h
  case op1_form_inv_neg => rw [parseExpression.eq_def]; exact un ih (single_expr (r := .ex_exponential)) h

theorem fine (p : Pair Rule) (ht : ∃ r, Good r p) (hs : Small p.text) : Fine p := by
  have : ∀ n (p : Pair Rule), (∃ r, Good r p) → Small p.text → sizeOf p = n → Fine p := by
    intro n
    induction n using Nat.strong_induction_on with
    | _ n ih =>
      rintro ⟨r, t, qs⟩ ⟨r', _, _, hg, he⟩ hs hn
      cases he
      have ih : ∀ q ∈ qs, Fine q := by
        intro q hq
        refine ih _ ?_ q (hg.good q hq) (Good.small hg hs q hq) rfl
        have := List.sizeOf_lt_of_mem hq
        simp only [Pair.node.sizeOf_spec] at hn
        omega
      refine ⟨?_, ?_, ?_, ?_, ?_, ?_⟩
      · rintro ⟨r', hr, _, _, h, he⟩
        cases he
        exact expr_fine hr h ih
      · rintro (⟨_, _, h, he⟩ | ⟨_, _, h, he⟩ | ⟨_, _, h, he⟩ | ⟨_, _, h, he⟩) <;> cases he
        · simp only [Rule.body, d_seq, d_lit] at h
          obtain ⟨_, _, _, _, ⟨-, rfl⟩, ⟨_, _, _, _, h1, ⟨_, _, _, _, h2, h3, -, rfl⟩, -, rfl⟩, -, rfl⟩ := h
          obtain rfl := ows_pairs h1
          obtain ⟨q, rfl, hq⟩ := single_expr (r := .expression) rfl trivial _ _ h2
          simp only [parseAtom, List.cons_append, List.nil_append]
          exact np_bind ((ih q (by simp)).expr hq) fun _ _ => nofun
        · simp only [Rule.body, d_choice] at h
          rcases h with h | h
          all_goals
            obtain ⟨q, rfl, hq, -⟩ := good_rule rfl h
            simp only [parseAtom]
            exact np_bind ((ih q (by simp)).type (by tauto)) fun _ _ => nofun
        · simp only [Rule.body, d_choice] at h
          rcases h with h | h | h | h | h
          all_goals
            obtain ⟨q, rfl, hq, -⟩ := good_rule rfl h
            simp only [parseAtom]
            exact (ih q (by simp)).literal (by tauto)
        · simp only [parseAtom]; nofun
      · rintro (⟨_, _, h, he⟩ | ⟨_, _, h, he⟩) <;> cases he
        · simp only [Rule.body, d_choice] at h
          rcases h with h | h | h
          all_goals
            obtain ⟨q, rfl, hq, -⟩ := good_rule rfl h
            simp only [parseArrayOrScalar]
            exact (ih q (by simp)).array (by tauto)
        · simp only [parseArrayOrScalar]
          exact np_bind (parseScalarType_np ⟨_, _, h, rfl⟩) fun _ _ => nofun
      · intro h
        have : ∃ a b, qs = [a, b] ∧ Good .type_scalar a ∧ IsExpr b ∧ ∃ k, arrayKind r = .ok k := by
          rcases h with h | h | h
          · obtain ⟨a, b, hi, ha, hb⟩ := array_shape h (by tauto)
            exact ⟨a, b, hi, ha, hb, .inclusive, by have := h.rule; simp only [Pair.rule] at this; subst this; rfl⟩
          · obtain ⟨a, b, hi, ha, hb⟩ := array_shape h (by tauto)
            exact ⟨a, b, hi, ha, hb, .exclusive, by have := h.rule; simp only [Pair.rule] at this; subst this; rfl⟩
          · obtain ⟨a, b, hi, ha, hb⟩ := array_shape h (by tauto)
            exact ⟨a, b, hi, ha, hb, .fixed, by have := h.rule; simp only [Pair.rule] at this; subst this; rfl⟩
        obtain ⟨a, b, rfl, ha, hb, k, hk⟩ := this
        simp only [parseArrayVariant]
        refine np_bind (parseScalarType_np ha) fun _ _ => np_bind ((ih b (by simp)).expr hb) fun _ _ => ?_
        rw [hk]; nofun
      · rintro (⟨_, _, h, he⟩ | ⟨_, _, h, he⟩ | ⟨_, _, h, he⟩ | ⟨_, _, h, he⟩ | ⟨_, _, h, he⟩) <;> cases he
        · simp only [Rule.body, d_seq, d_lit] at h
          obtain ⟨_, _, _, _, ⟨-, rfl⟩, ⟨_, _, _, _, h1, ⟨_, _, _, _, h2, h3, -, rfl⟩, -, rfl⟩, -, rfl⟩ := h
          obtain rfl := ows_pairs h1
          obtain ⟨q, rfl, hq, -⟩ := good_rule rfl h2
          simp only [parseLiteral, List.cons_append, List.nil_append]
          exact np_bind ((ih q (by simp)).list hq) fun _ _ => nofun
        · simp only [parseLiteral]
          exact np_bind (parseRealLiteral_np ⟨_, _, h, rfl⟩ hs) fun _ _ => nofun
        · simp only [parseLiteral]
          exact np_bind (parseIntegerLiteral_np ⟨_, _, h, rfl⟩) fun _ _ => nofun
        · simp only [parseLiteral]
          exact np_bind (parseStringLiteral_np ⟨_, _, h, rfl⟩) fun _ _ => nofun
        · simp only [Rule.body, d_choice] at h
          rcases h with h | h
          all_goals
            obtain ⟨q, rfl, hq, -⟩ := good_rule rfl h
            simp only [parseLiteral]
            refine np_first ?_
            rw [hq.rule]
            nofun
      · intro h
        have hx := list_shape h
        simp only [parseExpressionList]
        exact parseExpressions_np hx ih
  exact this _ p ht hs rfl

theorem parseExpression_np {p} (h : Good .expression p) (hs : Small p.text) : parseExpression p ≠ .panic := (fine p ⟨_, h⟩ hs).expr ⟨.expression, trivial, h⟩

theorem parseDataType_np {p} (h : Good .dtype p) (hs : Small p.text) : parseDataType p ≠ .panic := by
  obtain ⟨t, qs, h, rfl⟩ := h
  replace hs := Good.small h hs
  simp only [Rule.body, d_choice] at h
  rcases h with h | h
  all_goals
    obtain ⟨q, rfl, hq, -⟩ := good_rule rfl h
    exact np_first ((fine q ⟨_, hq⟩ (hs q (by simp))).type (by tauto))

/-! ### Statements -/

theorem parseDirective_np {p} (h : Good .statement_directive p) (hs : Small p.text) : parseDirective p ≠ .panic := by
  obtain ⟨t, qs, h, rfl⟩ := h
  replace hs := Good.small h hs
  simp only [Rule.body, d_choice] at h
  rcases h with h | h
  · obtain ⟨q, rfl, hq, -⟩ := good_rule rfl h
    replace hs := hs q (by simp)
    obtain ⟨u, rs, hb, rfl⟩ := hq
    replace hs := Good.small hb hs
    simp only [Rule.body, d_seq, d_lit] at hb
    obtain ⟨_, _, _, _, ⟨-, rfl⟩, ⟨_, _, _, _, h1, ⟨_, _, _, _, h2, h3, -, rfl⟩, -, rfl⟩, -, rfl⟩ := hb
    obtain rfl := ws_pairs h2
    obtain ⟨n, rfl, -, -⟩ := good_rule rfl h1
    obtain ⟨e, rfl, he, -⟩ := good_rule rfl h3
    exact np_first (np_bind (parseExpression_np he (hs e (by simp))) fun _ _ => nofun)
  · obtain ⟨q, rfl, hq, -⟩ := good_rule rfl h
    obtain ⟨u, rs, hb, rfl⟩ := hq
    simp only [Rule.body, d_seq, d_lit] at hb
    obtain ⟨_, _, _, _, ⟨-, rfl⟩, h1, -, rfl⟩ := hb
    obtain ⟨n, rfl, -, -⟩ := good_rule rfl h1
    exact np_first nofun

theorem parseConstant_np {p} (h : Good .statement_constant p) (hs : Small p.text) : parseConstant p ≠ .panic := by
  obtain ⟨t, qs, h, rfl⟩ := h
  replace hs := Good.small h hs
  simp only [Rule.body, d_seq, d_lit] at h
  obtain ⟨_, _, _, _, h1, ⟨_, _, _, _, h2, ⟨_, _, _, _, h3, ⟨_, _, _, _, h4, ⟨_, _, _, _, ⟨-, rfl⟩, ⟨_, _, _, _, h5, h6, -, rfl⟩, -, rfl⟩, -, rfl⟩, -, rfl⟩, -, rfl⟩,
    -, rfl⟩ := h
  obtain rfl := ws_pairs h2
  obtain rfl := ows_pairs h4
  obtain rfl := ows_pairs h5
  obtain ⟨a, rfl, ha, -⟩ := good_rule rfl h1
  obtain ⟨b, rfl, hb, -⟩ := good_rule rfl h3
  obtain ⟨c, rfl, hc, -⟩ := good_rule rfl h6
  exact np_bind (parsePrimitiveType_np ha) fun _ _ => np_bind (parseExpression_np hc (hs c (by simp))) fun _ _ => nofun

theorem parseField_np {p} (h : Good .statement_field p) (hs : Small p.text) : parseField p ≠ .panic := by
  obtain ⟨t, qs, h, rfl⟩ := h
  replace hs := Good.small h hs
  simp only [Rule.body, d_seq] at h
  obtain ⟨_, _, _, _, h1, ⟨_, _, _, _, h2, h3, -, rfl⟩, -, rfl⟩ := h
  obtain rfl := ws_pairs h2
  obtain ⟨a, rfl, ha, -⟩ := good_rule rfl h1
  obtain ⟨b, rfl, hb, -⟩ := good_rule rfl h3
  refine np_bind (parseDataType_np ha (hs a (by simp))) fun _ _ => ?_
  split <;> nofun

theorem parsePaddingField_np {p} (h : Good .statement_padding_field p) : parsePaddingField p ≠ .panic := by
  obtain ⟨t, qs, h, rfl⟩ := h
  simp only [Rule.body, d_seq, d_lit] at h
  obtain ⟨_, _, _, _, h1, ⟨-, rfl⟩, -, rfl⟩ := h
  obtain ⟨a, rfl, ha, -⟩ := good_rule rfl h1
  exact np_first (np_bind (parseVoid_np ha) fun _ _ => nofun)

/-- The rules of the pairs of a definition. -/
def IsLine (p : Pair Rule) : Prop :=
  Good .statement_directive p ∨ Good .statement_service_response_marker p ∨ Good .statement_constant p ∨ Good .statement_field p ∨
    Good .statement_padding_field p ∨ Good .comment_content p

theorem line_shape {t ps} (h : Derives dsdl (.rule .line) t ps) : ∀ p ∈ ps, IsLine p := by
  have h := silent_rule rfl h
  simp only [Rule.body, opt, d_seq, d_opt] at h
  obtain ⟨_, ps₁, _, _, h1, ⟨_, _, _, ps₂, h2, h3, -, rfl⟩, -, rfl⟩ := h
  have h2 := ows_pairs (d_opt.2 h2)
  subst h2
  have one : ∀ {r : Rule} {t ps}, r.silent = false → Derives dsdl (.rule r) t ps → (∀ p, Good r p → IsLine p) → ∀ p ∈ ps, IsLine p := by
    intro r t ps hr h hl p hp
    obtain ⟨q, rfl, hq, -⟩ := good_rule hr h
    simp only [List.mem_singleton] at hp
    subst hp
    exact hl _ hq
  intro p hp
  rcases List.mem_append.1 hp with hp | hp
  · rcases h1 with ⟨-, rfl⟩ | h1
    · cases hp
    · have h1 := silent_rule rfl h1
      simp only [Rule.body, d_choice] at h1
      rcases h1 with h1 | h1 | h1
      · exact one rfl h1 (fun q hq => .inl hq) p hp
      · exact one rfl h1 (fun q hq => .inr (.inl hq)) p hp
      · have h1 := silent_rule rfl h1
        simp only [Rule.body, d_choice] at h1
        rcases h1 with h1 | h1 | h1
        · exact one rfl h1 (fun q hq => .inr (.inr (.inl hq))) p hp
        · exact one rfl h1 (fun q hq => .inr (.inr (.inr (.inl hq)))) p hp
        · exact one rfl h1 (fun q hq => .inr (.inr (.inr (.inr (.inl hq))))) p hp
  · rcases h3 with ⟨-, rfl⟩ | h3
    · cases hp
    · have h3 := silent_rule rfl h3
      simp only [Rule.body, d_seq, d_lit] at h3
      obtain ⟨_, _, _, _, ⟨-, rfl⟩, h3, -, rfl⟩ := h3
      exact one rfl h3 (fun q hq => .inr (.inr (.inr (.inr (.inr hq))))) p hp

/-- The pairs of a definition: lines, and the end of the text. -/
theorem definition_shape {t ps} (h : Derives dsdl (.rule .definition) t ps) : ∃ ls e, ps = ls ++ [e] ∧ (∀ p ∈ ls, IsLine p) ∧ Good .EOI e := by
  have h := silent_rule rfl h
  simp only [Rule.body, d_seq, d_soi] at h
  obtain ⟨_, _, _, _, ⟨-, rfl⟩, ⟨_, ps₁, _, _, h1, ⟨_, ps₂, _, _, h2, h3, -, rfl⟩, -, rfl⟩, -, rfl⟩ := h
  obtain ⟨e, rfl, he, -⟩ := good_rule rfl h3
  refine ⟨ps₁ ++ ps₂, e, by simp, ?_, he⟩
  intro p hp
  rcases List.mem_append.1 hp with hp | hp
  · exact line_shape h1 p hp
  · obtain ⟨parts, hparts, -, rfl⟩ := d_star h2
    simp only [List.mem_flatten, List.mem_map] at hp
    obtain ⟨_, ⟨x, hx, rfl⟩, hp⟩ := hp
    have := hparts x hx
    simp only [d_seq] at this
    obtain ⟨_, _, _, _, h4, h5, -, h6⟩ := this
    obtain rfl := (silent_rule rfl h4).pairless rfl
    rw [h6] at hp
    exact line_shape h5 p (by simpa using hp)

theorem parseLines_np {ls : List (Pair Rule)} {e : Pair Rule} (h : ∀ p ∈ ls, IsLine p) (hs : ∀ p ∈ ls, Small p.text) (he : Good .EOI e) :
    parseLines (ls ++ [e]) ≠ .panic ∧ ∀ r, parseLines (ls ++ [e]) = .ok r → r.2 = true := by
  induction ls with
  | nil =>
    simp only [List.nil_append, parseLines, he.rule]
    exact ⟨nofun, fun r hr => by cases hr; rfl⟩
  | cons p ls ih =>
    obtain ⟨ih1, ih2⟩ := ih (fun q hq => h q (by simp [hq])) fun q hq => hs q (by simp [hq])
    have hs := hs p (by simp)
    have more : ∀ line : Outcome (List Line), line ≠ .panic →
        (line.bind fun l => (parseLines (ls ++ [e])).bind fun r => .ok (l ++ r.1, r.2 || false)) ≠ .panic ∧
          ∀ r, (line.bind fun l => (parseLines (ls ++ [e])).bind fun r => .ok (l ++ r.1, r.2 || false)) = .ok r → r.2 = true := by
      intro line hl
      refine ⟨np_bind hl fun _ _ => np_bind ih1 fun _ _ => nofun, ?_⟩
      intro r hr
      obtain ⟨l, -, hr⟩ := ok_of_bind hr
      obtain ⟨r', h1, hr⟩ := ok_of_bind hr
      cases hr
      simp [ih2 r' h1]
    have hp := h p (by simp)
    rw [List.cons_append, parseLines]
    rcases hp with hp | hp | hp | hp | hp | hp
    · rw [hp.rule]; exact more _ (np_bind (parseDirective_np hp hs) fun _ _ => nofun)
    · rw [hp.rule]; exact more _ nofun
    · rw [hp.rule]; exact more _ (np_bind (parseConstant_np hp hs) fun _ _ => nofun)
    · rw [hp.rule]; exact more _ (np_bind (parseField_np hp hs) fun _ _ => nofun)
    · rw [hp.rule]; exact more _ (np_bind (parsePaddingField_np hp) fun _ _ => nofun)
    · rw [hp.rule]; exact more _ nofun

theorem parse_np {text : String} (hs : Small text.toList) : parse text ≠ .panic := by
  rw [parse]
  cases h : parsePairs text.toList with
  | none => nofun
  | some ps =>
    obtain ⟨rest, h⟩ := parsePairs_some.1 h
    obtain ⟨t, ht, hd⟩ := h.derives
    obtain ⟨ls, e, rfl, h1, h2⟩ := definition_shape hd
    have hs : ∀ p ∈ ls, Small p.text := fun p hp => hs.infix ((hd.infix p (by simp [hp])).trans ⟨[], rest, by rw [ht]; rfl⟩)
    obtain ⟨h3, h4⟩ := parseLines_np h1 hs h2
    refine np_bind h3 fun r hr => ?_
    rw [if_pos (h4 r hr)]
    nofun

end Verif.Parse
