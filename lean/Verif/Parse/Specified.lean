import Verif.Parse.Sound

/-!
Where a text has nothing that the parser takes differently, what it accepts stands for the same by the specification.
-/

namespace Verif.Parse

open Verif.Front

/-- Nothing in the text is taken differently. -/
def Clean (t : List Char) : Prop := ¬ SplitFraction t ∧ ¬ PlusEscape t

theorem Clean.infix {t u : List Char} (h : Clean t) (hu : u <:+: t) : Clean u := by
  obtain ⟨x, y, rfl⟩ := hu
  refine ⟨?_, ?_⟩
  · rintro ⟨w, f, r, rfl, h1, h2⟩
    exact h.1 ⟨x ++ w, f, r ++ y, by simp, h1, h2⟩
  · rintro ⟨a, c, b, rfl, h1⟩
    exact h.2 ⟨x ++ a, c, b ++ y, by simp, h1⟩

theorem digitCount_eq {t : List Char} (h : '_' ∉ t) : digitCount t = t.length := by
  rw [digitCount, List.filter_eq_self.2]
  intro c hc
  simp only [ne_eq, decide_not, Bool.not_eq_eq_eq_not, Bool.not_true, decide_eq_false_iff_not]
  rintro rfl
  exact h hc

theorem fraction_clean {w f : List Char} {m : Nat} (hd : Group f m) (hc : Clean (w ++ '.' :: f)) : f.length = digitCount f := by
  refine (digitCount_eq fun h => hc.1 ⟨w, f, [], by simp, h, group_chars hd.1.1⟩).symm

theorem Mantissa.specified {t : List Char} {q : ℚ} (h : Mantissa List.length t q) (hc : Clean t) : Mantissa digitCount t q := by
  cases h with
  | whole h1 => exact .whole h1
  | point h1 => exact .point h1
  | fraction h1 h2 => rw [fraction_clean h2 hc]; exact .fraction h1 h2
  | onlyFraction h1 => rw [fraction_clean (w := []) h1 hc]; exact .onlyFraction h1

theorem Numeral.specified {t : List Char} {q : ℚ} {limit : Nat → Prop} (h : Numeral List.length limit t q) (hc : Clean t) : specified.number t q := by
  cases h with
  | binary h1 h2 => exact .binary h1 h2
  | octal h1 h2 => exact .octal h1 h2
  | hexadecimal h1 h2 => exact .hexadecimal h1 h2
  | integer h1 h2 => exact .integer h1 h2
  | real h1 h2 => exact .real (h1.specified hc) h2
  | exponent h1 h2 h3 => exact .exponent (h1.specified (hc.infix (List.prefix_append _ _).isInfix)) h2 h3 trivial
  | exponentPlus h1 h2 h3 => exact .exponentPlus (h1.specified (hc.infix (List.prefix_append _ _).isInfix)) h2 h3 trivial
  | exponentMinus h1 h2 h3 => exact .exponentMinus (h1.specified (hc.infix (List.prefix_append _ _).isInfix)) h2 h3 trivial

theorem Quoted.specified {q : Char} {t v : List Char} (h : Quoted HexPlus q t v) (hc : Clean t) : Quoted Hex q t v := by
  have hex : ∀ {u : Char} {ds t : List Char} {n : Nat}, (u = 'u' ∨ u = 'U') → Clean ('\\' :: u :: (ds ++ t)) → HexPlus ds n → Hex ds n := by
    rintro u ds t n hu hc (h | ⟨rest, rfl, -, -⟩)
    · exact h
    · exact absurd ⟨[], u, rest ++ t, by simp, hu⟩ hc.2
  induction h with
  | nil => exact .nil
  | plain h1 h2 _ ih => exact .plain h1 h2 (ih (hc.infix (List.suffix_cons _ _).isInfix))
  | @escape c d t v h1 _ ih => exact .escape h1 (ih (hc.infix (List.suffix_append ['\\', c] _).isInfix))
  | @unicode4 ds n t v h1 h2 h3 _ ih =>
    exact .unicode4 h1 (hex (.inl rfl) (by simpa using hc) h2) h3 (ih (hc.infix (List.suffix_append _ _).isInfix))
  | @unicode8 ds n t v h1 h2 h3 _ ih =>
    exact .unicode8 h1 (hex (.inr rfl) (by simpa using hc) h2) h3 (ih (hc.infix (List.suffix_append _ _).isInfix))

theorem keyword_reserved {n : List Char} (h : Keyword n) : Reserved n := by
  rcases h with ⟨w, hw, rfl⟩ | ⟨w, hw, d, ds, h1, h2, -, rfl⟩
  · exact .inl ⟨w, hw, List.prefix_rfl⟩
  · exact .inr ⟨w, hw, d, h1, h2, ⟨ds, by simp⟩⟩

theorem Written.specified {i : Item} {t : List Char} (h : Written accepted i t) (hc : Clean t) : Written specified i t := by
  induction h with
  | tighter h1 _ ih => exact .tighter h1 (ih hc)
  | binary h1 _ h3 h4 _ ih1 ih2 => exact .binary h1 (ih1 (hc.infix ⟨[], _, by simp; rfl⟩)) h3 h4 (ih2 (hc.infix (List.suffix_append _ _).isInfix))
  | not h1 _ ih => exact .not h1 (ih (hc.infix (List.suffix_append _ _).isInfix))
  | sign h1 h2 _ ih => exact .sign h1 h2 (ih (hc.infix (List.suffix_append _ _).isInfix))
  | power _ h2 h3 _ ih1 ih2 => exact .power (ih1 (hc.infix ⟨[], _, by simp; rfl⟩)) h2 h3 (ih2 (hc.infix (List.suffix_append _ _).isInfix))
  | «attribute» _ h2 h3 h4 _ ih => exact .attribute (ih (hc.infix ⟨[], _, by simp; rfl⟩)) h2 h3 h4 trivial
  | @parenthesized x y e t h1 h2 _ ih => exact .parenthesized h1 h2 (ih (hc.infix ⟨'(' :: x, y ++ [')'], by simp⟩))
  | identifier h1 h2 => exact .identifier h1 (fun h => h2 (keyword_reserved h))
  | number h => exact .number (Numeral.specified h.1 hc)
  | string h =>
    obtain ⟨q, body, hq, rfl, h⟩ := h
    exact .string ⟨q, body, hq, rfl, h.specified (hc.infix ⟨[q], [q], by simp⟩)⟩
  | true => exact .true
  | false => exact .false
  | emptySet h1 h2 => exact .emptySet h1 h2
  | @set x y es t h1 h2 _ ih => exact .set h1 h2 (ih (hc.infix ⟨'{' :: x, y ++ ['}'], by simp⟩))
  | scalarType h => exact .scalarType h
  | @arrayType s t k x y z w e u h1 h2 h3 h4 h5 h6 _ ih =>
    exact .arrayType h1 h2 h3 h4 h5 h6 (ih (hc.infix ⟨t ++ x ++ '[' :: y ++ arrayOpen k ++ z, w ++ [']'], by simp⟩))
  | one _ ih => exact .one (ih hc)
  | more _ h2 h3 _ ih1 ih2 => exact .more (ih1 (hc.infix ⟨[], _, by simp; rfl⟩)) h2 h3 (ih2 (hc.infix (List.suffix_append _ _).isInfix))

theorem StatementText.specified {s : Statement} {t : List Char} (h : StatementText accepted s t) (hc : Clean t) : StatementText specified s t := by
  cases h with
  | directive h => exact .directive h
  | directiveExpr h1 h2 h3 => exact .directiveExpr h1 h2 (h3.specified (hc.infix (List.suffix_append _ _).isInfix))
  | constant h1 h2 h3 h4 h5 h6 => exact .constant h1 h2 h3 h4 h5 (h6.specified (hc.infix (List.suffix_append _ _).isInfix))
  | field h1 h2 h3 h4 => exact .field (h1.specified (hc.infix ⟨[], _, by simp; rfl⟩)) h2 h3 h4
  | padding h => exact .padding h
  | responseMarker h1 h2 => exact .responseMarker h1 h2

theorem LineText.specified {ls : List Line} {t : List Char} (h : LineText accepted ls t) (hc : Clean t) : LineText specified ls t := by
  cases h with
  | empty h => exact .empty h
  | statement h1 h2 => exact .statement (h1.specified (hc.infix (List.prefix_append _ _).isInfix)) h2
  | comment h1 h2 h3 => exact .comment h1 h2 h3
  | both h1 h2 h3 h4 => exact .both (h1.specified (hc.infix ⟨[], _, by simp; rfl⟩)) h2 h3 h4

theorem DefinitionText.specified {ls : List Line} {t : List Char} (h : DefinitionText accepted ls t) (hc : Clean t) : DefinitionText specified ls t := by
  induction h with
  | last h => exact .last (h.specified hc)
  | line h1 h2 _ ih => exact .line (h1.specified (hc.infix ⟨[], _, by simp; rfl⟩)) h2 (ih (hc.infix (List.suffix_append _ _).isInfix))

end Verif.Parse
