import Verif.Parse.CompleteLines
import Verif.Parse.Specified

/-!
A text that is written in a stricter style is written in the wider style, too; and what follows for definitions that are put together.
-/

namespace Verif.Parse

open Verif.Front

/-- Whatever is written in the first style is written in the second. -/
structure Style.Le (S S' : Style) : Prop where
  number : ∀ {t q}, S.number t q → S'.number t q
  string : ∀ {t s}, S.string t s → S'.string t s
  name : ∀ {n}, S.name n → S'.name n
  scalar : ∀ {s t}, S.scalar s t → S'.scalar s t
  close : ∀ {t x}, S.close t x → S'.close t x

section
variable {S S' : Style} (hS : S.Le S')
include hS

theorem Written.mono {i : Item} {t : List Char} (h : Written S i t) : Written S' i t := by
  induction h with
  | tighter h1 _ ih => exact .tighter h1 ih
  | binary h1 _ h3 h4 _ ih1 ih2 => exact .binary h1 ih1 h3 h4 ih2
  | not h1 _ ih => exact .not h1 ih
  | sign h1 h2 _ ih => exact .sign h1 h2 ih
  | power _ h2 h3 _ ih1 ih2 => exact .power ih1 h2 h3 ih2
  | «attribute» _ h2 h3 h4 h5 ih => exact .attribute ih h2 h3 h4 (hS.close h5)
  | parenthesized h1 h2 _ ih => exact .parenthesized h1 h2 ih
  | identifier h1 h2 => exact .identifier h1 (hS.name h2)
  | number h => exact .number (hS.number h)
  | string h => exact .string (hS.string h)
  | true => exact .true
  | false => exact .false
  | emptySet h1 h2 => exact .emptySet h1 h2
  | set h1 h2 _ ih => exact .set h1 h2 ih
  | scalarType h => exact .scalarType (hS.scalar h)
  | arrayType h1 h2 h3 h4 h5 h6 _ ih => exact .arrayType (hS.scalar h1) h2 h3 h4 h5 h6 ih
  | one _ ih => exact .one ih
  | more _ h2 h3 _ ih1 ih2 => exact .more ih1 h2 h3 ih2

theorem StatementText.mono {s : Statement} {t : List Char} (h : StatementText S s t) : StatementText S' s t := by
  cases h with
  | directive h => exact .directive h
  | directiveExpr h1 h2 h3 => exact .directiveExpr h1 h2 (h3.mono hS)
  | constant h1 h2 h3 h4 h5 h6 => exact .constant (hS.scalar h1) h2 h3 h4 h5 (h6.mono hS)
  | field h1 h2 h3 h4 => exact .field (h1.mono hS) h2 h3 h4
  | padding h => exact .padding (hS.scalar h)
  | responseMarker h1 h2 => exact .responseMarker h1 h2

theorem LineText.mono {ls : List Line} {t : List Char} (h : LineText S ls t) : LineText S' ls t := by
  cases h with
  | empty h => exact .empty h
  | statement h1 h2 => exact .statement (h1.mono hS) h2
  | comment h1 h2 h3 => exact .comment h1 h2 h3
  | both h1 h2 h3 h4 => exact .both (h1.mono hS) h2 h3 h4

theorem DefinitionText.mono {ls : List Line} {t : List Char} (h : DefinitionText S ls t) : DefinitionText S' ls t := by
  induction h with
  | last h => exact .last (h.mono hS)
  | line h1 h2 _ ih => exact .line (h1.mono hS) h2 ih

end

theorem mantissa_length {t : List Char} {q : ℚ} (h : Mantissa digitCount t q) (hc : ¬ SplitFraction t) : Mantissa List.length t q := by
  have frac : ∀ {w f : List Char} {m : Nat}, Group f m → ¬ SplitFraction (w ++ '.' :: f) → digitCount f = f.length := by
    intro w f m hd hc
    exact digitCount_eq fun h => hc ⟨w, f, [], by simp, h, group_chars hd.1.1⟩
  cases h with
  | whole h1 => exact .whole h1
  | point h1 => exact .point h1
  | fraction h1 h2 => rw [frac h2 hc]; exact .fraction h1 h2
  | onlyFraction h1 => rw [frac (w := []) h1 hc]; exact .onlyFraction h1

theorem numeral_length {t : List Char} {q : ℚ} {limit : Nat → Prop} (h : Numeral digitCount limit t q) (hc : ¬ SplitFraction t) : Numeral List.length limit t q := by
  have pre : ∀ {a b : List Char}, ¬ SplitFraction (a ++ b) → ¬ SplitFraction a := by
    rintro a b h ⟨w, f, r, rfl, h1, h2⟩
    exact h ⟨w, f, r ++ b, by simp, h1, h2⟩
  cases h with
  | binary h1 h2 => exact .binary h1 h2
  | octal h1 h2 => exact .octal h1 h2
  | hexadecimal h1 h2 => exact .hexadecimal h1 h2
  | integer h1 h2 => exact .integer h1 h2
  | real h1 h2 => exact .real (mantissa_length h1 hc) h2
  | exponent h1 h2 h3 h4 => exact .exponent (mantissa_length h1 (pre hc)) h2 h3 h4
  | exponentPlus h1 h2 h3 h4 => exact .exponentPlus (mantissa_length h1 (pre hc)) h2 h3 h4
  | exponentMinus h1 h2 h3 h4 => exact .exponentMinus (mantissa_length h1 (pre hc)) h2 h3 h4

theorem numeral_any {count : List Char → Nat} {limit : Nat → Prop} {t : List Char} {q : ℚ} (h : Numeral count limit t q) : Numeral count (fun _ => True) t q := by
  cases h with
  | binary h1 h2 => exact .binary h1 h2
  | octal h1 h2 => exact .octal h1 h2
  | hexadecimal h1 h2 => exact .hexadecimal h1 h2
  | integer h1 h2 => exact .integer h1 h2
  | real h1 h2 => exact .real h1 h2
  | exponent h1 h2 h3 => exact .exponent h1 h2 h3 trivial
  | exponentPlus h1 h2 h3 => exact .exponentPlus h1 h2 h3 trivial
  | exponentMinus h1 h2 h3 => exact .exponentMinus h1 h2 h3 trivial

theorem quoted_plus {q : Char} {t v : List Char} (h : Quoted Hex q t v) : Quoted HexPlus q t v := by
  induction h with
  | nil => exact .nil
  | plain h1 h2 _ ih => exact .plain h1 h2 ih
  | escape h1 _ ih => exact .escape h1 ih
  | unicode4 h1 h2 h3 _ ih => exact .unicode4 h1 (.inl h2) h3 ih
  | unicode8 h1 h2 h3 _ ih => exact .unicode8 h1 (.inl h2) h3 ih

theorem shared_accepted : shared.Le accepted where
  number h := ⟨numeral_length h.1 h.2.2, h.2.1⟩
  string := by rintro t s ⟨q, body, h1, h2, h3⟩; exact ⟨q, body, h1, h2, quoted_plus h3⟩
  name h := h
  scalar h := h
  close h := h

theorem shared_specified : shared.Le specified where
  number h := numeral_any h.1
  string h := h
  name h := fun hk => h (keyword_reserved hk)
  scalar h := h
  close _ := trivial

/-! ### Definitions that are put together -/

theorem DefinitionText.join {S : Style} {ls ls' : List Line} {t e u : List Char} (h : DefinitionText S ls t) (he : LineEnd e) (h' : DefinitionText S ls' u) :
    DefinitionText S (ls ++ ls') (t ++ e ++ u) := by
  induction h with
  | last h => exact .line h he h'
  | @line ls t e' ls'' v h1 h2 _ ih =>
    have := DefinitionText.line h1 h2 ih
    simpa using this

/-- Adds something to the last line. -/
theorem DefinitionText.onLast {S : Style} {ls : List Line} {t x : List Char} (hx : ∀ {ls t}, LineText S ls t → ∃ ls', LineText S ls' (t ++ x) ∧ Line.statements ls' = Line.statements ls)
    (h : DefinitionText S ls t) : ∃ ls', DefinitionText S ls' (t ++ x) ∧ Line.statements ls' = Line.statements ls := by
  induction h with
  | last h =>
    obtain ⟨ls', h1, h2⟩ := hx h
    exact ⟨ls', .last h1, h2⟩
  | @line ls t e ls' u h1 h2 _ ih =>
    obtain ⟨ls'', h3, h4⟩ := ih
    refine ⟨ls ++ ls'', by simpa using DefinitionText.line h1 h2 h3, ?_⟩
    simp only [Line.statements, List.filterMap_append] at h4 ⊢
    rw [h4]

theorem lineAt {S : Style} {ls : List Line} {t t' : List Char} (h : LineText S ls t) (ht : t' = t) : LineText S ls t' := ht ▸ h

theorem LineText.blank {S : Style} {ls : List Line} {t x : List Char} (hx : Blank x) (h : LineText S ls t) : ∃ ls', LineText S ls' (t ++ x) ∧ Line.statements ls' = Line.statements ls := by
  have app : ∀ {y : List Char}, Blank y → Blank (y ++ x) := fun hy c hc => (List.mem_append.1 hc).elim (hy c) (hx c)
  have no : ∀ {c : List Char}, '\r' ∉ c → '\n' ∉ c → '\r' ∉ c ++ x ∧ '\n' ∉ c ++ x := by
    intro c h1 h2
    refine ⟨fun h => ?_, fun h => ?_⟩
    · rcases List.mem_append.1 h with h | h
      · exact h1 h
      · exact absurd (hx _ h) (by decide)
    · rcases List.mem_append.1 h with h | h
      · exact h2 h
      · exact absurd (hx _ h) (by decide)
  cases h with
  | empty h => exact ⟨_, .empty (app h), rfl⟩
  | statement h1 h2 => exact ⟨_, lineAt (LineText.statement h1 (app h2)) (by simp), rfl⟩
  | comment h1 h2 h3 => exact ⟨_, lineAt (LineText.comment h1 (no h2 h3).1 (no h2 h3).2) (by simp), rfl⟩
  | both h1 h2 h3 h4 => exact ⟨_, lineAt (LineText.both h1 h2 (no h3 h4).1 (no h3 h4).2) (by simp), rfl⟩

theorem LineText.commented {S : Style} {ls : List Line} {t c : List Char} (h1 : '\r' ∉ c) (h2 : '\n' ∉ c) (h : LineText S ls t) :
    ∃ ls', LineText S ls' (t ++ '#' :: c) ∧ Line.statements ls' = Line.statements ls := by
  have no : ∀ {d : List Char}, '\r' ∉ d → '\n' ∉ d → '\r' ∉ d ++ '#' :: c ∧ '\n' ∉ d ++ '#' :: c := by
    intro d h3 h4
    simp only [List.mem_append, List.mem_cons]
    refine ⟨?_, ?_⟩
    · rintro (h | h | h)
      · exact h3 h
      · exact absurd h (by decide)
      · exact h1 h
    · rintro (h | h | h)
      · exact h4 h
      · exact absurd h (by decide)
      · exact h2 h
  cases h with
  | empty h => exact ⟨_, .comment h h1 h2, rfl⟩
  | statement h3 h4 => exact ⟨_, .both h3 h4 h1 h2, rfl⟩
  | comment h3 h4 h5 => exact ⟨_, lineAt (LineText.comment h3 (no h4 h5).1 (no h4 h5).2) (by simp), rfl⟩
  | both h3 h4 h5 h6 => exact ⟨_, lineAt (LineText.both h3 h4 (no h5 h6).1 (no h5 h6).2) (by simp), rfl⟩

/-- An expression without operators is an expression. -/
theorem Written.loosest {S : Style} {e : Expr} {t : List Char} (h : Written S (.expr 9 e) t) : Written S (.expr 0 e) t := by
  have hw : ∀ k ≤ 9, Written S (.expr (9 - k) e) t := by
    intro k hk
    induction k with
    | zero => exact h
    | succ k ih =>
      refine .tighter (by omega) ?_
      rw [show 9 - (k + 1) + 1 = 9 - k by omega]
      exact ih (by omega)
  exact hw 9 (le_refl _)

end Verif.Parse
