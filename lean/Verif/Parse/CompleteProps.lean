import Verif.Parse.Shared
import Verif.Parse.Check

/-!
C92 and C93: which texts the DSDL parser accepts, and how the texts of definitions may be put together. `Verif.Parse.WrittenSpec` says what a text stands for.
-/

namespace Verif.Parse

open Verif.Front

/-! ### C92: every well written definition is accepted, in one way -/

/-- C92: every definition that is written as specified is accepted, and the parser gives what it stands for. Here names do not begin with words that are something
else, numbers do not begin with a point, and there are the other limits of `shared`; see the counterexamples. -/
theorem C92_accepts_partial {text : String} {lines : List Line} (h : DefinitionText shared lines text.toList) :
    parse text = .ok lines ∧ DefinitionText specified lines text.toList :=
  ⟨parse_complete (h.mono shared_accepted), h.mono shared_specified⟩

/-- C92: the parser accepts exactly the texts that stand for something in its own style, and gives what they stand for. -/
theorem C92_accepts_exactly {text : String} {lines : List Line} : parse text = .ok lines ↔ DefinitionText accepted lines text.toList := parse_iff

/-- C92: a text stands for one definition at most: whatever the operators, the description leaves no choice. -/
theorem C92_unambiguous {lines lines' : List Line} {t : List Char} (h : DefinitionText accepted lines t) (h' : DefinitionText accepted lines' t) : lines = lines' := by
  have e : (String.ofList t).toList = t := String.toList_ofList
  have h1 := parse_complete (text := String.ofList t) (ls := lines) (by rwa [e])
  have h2 := parse_complete (text := String.ofList t) (ls := lines') (by rwa [e])
  rw [h1] at h2
  exact Outcome.ok.inj h2

theorem print_text {S : Style} {e : Expr} {t : List Char} (h : Written S (.expr 0 e) t) :
    DefinitionText S [.statement (.directive "print" (some e))] ("@print ".toList ++ t) := by
  have hname : Name "print".toList := ⟨'p', "rint".toList, rfl, by decide, by decide⟩
  have h1 := StatementText.directiveExpr (n := "print".toList) (x := [' ']) hname ⟨by simp [Blank], by decide⟩ h
  have h2 := LineText.statement (x := []) h1 nofun
  rw [List.append_nil] at h2
  exact .last h2

/-- `@print a - b - 2`: written as specified, and so it is read, from the left. -/
example : DefinitionText shared [.statement (.directive "print" (some (.binary .subtract (.binary .subtract (.identifier "a") (.identifier "b")) (.number 2))))]
    "@print a - b - 2".toList := by
  have id : ∀ (c : Char), NameStart c → (c = 'a' ∨ c = 'b') → Written shared (.expr 9 (.identifier (String.ofList [c]))) [c] := by
    intro c hc hab
    refine .identifier ⟨c, [], rfl, hc, nofun⟩ ?_
    rintro (⟨w, hw, h⟩ | ⟨w, hw, d, -, -, h⟩)
    · have := h.length_le
      revert w; rcases hab with rfl | rfl <;> decide
    · have h1 := h.length_le
      rw [List.length_append] at h1
      have : 0 < w.toList.length := by clear h h1; revert w; decide
      simp only [List.length_cons, List.length_nil] at h1
      omega
  have up : ∀ {e t}, Written shared (.expr 9 e) t → Written shared (.expr 5 e) t := fun h => .tighter (by decide) (.tighter (by decide) (.tighter (by decide) (.tighter (by decide) h)))
  have ha := Written.tighter (by decide) (up (id 'a' (by decide) (.inl rfl)))
  have hb := up (id 'b' (by decide) (.inr rfl))
  have h2 : shared.number ['2'] (2 : Nat) := by
    refine ⟨.integer ⟨⟨Digits.digit (d := 2) .nil (.inl ⟨by decide, rfl⟩) (by decide), .digit (by decide) .nil, by simp⟩, by simp⟩ (by simp), by simp, ?_⟩
    rintro ⟨w, f, r, h, hf, -⟩
    have : '_' ∈ ['2'] := by rw [h]; simp [hf]
    revert this; decide
  have hsub := Written.binary (x := [' ']) (y := [' ']) (show ("-", BinOp.subtract, 4) ∈ operators by decide) ha (by simp [Blank]) (by simp [Blank]) hb
  have hall := Written.binary (x := [' ']) (y := [' ']) (show ("-", BinOp.subtract, 4) ∈ operators by decide) hsub (by simp [Blank]) (by simp [Blank]) (up (.number h2))
  exact print_text (.tighter (by decide) (.tighter (by decide) (.tighter (by decide) (.tighter (by decide) hall))))

/-- C92 does not hold for all texts: the name `byte_count` may be given to a field, but an expression that uses it is an error, as `byte` is taken for a type. -/
theorem C92_counterexample_name :
    DefinitionText specified [.statement (.directive "print" (some (.identifier "byte_count")))] "@print byte_count".toList ∧ parse "@print byte_count" = .error ∧
      parse "uint8 byte_count" = .ok [.statement (.field (.scalar (.prim (.uint 8 .saturated))) "byte_count")] := by
  refine ⟨print_text (.loosest (.identifier (n := "byte_count".toList) ⟨'b', "yte_count".toList, rfl, by decide, by decide⟩ ?_)), parse_of_refuses (by decide +kernel), parse_of_reads (by decide +kernel)⟩
  rintro (⟨w, hw, h⟩ | ⟨w, hw, d, ds, -, -, -, h⟩)
  · revert w; decide
  · have : w.toList <+: "byte_count".toList := ⟨_, h.symm⟩
    clear h
    revert w; decide

/-- C92 does not hold for all texts: a number may begin with a point, but is an error then. -/
theorem C92_counterexample_point :
    DefinitionText specified [.statement (.directive "print" (some (.number (1 / 2))))] "@print .5".toList ∧ parse "@print .5" = .error := by
  refine ⟨print_text (t := ".5".toList) (.loosest (.number ?_)), parse_of_refuses (by decide +kernel)⟩
  have d5 : Digits 10 ['5'] 5 := Digits.digit (d := 5) .nil (.inl ⟨by decide, rfl⟩) (by decide)
  have h := Mantissa.onlyFraction (count := digitCount) (f := ['5']) (m := 5) ⟨⟨d5, .digit (by decide) .nil, by simp⟩, by simp⟩
  have e : ((5 : Nat) : ℚ) / 10 ^ digitCount ['5'] = 1 / 2 := by
    rw [show digitCount ['5'] = 1 from rfl]; norm_num
  rw [e] at h
  exact .real h (by decide)

/-- C92 does not hold for all texts: an attribute of a number is an error without white space in between, as `1.` is taken for the number. -/
theorem C92_counterexample_attribute :
    DefinitionText specified [.statement (.directive "print" (some (.attribute (.number (1 : Nat)) "min")))] "@print 1.min".toList ∧ parse "@print 1.min" = .error ∧
      parse "@print 1 .min" = .ok [.statement (.directive "print" (some (.attribute (.number 1) "min")))] := by
  have d1 : Digits 10 ['1'] 1 := Digits.digit (d := 1) .nil (.inl ⟨by decide, rfl⟩) (by decide)
  have h1 : Written specified (.expr 9 (.number (1 : Nat))) ['1'] := .number (.integer ⟨⟨d1, .digit (by decide) .nil, by simp⟩, by simp⟩ (by simp))
  have h2 := Written.attribute (x := []) (y := []) (n := "min".toList) (.tighter (by decide) h1) nofun nofun ⟨'m', "in".toList, rfl, by decide, by decide⟩ trivial
  refine ⟨print_text (t := "1.min".toList) ?_, parse_of_refuses (by decide +kernel), parse_of_reads (by decide +kernel)⟩
  exact .tighter (by decide) (.tighter (by decide) (.tighter (by decide) (.tighter (by decide) (.tighter (by decide) (.tighter (by decide) (.tighter (by decide) (.tighter (by decide) h2)))))))

/-! ### C93: definitions are put together line by line, and comments and white space at the end of a line mean nothing -/

/-- C93: two definitions with an end of line in between give the lines of the first and then the lines of the second. -/
theorem C93_join {a b : String} {la lb : List Line} (ha : parse a = .ok la) (hb : parse b = .ok lb) :
    parse (a ++ "\n" ++ b) = .ok (la ++ lb) ∧ parse (a ++ "\r\n" ++ b) = .ok (la ++ lb) := by
  constructor
  · refine parse_complete ?_
    rw [String.toList_append, String.toList_append]
    exact (parse_sound ha).join (.inl rfl) (parse_sound hb)
  · refine parse_complete ?_
    rw [String.toList_append, String.toList_append]
    exact (parse_sound ha).join (.inr rfl) (parse_sound hb)

/-- C93: a comment at the end does not change the statements. -/
theorem C93_comment {a c : String} {la : List Line} (ha : parse a = .ok la) (h1 : '\r' ∉ c.toList) (h2 : '\n' ∉ c.toList) :
    ∃ lb, parse (a ++ "#" ++ c) = .ok lb ∧ Line.statements lb = Line.statements la := by
  obtain ⟨lb, h3, h4⟩ := (parse_sound ha).onLast (LineText.commented h1 h2)
  refine ⟨lb, parse_complete ?_, h4⟩
  rw [String.toList_append, String.toList_append]
  simpa using h3

/-- C93: white space at the end does not change the statements. -/
theorem C93_space {a x : String} {la : List Line} (ha : parse a = .ok la) (hx : ∀ c ∈ x.toList, c = ' ' ∨ c = '\t') :
    ∃ lb, parse (a ++ x) = .ok lb ∧ Line.statements lb = Line.statements la := by
  obtain ⟨lb, h3, h4⟩ := (parse_sound ha).onLast (LineText.blank hx)
  refine ⟨lb, parse_complete ?_, h4⟩
  rw [String.toList_append]
  exact h3

/-- Two definitions that are put together, the first of them with a comment. -/
example : parse ("uint8 x" ++ "#" ++ " speed" ++ "\n" ++ "@sealed") =
    .ok ([.statement (.field (.scalar (.prim (.uint 8 .saturated))) "x"), .comment " speed"] ++ [.statement (.directive "sealed" none)]) :=
  (C93_join (a := "uint8 x" ++ "#" ++ " speed") (parse_of_reads (by decide +kernel)) (parse_of_reads (by decide +kernel))).1

end Verif.Parse
