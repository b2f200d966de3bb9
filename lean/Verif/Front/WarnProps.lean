import Verif.Front.WarnLemmas
import Verif.Pkg.Package

/-! # C121: warnings about names, and C89 with the conversion that the generator uses -/

namespace Verif.Front

/-- **C121** (warnings change nothing): compiling with warnings gives the same types, or fails in the same way, as compiling without. -/
theorem C121_types (x : Externals) (files : List (TypeKey × File)) : compile x files = (compileWithWarnings x files).bind fun r => .ok r.1 := by
  have h := compileWithWarnings_cases x files
  cases hc : compile x files with
  | error => rw [hc] at h; dsimp only at h; rw [h]; rfl
  | panic => rw [hc] at h; dsimp only at h; rw [h]; rfl
  | ok types =>
    rw [hc] at h
    obtain ⟨l, h1, _⟩ := h
    rw [h1]; rfl

/-- **C121** (which warnings): there is one warning for each name of a package, type, field, variant, or constant that is not in the style for it, and no other warning. -/
theorem C121_exact (x : Externals) (files : List (TypeKey × File)) (types : List (TypeKey × Compiled)) (ws : Warnings) (hd : DifferentNames files)
    (h : compileWithWarnings x files = .ok (types, ws)) : ws.Nodup ∧ ∀ w, w ∈ ws ↔ Due types w := by
  have hc : compile x files = .ok types := by rw [C121_types, h]; rfl
  have h' := compileWithWarnings_cases x files
  rw [hc] at h'
  obtain ⟨l, h1, h2⟩ := h'
  rw [h] at h1
  cases h1
  have hnd := (C84_order x files types hd hc).1.nodup_iff.2 ((different_iff files).1 hd)
  have hdist : ∀ a ∈ types, ∀ b ∈ types, a.1.folded = b.1.folded → a.1 = b.1 := by
    intro a ha b hb hab
    rw [List.inj_on_of_nodup_map hnd ha hb hab]
  refine ⟨Warnings.addAll_nodup List.nodup_nil l, fun w => ⟨fun hw => ?_, fun hw => ?_⟩⟩
  · exact due_iff.1 ((h2 w).1 ((Warnings.mem_addAll hw).resolve_left (by simp)))
  · obtain ⟨v, hv, hs⟩ := Warnings.addAll_covers (ws := []) (.inr ((h2 w).2 (due_iff.2 hw)))
    have hv' : Due types v := due_iff.1 ((h2 v).1 ((Warnings.mem_addAll hv).resolve_left (by simp)))
    rw [due_same hdist hw hv' hs]; exact hv

/-- **C121** (no warnings): there is no warning exactly if all names are in the style for them. -/
theorem C121_silent (x : Externals) (files : List (TypeKey × File)) (types : List (TypeKey × Compiled)) (ws : Warnings) (hd : DifferentNames files)
    (h : compileWithWarnings x files = .ok (types, ws)) :
    ws = [] ↔ ∀ key c, (key, c) ∈ types → (∀ part ∈ key.path, SnakeName part) ∧ CamelName key.name ∧ (∀ name, c.HasField name → SnakeName name) ∧
      ∀ name, c.HasConstant name → ShoutyName name := by
  obtain ⟨_, hw⟩ := C121_exact x files types ws hd h
  constructor
  · rintro rfl key c hm
    have hno : ∀ w, ¬Due types w := fun w hw' => by simpa using (hw w).2 hw'
    refine ⟨fun part hp => ?_, ?_, fun name hn => ?_, fun name hn => ?_⟩
    · by_contra hu; exact hno _ (.package hm hp hu)
    · by_contra hu; exact hno _ (.typeName hm hu)
    · by_contra hu; exact hno _ (.field hm hn hu)
    · by_contra hu; exact hno _ (.constant hm hn hu)
  · intro hall
    refine List.eq_nil_iff_forall_not_mem.2 fun w hm => ?_
    cases (hw w).1 hm with
    | package mem has unusual => exact unusual ((hall _ _ mem).1 _ has)
    | typeName mem unusual => exact unusual (hall _ _ mem).2.1
    | field mem has unusual => exact unusual ((hall _ _ mem).2.2.1 _ has)
    | constant mem has unusual => exact unusual ((hall _ _ mem).2.2.2 _ has)

/-- **C121** (suggestions): the name that a warning suggests is in the style that is asked for, and has the same letters and digits as the name in the file, up to case. -/
theorem C121_suggestions (s : String) : (SnakeName (Heck.snake s) ∧ plainLetters (Heck.snake s) = plainLetters s) ∧
    (ShoutyName (Heck.shouty s) ∧ plainLetters (Heck.shouty s) = plainLetters s) ∧ CamelName (Heck.upperCamel s) ∧ plainLetters (Heck.upperCamel s) = plainLetters s :=
  ⟨⟨Heck.snake_snake s, Heck.snake_plain s⟩, ⟨Heck.shouty_shouty s, Heck.shouty_plain s⟩, Heck.camel_camel s, Heck.camel_plain s⟩

/-- **C121** (any order): the warnings do not depend on the order of the files, if every type is named in the case of its file. -/
theorem C121_any_order_partial (x : Externals) (files files' : List (TypeKey × File)) (types : List (TypeKey × Compiled)) (ws : Warnings) (hd : DifferentNames files)
    (hp : files'.Perm files) (h : compileWithWarnings x files = .ok (types, ws)) (hn : (types.map Prod.fst).Perm (files.map Prod.fst)) :
    ∃ types' ws', compileWithWarnings x files' = .ok (types', ws') ∧ types'.Perm types ∧ ws'.Perm ws := by
  have hc : compile x files = .ok types := by rw [C121_types, h]; rfl
  obtain ⟨types', h1, h2⟩ := C84_any_order_partial x files files' types hd hp hc hn
  have h' := compileWithWarnings_cases x files'
  rw [h1] at h'
  obtain ⟨l, h3, _⟩ := h'
  have hd' : DifferentNames files' := by rw [different_iff] at hd ⊢; exact (hp.map _).nodup_iff.2 hd
  obtain ⟨n1, e1⟩ := C121_exact x files types ws hd h
  obtain ⟨n2, e2⟩ := C121_exact x files' types' _ hd' h3
  refine ⟨types', _, h3, h2, (List.perm_ext_iff_of_nodup n2 n1).2 fun w => ?_⟩
  rw [e1, e2, ← due_iff, ← due_iff]
  constructor
  · rintro ⟨e, he, hw⟩; exact ⟨e, h2.mem_iff.1 he, hw⟩
  · rintro ⟨e, he, hw⟩; exact ⟨e, h2.mem_iff.2 he, hw⟩

/-- **C89** (no name is used twice), with the conversion into snake case that the generator uses; see `C89_unique_partial`. -/
theorem C89_unique_names_partial (x : Externals) (files : List (TypeKey × File)) (types : List (TypeKey × Compiled)) (hd : DifferentNames files)
    (h : compile x files = .ok types) (hplain : ∀ e ∈ types, e.1.Plain) (hports : types.Pairwise (OtherPort Heck.snake))
    (asEnum : TypeKey → Bool → Bool) (ext : ExternalPackages) (items : List Item) (hg : generateItems Heck.snake asEnum ext types = .ok items) :
    (items.filter fun i => i.kind ≠ .test).Nodup :=
  C89_unique_partial Heck.snake Heck.snake_keeps x files types hd h hplain hports asEnum ext items hg

/-! ### Cases -/

/-- What holds for the warnings, checked by evaluation. -/
theorem warnings_of_check {x : Externals} {files : List (TypeKey × File)} {check : List (TypeKey × Compiled) → Warnings → Bool}
    (h : (match compileWithWarnings x files with | .ok (types, ws) => check types ws | _ => false) = true) :
    ∃ types ws, compileWithWarnings x files = .ok (types, ws) ∧ check types ws = true := by
  cases hc : compileWithWarnings x files with
  | error => rw [hc] at h; cases h
  | panic => rw [hc] at h; cases h
  | ok r => rw [hc] at h; exact ⟨r.1, r.2, rfl, h⟩

/-- A message with two constants and a field. -/
def warnFile (a b field : String) : File :=
  ⟨none, some [.constant (uintTy 8) a (.number 1), .constant (uintTy 8) b (.number 2), .field (.scalar (.prim (uintTy 8))) field, .directive "sealed" none]⟩

-- A package, a type, a field and a constant with unusual names; the package and another constant of two types.
example : DifferentNames [(⟨["myPkg"], "Foo_Bar", 1, 0⟩, warnFile "MAX" "maxValue" "fieldName"), (⟨["myPkg"], "Ok", 1, 0⟩, warnFile "MAX" "A__B" "field_2_")] ∧
    ∃ types ws, compileWithWarnings demoX [(⟨["myPkg"], "Foo_Bar", 1, 0⟩, warnFile "MAX" "maxValue" "fieldName"), (⟨["myPkg"], "Ok", 1, 0⟩, warnFile "MAX" "A__B" "field_2_")] =
      .ok (types, ws) ∧ decide ((types.map Prod.fst).Perm [⟨["myPkg"], "Foo_Bar", 1, 0⟩, ⟨["myPkg"], "Ok", 1, 0⟩] ∧
        ws = [.packageCase "myPkg" "my_pkg", .typeNameCase ⟨["myPkg"], "Foo_Bar", 1, 0⟩ "FooBar", .fieldCase ⟨["myPkg"], "Foo_Bar", 1, 0⟩ "fieldName" "field_name",
          .constantCase ⟨["myPkg"], "Foo_Bar", 1, 0⟩ "maxValue" "MAX_VALUE", .constantCase ⟨["myPkg"], "Ok", 1, 0⟩ "A__B" "A_B"]) = true :=
  ⟨by simp [DifferentNames, SameName]; decide +kernel, warnings_of_check (by decide +kernel)⟩

-- The requirements of C89_unique_names_partial with the conversion of the generator.
example : ∃ types, compile demoX nameFiles = .ok types ∧
    ((types.all fun e => e.1.plainB) && (types.Pairwise fun a b => otherPortB Heck.snake a b = true) &&
      match generateItems Heck.snake (fun _ _ => false) [] types with | .ok items => items.length == 11 | _ => false) = true := by
  have h : (match compile demoX nameFiles with
    | .ok types => ((types.all fun e => e.1.plainB) && (types.Pairwise fun a b => otherPortB Heck.snake a b = true) &&
      match generateItems Heck.snake (fun _ _ => false) [] types with | .ok items => items.length == 11 | _ => false)
    | _ => false) = true := by decide +kernel
  cases hc : compile demoX nameFiles with
  | error => rw [hc] at h; cases h
  | panic => rw [hc] at h; cases h
  | ok types => rw [hc] at h; exact ⟨types, rfl, h⟩

/-- **C121, a suggestion that cannot be followed**: the warnings for two constants suggest the same name, with which the file does not compile. -/
theorem C121_same_suggestion_counterexample : ∃ key a b suggestion types ws, a ≠ b ∧ compileWithWarnings demoX [(key, warnFile a b "f")] = .ok (types, ws) ∧
    ws = [.constantCase key a suggestion, .constantCase key b suggestion] ∧ compileWithWarnings demoX [(key, warnFile suggestion suggestion "f")] = .error := by
  obtain ⟨types, ws, h1, h2⟩ : ∃ types ws, compileWithWarnings demoX [(⟨["pkg"], "T", 1, 0⟩, warnFile "aB" "a_b" "f")] = .ok (types, ws) ∧
      decide (ws = [.constantCase ⟨["pkg"], "T", 1, 0⟩ "aB" "A_B", .constantCase ⟨["pkg"], "T", 1, 0⟩ "a_b" "A_B"]) = true := warnings_of_check (by decide +kernel)
  refine ⟨_, "aB", "a_b", "A_B", types, ws, by decide, h1, of_decide_eq_true h2, ?_⟩
  have h : (match compileWithWarnings demoX [(⟨["pkg"], "T", 1, 0⟩, warnFile "A_B" "A_B" "f")] with | .error => true | _ => false) = true := by decide +kernel
  revert h
  cases compileWithWarnings demoX [(⟨["pkg"], "T", 1, 0⟩, warnFile "A_B" "A_B" "f")] <;> simp

/-- `demoX` with the reserved words of `is_reserved_keyword`. -/
def warnX : Externals := { demoX with reserved := Pkg.isReservedKeyword Char.isDigit }

/-- **C121, a suggestion that is not a name**: for the constants `_1` and `_` the names `1` and the empty name are suggested. -/
theorem C121_no_name_counterexample : ∃ types ws, compileWithWarnings warnX [(⟨["pkg"], "T", 1, 0⟩, warnFile "_1" "_" "f")] = .ok (types, ws) ∧
    ws = [.constantCase ⟨["pkg"], "T", 1, 0⟩ "_1" "1", .constantCase ⟨["pkg"], "T", 1, 0⟩ "_" ""] ∧
    Pkg.isValidIdentifier "_1" = true ∧ Pkg.isValidIdentifier "_" = true ∧ Pkg.isValidIdentifier "1" = false ∧ Pkg.isValidIdentifier "" = false := by
  obtain ⟨types, ws, h1, h2⟩ : ∃ types ws, compileWithWarnings warnX [(⟨["pkg"], "T", 1, 0⟩, warnFile "_1" "_" "f")] = .ok (types, ws) ∧
      decide (ws = [.constantCase ⟨["pkg"], "T", 1, 0⟩ "_1" "1", .constantCase ⟨["pkg"], "T", 1, 0⟩ "_" ""]) = true := warnings_of_check (by decide +kernel)
  exact ⟨types, ws, h1, of_decide_eq_true h2, by decide +kernel⟩

/-- **C121, a suggestion that is reserved**: for the constant `_Bool` the name `BOOL` is suggested, with which the file does not compile. -/
theorem C121_reserved_counterexample : ∃ types ws, compileWithWarnings warnX [(⟨["pkg"], "T", 1, 0⟩, warnFile "A" "_Bool" "f")] = .ok (types, ws) ∧
    ws = [.constantCase ⟨["pkg"], "T", 1, 0⟩ "_Bool" "BOOL"] ∧ compileWithWarnings warnX [(⟨["pkg"], "T", 1, 0⟩, warnFile "A" "BOOL" "f")] = .error := by
  obtain ⟨types, ws, h1, h2⟩ : ∃ types ws, compileWithWarnings warnX [(⟨["pkg"], "T", 1, 0⟩, warnFile "A" "_Bool" "f")] = .ok (types, ws) ∧
      decide (ws = [.constantCase ⟨["pkg"], "T", 1, 0⟩ "_Bool" "BOOL"]) = true := warnings_of_check (by decide +kernel)
  refine ⟨types, ws, h1, of_decide_eq_true h2, ?_⟩
  have h : (match compileWithWarnings warnX [(⟨["pkg"], "T", 1, 0⟩, warnFile "A" "BOOL" "f")] with | .error => true | _ => false) = true := by decide +kernel
  revert h
  cases compileWithWarnings warnX [(⟨["pkg"], "T", 1, 0⟩, warnFile "A" "BOOL" "f")] <;> simp

/-! ### The conversions of names -/

open Heck in
example : snake "CamelCase" = "camel_case" ∧ snake "XMLHttpRequest" = "xml_http_request" ∧ snake "FIELD_NAME11" = "field_name11" ∧ snake "99BOTTLES" = "99bottles" ∧
    snake "abc123DEF456" = "abc123_def456" ∧ snake "aBC" = "a_bc" ∧ snake "_a__b_" = "a_b" ∧
    snake "ABC123dEEf456FOO" = "abc123d_e_ef456_foo" := by decide +kernel

open Heck in
example : shouty "CamelCase" = "CAMEL_CASE" ∧ upperCamel "this_is MyName" = "ThisIsMyName" ∧ upperCamel "XMLParser" = "XmlParser" := by decide +kernel

end Verif.Front
