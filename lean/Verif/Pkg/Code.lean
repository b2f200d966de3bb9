import Verif.Pkg.Props
import Verif.Front.GenProps
import Verif.Front.InnerProps

/-!
C133: the whole way from the text of DSDL files to generated code. What C88 and C123 assume of the files holds for all files that the parser reads.
-/

namespace Verif.Pkg

open Verif.Front (TypeKey SameName DifferentNames Compiled Externals DescribedBy Describes CMessage)
open Verif.Parse (PrimText ScalarText StatementText LineText DefinitionText Line accepted)
open Verif.Dsdl (Message Val Same SameResult)
open Verif.Enc

/-! ### What the parser makes sure -/

theorem primText_bits {p : Front.Prim} {t : List Char} (h : PrimText p t) : 1 ≤ p.bits ∧ p.bits ≤ 64 := by
  cases h <;> simp_all [Front.Prim.bits]

theorem scalarText_prim {p : Front.Prim} {t : List Char} (h : accepted.scalar (.prim p) t) : 1 ≤ p.bits ∧ p.bits ≤ 64 := by
  cases (show ScalarText (.prim p) t from h) with
  | prim h => exact primText_bits h

/-- The widths of the types of fields and constants. -/
def StatementWidths (s : Front.Statement) : Prop := s.Widths ∧ ∀ ty name e, s = .constant ty name e → 1 ≤ ty.bits ∧ ty.bits ≤ 64

theorem written_scalar {s : Front.ScalarTy} {t : List Char} (h : Parse.Written accepted (.expr 9 (.scalarType s)) t) : accepted.scalar s t := by
  cases h with
  | tighter h => omega
  | scalarType h => exact h

theorem written_array {s : Front.ScalarTy} {k : Front.ArrayKind} {e : Front.Expr} {t : List Char} (h : Parse.Written accepted (.expr 9 (.arrayType s k e)) t) :
    ∃ u, accepted.scalar s u := by
  cases h with
  | tighter h => omega
  | arrayType h => exact ⟨_, h⟩

theorem statementText_widths {s : Front.Statement} {t : List Char} (h : StatementText accepted s t) : StatementWidths s ∧ t ≠ [] := by
  cases h with
  | directive h => exact ⟨⟨trivial, by rintro _ _ _ ⟨⟩⟩, by simp⟩
  | directiveExpr h => exact ⟨⟨trivial, by rintro _ _ _ ⟨⟩⟩, by simp⟩
  | constant h => exact ⟨⟨trivial, by rintro _ _ _ ⟨⟩; exact scalarText_prim h⟩, by simp⟩
  | field h hf hx hn =>
    refine ⟨⟨?_, by rintro _ _ _ ⟨⟩⟩, ?_⟩
    · unfold Parse.FieldType at hf
      split at hf
      · obtain ⟨rfl, _⟩ := hf
        unfold Front.Statement.Widths
        split
        · rename_i heq
          cases heq
          exact scalarText_prim (written_scalar h)
        · rename_i heq; cases heq
        · trivial
      · obtain ⟨rfl, _⟩ := hf
        obtain ⟨u, hu⟩ := written_array h
        unfold Front.Statement.Widths
        split
        · rename_i heq; cases heq
        · rename_i heq
          cases heq
          exact scalarText_prim hu
        · trivial
      · exact hf.elim
    · intro he
      have := hx.2
      simp_all
  | padding h =>
    refine ⟨⟨trivial, by rintro _ _ _ ⟨⟩⟩, ?_⟩
    cases (show ScalarText _ _ from h) with
    | void => simp
  | responseMarker h => exact ⟨⟨trivial, by rintro _ _ _ ⟨⟩⟩, by rintro rfl; simp at h⟩

theorem lineText_widths {ls : List Line} {t : List Char} (h : LineText accepted ls t) : (∀ s ∈ Line.statements ls, StatementWidths s) ∧ (Line.statements ls).length ≤ t.length := by
  cases h with
  | empty => simp [Line.statements]
  | statement h =>
    obtain ⟨h1, h2⟩ := statementText_widths h
    have := List.length_pos_iff.2 h2
    simp [Line.statements, h1]
    omega
  | comment => simp [Line.statements]
  | both h =>
    obtain ⟨h1, h2⟩ := statementText_widths h
    have := List.length_pos_iff.2 h2
    simp [Line.statements, h1]
    omega

theorem definitionText_widths {ls : List Line} {t : List Char} (h : DefinitionText accepted ls t) :
    (∀ s ∈ Line.statements ls, StatementWidths s) ∧ (Line.statements ls).length ≤ t.length := by
  induction h with
  | last h => exact lineText_widths h
  | line h _ _ ih =>
    obtain ⟨h1, h2⟩ := lineText_widths h
    have happ : ∀ a b : List Line, Line.statements (a ++ b) = Line.statements a ++ Line.statements b := fun a b => List.filterMap_append
    rw [happ]
    refine ⟨fun s hs => ?_, ?_⟩
    · rcases List.mem_append.1 hs with hs | hs
      exacts [h1 s hs, ih.1 s hs]
    · simp only [List.length_append]
      omega

/-! ### What C88 and C123 assume -/

/-- The files of a package, if they compile: they have different names, and what C88 and C123 assume holds. -/
theorem package_files {nd : Char → Bool} {calls : List Call} {x : Externals} {disk : List OsStr → Option String} {types : List (TypeKey × Compiled)}
    (h : (afterCalls nd calls).compile x disk = .ok types) :
    ∃ files, DifferentNames files ∧ Front.compile x files = .ok types ∧ (∀ e ∈ files, Front.ConstantWidths e.2) ∧
      ((∀ e ∈ afterCalls nd calls, ∀ text, IsText disk e.2 text → text.length < 2 ^ 64) → Front.FilesOk files) := by
  have hg := afterCalls_good nd calls
  generalize afterCalls nd calls = p at *
  unfold Package.compile at h
  cases hp : Package.parsed disk p with
  | error => rw [hp] at h; cases h
  | panic => rw [hp] at h; cases h
  | ok files =>
    rw [hp] at h
    replace h : Front.compile x files = .ok types := h
    have hall := parsed_ok hp
    have hkeys : files.map (fun e => e.1.folded) = p.map fun e => e.1.folded := by
      clear h hp hg
      induction hall with
      | nil => rfl
      | cons h _ ih => rw [List.map_cons, List.map_cons, h.1, ih]
    have hd : DifferentNames files := by
      rw [Front.different_iff, hkeys, ← Front.different_iff]
      exact hg.sorted.different
    have hwidths : ∀ f ∈ files, ∀ ss, f.2.statements = some ss →
        ∃ e ∈ p, ∃ text, IsText disk e.2 text ∧ (∀ s ∈ ss, StatementWidths s) ∧ ss.length ≤ text.length := by
      intro f hf ss hss
      obtain ⟨e, he, _, h2⟩ := forall₂_mem_right hall hf
      obtain ⟨text, lines, h3, h4, _, rfl⟩ := parsed_statements h2 hss
      obtain ⟨h5, h6⟩ := definitionText_widths h4
      exact ⟨e, he, text, isText h3, h5, by rw [← String.length_toList]; exact h6⟩
    refine ⟨files, hd, h, fun e he ss ty name expr hss hs => ?_, fun hshort name file ss hm hss => ?_⟩
    · obtain ⟨_, _, _, _, h1, _⟩ := hwidths e he ss hss
      exact (h1 _ hs).2 _ _ _ rfl
    · obtain ⟨e, he, text, ht, h1, h2⟩ := hwidths _ hm ss hss
      exact ⟨lt_of_le_of_lt h2 (hshort e he text ht), fun s hs => (h1 s hs).1⟩

end Verif.Pkg
