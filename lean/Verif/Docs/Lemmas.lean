import Verif.Docs.Spec
import Verif.Front.Types
import Verif.Front.Section
import Mathlib.Data.List.Induction

/-! Lemmas about documentation comments. -/

namespace Verif.Docs

open Verif.Front
open Verif.Parse (Line)

/-! ### Lines -/

theorem append_ne {a b : String} (h : a ≠ "") : a ++ b ≠ "" := by
  intro h'
  apply h
  have := congrArg String.toList h'
  rw [String.toList_append] at this
  exact String.toList_injective (List.append_eq_nil_iff.1 this).1

theorem joinLines_snoc : ∀ (a : String) (as : List String) (c : String), joinLines (a :: as ++ [c]) = joinLines (a :: as) ++ "\n" ++ c
  | a, [], c => rfl
  | a, b :: bs, c => by
    have ih := joinLines_snoc b bs c
    simp only [List.cons_append] at ih ⊢
    rw [joinLines, ih, joinLines]
    simp only [String.append_assoc]

theorem joinLines_ne (a : String) (as : List String) (h : a ≠ "") : joinLines (a :: as) ≠ "" := by
  cases as with
  | nil => exact h
  | cons b bs => rw [joinLines]; exact append_ne (append_ne h)

theorem join_append (as : List String) (c : String) :
    joinLines ((as ++ [c]).dropWhile fun c => decide (c = "")) = appendComment (joinLines (as.dropWhile fun c => decide (c = ""))) c := by
  rw [List.dropWhile_append]
  cases h : as.dropWhile fun c => decide (c = "") with
  | nil =>
    by_cases hc : c = ""
    · subst hc; simp [joinLines, appendComment]
    · simp [joinLines, appendComment, hc]
  | cons b bs =>
    have hb : b ≠ "" := by
      have := List.head?_dropWhile_not (fun c => decide (c = "")) as
      rw [h] at this
      simpa using this
    rw [if_neg (by simp), joinLines_snoc, appendComment, if_neg (joinLines_ne b bs hb)]

/-! ### Comments of a declaration -/

theorem statements_snoc (ls : List Line) (s : Statement) : statements (ls ++ [.statement s]) = statements ls ++ [s] := by
  simp [statements, Line.statements]

theorem statements_comment (ls : List Line) (c : String) : statements (ls ++ [.comment c]) = statements ls := by
  simp [statements, Line.statements]

theorem declarations_comment (ls : List Line) (c : String) : declarations (ls ++ [.comment c]) = declarations ls := by
  rw [declarations, statements_comment]; rfl

theorem declarations_snoc (ls : List Line) (s : Statement) : declarations (ls ++ [.statement s]) = declarations ls ++ if s.declares then [s] else [] := by
  rw [declarations, statements_snoc, List.filter_append]
  congr 1
  cases h : s.declares <;> simp [h]

theorem about_snoc (keep : List Statement → Bool) (ls : List Line) (l : Line) (k : Nat) : about keep (ls ++ [l]) k = about keep ls k ++
    match l with
    | .comment c => if (declarations ls).length = k ∧ keep (statements ls) = true then [c] else []
    | .statement _ => [] := by
  unfold about
  rw [List.length_append, List.length_singleton, List.range_succ, List.filterMap_append]
  congr 1
  · apply List.filterMap_congr
    intro i hi
    rw [List.mem_range] at hi
    rw [List.getElem?_append_left hi, List.take_append_of_le_length (Nat.le_of_lt hi)]
  · simp only [List.filterMap_cons, List.filterMap_nil, List.getElem?_append_right (Nat.le_refl _), Nat.sub_self, List.getElem?_cons_zero, List.take_left']
    cases l with
    | statement s => rfl
    | comment c =>
      dsimp only
      split <;> rename_i h <;> split at h <;> simp_all

theorem doc_statement (keep : List Statement → Bool) (ls : List Line) (s : Statement) (k : Nat) : doc keep (ls ++ [.statement s]) k = doc keep ls k := by
  rw [doc, about_snoc]; simp [doc]

theorem doc_comment (keep : List Statement → Bool) (ls : List Line) (c : String) (k : Nat) : doc keep (ls ++ [.comment c]) k =
    if (declarations ls).length = k ∧ keep (statements ls) = true then appendComment (doc keep ls k) c else doc keep ls k := by
  rw [doc, about_snoc]
  dsimp only
  split
  · rw [join_append]; rfl
  · simp [doc]

theorem doc_later (keep : List Statement → Bool) (ls : List Line) (k : Nat) (h : (declarations ls).length < k) : doc keep ls k = "" := by
  induction ls using List.reverseRecOn with
  | nil => rfl
  | append_singleton ls l ih =>
    cases l with
    | statement s =>
      rw [doc_statement]
      refine ih (Nat.lt_of_le_of_lt ?_ h)
      rw [declarations_snoc]; simp
    | comment c =>
      rw [declarations_comment] at h
      rw [doc_comment, if_neg (by omega), ih h]

/-! ### Expressions and the state -/

/-- The state of the file after an expression. -/
def touched (b : Bool) (f : FileState) : FileState := if b then { f with state := f.state.useOffset } else f

theorem touched_touched (a b : Bool) (f : FileState) : touched b (touched a f) = touched (a || b) f := by
  cases a <;> cases b <;> simp [touched, useOffset_idem]

theorem bind_ok {α β : Type} {o : Outcome α} {f : α → Outcome β} {b : β} (h : o.bind f = .ok b) : ∃ a, o = .ok a ∧ f a = .ok b := by
  cases o with
  | ok a => exact ⟨a, rfl, h⟩
  | error => cases h
  | panic => cases h

variable {P : Type} {x : Externals} {lookup : Lookup P}

theorem typeByKey_file {key : TypeKey} {cx cx' : Cx P} {r : TypeKey × Compiled} (h : typeByKey lookup key cx = .ok (r, cx')) : cx'.file = cx.file := by
  obtain ⟨a, _, h2⟩ := bind_ok h
  cases h2; rfl

theorem scalarLengths_file {s : ScalarTy} {cx cx' : Cx P} {r : Verif.Bls.BitLengthSet} (h : s.bitLengthSet lookup cx = .ok (r, cx')) : cx'.file = cx.file := by
  cases s with
  | versioned key =>
    obtain ⟨⟨a, cx1⟩, h1, h2⟩ := bind_ok h
    dsimp only at h2
    split at h2 <;> cases h2
    exact typeByKey_file h1
  | prim p => cases h; rfl
  | void b => cases h; rfl

theorem typeLengths_file {t : Ty} {cx cx' : Cx P} {r : Verif.Bls.BitLengthSet} (h : t.bitLengthSet lookup cx = .ok (r, cx')) : cx'.file = cx.file := by
  cases t with
  | scalar s => exact scalarLengths_file h
  | fixedArray s n => obtain ⟨⟨a, cx1⟩, h1, h2⟩ := bind_ok h; cases h2; exact scalarLengths_file (lookup := lookup) h1
  | variableArray s n => obtain ⟨⟨a, cx1⟩, h1, h2⟩ := bind_ok h; cases h2; exact scalarLengths_file (lookup := lookup) h1

theorem typeAttribute_file {t : Ty} {name : String} {cx cx' : Cx P} {v : Value} (h : typeAttribute lookup t name cx = .ok (v, cx')) : cx'.file = cx.file := by
  unfold typeAttribute at h
  split at h
  · obtain ⟨⟨a, cx1⟩, h1, h2⟩ := bind_ok h
    cases h2
    exact typeLengths_file h1
  · split at h
    · obtain ⟨⟨a, cx1⟩, h1, h2⟩ := bind_ok h
      dsimp only at h2
      split at h2
      · split at h2 <;> cases h2
        exact typeByKey_file h1
      · cases h2
    · cases h

theorem attribute_file {v : Value} {name : String} {cx cx' : Cx P} {w : Value} (h : evalAttribute x lookup v name cx = .ok (w, cx')) : cx'.file = cx.file := by
  unfold evalAttribute at h
  split at h
  · obtain ⟨a, _, h2⟩ := bind_ok h; cases h2; rfl
  · obtain ⟨a, _, h2⟩ := bind_ok h; cases h2; rfl
  · exact typeAttribute_file h
  · cases h

mutual
theorem eval_file : ∀ (e : Expr) {cx cx' : Cx P} {v : Value}, e.eval x lookup cx = .ok (v, cx') → cx'.file = touched e.mentionsOffset cx.file
  | .parenthesized e, cx, cx', v, h => by rw [Expr.eval] at h; rw [Expr.mentionsOffset]; exact eval_file e h
  | .scalarType s, cx, cx', v, h => by rw [Expr.eval] at h; cases h; rfl
  | .arrayType s kind length, cx, cx', v, h => by
    rw [Expr.eval] at h
    obtain ⟨⟨a, cx1⟩, h1, h2⟩ := bind_ok h
    obtain ⟨n, _, h3⟩ := bind_ok h2
    obtain ⟨t, _, h4⟩ := bind_ok h3
    cases h4
    rw [Expr.mentionsOffset]; exact eval_file length h1
  | .set es, cx, cx', v, h => by
    rw [Expr.eval] at h
    obtain ⟨⟨a, cx1⟩, h1, h2⟩ := bind_ok h
    cases h2
    rw [Expr.mentionsOffset]; exact evalSet_file es h1
  | .number q, cx, cx', v, h => by rw [Expr.eval] at h; cases h; rfl
  | .string s, cx, cx', v, h => by rw [Expr.eval] at h; cases h; rfl
  | .boolean b, cx, cx', v, h => by rw [Expr.eval] at h; cases h; rfl
  | .identifier name, cx, cx', v, h => by
    rw [Expr.eval, evalIdentifier] at h
    rw [Expr.mentionsOffset]
    split at h
    · next hn => cases h; simp [touched, hn]
    · next hn =>
      split at h <;> cases h
      simp [touched, hn]
  | .unary op e, cx, cx', v, h => by
    rw [Expr.eval] at h
    obtain ⟨⟨a, cx1⟩, h1, h2⟩ := bind_ok h
    obtain ⟨n, _, h3⟩ := bind_ok h2
    cases h3
    rw [Expr.mentionsOffset]; exact eval_file e h1
  | .binary op l r, cx, cx', v, h => by
    rw [Expr.eval] at h
    obtain ⟨⟨a, cx1⟩, h1, h2⟩ := bind_ok h
    obtain ⟨⟨b, cx2⟩, h3, h4⟩ := bind_ok h2
    obtain ⟨n, _, h5⟩ := bind_ok h4
    cases h5
    rw [Expr.mentionsOffset, ← touched_touched, ← eval_file l h1]
    exact eval_file r h3
  | .attribute e name, cx, cx', v, h => by
    rw [Expr.eval] at h
    obtain ⟨⟨a, cx1⟩, h1, h2⟩ := bind_ok h
    rw [Expr.mentionsOffset, attribute_file h2]; exact eval_file e h1
theorem evalSet_file : ∀ (es : List Expr) {s s' : ValueSet} {cx cx' : Cx P}, Expr.evalSet x lookup es s cx = .ok (s', cx') →
    cx'.file = touched (Expr.mentionOffset es) cx.file
  | [], s, s', cx, cx', h => by rw [Expr.evalSet] at h; cases h; rfl
  | e :: es, s, s', cx, cx', h => by
    rw [Expr.evalSet] at h
    obtain ⟨⟨a, cx1⟩, h1, h2⟩ := bind_ok h
    dsimp only at h2
    split at h2
    · rw [Expr.mentionOffset, ← touched_touched, ← eval_file e h1]
      exact evalSet_file es h2
    · cases h2
end

theorem convertType_file {t : TypeAst} {cx cx' : Cx P} {ty : Ty} (h : convertType x lookup t cx = .ok (ty, cx')) : cx'.file = touched t.mentionsOffset cx.file := by
  cases t with
  | scalar s => cases h; rfl
  | array s kind e =>
    obtain ⟨⟨a, cx1⟩, h1, h2⟩ := bind_ok h
    obtain ⟨n, _, h3⟩ := bind_ok h2
    obtain ⟨t, _, h4⟩ := bind_ok h3
    cases h4
    exact eval_file e h1

theorem scalarResolve_file {s : ScalarTy} {cx cx' : Cx P} {r : RScalar} (h : s.resolve lookup cx = .ok (r, cx')) : cx'.file = cx.file := by
  cases s with
  | versioned key =>
    obtain ⟨⟨a, cx1⟩, h1, h2⟩ := bind_ok h
    dsimp only at h2
    split at h2 <;> cases h2
    exact typeByKey_file h1
  | prim p => cases h; rfl
  | void b => cases h; rfl

theorem resolve_file {t : Ty} {cx cx' : Cx P} {r : RScalar × Verif.Dsdl.Arity} (h : t.resolve lookup cx = .ok (r, cx')) : cx'.file = cx.file := by
  cases t with
  | scalar s => obtain ⟨⟨a, cx1⟩, h1, h2⟩ := bind_ok h; cases h2; exact scalarResolve_file (lookup := lookup) h1
  | fixedArray s n => obtain ⟨⟨a, cx1⟩, h1, h2⟩ := bind_ok h; cases h2; exact scalarResolve_file (lookup := lookup) h1
  | variableArray s n => obtain ⟨⟨a, cx1⟩, h1, h2⟩ := bind_ok h; cases h2; exact scalarResolve_file (lookup := lookup) h1

end Verif.Docs
