import Verif.Parse.Ast

/-!
Comparing what the parser gives with what is expected, for the examples.
-/

namespace Verif.Parse

open Verif.Front

mutual
/-- Whether two expressions are the same. -/
def sameExpr : Expr → Expr → Bool
  | .parenthesized a, .parenthesized b => sameExpr a b
  | .scalarType s, .scalarType s' => s = s'
  | .arrayType s k a, .arrayType s' k' b => s = s' && k = k' && sameExpr a b
  | .set as, .set bs => sameExprs as bs
  | .number p, .number q => p = q
  | .string s, .string s' => s = s'
  | .boolean x, .boolean y => x = y
  | .identifier n, .identifier n' => n = n'
  | .unary o a, .unary o' b => o = o' && sameExpr a b
  | .binary o a b, .binary o' a' b' => o = o' && sameExpr a a' && sameExpr b b'
  | .attribute a n, .attribute b n' => sameExpr a b && n = n'
  | _, _ => false
/-- Whether two lists of expressions are the same. -/
def sameExprs : List Expr → List Expr → Bool
  | [], [] => true
  | a :: as, b :: bs => sameExpr a b && sameExprs as bs
  | _, _ => false
end

theorem sameExpr_eq : ∀ (a b : Expr), sameExpr a b = true → a = b := by
  intro a
  induction a using Expr.rec (motive_2 := fun as => ∀ bs, sameExprs as bs = true → as = bs) with
  | parenthesized a ih => rintro (_ | _) h <;> first | cases h | (simp only [sameExpr] at h; rw [ih _ h])
  | scalarType s => rintro (_ | _) h <;> first | cases h | (simp only [sameExpr, decide_eq_true_eq] at h; rw [h])
  | arrayType s k a ih =>
    rintro (_ | _) h <;> first | cases h | skip
    simp only [sameExpr, Bool.and_eq_true, decide_eq_true_eq] at h
    rw [h.1.1, h.1.2, ih _ h.2]
  | set as ih => rintro (_ | _) h <;> first | cases h | (simp only [sameExpr] at h; rw [ih _ h])
  | number q => rintro (_ | _) h <;> first | cases h | (simp only [sameExpr, decide_eq_true_eq] at h; rw [h])
  | string s => rintro (_ | _) h <;> first | cases h | (simp only [sameExpr, decide_eq_true_eq] at h; rw [h])
  | boolean x => rintro (_ | _) h <;> first | cases h | (simp only [sameExpr, decide_eq_true_eq] at h; rw [h])
  | identifier n => rintro (_ | _) h <;> first | cases h | (simp only [sameExpr, decide_eq_true_eq] at h; rw [h])
  | unary o a ih =>
    rintro (_ | _) h <;> first | cases h | skip
    simp only [sameExpr, Bool.and_eq_true, decide_eq_true_eq] at h
    rw [h.1, ih _ h.2]
  | binary o a b ih1 ih2 =>
    rintro (_ | _) h <;> first | cases h | skip
    simp only [sameExpr, Bool.and_eq_true, decide_eq_true_eq] at h
    rw [h.1.1, ih1 _ h.1.2, ih2 _ h.2]
  | «attribute» a n ih =>
    rintro (_ | _) h <;> first | cases h | skip
    simp only [sameExpr, Bool.and_eq_true, decide_eq_true_eq] at h
    rw [ih _ h.1, h.2]
  | nil =>
    rename_i bs h
    cases bs with
    | nil => rfl
    | cons => simp [sameExprs] at h
  | cons a as ih1 ih2 =>
    rename_i bs h
    cases bs with
    | nil => simp [sameExprs] at h
    | cons b bs =>
      simp only [sameExprs, Bool.and_eq_true] at h
      rw [ih1 _ h.1, ih2 _ h.2]

/-- Whether two types are the same. -/
def sameType : TypeAst → TypeAst → Bool
  | .scalar s, .scalar s' => s = s'
  | .array s k a, .array s' k' b => s = s' && k = k' && sameExpr a b
  | _, _ => false

/-- Whether two statements are the same. -/
def sameStatement : Statement → Statement → Bool
  | .directive n none, .directive n' none => n = n'
  | .directive n (some a), .directive n' (some b) => n = n' && sameExpr a b
  | .constant t n a, .constant t' n' b => t = t' && n = n' && sameExpr a b
  | .field t n, .field t' n' => sameType t t' && n = n'
  | .padding a, .padding b => a = b
  | .responseMarker, .responseMarker => true
  | _, _ => false

/-- Whether two lists of lines are the same. -/
def sameLines : List Line → List Line → Bool
  | [], [] => true
  | .statement s :: as, .statement s' :: bs => sameStatement s s' && sameLines as bs
  | .comment c :: as, .comment c' :: bs => c = c' && sameLines as bs
  | _, _ => false

theorem sameType_eq {a b : TypeAst} (h : sameType a b = true) : a = b := by
  unfold sameType at h
  split at h
  · simp only [decide_eq_true_eq] at h; rw [h]
  · simp only [Bool.and_eq_true, decide_eq_true_eq] at h; rw [h.1.1, h.1.2, sameExpr_eq _ _ h.2]
  · cases h

theorem sameStatement_eq {a b : Statement} (h : sameStatement a b = true) : a = b := by
  unfold sameStatement at h
  split at h
  · simp only [decide_eq_true_eq] at h; rw [h]
  · simp only [Bool.and_eq_true, decide_eq_true_eq] at h; rw [h.1, sameExpr_eq _ _ h.2]
  · simp only [Bool.and_eq_true, decide_eq_true_eq] at h; rw [h.1.1, h.1.2, sameExpr_eq _ _ h.2]
  · simp only [Bool.and_eq_true, decide_eq_true_eq] at h; rw [sameType_eq h.1, h.2]
  · simp only [decide_eq_true_eq] at h; rw [h]
  · rfl
  · cases h

theorem sameLines_eq {as bs : List Line} (h : sameLines as bs = true) : as = bs := by
  induction as generalizing bs with
  | nil =>
    cases bs with
    | nil => rfl
    | cons => simp [sameLines] at h
  | cons a as ih =>
    cases bs with
    | nil => cases a <;> simp [sameLines] at h
    | cons b bs =>
      cases a <;> cases b <;> simp only [sameLines, Bool.and_eq_true, decide_eq_true_eq, Bool.false_eq_true] at h
      · rw [sameStatement_eq h.1, ih h.2]
      · rw [h.1, ih h.2]

/-- Whether the parser gives these lines. -/
def reads (text : String) (ls : List Line) : Bool :=
  match parse text with
  | .ok ls' => sameLines ls' ls
  | _ => false

theorem parse_of_reads {text : String} {ls : List Line} (h : reads text ls = true) : parse text = .ok ls := by
  unfold reads at h
  split at h
  · next h' => rw [h', sameLines_eq h]
  · cases h

/-- Whether the parser gives an error. -/
def refuses (text : String) : Bool :=
  match parse text with
  | .error => true
  | _ => false

theorem parse_of_refuses {text : String} (h : refuses text = true) : parse text = .error := by
  unfold refuses at h
  split at h
  · assumption
  · cases h

/-- Whether the parser panics. -/
def panics (text : String) : Bool :=
  match parse text with
  | .panic => true
  | _ => false

theorem parse_of_panics {text : String} (h : panics text = true) : parse text = .panic := by
  unfold panics at h
  split at h
  · assumption
  · cases h

end Verif.Parse
