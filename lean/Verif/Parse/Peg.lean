import Mathlib.Tactic.Linarith
import Mathlib.Tactic.Ring

/-!
Model of the crate `pest` that the DSDL parser is made with (canadensis_dsdl_parser/src/lib.rs L25-31): parsing expressions and the tree of `Pair`s that
matching them gives. `pest` itself is not in the repository; this is its documented meaning. Positions are left out of the tree, the matched text is kept.

The grammar has no rules named `WHITESPACE` or `COMMENT`, so that `~` and `*` match nothing in between (canadensis_dsdl_parser/src/dsdl.pest).
-/

namespace Verif.Parse

/-- The right hand side of a rule in a `.pest` file (canadensis_dsdl_parser/src/dsdl.pest). `a+` is `a ~ a*`. -/
inductive Peg (R : Type) where
  | lit (s : String)
  | range (a b : Char)
  | any
  | soi
  | eoi
  | rule (r : R)
  | seq (a b : Peg R)
  | choice (a b : Peg R)
  | opt (a : Peg R)
  | star (a : Peg R)
  | not (a : Peg R)

/-- The rules: the ones with `_{ }` are silent (canadensis_dsdl_parser/src/dsdl.pest). -/
structure Grammar (R : Type) where
  silent : R → Bool
  body : R → Peg R

/-- `pest::iterators::Pair`: the rule, the matched text, and the pairs inside (used in canadensis_dsdl_parser/src/ast.rs L11). -/
inductive Pair (R : Type) where
  | node (rule : R) (text : List Char) (inner : List (Pair R))

/-- The result of matching: pairs and the rest of the text. `timeout` is only for the bound on the depth of the recursion. -/
inductive Res (R : Type) where
  | timeout
  | fail
  | ok (pairs : List (Pair R)) (rest : List Char)

/-- The rest of a text after a prefix. -/
def stripPrefix : List Char → List Char → Option (List Char)
  | [], s => some s
  | _ :: _, [] => none
  | p :: ps, c :: s => if p = c then stripPrefix ps s else none

section

variable {R : Type} (g : Grammar R) (whole : List Char)

/-- Matching at the start of a text (`pest::ParserState`), for a text `whole` and a bound on the depth of the recursion. -/
def run : Nat → Peg R → List Char → Res R
  | 0, _, _ => .timeout
  | n + 1, e, s =>
    match e with
    | .lit l =>
      match stripPrefix l.toList s with
      | some rest => .ok [] rest
      | none => .fail
    | .range a b =>
      match s with
      | c :: rest => if a ≤ c ∧ c ≤ b then .ok [] rest else .fail
      | [] => .fail
    | .any =>
      match s with
      | _ :: rest => .ok [] rest
      | [] => .fail
    | .soi => if s.length = whole.length then .ok [] s else .fail
    | .eoi =>
      match s with
      | [] => .ok [] []
      | _ :: _ => .fail
    | .rule r =>
      match run n (g.body r) s with
      | .ok ps rest => if g.silent r then .ok ps rest else .ok [.node r (s.take (s.length - rest.length)) ps] rest
      | x => x
    | .seq a b =>
      match run n a s with
      | .ok ps rest =>
        match run n b rest with
        | .ok qs rest' => .ok (ps ++ qs) rest'
        | x => x
      | x => x
    | .choice a b =>
      match run n a s with
      | .fail => run n b s
      | x => x
    | .opt a =>
      match run n a s with
      | .fail => .ok [] s
      | x => x
    | .star a =>
      match run n a s with
      | .fail => .ok [] s
      | .ok ps rest =>
        match run n (.star a) rest with
        | .ok qs rest' => .ok (ps ++ qs) rest'
        | x => x
      | x => x
    | .not a =>
      match run n a s with
      | .ok _ _ => .fail
      | .fail => .ok [] s
      | x => x

/-- The expression matches the start of the text, with these pairs and this rest. -/
def Ok (e : Peg R) (s : List Char) (ps : List (Pair R)) (rest : List Char) : Prop := ∃ n, run g whole n e s = .ok ps rest

/-- The expression does not match. -/
def No (e : Peg R) (s : List Char) : Prop := ∃ n, run g whole n e s = .fail

variable {g whole}

theorem stripPrefix_some {p s r : List Char} : stripPrefix p s = some r ↔ s = p ++ r := by
  induction p generalizing s with
  | nil => simp [stripPrefix, eq_comm]
  | cons a p ih =>
    cases s with
    | nil => simp [stripPrefix]
    | cons c s =>
      rw [stripPrefix]
      by_cases h : a = c
      · simp [h, ih]
      · simp [h, Ne.symm h]

theorem run_succ {n : Nat} {e : Peg R} {s : List Char} : run g whole (n + 1) e s =
    match e with
    | .lit l =>
      match stripPrefix l.toList s with
      | some rest => .ok [] rest
      | none => .fail
    | .range a b =>
      match s with
      | c :: rest => if a ≤ c ∧ c ≤ b then .ok [] rest else .fail
      | [] => .fail
    | .any =>
      match s with
      | _ :: rest => .ok [] rest
      | [] => .fail
    | .soi => if s.length = whole.length then .ok [] s else .fail
    | .eoi =>
      match s with
      | [] => .ok [] []
      | _ :: _ => .fail
    | .rule r =>
      match run g whole n (g.body r) s with
      | .ok ps rest => if g.silent r then .ok ps rest else .ok [.node r (s.take (s.length - rest.length)) ps] rest
      | x => x
    | .seq a b =>
      match run g whole n a s with
      | .ok ps rest =>
        match run g whole n b rest with
        | .ok qs rest' => .ok (ps ++ qs) rest'
        | x => x
      | x => x
    | .choice a b =>
      match run g whole n a s with
      | .fail => run g whole n b s
      | x => x
    | .opt a =>
      match run g whole n a s with
      | .fail => .ok [] s
      | x => x
    | .star a =>
      match run g whole n a s with
      | .fail => .ok [] s
      | .ok ps rest =>
        match run g whole n (.star a) rest with
        | .ok qs rest' => .ok (ps ++ qs) rest'
        | x => x
      | x => x
    | .not a =>
      match run g whole n a s with
      | .ok _ _ => .fail
      | .fail => .ok [] s
      | x => x := rfl

theorem run_step {n : Nat} : ∀ {e : Peg R} {s : List Char}, run g whole n e s ≠ .timeout → run g whole (n + 1) e s = run g whole n e s := by
  induction n with
  | zero => intro e s h; exact absurd rfl h
  | succ n ih =>
    intro e s h
    cases e with
    | lit l => rfl
    | range a b => rfl
    | any => rfl
    | soi => rfl
    | eoi => rfl
    | rule r =>
      rw [run_succ] at h; rw [run_succ (n := n + 1), run_succ (n := n) (e := .rule r)]
      simp only at h ⊢
      have h1 : run g whole n (g.body r) s ≠ .timeout := by intro hc; rw [hc] at h; exact h rfl
      rw [ih h1]
    | seq a b =>
      rw [run_succ] at h; rw [run_succ (n := n + 1), run_succ (n := n) (e := (.seq a b))]
      simp only at h ⊢
      have h1 : run g whole n a s ≠ .timeout := by intro hc; rw [hc] at h; exact h rfl
      rw [ih h1]
      cases hr : run g whole n a s with
      | timeout => rfl
      | fail => rfl
      | ok ps rest =>
        rw [hr] at h; simp only at h ⊢
        have h2 : run g whole n b rest ≠ .timeout := by intro hc; rw [hc] at h; exact h rfl
        rw [ih h2]
    | choice a b =>
      rw [run_succ] at h; rw [run_succ (n := n + 1), run_succ (n := n) (e := (.choice a b))]
      simp only at h ⊢
      have h1 : run g whole n a s ≠ .timeout := by intro hc; rw [hc] at h; exact h rfl
      rw [ih h1]
      cases hr : run g whole n a s with
      | timeout => rfl
      | fail =>
        rw [hr] at h; simp only at h ⊢
        rw [ih h]
      | ok ps rest => rfl
    | opt a =>
      rw [run_succ] at h; rw [run_succ (n := n + 1), run_succ (n := n) (e := (.opt a))]
      simp only at h ⊢
      have h1 : run g whole n a s ≠ .timeout := by intro hc; rw [hc] at h; exact h rfl
      rw [ih h1]
    | not a =>
      rw [run_succ] at h; rw [run_succ (n := n + 1), run_succ (n := n) (e := (.not a))]
      simp only at h ⊢
      have h1 : run g whole n a s ≠ .timeout := by intro hc; rw [hc] at h; exact h rfl
      rw [ih h1]
    | star a =>
      rw [run_succ] at h; rw [run_succ (n := n + 1), run_succ (n := n) (e := (.star a))]
      simp only at h ⊢
      have h1 : run g whole n a s ≠ .timeout := by intro hc; rw [hc] at h; exact h rfl
      rw [ih h1]
      cases hr : run g whole n a s with
      | timeout => rfl
      | fail => rfl
      | ok ps rest =>
        rw [hr] at h; simp only at h ⊢
        have h2 : run g whole n (.star a) rest ≠ .timeout := by intro hc; rw [hc] at h; exact h rfl
        rw [ih h2]

theorem run_mono {n m : Nat} {e : Peg R} {s : List Char} (h : run g whole n e s ≠ .timeout) (hnm : n ≤ m) : run g whole m e s = run g whole n e s := by
  induction hnm with
  | refl => rfl
  | step _ ih => rw [run_step (by rw [ih]; exact h), ih]

theorem run_ok_mono {n m : Nat} {e : Peg R} {s ps r} (h : run g whole n e s = .ok ps r) (hnm : n ≤ m) : run g whole m e s = .ok ps r := by
  rw [run_mono (by rw [h]; nofun) hnm, h]

theorem run_fail_mono {n m : Nat} {e : Peg R} {s} (h : run g whole n e s = .fail) (hnm : n ≤ m) : run g whole m e s = .fail := by
  rw [run_mono (by rw [h]; nofun) hnm, h]

theorem Ok.unique {e : Peg R} {s ps r ps' r'} (h : Ok g whole e s ps r) (h' : Ok g whole e s ps' r') : ps = ps' ∧ r = r' := by
  obtain ⟨n, h⟩ := h; obtain ⟨m, h'⟩ := h'
  have h1 := run_ok_mono h (le_max_left n m)
  have h2 := run_ok_mono h' (le_max_right n m)
  rw [h1] at h2
  injection h2 with h3 h4
  exact ⟨h3, h4⟩

theorem Ok.not_no {e : Peg R} {s ps r} (h : Ok g whole e s ps r) (h' : No g whole e s) : False := by
  obtain ⟨n, h⟩ := h; obtain ⟨m, h'⟩ := h'
  have h1 := run_ok_mono h (le_max_left n m)
  have h2 := run_fail_mono h' (le_max_right n m)
  rw [h1] at h2
  cases h2

/-! ### What the expressions match -/

theorem ok_lit {l : String} {s ps r} : Ok g whole (.lit l) s ps r ↔ ps = [] ∧ s = l.toList ++ r := by
  constructor
  · rintro ⟨n, h⟩
    cases n with
    | zero => cases h
    | succ n =>
      rw [run_succ] at h
      simp only at h
      cases hs : stripPrefix l.toList s with
      | none => rw [hs] at h; cases h
      | some r' =>
        rw [hs] at h
        injection h with h1 h2
        subst h2
        exact ⟨h1.symm, stripPrefix_some.1 hs⟩
  · rintro ⟨rfl, rfl⟩
    exact ⟨1, by rw [run_succ]; simp only; rw [stripPrefix_some.2 rfl]⟩

theorem no_lit {l : String} {s} : No g whole (.lit l) s ↔ ¬ l.toList <+: s := by
  constructor
  · rintro ⟨n, h⟩ ⟨r, hr⟩
    exact Ok.not_no (ok_lit.2 ⟨rfl, hr.symm⟩) ⟨n, h⟩
  · intro h
    refine ⟨1, ?_⟩
    rw [run_succ]; simp only
    cases hs : stripPrefix l.toList s with
    | none => rfl
    | some r => exact absurd ⟨r, (stripPrefix_some.1 hs).symm⟩ h

theorem ok_range {a b : Char} {s ps r} : Ok g whole (.range a b) s ps r ↔ ps = [] ∧ ∃ c, a ≤ c ∧ c ≤ b ∧ s = c :: r := by
  constructor
  · rintro ⟨n, h⟩
    cases n with
    | zero => cases h
    | succ n =>
      rw [run_succ] at h
      simp only at h
      cases s with
      | nil => cases h
      | cons c s =>
        simp only at h
        split at h
        · injection h with h1 h2
          subst h2
          exact ⟨h1.symm, c, by tauto, by tauto, rfl⟩
        · cases h
  · rintro ⟨rfl, c, h1, h2, rfl⟩
    exact ⟨1, by rw [run_succ]; simp [h1, h2]⟩

theorem no_range {a b : Char} {s} : No g whole (.range a b) s ↔ ∀ c r, s = c :: r → ¬ (a ≤ c ∧ c ≤ b) := by
  constructor
  · rintro h c r rfl ⟨h1, h2⟩
    exact Ok.not_no (ok_range.2 ⟨rfl, c, h1, h2, rfl⟩) h
  · intro h
    refine ⟨1, ?_⟩
    rw [run_succ]; simp only
    cases s with
    | nil => rfl
    | cons c s => simp only; rw [if_neg (h c s rfl)]

theorem ok_any {s ps r} : Ok g whole .any s ps r ↔ ps = [] ∧ ∃ c, s = c :: r := by
  constructor
  · rintro ⟨n, h⟩
    cases n with
    | zero => cases h
    | succ n =>
      rw [run_succ] at h
      cases s with
      | nil => cases h
      | cons c s =>
        injection h with h1 h2
        subst h2
        exact ⟨h1.symm, c, rfl⟩
  · rintro ⟨rfl, c, rfl⟩
    exact ⟨1, by rw [run_succ]⟩

theorem no_any {s} : No g whole .any s ↔ s = [] := by
  constructor
  · rintro h
    cases s with
    | nil => rfl
    | cons c s => exact (Ok.not_no (ok_any.2 ⟨rfl, c, rfl⟩) h).elim
  · rintro rfl; exact ⟨1, by rw [run_succ]⟩

theorem ok_soi {s ps r} : Ok g whole .soi s ps r ↔ ps = [] ∧ s.length = whole.length ∧ r = s := by
  constructor
  · rintro ⟨n, h⟩
    cases n with
    | zero => cases h
    | succ n =>
      rw [run_succ] at h
      simp only at h
      split at h
      · injection h with h1 h2
        exact ⟨h1.symm, by assumption, h2.symm⟩
      · cases h
  · rintro ⟨rfl, h, rfl⟩
    exact ⟨1, by rw [run_succ]; simp [h]⟩

theorem ok_eoi {s ps r} : Ok g whole .eoi s ps r ↔ ps = [] ∧ s = [] ∧ r = [] := by
  constructor
  · rintro ⟨n, h⟩
    cases n with
    | zero => cases h
    | succ n =>
      rw [run_succ] at h
      cases s with
      | nil => injection h with h1 h2; exact ⟨h1.symm, rfl, h2.symm⟩
      | cons c s => cases h
  · rintro ⟨rfl, rfl, rfl⟩
    exact ⟨1, by rw [run_succ]⟩

theorem no_eoi {s} : No g whole .eoi s ↔ s ≠ [] := by
  constructor
  · rintro h rfl
    exact Ok.not_no (ok_eoi.2 ⟨rfl, rfl, rfl⟩) h
  · intro h
    cases s with
    | nil => exact absurd rfl h
    | cons c s => exact ⟨1, by rw [run_succ]⟩

theorem ok_seq {a b : Peg R} {s ps r} :
    Ok g whole (.seq a b) s ps r ↔ ∃ ps₁ r₁ ps₂, Ok g whole a s ps₁ r₁ ∧ Ok g whole b r₁ ps₂ r ∧ ps = ps₁ ++ ps₂ := by
  constructor
  · rintro ⟨n, h⟩
    cases n with
    | zero => cases h
    | succ n =>
      rw [run_succ] at h
      simp only at h
      cases h1 : run g whole n a s with
      | timeout => rw [h1] at h; cases h
      | fail => rw [h1] at h; cases h
      | ok ps₁ r₁ =>
        rw [h1] at h; simp only at h
        cases h2 : run g whole n b r₁ with
        | timeout => rw [h2] at h; cases h
        | fail => rw [h2] at h; cases h
        | ok ps₂ r₂ =>
          rw [h2] at h
          injection h with h3 h4
          subst h4
          exact ⟨ps₁, r₁, ps₂, ⟨n, h1⟩, ⟨n, h2⟩, h3.symm⟩
  · rintro ⟨ps₁, r₁, ps₂, ⟨n, h1⟩, ⟨m, h2⟩, rfl⟩
    refine ⟨max n m + 1, ?_⟩
    rw [run_succ]; simp only
    rw [run_ok_mono h1 (le_max_left n m)]
    simp only
    rw [run_ok_mono h2 (le_max_right n m)]

theorem no_seq {a b : Peg R} {s} : No g whole (.seq a b) s ↔ No g whole a s ∨ ∃ ps r, Ok g whole a s ps r ∧ No g whole b r := by
  constructor
  · rintro ⟨n, h⟩
    cases n with
    | zero => cases h
    | succ n =>
      rw [run_succ] at h
      simp only at h
      cases h1 : run g whole n a s with
      | timeout => rw [h1] at h; cases h
      | fail => exact .inl ⟨n, h1⟩
      | ok ps₁ r₁ =>
        rw [h1] at h; simp only at h
        cases h2 : run g whole n b r₁ with
        | timeout => rw [h2] at h; cases h
        | fail => exact .inr ⟨ps₁, r₁, ⟨n, h1⟩, ⟨n, h2⟩⟩
        | ok ps₂ r₂ => rw [h2] at h; cases h
  · rintro (⟨n, h⟩ | ⟨ps, r, ⟨n, h1⟩, ⟨m, h2⟩⟩)
    · exact ⟨n + 1, by rw [run_succ]; simp only; rw [h]⟩
    · refine ⟨max n m + 1, ?_⟩
      rw [run_succ]; simp only
      rw [run_ok_mono h1 (le_max_left n m)]
      simp only
      rw [run_fail_mono h2 (le_max_right n m)]

theorem ok_choice {a b : Peg R} {s ps r} :
    Ok g whole (.choice a b) s ps r ↔ Ok g whole a s ps r ∨ No g whole a s ∧ Ok g whole b s ps r := by
  constructor
  · rintro ⟨n, h⟩
    cases n with
    | zero => cases h
    | succ n =>
      rw [run_succ] at h
      simp only at h
      cases h1 : run g whole n a s with
      | timeout => rw [h1] at h; cases h
      | fail => rw [h1] at h; exact .inr ⟨⟨n, h1⟩, ⟨n, h⟩⟩
      | ok ps₁ r₁ =>
        rw [h1] at h; simp only at h
        exact .inl ⟨n, by rw [h1, h]⟩
  · rintro (⟨n, h⟩ | ⟨⟨n, h1⟩, ⟨m, h2⟩⟩)
    · exact ⟨n + 1, by rw [run_succ]; simp only; rw [h]⟩
    · refine ⟨max n m + 1, ?_⟩
      rw [run_succ]; simp only
      rw [run_fail_mono h1 (le_max_left n m)]
      simp only
      rw [run_ok_mono h2 (le_max_right n m)]

theorem no_choice {a b : Peg R} {s} : No g whole (.choice a b) s ↔ No g whole a s ∧ No g whole b s := by
  constructor
  · rintro ⟨n, h⟩
    cases n with
    | zero => cases h
    | succ n =>
      rw [run_succ] at h
      simp only at h
      cases h1 : run g whole n a s with
      | timeout => rw [h1] at h; cases h
      | fail => rw [h1] at h; exact ⟨⟨n, h1⟩, ⟨n, h⟩⟩
      | ok ps₁ r₁ => rw [h1] at h; cases h
  · rintro ⟨⟨n, h1⟩, ⟨m, h2⟩⟩
    refine ⟨max n m + 1, ?_⟩
    rw [run_succ]; simp only
    rw [run_fail_mono h1 (le_max_left n m)]
    simp only
    rw [run_fail_mono h2 (le_max_right n m)]

theorem ok_opt {a : Peg R} {s ps r} : Ok g whole (.opt a) s ps r ↔ Ok g whole a s ps r ∨ No g whole a s ∧ ps = [] ∧ r = s := by
  constructor
  · rintro ⟨n, h⟩
    cases n with
    | zero => cases h
    | succ n =>
      rw [run_succ] at h
      simp only at h
      cases h1 : run g whole n a s with
      | timeout => rw [h1] at h; cases h
      | fail => rw [h1] at h; injection h with h2 h3; exact .inr ⟨⟨n, h1⟩, h2.symm, h3.symm⟩
      | ok ps₁ r₁ => rw [h1] at h; simp only at h; exact .inl ⟨n, by rw [h1, h]⟩
  · rintro (⟨n, h⟩ | ⟨⟨n, h1⟩, rfl, rfl⟩)
    · exact ⟨n + 1, by rw [run_succ]; simp only; rw [h]⟩
    · exact ⟨n + 1, by rw [run_succ]; simp only; rw [h1]⟩

theorem no_opt {a : Peg R} {s} : ¬ No g whole (.opt a) s := by
  rintro ⟨n, h⟩
  cases n with
  | zero => cases h
  | succ n =>
    rw [run_succ] at h
    simp only at h
    cases h1 : run g whole n a s <;> rw [h1] at h <;> cases h

theorem ok_not {a : Peg R} {s ps r} : Ok g whole (.not a) s ps r ↔ No g whole a s ∧ ps = [] ∧ r = s := by
  constructor
  · rintro ⟨n, h⟩
    cases n with
    | zero => cases h
    | succ n =>
      rw [run_succ] at h
      simp only at h
      cases h1 : run g whole n a s with
      | timeout => rw [h1] at h; cases h
      | fail => rw [h1] at h; injection h with h2 h3; exact ⟨⟨n, h1⟩, h2.symm, h3.symm⟩
      | ok ps₁ r₁ => rw [h1] at h; cases h
  · rintro ⟨⟨n, h1⟩, rfl, rfl⟩
    exact ⟨n + 1, by rw [run_succ]; simp only; rw [h1]⟩

theorem no_not {a : Peg R} {s} : No g whole (.not a) s ↔ ∃ ps r, Ok g whole a s ps r := by
  constructor
  · rintro ⟨n, h⟩
    cases n with
    | zero => cases h
    | succ n =>
      rw [run_succ] at h
      simp only at h
      cases h1 : run g whole n a s with
      | timeout => rw [h1] at h; cases h
      | fail => rw [h1] at h; cases h
      | ok ps₁ r₁ => exact ⟨ps₁, r₁, n, h1⟩
  · rintro ⟨ps, r, n, h1⟩
    exact ⟨n + 1, by rw [run_succ]; simp only; rw [h1]⟩

theorem ok_star {a : Peg R} {s ps r} :
    Ok g whole (.star a) s ps r ↔ No g whole a s ∧ ps = [] ∧ r = s ∨
      ∃ ps₁ r₁ ps₂, Ok g whole a s ps₁ r₁ ∧ Ok g whole (.star a) r₁ ps₂ r ∧ ps = ps₁ ++ ps₂ := by
  constructor
  · rintro ⟨n, h⟩
    cases n with
    | zero => cases h
    | succ n =>
      rw [run_succ] at h
      simp only at h
      cases h1 : run g whole n a s with
      | timeout => rw [h1] at h; cases h
      | fail => rw [h1] at h; injection h with h2 h3; exact .inl ⟨⟨n, h1⟩, h2.symm, h3.symm⟩
      | ok ps₁ r₁ =>
        rw [h1] at h; simp only at h
        cases h2 : run g whole n (.star a) r₁ with
        | timeout => rw [h2] at h; cases h
        | fail => rw [h2] at h; cases h
        | ok ps₂ r₂ =>
          rw [h2] at h
          injection h with h3 h4
          subst h4
          exact .inr ⟨ps₁, r₁, ps₂, ⟨n, h1⟩, ⟨n, h2⟩, h3.symm⟩
  · rintro (⟨⟨n, h⟩, rfl, rfl⟩ | ⟨ps₁, r₁, ps₂, ⟨n, h1⟩, ⟨m, h2⟩, rfl⟩)
    · exact ⟨n + 1, by rw [run_succ]; simp only; rw [h]⟩
    · refine ⟨max n m + 1, ?_⟩
      rw [run_succ]; simp only
      rw [run_ok_mono h1 (le_max_left n m)]
      simp only
      rw [run_ok_mono h2 (le_max_right n m)]

theorem no_star {a : Peg R} {s} : ¬ No g whole (.star a) s := by
  rintro ⟨n, h⟩
  induction n generalizing s with
  | zero => cases h
  | succ n ih =>
    rw [run_succ] at h
    simp only at h
    cases h1 : run g whole n a s with
    | timeout => rw [h1] at h; cases h
    | fail => rw [h1] at h; cases h
    | ok ps₁ r₁ =>
      rw [h1] at h; simp only at h
      cases h2 : run g whole n (.star a) r₁ with
      | timeout => rw [h2] at h; cases h
      | fail => exact ih h2
      | ok ps₂ r₂ => rw [h2] at h; cases h

theorem no_rule {r : R} {s} : No g whole (.rule r) s ↔ No g whole (g.body r) s := by
  constructor
  · rintro ⟨n, h⟩
    cases n with
    | zero => cases h
    | succ n =>
      rw [run_succ] at h
      simp only at h
      cases h1 : run g whole n (g.body r) s with
      | timeout => rw [h1] at h; cases h
      | fail => exact ⟨n, h1⟩
      | ok ps₁ r₁ => rw [h1] at h; simp only at h; split at h <;> cases h
  · rintro ⟨n, h1⟩
    exact ⟨n + 1, by rw [run_succ]; simp only; rw [h1]⟩

theorem ok_silent {r : R} {s ps rest} (hr : g.silent r = true) : Ok g whole (.rule r) s ps rest ↔ Ok g whole (g.body r) s ps rest := by
  constructor
  · rintro ⟨n, h⟩
    cases n with
    | zero => cases h
    | succ n =>
      rw [run_succ] at h
      simp only at h
      cases h1 : run g whole n (g.body r) s with
      | timeout => rw [h1] at h; cases h
      | fail => rw [h1] at h; cases h
      | ok ps₁ r₁ => rw [h1] at h; simp only [hr, if_true] at h; exact ⟨n, by rw [h1, h]⟩
  · rintro ⟨n, h1⟩
    exact ⟨n + 1, by rw [run_succ]; simp only; rw [h1]; simp [hr]⟩

/-! ### The matched text -/

/-- What a rule may match if the order of choices and what follows are ignored: the pairs are those of a derivation of the text in the grammar. -/
inductive Derives (g : Grammar R) : Peg R → List Char → List (Pair R) → Prop
  | lit (l : String) : Derives g (.lit l) l.toList []
  | range (a b c : Char) : a ≤ c → c ≤ b → Derives g (.range a b) [c] []
  | any (c : Char) : Derives g .any [c] []
  | soi : Derives g .soi [] []
  | eoi : Derives g .eoi [] []
  | seq {a b t u ps qs} : Derives g a t ps → Derives g b u qs → Derives g (.seq a b) (t ++ u) (ps ++ qs)
  | choiceLeft {a b t ps} : Derives g a t ps → Derives g (.choice a b) t ps
  | choiceRight {a b t ps} : Derives g b t ps → Derives g (.choice a b) t ps
  | optNone {a} : Derives g (.opt a) [] []
  | optSome {a t ps} : Derives g a t ps → Derives g (.opt a) t ps
  | starNil {a} : Derives g (.star a) [] []
  | starCons {a t u ps qs} : Derives g a t ps → Derives g (.star a) u qs → Derives g (.star a) (t ++ u) (ps ++ qs)
  | not {a} : Derives g (.not a) [] []
  | silent {r t ps} : g.silent r = true → Derives g (g.body r) t ps → Derives g (.rule r) t ps
  | normal {r t ps} : g.silent r = false → Derives g (g.body r) t ps → Derives g (.rule r) t [.node r t ps]

theorem run_derives {n : Nat} : ∀ {e : Peg R} {s ps rest}, run g whole n e s = .ok ps rest → ∃ t, s = t ++ rest ∧ Derives g e t ps := by
  induction n with
  | zero => intro e s ps rest h; cases h
  | succ n ih =>
    intro e s ps rest h
    have hok : Ok g whole e s ps rest := ⟨n + 1, h⟩
    cases e with
    | lit l => obtain ⟨rfl, rfl⟩ := ok_lit.1 hok; exact ⟨_, rfl, .lit l⟩
    | range a b => obtain ⟨rfl, c, h1, h2, rfl⟩ := ok_range.1 hok; exact ⟨[c], rfl, .range a b c h1 h2⟩
    | any => obtain ⟨rfl, c, rfl⟩ := ok_any.1 hok; exact ⟨[c], rfl, .any c⟩
    | soi => obtain ⟨rfl, _, rfl⟩ := ok_soi.1 hok; exact ⟨[], rfl, .soi⟩
    | eoi => obtain ⟨rfl, rfl, rfl⟩ := ok_eoi.1 hok; exact ⟨[], rfl, .eoi⟩
    | not a => obtain ⟨_, rfl, rfl⟩ := ok_not.1 hok; exact ⟨[], rfl, .not⟩
    | rule r =>
      rw [run_succ] at h; simp only at h
      cases h1 : run g whole n (g.body r) s with
      | timeout => rw [h1] at h; cases h
      | fail => rw [h1] at h; cases h
      | ok ps₁ r₁ =>
        rw [h1] at h; simp only at h
        obtain ⟨t, rfl, hd⟩ := ih h1
        cases hr : g.silent r with
        | true =>
          rw [hr] at h; simp only [if_true] at h
          injection h with h2 h3
          subst h2; subst h3
          exact ⟨t, rfl, .silent hr hd⟩
        | false =>
          rw [hr] at h; simp only [Bool.false_eq_true, if_false] at h
          injection h with h2 h3
          subst h3
          refine ⟨t, rfl, ?_⟩
          rw [← h2]
          have : (t ++ r₁).take ((t ++ r₁).length - r₁.length) = t := by simp
          rw [this]
          exact .normal hr hd
    | seq a b =>
      rw [run_succ] at h; simp only at h
      cases h1 : run g whole n a s with
      | timeout => rw [h1] at h; cases h
      | fail => rw [h1] at h; cases h
      | ok ps₁ r₁ =>
        rw [h1] at h; simp only at h
        cases h2 : run g whole n b r₁ with
        | timeout => rw [h2] at h; cases h
        | fail => rw [h2] at h; cases h
        | ok ps₂ r₂ =>
          rw [h2] at h
          injection h with h3 h4
          subst h3; subst h4
          obtain ⟨t, rfl, hd⟩ := ih h1
          obtain ⟨u, rfl, hd'⟩ := ih h2
          exact ⟨t ++ u, by simp, .seq hd hd'⟩
    | choice a b =>
      rw [run_succ] at h; simp only at h
      cases h1 : run g whole n a s with
      | timeout => rw [h1] at h; cases h
      | fail => rw [h1] at h; obtain ⟨t, rfl, hd⟩ := ih h; exact ⟨t, rfl, .choiceRight hd⟩
      | ok ps₁ r₁ => rw [h1] at h; simp only at h; rw [h] at h1; obtain ⟨t, rfl, hd⟩ := ih h1; exact ⟨t, rfl, .choiceLeft hd⟩
    | opt a =>
      rw [run_succ] at h; simp only at h
      cases h1 : run g whole n a s with
      | timeout => rw [h1] at h; cases h
      | fail => rw [h1] at h; injection h with h2 h3; subst h2; subst h3; exact ⟨[], rfl, .optNone⟩
      | ok ps₁ r₁ => rw [h1] at h; simp only at h; rw [h] at h1; obtain ⟨t, rfl, hd⟩ := ih h1; exact ⟨t, rfl, .optSome hd⟩
    | star a =>
      rw [run_succ] at h; simp only at h
      cases h1 : run g whole n a s with
      | timeout => rw [h1] at h; cases h
      | fail => rw [h1] at h; injection h with h2 h3; subst h2; subst h3; exact ⟨[], rfl, .starNil⟩
      | ok ps₁ r₁ =>
        rw [h1] at h; simp only at h
        cases h2 : run g whole n (.star a) r₁ with
        | timeout => rw [h2] at h; cases h
        | fail => rw [h2] at h; cases h
        | ok ps₂ r₂ =>
          rw [h2] at h
          injection h with h3 h4
          subst h3; subst h4
          obtain ⟨t, rfl, hd⟩ := ih h1
          obtain ⟨u, rfl, hd'⟩ := ih h2
          exact ⟨t ++ u, by simp, .starCons hd hd'⟩

theorem Ok.derives {e : Peg R} {s ps rest} (h : Ok g whole e s ps rest) : ∃ t, s = t ++ rest ∧ Derives g e t ps := by
  obtain ⟨n, h⟩ := h
  exact run_derives h

/-- A rule that is not silent: one pair with the matched text. -/
theorem ok_normal {r : R} {t rest : List Char} {ps} (hr : g.silent r = false) (h : Ok g whole (g.body r) (t ++ rest) ps rest) :
    Ok g whole (.rule r) (t ++ rest) [.node r t ps] rest := by
  obtain ⟨n, h1⟩ := h
  refine ⟨n + 1, ?_⟩
  rw [run_succ]; simp only; rw [h1]
  simp [hr]

/-! ### Matching ends -/

/-- The number of nodes of an expression. -/
def Peg.size : Peg R → Nat
  | .seq a b => a.size + b.size + 1
  | .choice a b => a.size + b.size + 1
  | .opt a => a.size + 1
  | .star a => a.size + 1
  | .not a => a.size + 1
  | _ => 1

/-- Whether an expression may match the empty text, if `nul` says it for the rules. -/
def Peg.nullable (nul : R → Bool) : Peg R → Bool
  | .lit l => l.toList.isEmpty
  | .range _ _ => false
  | .any => false
  | .soi => true
  | .eoi => true
  | .rule r => nul r
  | .seq a b => a.nullable nul && b.nullable nul
  | .choice a b => a.nullable nul || b.nullable nul
  | .opt _ => true
  | .star _ => true
  | .not _ => true

/-- Before anything is matched only rules of a rank below `k` are used (`top` is above all ranks), and no repetition is of the empty text. -/
def Peg.guarded (nul : R → Bool) (rank : R → Nat) (top : Nat) : Nat → Peg R → Bool
  | k, .rule r => decide (rank r < k)
  | k, .seq a b => a.guarded nul rank top k && (b.guarded nul rank top (if a.nullable nul then k else top))
  | k, .choice a b => a.guarded nul rank top k && b.guarded nul rank top k
  | k, .opt a => a.guarded nul rank top k
  | k, .star a => a.guarded nul rank top k && !a.nullable nul
  | k, .not a => a.guarded nul rank top k
  | _, _ => true

/-- A grammar without left recursion and without repetitions of the empty text. -/
structure Grammar.Guarded (g : Grammar R) (nul : R → Bool) (rank : R → Nat) (top size : Nat) : Prop where
  nullable : ∀ r, (g.body r).nullable nul = true → nul r = true
  guarded : ∀ r, (g.body r).guarded nul rank top (rank r) = true
  rank : ∀ r, rank r < top
  positive : 0 < size
  size : ∀ r, (g.body r).size < size

theorem Derives.not_nullable {nul : R → Bool} (hn : ∀ r, (g.body r).nullable nul = true → nul r = true) {e : Peg R} {t ps} (h : Derives g e t ps)
    (he : e.nullable nul = false) : t ≠ [] := by
  induction h with
  | lit l => intro hc; simp [Peg.nullable, hc] at he
  | range => simp
  | any => simp
  | soi => simp [Peg.nullable] at he
  | eoi => simp [Peg.nullable] at he
  | seq _ _ ih1 ih2 =>
    simp only [Peg.nullable, Bool.and_eq_false_iff] at he
    rcases he with he | he
    · simp [ih1 he]
    · simp [ih2 he]
  | choiceLeft _ ih => simp only [Peg.nullable, Bool.or_eq_false_iff] at he; exact ih he.1
  | choiceRight _ ih => simp only [Peg.nullable, Bool.or_eq_false_iff] at he; exact ih he.2
  | optNone => simp [Peg.nullable] at he
  | optSome => simp [Peg.nullable] at he
  | starNil => simp [Peg.nullable] at he
  | starCons => simp [Peg.nullable] at he
  | not => simp [Peg.nullable] at he
  | silent _ _ ih =>
    refine ih ?_
    simp only [Peg.nullable] at he
    cases hb : (g.body _).nullable nul with
    | false => rfl
    | true => rw [hn _ hb] at he; cases he
  | normal _ _ ih =>
    refine ih ?_
    simp only [Peg.nullable] at he
    cases hb : (g.body _).nullable nul with
    | false => rfl
    | true => rw [hn _ hb] at he; cases he

theorem guarded_mono {nul : R → Bool} {rank : R → Nat} {top : Nat} {e : Peg R} {k : Nat} (hk : k ≤ top)
    (h : e.guarded nul rank top k = true) : e.guarded nul rank top top = true := by
  induction e with
  | rule r => simp only [Peg.guarded, decide_eq_true_eq] at h ⊢; omega
  | seq a b iha ihb =>
    simp only [Peg.guarded, Bool.and_eq_true] at h ⊢
    refine ⟨iha h.1, ?_⟩
    have h2 := h.2
    split at h2
    · split <;> exact ihb h2
    · simpa using h2
  | choice a b iha ihb => simp only [Peg.guarded, Bool.and_eq_true] at h ⊢; exact ⟨iha h.1, ihb h.2⟩
  | opt a ih => exact ih h
  | star a ih => simp only [Peg.guarded, Bool.and_eq_true] at h ⊢; exact ⟨ih h.1, h.2⟩
  | not a ih => exact ih h
  | _ => rfl

/-- Enough depth for an expression. -/
def Peg.depth (top size : Nat) (e : Peg R) (k length : Nat) : Nat := e.size + size * k + size * (top + 1) * length

theorem run_ends {nul : R → Bool} {rank : R → Nat} {top size : Nat} (hg : g.Guarded nul rank top size) :
    ∀ {n : Nat} {e : Peg R} {s : List Char} {k : Nat}, k ≤ top → e.guarded nul rank top k = true → e.depth top size k s.length ≤ n →
      run g whole n e s ≠ .timeout := by
  intro n
  induction n with
  | zero =>
    intro e s k _ _ hd
    exfalso
    have : 0 < e.size := by cases e <;> simp [Peg.size]
    unfold Peg.depth at hd; omega
  | succ n ih =>
    intro e s k hk he hd
    have hshort : ∀ {a : Peg R} {s ps r}, run g whole n a s = .ok ps r → r.length ≤ s.length := by
      intro a s ps r h
      obtain ⟨t, rfl, _⟩ := run_derives h
      simp
    have hshorter : ∀ {a : Peg R} {s ps r}, a.nullable nul = false → run g whole n a s = .ok ps r → r.length + 1 ≤ s.length := by
      intro a s ps r ha h
      obtain ⟨t, rfl, hd⟩ := run_derives h
      have := hd.not_nullable hg.nullable ha
      cases t with
      | nil => exact absurd rfl this
      | cons c t => simp
    have hmul : ∀ {a b : Nat}, a ≤ b → size * (top + 1) * a ≤ size * (top + 1) * b := fun h => Nat.mul_le_mul_left _ h
    have hpos := hg.positive
    unfold Peg.depth at hd
    cases e with
    | lit l => rw [run_succ]; simp only; split <;> nofun
    | range a b => rw [run_succ]; simp only; split; · split <;> nofun
                   · nofun
    | any => rw [run_succ]; simp only; split <;> nofun
    | soi => rw [run_succ]; simp only; split <;> nofun
    | eoi => rw [run_succ]; simp only; split <;> nofun
    | rule r =>
      simp only [Peg.guarded, decide_eq_true_eq] at he
      have h1 : run g whole n (g.body r) s ≠ .timeout := by
        refine ih (k := rank r) (by omega) (hg.guarded r) ?_
        unfold Peg.depth
        have h2 := hg.size r
        have h3 : size * (rank r + 1) ≤ size * k := Nat.mul_le_mul_left _ he
        simp only [Peg.size] at hd
        rw [Nat.mul_succ] at h3
        omega
      rw [run_succ]; simp only
      cases h2 : run g whole n (g.body r) s with
      | timeout => exact absurd h2 h1
      | fail => nofun
      | ok ps r => simp only; split <;> nofun
    | seq a b =>
      simp only [Peg.guarded, Bool.and_eq_true] at he
      simp only [Peg.size] at hd
      have h1 : run g whole n a s ≠ .timeout := ih hk he.1 (by unfold Peg.depth; omega)
      rw [run_succ]; simp only
      cases h2 : run g whole n a s with
      | timeout => exact absurd h2 h1
      | fail => nofun
      | ok ps r =>
        simp only
        have h3 : run g whole n b r ≠ .timeout := by
          cases ha : a.nullable nul with
          | true =>
            have hb := he.2
            rw [ha] at hb; simp only [if_true] at hb
            refine ih hk hb ?_
            unfold Peg.depth
            have := hmul (hshort h2)
            omega
          | false =>
            have hb := he.2
            rw [ha] at hb; simp only [Bool.false_eq_true, if_false] at hb
            refine ih le_rfl hb ?_
            unfold Peg.depth
            have h4 := hmul (hshorter ha h2)
            rw [Nat.mul_succ] at h4
            have h5 : size * (top + 1) = size * top + size := Nat.mul_succ _ _
            omega
        cases h4 : run g whole n b r with
        | timeout => exact absurd h4 h3
        | fail => nofun
        | ok => nofun
    | choice a b =>
      simp only [Peg.guarded, Bool.and_eq_true] at he
      simp only [Peg.size] at hd
      have h1 : run g whole n a s ≠ .timeout := ih hk he.1 (by unfold Peg.depth; omega)
      have h2 : run g whole n b s ≠ .timeout := ih hk he.2 (by unfold Peg.depth; omega)
      rw [run_succ]; simp only
      cases h3 : run g whole n a s with
      | timeout => exact absurd h3 h1
      | fail => exact h2
      | ok => nofun
    | opt a =>
      simp only [Peg.guarded] at he
      simp only [Peg.size] at hd
      have h1 : run g whole n a s ≠ .timeout := ih hk he (by unfold Peg.depth; omega)
      rw [run_succ]; simp only
      cases h3 : run g whole n a s with
      | timeout => exact absurd h3 h1
      | fail => nofun
      | ok => nofun
    | not a =>
      simp only [Peg.guarded] at he
      simp only [Peg.size] at hd
      have h1 : run g whole n a s ≠ .timeout := ih hk he (by unfold Peg.depth; omega)
      rw [run_succ]; simp only
      cases h3 : run g whole n a s with
      | timeout => exact absurd h3 h1
      | fail => nofun
      | ok => nofun
    | star a =>
      have he' := he
      simp only [Peg.guarded, Bool.and_eq_true, Bool.not_eq_true'] at he
      simp only [Peg.size] at hd
      have h1 : run g whole n a s ≠ .timeout := ih hk he.1 (by unfold Peg.depth; omega)
      rw [run_succ]; simp only
      cases h2 : run g whole n a s with
      | timeout => exact absurd h2 h1
      | fail => nofun
      | ok ps r =>
        simp only
        have h3 : run g whole n (.star a) r ≠ .timeout := by
          refine ih le_rfl (guarded_mono hk he') ?_
          unfold Peg.depth
          have h4 := hmul (hshorter he.2 h2)
          rw [Nat.mul_succ] at h4
          have h5 : size * (top + 1) = size * top + size := Nat.mul_succ _ _
          simp only [Peg.size]
          omega
        cases h4 : run g whole n (.star a) r with
        | timeout => exact absurd h4 h3
        | fail => nofun
        | ok => nofun

end

end Verif.Parse
