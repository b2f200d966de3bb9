import Mathlib.Data.List.Basic

/-!
Model of the `regex` crate as far as `canadensis_dsdl_frontend` uses it: patterns that match a whole text, with named groups. The ways to match are tried in the order
of the crate (leftmost alternatives first, repetitions as long as possible first).
-/

namespace Verif.Pkg

/-- A pattern in the syntax of the `regex` crate, as used in canadensis_dsdl_frontend/src/package.rs L346, type_key.rs L151 and types/keywords.rs L16-53.
`char` is a character class; `group` is `(?P<name>…)`. Other groups record nothing. -/
inductive Re where
  | empty
  | char (p : Char → Bool)
  | seq (a b : Re)
  | alt (a b : Re)
  | star (a : Re)
  | group (name : String) (a : Re)

/-- The named groups of a match and their texts. -/
abbrev Captures := List (String × List Char)

/-- `(a)*` as long as possible first, at most this often; a repetition that matches nothing ends (used in the patterns of canadensis_dsdl_frontend/src/package.rs L346, type_key.rs L151). -/
def Re.repeated (run : List Char → List (Captures × List Char)) : Nat → List Char → List (Captures × List Char)
  | 0, cs => [([], cs)]
  | n + 1, cs =>
    ((run cs).filter fun m => m.2.length < cs.length).flatMap (fun m => (Re.repeated run n m.2).map fun l => (m.1 ++ l.1, l.2)) ++ [([], cs)]

/-- All ways to match a beginning of a text, in the order in which they are tried: the groups and the rest of the text (`Regex::captures`, used in
canadensis_dsdl_frontend/src/package.rs L350 and type_key.rs L156). -/
def Re.run : Re → List Char → List (Captures × List Char)
  | .empty, cs => [([], cs)]
  | .char _, [] => []
  | .char p, c :: cs => if p c then [([], cs)] else []
  | .seq a b, cs => (a.run cs).flatMap fun m => (b.run m.2).map fun l => (m.1 ++ l.1, l.2)
  | .alt a b, cs => a.run cs ++ b.run cs
  | .star a, cs => Re.repeated (fun cs => a.run cs) cs.length cs
  | .group name a, cs => (a.run cs).map fun m => ((name, cs.take (cs.length - m.2.length)) :: m.1, m.2)

/-- `Regex::captures` of `^a$` (used in canadensis_dsdl_frontend/src/package.rs L350 and type_key.rs L156). -/
def Re.captures (a : Re) (cs : List Char) : Option Captures := ((a.run cs).find? fun m => m.2 = []).map fun m => m.1

/-- `Regex::is_match` of `^a$` (used in canadensis_dsdl_frontend/src/types/keywords.rs L9, L13). -/
def Re.isMatch (a : Re) (cs : List Char) : Bool := (a.captures cs).isSome

/-- `a?` (used in canadensis_dsdl_frontend/src/package.rs L346). -/
def Re.opt (a : Re) : Re := .alt a .empty

/-- `a+` (used in canadensis_dsdl_frontend/src/package.rs L346). -/
def Re.plus (a : Re) : Re := .seq a (.star a)

/-! ### What a match is -/

/-- The pattern matches exactly this text, with these groups. -/
inductive Re.Matches : Re → List Char → Captures → Prop
  | empty : Matches .empty [] []
  | char {p c} (h : p c = true) : Matches (.char p) [c] []
  | seq {a b s t k l} : Matches a s k → Matches b t l → Matches (.seq a b) (s ++ t) (k ++ l)
  | left {a b s k} : Matches a s k → Matches (.alt a b) s k
  | right {a b s k} : Matches b s k → Matches (.alt a b) s k
  | none {a} : Matches (.star a) [] []
  | more {a s t k l} : Matches a s k → s ≠ [] → Matches (.star a) t l → Matches (.star a) (s ++ t) (k ++ l)
  | group {name a s k} : Matches a s k → Matches (.group name a) s ((name, s) :: k)

theorem Re.repeated_iff {a : Re} (ih : ∀ cs k r, (k, r) ∈ a.run cs ↔ ∃ s, cs = s ++ r ∧ a.Matches s k) :
    ∀ n cs k r, cs.length ≤ n → ((k, r) ∈ Re.repeated (fun cs => a.run cs) n cs ↔ ∃ s, cs = s ++ r ∧ (Re.star a).Matches s k)
  | 0, cs, k, r, hn => by
    have : cs = [] := List.length_eq_zero_iff.1 (by omega)
    subst this
    simp only [Re.repeated, List.mem_singleton, Prod.mk.injEq]
    constructor
    · rintro ⟨rfl, rfl⟩; exact ⟨[], rfl, .none⟩
    · rintro ⟨s, hs, h⟩
      obtain ⟨rfl, rfl⟩ := List.append_eq_nil_iff.1 hs.symm
      generalize hst : Re.star a = b at h
      generalize hse : ([] : List Char) = s at h
      cases h with
      | none => exact ⟨rfl, rfl⟩
      | more h hne h' => exact absurd (List.append_eq_nil_iff.1 hse.symm).1 hne
      | _ => cases hst
  | n + 1, cs, k, r, hn => by
    simp only [Re.repeated, List.mem_append, List.mem_flatMap, List.mem_filter, List.mem_map, List.mem_singleton, Prod.mk.injEq, decide_eq_true_eq, Prod.exists]
    constructor
    · rintro (⟨k1, r1, ⟨hm, hlt⟩, k2, r2, hm2, rfl, rfl⟩ | ⟨rfl, rfl⟩)
      · obtain ⟨s1, rfl, h1⟩ := (ih _ _ _).1 hm
        obtain ⟨s2, rfl, h2⟩ := (Re.repeated_iff ih n r1 k2 r2 (by omega)).1 hm2
        refine ⟨s1 ++ s2, by simp, .more h1 ?_ h2⟩
        rintro rfl; simp at hlt
      · exact ⟨[], rfl, .none⟩
    · rintro ⟨s, rfl, h⟩
      generalize hst : Re.star a = b at h
      cases h with
      | none => exact .inr ⟨rfl, rfl⟩
      | @more a' s t k l h hne h' =>
        obtain rfl : a = a' := by injection hst
        have hl : 0 < s.length := List.length_pos_iff.2 hne
        refine .inl ⟨k, t ++ r, ⟨(ih _ _ _).2 ⟨s, by simp, h⟩, by simp; omega⟩, l, r, (Re.repeated_iff ih n (t ++ r) l r ?_).2 ⟨t, rfl, h'⟩, rfl, rfl⟩
        simp only [List.length_append] at hn ⊢; omega
      | _ => cases hst

/-- The matches that are tried are exactly those that there are. -/
theorem Re.run_iff : ∀ (a : Re) (cs : List Char) (k : Captures) (r : List Char), (k, r) ∈ a.run cs ↔ ∃ s, cs = s ++ r ∧ a.Matches s k
  | .empty, cs, k, r => by
    simp only [Re.run, List.mem_singleton, Prod.mk.injEq]
    constructor
    · rintro ⟨rfl, rfl⟩; exact ⟨[], rfl, .empty⟩
    · rintro ⟨s, rfl, h⟩; cases h; simp
  | .char p, cs, k, r => by
    cases cs with
    | nil =>
      simp only [Re.run, List.not_mem_nil, false_iff]
      rintro ⟨s, hs, h⟩; cases h; simp at hs
    | cons c cs =>
      simp only [Re.run]
      constructor
      · intro h
        split at h
        · rename_i hp
          simp only [List.mem_singleton, Prod.mk.injEq] at h
          exact ⟨[c], by simp [h.2], h.1 ▸ .char hp⟩
        · simp at h
      · rintro ⟨s, hs, h⟩
        cases h with
        | char hp =>
          simp only [List.cons_append, List.nil_append, List.cons.injEq] at hs
          obtain ⟨rfl, rfl⟩ := hs
          simp [hp]
  | .seq a b, cs, k, r => by
    simp only [Re.run, List.mem_flatMap, List.mem_map, Prod.mk.injEq, Prod.exists]
    constructor
    · rintro ⟨k1, r1, h1, k2, r2, h2, rfl, rfl⟩
      obtain ⟨s, rfl, m1⟩ := (Re.run_iff a _ _ _).1 h1
      obtain ⟨t, rfl, m2⟩ := (Re.run_iff b _ _ _).1 h2
      exact ⟨s ++ t, by simp, .seq m1 m2⟩
    · rintro ⟨s, rfl, h⟩
      cases h with
      | @seq _ _ s t k l h1 h2 => exact ⟨k, t ++ r, (Re.run_iff a _ _ _).2 ⟨s, by simp, h1⟩, l, r, (Re.run_iff b _ _ _).2 ⟨t, rfl, h2⟩, rfl, rfl⟩
  | .alt a b, cs, k, r => by
    simp only [Re.run, List.mem_append, Re.run_iff a, Re.run_iff b]
    constructor
    · rintro (⟨s, hs, h⟩ | ⟨s, hs, h⟩)
      · exact ⟨s, hs, .left h⟩
      · exact ⟨s, hs, .right h⟩
    · rintro ⟨s, hs, h⟩
      cases h with
      | left h => exact .inl ⟨s, hs, h⟩
      | right h => exact .inr ⟨s, hs, h⟩
  | .star a, cs, k, r => Re.repeated_iff (Re.run_iff a) cs.length cs k r (Nat.le_refl _)
  | .group name a, cs, k, r => by
    simp only [Re.run, List.mem_map, Prod.mk.injEq, Prod.exists]
    constructor
    · rintro ⟨k1, r1, h1, rfl, rfl⟩
      obtain ⟨s, rfl, m1⟩ := (Re.run_iff a _ _ _).1 h1
      exact ⟨s, rfl, by simpa using .group m1⟩
    · rintro ⟨s, rfl, h⟩
      cases h with
      | @group _ _ _ k h => exact ⟨k, r, (Re.run_iff a _ _ _).2 ⟨s, rfl, h⟩, by simp, rfl⟩

theorem Re.captures_some {a : Re} {cs : List Char} {k : Captures} (h : a.captures cs = some k) : a.Matches cs k := by
  obtain ⟨⟨k', r⟩, hf, rfl⟩ := Option.map_eq_some_iff.1 h
  obtain rfl : r = [] := by simpa using List.find?_some hf
  obtain ⟨s, hs, hm⟩ := (Re.run_iff a _ _ _).1 (List.mem_of_find?_eq_some hf)
  simpa [hs] using hm

theorem Re.captures_none {a : Re} {cs : List Char} (h : a.captures cs = none) (k : Captures) : ¬ a.Matches cs k := by
  intro hm
  have := List.find?_eq_none.1 (Option.map_eq_none_iff.1 h) (k, []) ((Re.run_iff a _ _ _).2 ⟨cs, by simp, hm⟩)
  simp at this

theorem Re.isMatch_iff {a : Re} {cs : List Char} : a.isMatch cs = true ↔ ∃ k, a.Matches cs k := by
  unfold Re.isMatch
  cases h : a.captures cs with
  | some k => simp only [Option.isSome_some, true_iff]; exact ⟨k, Re.captures_some h⟩
  | none => simpa using Re.captures_none h

/-- If there is only one way to match, it is found. -/
theorem Re.captures_iff {a : Re} {cs : List Char} {k : Captures} (hu : ∀ l, a.Matches cs l → a.Matches cs k → l = k) : a.captures cs = some k ↔ a.Matches cs k := by
  refine ⟨Re.captures_some, fun hm => ?_⟩
  cases h : a.captures cs with
  | some l => rw [hu l (Re.captures_some h) hm]
  | none => exact absurd hm (Re.captures_none h k)

/-! ### The parts of patterns -/

theorem matches_empty {s k} : Re.empty.Matches s k ↔ s = [] ∧ k = [] :=
  ⟨fun h => by cases h; exact ⟨rfl, rfl⟩, by rintro ⟨rfl, rfl⟩; exact .empty⟩

theorem matches_char {p s k} : (Re.char p).Matches s k ↔ k = [] ∧ ∃ c, s = [c] ∧ p c = true :=
  ⟨fun h => by cases h with | char h => exact ⟨rfl, _, rfl, h⟩, by rintro ⟨rfl, c, rfl, h⟩; exact .char h⟩

theorem matches_seq {a b u k} : (Re.seq a b).Matches u k ↔ ∃ s t l m, u = s ++ t ∧ k = l ++ m ∧ a.Matches s l ∧ b.Matches t m :=
  ⟨fun h => by cases h with | seq h1 h2 => exact ⟨_, _, _, _, rfl, rfl, h1, h2⟩, by rintro ⟨s, t, l, m, rfl, rfl, h1, h2⟩; exact .seq h1 h2⟩

theorem matches_alt {a b s k} : (Re.alt a b).Matches s k ↔ a.Matches s k ∨ b.Matches s k :=
  ⟨fun h => by cases h with | left h => exact .inl h | right h => exact .inr h, fun h => h.elim .left .right⟩

theorem matches_group {name a s k} : (Re.group name a).Matches s k ↔ ∃ l, k = (name, s) :: l ∧ a.Matches s l :=
  ⟨fun h => by cases h with | group h => exact ⟨_, rfl, h⟩, by rintro ⟨l, rfl, h⟩; exact .group h⟩

theorem matches_opt {a s k} : (Re.opt a).Matches s k ↔ a.Matches s k ∨ (s = [] ∧ k = []) := by
  rw [Re.opt, matches_alt, matches_empty]

theorem matches_star_char {p s k} : (Re.star (.char p)).Matches s k ↔ k = [] ∧ ∀ c ∈ s, p c = true := by
  constructor
  · intro h
    generalize ha : Re.star (.char p) = a at h
    induction h with
    | none => simp
    | more h _ h' _ ih =>
      injection ha with ha
      subst ha
      obtain ⟨rfl, c, rfl, hc⟩ := matches_char.1 h
      obtain ⟨rfl, h2⟩ := ih rfl
      exact ⟨rfl, by simpa [hc] using h2⟩
    | _ => cases ha
  · rintro ⟨rfl, h⟩
    induction s with
    | nil => exact .none
    | cons c s ih =>
      have := Re.Matches.more (a := .char p) (s := [c]) (k := []) (.char (h c (by simp))) (by simp) (ih fun d hd => h d (by simp [hd]))
      simpa using this

theorem matches_plus_char {p s k} : (Re.plus (.char p)).Matches s k ↔ k = [] ∧ s ≠ [] ∧ ∀ c ∈ s, p c = true := by
  rw [Re.plus, matches_seq]
  constructor
  · rintro ⟨s, t, l, m, rfl, rfl, h1, h2⟩
    obtain ⟨rfl, c, rfl, hc⟩ := matches_char.1 h1
    obtain ⟨rfl, h3⟩ := matches_star_char.1 h2
    exact ⟨rfl, by simp, by simpa [hc] using h3⟩
  · rintro ⟨rfl, hne, h⟩
    cases s with
    | nil => exact absurd rfl hne
    | cons c s => exact ⟨[c], s, [], [], rfl, rfl, .char (h c (by simp)), matches_star_char.2 ⟨rfl, fun d hd => h d (by simp [hd])⟩⟩

end Verif.Pkg
