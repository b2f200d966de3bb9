import Verif.Parse.Ast

/-!
The shape of the pairs that the grammar gives, and that `parseToAst` does not panic for them.
-/

namespace Verif.Parse

open Verif.Front

section

variable {R : Type} {g : Grammar R}

theorem d_lit {l : String} {t ps} : Derives g (.lit l) t ps ↔ t = l.toList ∧ ps = [] := by
  constructor
  · intro h; cases h; exact ⟨rfl, rfl⟩
  · rintro ⟨rfl, rfl⟩; exact .lit l

theorem d_range {a b : Char} {t ps} : Derives g (.range a b) t ps ↔ (∃ c, a ≤ c ∧ c ≤ b ∧ t = [c]) ∧ ps = [] := by
  constructor
  · intro h; cases h with | range _ _ c h1 h2 => exact ⟨⟨c, h1, h2, rfl⟩, rfl⟩
  · rintro ⟨⟨c, h1, h2, rfl⟩, rfl⟩; exact .range a b c h1 h2

theorem d_any {t ps} : Derives g .any t ps ↔ (∃ c, t = [c]) ∧ ps = [] := by
  constructor
  · intro h; cases h with | any c => exact ⟨⟨c, rfl⟩, rfl⟩
  · rintro ⟨⟨c, rfl⟩, rfl⟩; exact .any c

theorem d_soi {t ps} : Derives g .soi t ps ↔ t = [] ∧ ps = [] := by
  constructor
  · intro h; cases h; exact ⟨rfl, rfl⟩
  · rintro ⟨rfl, rfl⟩; exact .soi

theorem d_eoi {t ps} : Derives g .eoi t ps ↔ t = [] ∧ ps = [] := by
  constructor
  · intro h; cases h; exact ⟨rfl, rfl⟩
  · rintro ⟨rfl, rfl⟩; exact .eoi

theorem d_not {a : Peg R} {t ps} : Derives g (.not a) t ps ↔ t = [] ∧ ps = [] := by
  constructor
  · intro h; cases h; exact ⟨rfl, rfl⟩
  · rintro ⟨rfl, rfl⟩; exact .not

theorem d_seq {a b : Peg R} {t ps} :
    Derives g (.seq a b) t ps ↔ ∃ t₁ ps₁ t₂ ps₂, Derives g a t₁ ps₁ ∧ Derives g b t₂ ps₂ ∧ t = t₁ ++ t₂ ∧ ps = ps₁ ++ ps₂ := by
  constructor
  · intro h; cases h with | seq h1 h2 => exact ⟨_, _, _, _, h1, h2, rfl, rfl⟩
  · rintro ⟨_, _, _, _, h1, h2, rfl, rfl⟩; exact .seq h1 h2

theorem d_choice {a b : Peg R} {t ps} : Derives g (.choice a b) t ps ↔ Derives g a t ps ∨ Derives g b t ps := by
  constructor
  · intro h; cases h with
    | choiceLeft h => exact .inl h
    | choiceRight h => exact .inr h
  · rintro (h | h)
    · exact .choiceLeft h
    · exact .choiceRight h

theorem d_opt {a : Peg R} {t ps} : Derives g (.opt a) t ps ↔ t = [] ∧ ps = [] ∨ Derives g a t ps := by
  constructor
  · intro h; cases h with
    | optNone => exact .inl ⟨rfl, rfl⟩
    | optSome h => exact .inr h
  · rintro (⟨rfl, rfl⟩ | h)
    · exact .optNone
    · exact .optSome h

theorem d_silent {r : R} {t ps} (hr : g.silent r = true) : Derives g (.rule r) t ps ↔ Derives g (g.body r) t ps := by
  constructor
  · intro h; cases h with
    | silent _ h => exact h
    | normal h _ => rw [hr] at h; cases h
  · exact .silent hr

theorem d_normal {r : R} {t ps} (hr : g.silent r = false) :
    Derives g (.rule r) t ps ↔ ∃ qs, Derives g (g.body r) t qs ∧ ps = [.node r t qs] := by
  constructor
  · intro h; cases h with
    | silent h _ => rw [hr] at h; cases h
    | normal _ h => exact ⟨_, h, rfl⟩
  · rintro ⟨qs, h, rfl⟩; exact .normal hr h

/-- Repetitions: each is a derivation. -/
theorem d_star {a : Peg R} {t ps} (h : Derives g (.star a) t ps) :
    ∃ parts : List (List Char × List (Pair R)), (∀ p ∈ parts, Derives g a p.1 p.2) ∧ t = (parts.map (·.1)).flatten ∧ ps = (parts.map (·.2)).flatten := by
  generalize he : Peg.star a = e at h
  induction h with
  | starNil => exact ⟨[], by simp, rfl, rfl⟩
  | @starCons b t u ps qs h1 _ _ ih2 =>
    cases he
    obtain ⟨parts, hp, rfl, rfl⟩ := ih2 rfl
    refine ⟨(t, ps) :: parts, ?_, rfl, rfl⟩
    intro p hp'
    rcases List.mem_cons.1 hp' with rfl | hp'
    · exact h1
    · exact hp p hp'
  | _ => cases he

/-- All characters that an expression without rules matches have a property. -/
def Peg.Only (S : Char → Prop) : Peg R → Prop
  | .lit l => ∀ c ∈ l.toList, S c
  | .range a b => ∀ c, a ≤ c → c ≤ b → S c
  | .any => False
  | .soi => True
  | .eoi => True
  | .rule _ => False
  | .seq a b => a.Only S ∧ b.Only S
  | .choice a b => a.Only S ∧ b.Only S
  | .opt a => a.Only S
  | .star a => a.Only S
  | .not _ => True

theorem Derives.only {S : Char → Prop} {e : Peg R} {t ps} (h : Derives g e t ps) (he : e.Only S) : ∀ c ∈ t, S c := by
  induction h with
  | lit l => exact he
  | range a b c h1 h2 => intro d hd; simp only [List.mem_singleton] at hd; subst hd; exact he _ h1 h2
  | any => exact he.elim
  | soi => nofun
  | eoi => nofun
  | seq _ _ ih1 ih2 => intro c hc; rcases List.mem_append.1 hc with hc | hc; exacts [ih1 he.1 c hc, ih2 he.2 c hc]
  | choiceLeft _ ih => exact ih he.1
  | choiceRight _ ih => exact ih he.2
  | optNone => nofun
  | optSome _ ih => exact ih he
  | starNil => nofun
  | starCons _ _ ih1 ih2 => intro c hc; rcases List.mem_append.1 hc with hc | hc; exacts [ih1 he c hc, ih2 he c hc]
  | not => nofun
  | silent => exact he.elim
  | normal => exact he.elim

end

/-! ### Pairs of a rule -/

/-- A pair that the rule gives. -/
def Good (r : Rule) (p : Pair Rule) : Prop := ∃ t qs, Derives dsdl (r.body) t qs ∧ p = .node r t qs

theorem good_rule {r : Rule} {t ps} (hr : r.silent = false := by rfl) (h : Derives dsdl (.rule r) t ps) : ∃ p, ps = [p] ∧ Good r p ∧ p.text = t := by
  obtain ⟨qs, h', rfl⟩ := (d_normal (g := dsdl) hr).1 h
  exact ⟨_, rfl, ⟨t, qs, h', rfl⟩, rfl⟩

theorem silent_rule {r : Rule} {t ps} (hr : r.silent = true := by rfl) (h : Derives dsdl (.rule r) t ps) : Derives dsdl r.body t ps :=
  (d_silent (g := dsdl) hr).1 h

theorem Good.rule {r : Rule} {p} (h : Good r p) : p.rule = r := by
  obtain ⟨t, qs, _, rfl⟩ := h; rfl

/-- An expression without rules. -/
def Peg.plain {R : Type} : Peg R → Bool
  | .rule _ => false
  | .seq a b => a.plain && b.plain
  | .choice a b => a.plain && b.plain
  | .opt a => a.plain
  | .star a => a.plain
  | _ => true

theorem Derives.pairless {R : Type} {g : Grammar R} {e : Peg R} {t ps} (h : Derives g e t ps) (he : e.plain = true) : ps = [] := by
  induction h with
  | seq _ _ ih1 ih2 => simp only [Peg.plain, Bool.and_eq_true] at he; rw [ih1 he.1, ih2 he.2]; rfl
  | choiceLeft _ ih => simp only [Peg.plain, Bool.and_eq_true] at he; exact ih he.1
  | choiceRight _ ih => simp only [Peg.plain, Bool.and_eq_true] at he; exact ih he.2
  | optSome _ ih => exact ih he
  | starCons _ _ ih1 ih2 => rw [ih1 he, ih2 he]; rfl
  | silent => cases he
  | normal => cases he
  | _ => rfl

/-- White space gives no pairs. -/
theorem ws_pairs {t ps} (h : Derives dsdl (.rule .ws) t ps) : ps = [] := (silent_rule rfl h).pairless rfl

theorem ows_pairs {t ps} (h : Derives dsdl ows t ps) : ps = [] := by
  rcases d_opt.1 h with h | h
  · exact h.2
  · exact ws_pairs h

/-- Pairs of two rules in turn. -/
inductive Alternate (a b : Pair Rule → Prop) : List (Pair Rule) → Prop
  | nil : Alternate a b []
  | cons {p q ps} : a p → b q → Alternate a b ps → Alternate a b (p :: q :: ps)

/-- Pairs that `e` gives: a single one. -/
def Single (e : Rule) (G : Pair Rule → Prop) : Prop := ∀ t ps, Derives dsdl (.rule e) t ps → ∃ p, ps = [p] ∧ G p

theorem single_normal {r : Rule} (hr : r.silent = false := by rfl) : Single r (Good r) := by
  intro t ps h
  obtain ⟨p, h1, h2, -⟩ := good_rule hr h
  exact ⟨p, h1, h2⟩

theorem operands_shape {e op e' : Rule} {E O E' : Pair Rule → Prop} (hE : Single e E) (hO : Single op O) (hE' : Single e' E') {t ps}
    (h : Derives dsdl (operands e op e') t ps) : ∃ p rest, ps = p :: rest ∧ E p ∧ Alternate O E' rest := by
  simp only [d_seq] at h
  obtain ⟨_, ps₁, _, ps₂, h1, h2, -, rfl⟩ := h
  obtain ⟨p, rfl, hp⟩ := hE _ _ h1
  refine ⟨p, ps₂, rfl, hp, ?_⟩
  obtain ⟨parts, hparts, -, rfl⟩ := d_star h2
  clear h1 h2
  induction parts with
  | nil => exact .nil
  | cons x xs ih =>
    have hx := hparts x (by simp)
    simp only [d_seq] at hx
    obtain ⟨_, qs₁, _, _, h3, ⟨_, qs₂, _, _, h4, ⟨_, qs₃, _, qs₄, h5, h6, -, rfl⟩, -, rfl⟩, -, hx2⟩ := hx
    obtain rfl := ows_pairs h3
    obtain rfl := ows_pairs h5
    obtain ⟨o, rfl, ho⟩ := hO _ _ h4
    obtain ⟨q, rfl, hq⟩ := hE' _ _ h6
    simp only [List.map_cons, List.flatten_cons, hx2]
    exact .cons ho hq (ih fun y hy => hparts y (by simp [hy]))

end Verif.Parse
