import Verif.Docs.Lemmas
import Mathlib.Data.List.TakeWhile

/-! What holds while the lines of a file are compiled. -/

namespace Verif.Docs

open Verif.Front
open Verif.Parse (Line)

/-! ### The state and the statements before it -/

/-- What the state is in a section with (`u`) or without `@union`, `@sealed` or `@extent` (`e`), fields (`f`) and a use of `_offset_` after `@union` (`o`). -/
def Shape (r u e f o : Bool) : State → Prop
  | .message => r = false ∧ u = false ∧ e = false ∧ f = false ∧ o = false
  | .response _ => r = true ∧ u = false ∧ e = false ∧ f = false ∧ o = false
  | .messageStruct (.collecting _) _ => r = false ∧ u = false ∧ e = false ∧ f = true
  | .messageStruct (.ended _ _) _ => r = false ∧ u = false ∧ e = true
  | .responseStruct _ (.collecting _) _ => r = true ∧ u = false ∧ e = false ∧ f = true
  | .responseStruct _ (.ended _ _) _ => r = true ∧ u = false ∧ e = true
  | .messageUnion (.collecting _) => r = false ∧ u = true ∧ e = false ∧ o = false
  | .messageUnion (.usedOffset _ _) => r = false ∧ u = true ∧ e = false ∧ o = true
  | .messageUnion (.ended _ _ _) => r = false ∧ u = true ∧ e = true
  | .responseUnion _ (.collecting _) => r = true ∧ u = true ∧ e = false ∧ o = false
  | .responseUnion _ (.usedOffset _ _) => r = true ∧ u = true ∧ e = false ∧ o = true
  | .responseUnion _ (.ended _ _ _) => r = true ∧ u = true ∧ e = true

section Shapes

variable {r u e f o : Bool} {s s' : State}

theorem Shape.touched (h : Shape r u e f o s) (b : Bool) : Shape r u e f (o || (u && b)) (if b then s.useOffset else s) := by
  cases b with
  | false => simpa using h
  | true =>
    cases s with
    | message => simp only [Shape] at h; simp [State.useOffset, Shape, h]
    | response m => simp only [Shape] at h; simp [State.useOffset, Shape, h]
    | messageStruct t l => cases t <;> simp only [Shape] at h <;> simp [State.useOffset, Shape, h]
    | responseStruct m t l => cases t <;> simp only [Shape] at h <;> simp [State.useOffset, Shape, h]
    | messageUnion t => cases t <;> simp only [Shape] at h <;> simp [State.useOffset, Shape, h]
    | responseUnion m t => cases t <;> simp only [Shape] at h <;> simp [State.useOffset, Shape, h]

theorem Shape.union (h : Shape r u e f o s) (hu : s.handleUnion = .ok s') : Shape r true e f o s' ∧ u = false := by
  cases s <;> cases hu <;> simp only [Shape] at h <;> simp [Shape, h]

theorem Shape.finish (h : Shape r u e f o s) {n : Option Nat} (hf : s.finish n = .ok s') : Shape r u true f o s' := by
  cases s with
  | message => cases hf; simp only [Shape] at h; simp [Shape, h]
  | response m => cases hf; simp only [Shape] at h; simp [Shape, h]
  | messageStruct t l =>
    obtain ⟨t', h1, h2⟩ := bind_ok hf
    cases t <;> cases h1; cases h2; simp only [Shape] at h; simp [Shape, h]
  | responseStruct m t l =>
    obtain ⟨t', h1, h2⟩ := bind_ok hf
    cases t <;> cases h1; cases h2; simp only [Shape] at h; simp [Shape, h]
  | messageUnion t =>
    obtain ⟨t', h1, h2⟩ := bind_ok hf
    cases h2
    cases t <;> simp only [UnionState.finish] at h1
    · split at h1 <;> cases h1; simp only [Shape] at h; simp [Shape, h]
    · split at h1 <;> cases h1; simp only [Shape] at h; simp [Shape, h]
    · cases h1
  | responseUnion m t =>
    obtain ⟨t', h1, h2⟩ := bind_ok hf
    cases h2
    cases t <;> simp only [UnionState.finish] at h1
    · split at h1 <;> cases h1; simp only [Shape] at h; simp [Shape, h]
    · split at h1 <;> cases h1; simp only [Shape] at h; simp [Shape, h]
    · cases h1

theorem Shape.padding (h : Shape r u e f o s) {n : Nat} (hf : s.addPadding n = .ok s') : Shape r u e true o s' := by
  cases s with
  | message => cases hf; simp only [Shape] at h; simp [Shape, h]
  | response m => cases hf; simp only [Shape] at h; simp [Shape, h]
  | messageStruct t l => cases t <;> cases hf; simp only [Shape] at h; simp [Shape, h]
  | responseStruct m t l => cases t <;> cases hf; simp only [Shape] at h; simp [Shape, h]
  | messageUnion t => cases hf
  | responseUnion m t => cases hf

theorem Shape.field (h : Shape r u e f o s) {t : RScalar} {a : Verif.Dsdl.Arity} {n : String} (hf : s.addField t a n = .ok s') : Shape r u e true o s' := by
  cases s with
  | message => cases hf; simp only [Shape] at h; simp [Shape, h]
  | response m => cases hf; simp only [Shape] at h; simp [Shape, h]
  | messageStruct t l =>
    cases t
    · obtain ⟨t', _, h2⟩ := bind_ok hf; cases h2; simp only [Shape] at h; simp [Shape, h]
    · cases hf
  | responseStruct m t l =>
    cases t
    · obtain ⟨t', _, h2⟩ := bind_ok hf; cases h2; simp only [Shape] at h; simp [Shape, h]
    · cases hf
  | messageUnion t =>
    cases t
    · obtain ⟨t', _, h2⟩ := bind_ok hf; cases h2; simp only [Shape] at h; simp [Shape, h]
    · cases hf
    · cases hf
  | responseUnion m t =>
    cases t
    · obtain ⟨t', _, h2⟩ := bind_ok hf; cases h2; simp only [Shape] at h; simp [Shape, h]
    · cases hf
    · cases hf

theorem Shape.request (h : Shape r u e f o s) : s.request.isSome = r := by
  cases s with
  | message => simp only [Shape] at h; simp [State.request, h]
  | response m => simp only [Shape] at h; simp [State.request, h]
  | messageStruct t l => cases t <;> simp only [Shape] at h <;> simp [State.request, h]
  | responseStruct m t l => cases t <;> simp only [Shape] at h <;> simp [State.request, h]
  | messageUnion t => cases t <;> simp only [Shape] at h <;> simp [State.request, h]
  | responseUnion m t => cases t <;> simp only [Shape] at h <;> simp [State.request, h]

end Shapes

/-- What the statements of a section say about its state. -/
def ShapeOf (r : Bool) (ss : List Statement) (s : State) : Prop :=
  Shape r (ss.any Statement.isUnion) (ss.any Statement.isEnd) (ss.any Statement.isField) (usedOffset ss) s

theorem usedOffset_snoc (ss : List Statement) (s : Statement) :
    usedOffset (ss ++ [s]) = if ss.any Statement.isUnion then usedOffset ss || s.mentionsOffset else s.isUnion && s.mentionsOffset := by
  unfold usedOffset
  rw [List.dropWhile_append]
  by_cases h : ss.any Statement.isUnion = true
  · rw [if_pos h]
    have : (ss.dropWhile fun s => !s.isUnion).isEmpty = false := by
      rw [← Bool.not_eq_true, List.isEmpty_iff, List.dropWhile_eq_nil_iff]
      simpa using h
    rw [this, if_neg (by simp), List.any_append]
    simp
  · rw [if_neg h]
    have : (ss.dropWhile fun s => !s.isUnion).isEmpty = true := by
      rw [List.isEmpty_iff, List.dropWhile_eq_nil_iff]
      simpa using h
    rw [this, if_pos rfl]
    cases hs : s.isUnion <;> simp [hs]

/-- A statement other than `@union`, `@sealed`, `@extent` and fields. -/
theorem ShapeOf.step {r : Bool} {ss : List Statement} {f : FileState} (h : ShapeOf r ss f.state) {s : Statement} (h1 : s.isUnion = false) (h2 : s.isEnd = false)
    (h3 : s.isField = false) : ShapeOf r (ss ++ [s]) (touched s.mentionsOffset f).state := by
  unfold ShapeOf at h ⊢
  have h' := h.touched s.mentionsOffset
  rw [List.any_append, List.any_append, List.any_append, usedOffset_snoc]
  have e : (touched s.mentionsOffset f).state = if s.mentionsOffset then f.state.useOffset else f.state := by
    cases s.mentionsOffset <;> rfl
  rw [e]
  simp only [List.any_cons, List.any_nil, h1, h2, h3, Bool.or_false, Bool.false_and]
  cases hu : ss.any Statement.isUnion with
  | true => rw [hu] at h'; simpa using h'
  | false =>
    rw [hu] at h'
    have : usedOffset ss = false := by
      unfold usedOffset
      have : ss.dropWhile (fun s => !s.isUnion) = [] := by rw [List.dropWhile_eq_nil_iff]; simpa using hu
      rw [this]; rfl
    simpa [this] using h'

theorem usedOffset_none {ss : List Statement} (hu : ss.any Statement.isUnion = false) : usedOffset ss = false := by
  unfold usedOffset
  have : ss.dropWhile (fun s => !s.isUnion) = [] := by rw [List.dropWhile_eq_nil_iff]; simpa using hu
  rw [this]; rfl

variable {P : Type} {x : Externals} {lookup : Lookup P}

/-- What a statement other than `---` adds to the constants. -/
def addsConstant (s : Statement) : List (Option String) := match s with | .constant _ n _ => [some n] | _ => []

/-- What a statement other than `---` adds to the members. -/
def addsMember (s : Statement) : List (Option String) := match s with | .field _ n => [some n] | .padding _ => [none] | _ => []

/-- What a statement does to the file. -/
structure Stepped (r : Bool) (ss : List Statement) (s : Statement) (f f' : FileState) : Prop where
  shape : ShapeOf r (ss ++ [s]) f'.state
  constants : f'.constants.map (fun c => some c.1) = f.constants.map (fun c => some c.1) ++ addsConstant s
  members : f'.state.part.members.map memberName = f.state.part.members.map memberName ++ addsMember s
  request : f'.state.request = f.state.request

theorem touched_constants (b : Bool) (f : FileState) : (touched b f).constants = f.constants := by cases b <;> rfl

theorem touched_part (b : Bool) (f : FileState) : (touched b f).state.part = f.state.part ∧ (touched b f).state.request = f.state.request := by
  cases b
  · exact ⟨rfl, rfl⟩
  · exact part_useOffset _

theorem withState_ok {cx cx' : Cx P} {o : Outcome State} (h : cx.withState o = .ok cx') : ∃ s, o = .ok s ∧ cx'.file = { cx.file with state := s } := by
  obtain ⟨s, h1, h2⟩ := bind_ok h
  cases h2
  exact ⟨s, h1, rfl⟩

/-- A statement that only evaluates an expression. -/
theorem Stepped.eval {r : Bool} {ss : List Statement} {f : FileState} (h : ShapeOf r ss f.state) {s : Statement} (h1 : s.isUnion = false) (h2 : s.isEnd = false)
    (h3 : s.isField = false) (h4 : addsConstant s = []) (h5 : addsMember s = []) : Stepped r ss s f (touched s.mentionsOffset f) where
  shape := ShapeOf.step h h1 h2 h3
  constants := by rw [touched_constants, h4, List.append_nil]
  members := by rw [(touched_part _ _).1, h5, List.append_nil]
  request := (touched_part _ _).2

theorem run_stepped {r : Bool} {ss : List Statement} {s : Statement} {cx cx' : Cx P} (h : s.run x lookup cx = .ok cx') (hm : s.isMarker = false)
    (hs : ShapeOf r ss cx.file.state) : Stepped r ss s cx.file cx'.file := by
  cases s with
  | directive name value =>
    simp only [Statement.run] at h
    unfold evalDirective at h
    split at h
    · obtain ⟨s', h1, h2⟩ := withState_ok h
      rw [h2]
      obtain ⟨h3, h4⟩ := Shape.union hs h1
      obtain ⟨h5, h6, h7⟩ := handleUnion_part h1
      refine ⟨?_, by simp [addsConstant], by simp [h6, h7, addsMember], h5⟩
      unfold ShapeOf
      rw [usedOffset_none h4] at h3
      rw [List.any_append, List.any_append, List.any_append, usedOffset_snoc, h4]
      simpa [Statement.isUnion, Statement.isEnd, Statement.isField, Statement.mentionsOffset] using h3
    · next e =>
      obtain ⟨⟨v, cx1⟩, h1, h2⟩ := bind_ok h
      obtain ⟨n, _, h3⟩ := bind_ok h2
      obtain ⟨s', h4, h5⟩ := withState_ok h3
      have h6 := eval_file e h1
      dsimp only at h4 h5
      rw [h6] at h4 h5
      rw [h5]
      have ht := Stepped.eval hs (s := .directive "print" (some e)) rfl rfl rfl rfl rfl
      simp only [Statement.mentionsOffset] at ht
      obtain ⟨h7, _, h8, _⟩ := finish_part h4
      refine ⟨?_, by simpa [addsConstant] using ht.constants, ?_, h7.trans ht.request⟩
      · have := Shape.finish ht.shape h4
        unfold ShapeOf
        rw [List.any_append, List.any_append, usedOffset_snoc] at this
        rw [List.any_append, List.any_append, List.any_append, usedOffset_snoc]
        simpa [Statement.isUnion, Statement.isEnd, Statement.isField, Statement.mentionsOffset] using this
      · dsimp only; rw [h8]; simpa [addsMember] using ht.members
    · obtain ⟨s', h4, h5⟩ := withState_ok h
      rw [h5]
      obtain ⟨h7, _, h8, _⟩ := finish_part h4
      refine ⟨?_, by simp [addsConstant], by simp [addsMember, h8], h7⟩
      have := Shape.finish hs h4
      unfold ShapeOf
      rw [List.any_append, List.any_append, List.any_append, usedOffset_snoc]
      cases hu : ss.any Statement.isUnion
      · rw [hu, usedOffset_none hu] at this
        simpa [Statement.isUnion, Statement.isEnd, Statement.isField, Statement.mentionsOffset] using this
      · rw [hu] at this
        simpa [Statement.isUnion, Statement.isEnd, Statement.isField, Statement.mentionsOffset] using this
    · obtain ⟨f', h1, h2⟩ := bind_ok h
      cases h2
      obtain ⟨h3, _⟩ := handleDeprecated_part h1
      have ht := Stepped.eval hs (s := .directive "deprecated" none) rfl rfl rfl rfl rfl
      dsimp only
      rw [h3]
      exact ⟨ht.shape, ht.constants, ht.members, ht.request⟩
    · next e =>
      obtain ⟨⟨v, cx1⟩, h1, h2⟩ := bind_ok h
      have h6 := eval_file e h1
      dsimp only at h2
      split at h2 <;> cases h2
      rw [h6]
      exact Stepped.eval hs (s := .directive "assert" (some e)) rfl rfl rfl rfl rfl
    · next e =>
      obtain ⟨⟨v, cx1⟩, h1, h2⟩ := bind_ok h
      have h6 := eval_file e h1
      cases h2
      rw [h6]
      exact Stepped.eval hs (s := .directive "print" (some e)) rfl rfl rfl rfl rfl
    · cases h
      exact Stepped.eval hs (s := .directive "print" none) rfl rfl rfl rfl rfl
    · cases h
  | constant ty name e =>
    simp only [Statement.run] at h
    split at h
    · cases h
    · next hk =>
      obtain ⟨⟨c, cx1⟩, h1, h2⟩ := bind_ok h
      cases h2
      unfold evalConstant at h1
      split at h1
      · cases h1
      · obtain ⟨⟨v, cx2⟩, h3, h4⟩ := bind_ok h1
        obtain ⟨w, _, h5⟩ := bind_ok h4
        cases h5
        have h6 := eval_file e h3
        have h7 := ShapeOf.step hs (s := .constant ty name e) rfl rfl rfl
        simp only [Statement.mentionsOffset] at h7
        dsimp only
        rw [h6]
        refine ⟨h7, ?_, by rw [(touched_part _ _).1]; simp [addsMember], (touched_part _ _).2⟩
        dsimp only
        rw [touched_constants, Constants.insert_new (by simpa using hk)]
        simp [addsConstant]
  | field ty name =>
    simp only [Statement.run] at h
    obtain ⟨⟨t, cx1⟩, h1, h2⟩ := bind_ok h
    obtain ⟨⟨q, cx2⟩, h3, h4⟩ := bind_ok h2
    dsimp only at h4
    split at h4
    · cases h4
    · obtain ⟨s', h5, h6⟩ := withState_ok h4
      have h7 : cx2.file = touched ty.mentionsOffset cx.file := (resolve_file h3).trans (convertType_file h1)
      rw [h7] at h5 h6
      rw [h6]
      obtain ⟨h8, _, h9, _⟩ := addField_part h5
      have ht := Shape.touched (s := cx.file.state) hs ty.mentionsOffset
      have e : (touched ty.mentionsOffset cx.file).state = if ty.mentionsOffset then cx.file.state.useOffset else cx.file.state := by
        cases ty.mentionsOffset <;> rfl
      rw [← e] at ht
      refine ⟨?_, by rw [touched_constants]; simp [addsConstant], ?_, h8.trans (touched_part _ _).2⟩
      · have := Shape.field ht h5
        unfold ShapeOf
        rw [List.any_append, List.any_append, List.any_append, usedOffset_snoc]
        cases hu : ss.any Statement.isUnion
        · rw [hu, usedOffset_none hu] at this
          simpa [Statement.isUnion, Statement.isEnd, Statement.isField, Statement.mentionsOffset] using this
        · rw [hu] at this
          simpa [Statement.isUnion, Statement.isEnd, Statement.isField, Statement.mentionsOffset] using this
      · dsimp only
        rw [h9, (touched_part _ _).1]; simp [addsMember, memberName]
  | padding bits =>
    simp only [Statement.run] at h
    obtain ⟨s', h5, h6⟩ := withState_ok h
    rw [h6]
    obtain ⟨h8, _, _, h9⟩ := addPadding_part h5
    refine ⟨?_, by simp [addsConstant], ?_, h8⟩
    · have := Shape.padding hs h5
      unfold ShapeOf
      rw [List.any_append, List.any_append, List.any_append, usedOffset_snoc]
      cases hu : ss.any Statement.isUnion
      · rw [hu, usedOffset_none hu] at this
        simpa [Statement.isUnion, Statement.isEnd, Statement.isField, Statement.mentionsOffset] using this
      · rw [hu] at this
        simpa [Statement.isUnion, Statement.isEnd, Statement.isField, Statement.mentionsOffset] using this
    · dsimp only
      rw [h9]; simp [addsMember, memberName]
  | responseMarker => cases hm

/-! ### Comments -/

/-- Adds a comment where it belongs. -/
def place (ds : List Statement) (c : String) (d : SectionDocs) : SectionDocs :=
  match ds.getLast? with
  | none => { d with comments := appendComment d.comments c }
  | some s => if s.isConstant then { d with constants := appendLast c d.constants } else { d with members := appendLast c d.members }

/-- The last declaration is the last constant or the last member, and it comes after the others. -/
def Later (ds : List Statement) (d : SectionDocs) : Prop :=
  match ds.getLast? with
  | none => d.constants = [] ∧ d.members = []
  | some s =>
    if s.isConstant then ∃ k, d.constants.getLast? = some k ∧ ∀ m ∈ d.members, m.endOffset < k.endOffset
    else ∃ m, d.members.getLast? = some m ∧ ∀ k ∈ d.constants, k.endOffset < m.endOffset

theorem applyToLater_nil {c : String} {d : SectionDocs} (h : Later [] d) : d.applyToLater c = d := by
  obtain ⟨h1, h2⟩ := h
  simp [SectionDocs.applyToLater, h1, h2]

theorem applyToType_nil {c : String} {d : SectionDocs} (h : Later [] d) : d.applyToType c = place [] c d := by
  obtain ⟨h1, h2⟩ := h
  simp [SectionDocs.applyToType, h1, place]

theorem applyToLater_place {ds : List Statement} {c : String} {d : SectionDocs} (h : Later ds d) (hd : ds ≠ []) : d.applyToLater c = place ds c d := by
  obtain ⟨s, hs⟩ : ∃ s, ds.getLast? = some s := by
    cases h : ds.getLast? with
    | none => exact absurd (List.getLast?_eq_none_iff.1 h) hd
    | some s => exact ⟨s, rfl⟩
  unfold Later at h
  unfold place SectionDocs.applyToLater
  rw [hs] at h ⊢
  dsimp only at h ⊢
  split at h
  · next hc =>
    obtain ⟨k, h1, h2⟩ := h
    rw [h1, if_pos hc]
    cases h3 : d.members.getLast? with
    | none => rfl
    | some m =>
      dsimp only
      rw [if_pos (h2 m (List.mem_of_getLast? h3))]
  · next hc =>
    obtain ⟨m, h1, h2⟩ := h
    rw [h1, if_neg hc]
    cases h3 : d.constants.getLast? with
    | none => rfl
    | some k =>
      dsimp only
      rw [if_neg (Nat.not_lt_of_gt (h2 k (List.mem_of_getLast? h3)))]

theorem applyToType_place {ds : List Statement} {c : String} {d : SectionDocs} (h : Later ds d) (hd : ∀ s ∈ ds, s.isConstant = true) :
    d.applyToType c = place ds c d := by
  cases hs : ds.getLast? with
  | none =>
    have := List.getLast?_eq_none_iff.1 hs
    subst this
    exact applyToType_nil h
  | some s =>
    have hc := hd s (List.mem_of_getLast? hs)
    unfold Later at h
    unfold place SectionDocs.applyToType
    rw [hs] at h ⊢
    dsimp only at h ⊢
    rw [if_pos hc] at h ⊢
    obtain ⟨k, h1, _⟩ := h
    rw [h1]

theorem declarations_any (ls : List Line) : (statements ls).any Statement.declares = !(declarations ls).isEmpty := by
  unfold declarations
  generalize statements ls = ss
  induction ss with
  | nil => rfl
  | cons s ss ih => cases h : s.declares <;> simp [h, ih]

/-- What `handle_comment` does. -/
theorem handleComment_place {r : Bool} {ls : List Line} {s : State} {c : String} {d : SectionDocs} (h : ShapeOf r (statements ls) s) (hl : Later (declarations ls) d) :
    d.handleComment s c = if kept r (statements ls) then place (declarations ls) c d else d := by
  have later : d.applyToLater c = if (statements ls).any Statement.declares then place (declarations ls) c d else d := by
    rw [declarations_any]
    cases hd : declarations ls with
    | nil => rw [hd] at hl; exact applyToLater_nil hl
    | cons a as => rw [hd] at hl; exact applyToLater_place hl (by simp)
  have type : (statements ls).any Statement.isField = false → d.applyToType c = place (declarations ls) c d := by
    intro hf
    refine applyToType_place hl fun s hs => ?_
    obtain ⟨h1, h2⟩ := List.mem_filter.1 hs
    rw [List.any_eq_false] at hf
    simpa [Statement.declares, hf s h1] using h2
  have some : (statements ls).any Statement.isField = true → (statements ls).any Statement.declares = true := by
    intro hf
    obtain ⟨s, h1, h2⟩ := List.any_eq_true.1 hf
    exact List.any_eq_true.2 ⟨s, h1, by simp [Statement.declares, h2]⟩
  unfold ShapeOf at h
  unfold kept
  cases s with
  | message => obtain ⟨_, h1, h2, h3, _⟩ := h; rw [h1, h2]; simpa [SectionDocs.handleComment] using type h3
  | response m => obtain ⟨_, h1, h2, h3, _⟩ := h; rw [h1, h2]; simpa [SectionDocs.handleComment] using type h3
  | messageStruct t l =>
    cases t with
    | collecting fs => obtain ⟨_, h1, h2, h3⟩ := h; rw [h1, h2]; rw [some h3] at later; simpa [SectionDocs.handleComment] using later
    | ended fs e => obtain ⟨_, h1, h2⟩ := h; rw [h1, h2]; simp [SectionDocs.handleComment]
  | responseStruct m t l =>
    cases t with
    | collecting fs => obtain ⟨_, h1, h2, h3⟩ := h; rw [h1, h2]; rw [some h3] at later; simpa [SectionDocs.handleComment] using later
    | ended fs e => obtain ⟨_, h1, h2⟩ := h; rw [h1, h2]; simp [SectionDocs.handleComment]
  | messageUnion t =>
    cases t with
    | collecting vs => obtain ⟨h0, h1, h2, h3⟩ := h; rw [h1, h2, h3, h0]; simpa [SectionDocs.handleComment] using later
    | usedOffset vs l => obtain ⟨h0, h1, h2, h3⟩ := h; rw [h1, h2, h3, h0]; simp [SectionDocs.handleComment]
    | ended vs e l => obtain ⟨h0, h1, h2⟩ := h; rw [h1, h2, h0]; simpa [SectionDocs.handleComment] using later
  | responseUnion m t =>
    cases t with
    | collecting vs => obtain ⟨h0, h1, h2, h3⟩ := h; rw [h1, h2, h0]; simpa [SectionDocs.handleComment] using later
    | usedOffset vs l => obtain ⟨h0, h1, h2, h3⟩ := h; rw [h1, h2, h0]; simpa [SectionDocs.handleComment] using later
    | ended vs e l => obtain ⟨h0, h1, h2⟩ := h; rw [h1, h2, h0]; simp [SectionDocs.handleComment]

/-! ### One section -/

/-- What holds in a section after the lines `ls`. -/
structure Inv (r : Bool) (ls : List Line) (offset : Nat) (f : FileState) (d : SectionDocs) : Prop where
  shape : ShapeOf r (statements ls) f.state
  documented : Documented (kept r) ls d
  bounded : ∀ i, i ∈ d.constants ∨ i ∈ d.members → i.endOffset < offset
  later : Later (declarations ls) d
  constantNames : d.constants.map Item.name = f.constants.map (fun c => some c.1)
  memberNames : d.members.map Item.name = f.state.part.members.map memberName

theorem appendLast_snoc (c : String) : ∀ (is : List Item) (i : Item), appendLast c (is ++ [i]) = is ++ [{ i with comments := appendComment i.comments c }]
  | [], i => rfl
  | [a], i => rfl
  | a :: b :: is, i => by
    have := appendLast_snoc c (b :: is) i
    simp only [List.cons_append, appendLast] at this ⊢
    rw [this]

theorem appendLast_names (c : String) (is : List Item) : (appendLast c is).map Item.name = is.map Item.name ∧ (appendLast c is).map Item.endOffset = is.map Item.endOffset := by
  induction is using List.reverseRecOn with
  | nil => exact ⟨rfl, rfl⟩
  | append_singleton is i _ => rw [appendLast_snoc]; simp

/-- The comments of the last of some declarations change. -/
theorem docs_last {p : Statement → Bool} {ds : List Statement} {s : Statement} {is : List Item} {g g' : Nat → String} {c : String}
    (h : is.map (fun i => (i.name, i.comments)) = (((ds ++ [s]).zipIdx 1).filter fun e => p e.1).map fun e => (e.1.name, g e.2))
    (hs : p s = true) (h1 : g' (ds.length + 1) = appendComment (g (ds.length + 1)) c) (h2 : ∀ k, k ≠ ds.length + 1 → g' k = g k) :
    (appendLast c is).map (fun i => (i.name, i.comments)) = (((ds ++ [s]).zipIdx 1).filter fun e => p e.1).map fun e => (e.1.name, g' e.2) := by
  rw [List.zipIdx_append] at h ⊢
  simp only [List.zipIdx_singleton, List.filter_append, List.map_append, List.filter_cons, hs, List.filter_nil, if_true, List.map_cons, List.map_nil] at h ⊢
  obtain ⟨is', i, rfl⟩ : ∃ is' i, is = is' ++ [i] := by
    rcases List.eq_nil_or_concat is with rfl | ⟨is', i, rfl⟩
    · simp at h
    · exact ⟨is', i, by simp⟩
  rw [appendLast_snoc, List.map_append]
  rw [List.map_append] at h
  obtain ⟨h3, h4⟩ := List.append_inj' h rfl
  rw [h3]
  congr 1
  · apply List.map_congr_left
    intro e he
    have := List.mem_zipIdx (List.mem_filter.1 he).1
    rw [h2 e.2 (by omega)]
  · simp only [List.map_cons, List.map_nil, List.cons.injEq, Prod.mk.injEq, and_true] at h4 ⊢
    rw [Nat.add_comm 1] at h4 ⊢
    rw [h1, h4.2]
    exact ⟨h4.1, rfl⟩

theorem docs_other {p : Statement → Bool} {ds : List Statement} {s : Statement} {g g' : Nat → String} (hs : p s = false) (h2 : ∀ k, k ≠ ds.length + 1 → g' k = g k) :
    ((((ds ++ [s]).zipIdx 1).filter fun e => p e.1).map fun e => (e.1.name, g' e.2)) = (((ds ++ [s]).zipIdx 1).filter fun e => p e.1).map fun e => (e.1.name, g e.2) := by
  rw [List.zipIdx_append]
  simp only [List.zipIdx_singleton, List.filter_append, List.map_append, List.filter_cons, hs, List.filter_nil]
  congr 1
  apply List.map_congr_left
  intro e he
  have := List.mem_zipIdx (List.mem_filter.1 he).1
  rw [h2 e.2 (by omega)]

theorem isField_not_constant {s : Statement} (h : s.isConstant = true) : s.isField = false := by cases s <;> first | rfl | cases h

theorem Documented.comment {keep : List Statement → Bool} {ls : List Line} {d : SectionDocs} (h : Documented keep ls d) (c : String) :
    Documented keep (ls ++ [.comment c]) (if keep (statements ls) then place (declarations ls) c d else d) := by
  cases hk : keep (statements ls) with
  | false =>
    have e : doc keep (ls ++ [.comment c]) = doc keep ls := by funext k; rw [doc_comment, if_neg (by simp [hk])]
    exact ⟨by rw [e]; exact h.type, by rw [e, declarations_comment]; exact h.constants, by rw [e, declarations_comment]; exact h.members⟩
  | true =>
    have e1 : doc keep (ls ++ [.comment c]) (declarations ls).length = appendComment (doc keep ls (declarations ls).length) c := by
      rw [doc_comment, if_pos ⟨rfl, hk⟩]
    have e2 : ∀ k, k ≠ (declarations ls).length → doc keep (ls ++ [.comment c]) k = doc keep ls k := by
      intro k hk; rw [doc_comment, if_neg (by rintro ⟨h, _⟩; exact hk h.symm)]
    rw [if_pos rfl]
    have hc := h.constants
    have hm := h.members
    have ht := h.type
    refine ⟨?_, ?_, ?_⟩
    · rcases List.eq_nil_or_concat (declarations ls) with hd | ⟨ds, s, hd⟩
      · rw [hd] at e1 ⊢
        simp only [place, List.getLast?_nil]
        rw [ht]; exact e1.symm
      · rw [e2 0 (by rw [hd]; simp), ← ht, hd]
        simp only [place, List.concat_eq_append, List.getLast?_append, List.getLast?_singleton, Option.some_or]
        split <;> rfl
    · rw [declarations_comment]
      rcases List.eq_nil_or_concat (declarations ls) with hd | ⟨ds, s, hd⟩
      · rw [hd] at hc ⊢
        simpa [place] using hc
      · rw [List.concat_eq_append] at hd
        rw [hd] at hc e1 e2 ⊢
        simp only [List.length_append, List.length_singleton] at e1 e2
        cases hs : s.isConstant with
        | true => simpa [place, hs] using docs_last hc hs e1 e2
        | false => simpa [place, hs] using hc.trans (docs_other hs e2).symm
    · rw [declarations_comment]
      rcases List.eq_nil_or_concat (declarations ls) with hd | ⟨ds, s, hd⟩
      · rw [hd] at hm ⊢
        simpa [place] using hm
      · rw [List.concat_eq_append] at hd
        have hsd : s.declares = true := by
          have : s ∈ declarations ls := by rw [hd]; simp
          exact (List.mem_filter.1 this).2
        rw [hd] at hm e1 e2 ⊢
        simp only [List.length_append, List.length_singleton] at e1 e2
        cases hs : s.isConstant with
        | true => simpa [place, hs] using hm.trans (docs_other (isField_not_constant hs) e2).symm
        | false =>
          have hf : s.isField = true := by simpa [Statement.declares, hs] using hsd
          simpa [place, hs] using docs_last hm hf e1 e2

theorem place_names (ds : List Statement) (c : String) (d : SectionDocs) :
    (place ds c d).constants.map Item.name = d.constants.map Item.name ∧ (place ds c d).members.map Item.name = d.members.map Item.name ∧
    (place ds c d).constants.map Item.endOffset = d.constants.map Item.endOffset ∧ (place ds c d).members.map Item.endOffset = d.members.map Item.endOffset := by
  unfold place
  split
  · exact ⟨rfl, rfl, rfl, rfl⟩
  · split
    · exact ⟨(appendLast_names _ _).1, rfl, (appendLast_names _ _).2, rfl⟩
    · exact ⟨rfl, (appendLast_names _ _).1, rfl, (appendLast_names _ _).2⟩

/-- `Later` depends on the offsets only. -/
theorem Later.congr {ds : List Statement} {d d' : SectionDocs} (h : Later ds d) (h1 : d'.constants.map Item.endOffset = d.constants.map Item.endOffset)
    (h2 : d'.members.map Item.endOffset = d.members.map Item.endOffset) : Later ds d' := by
  have mem : ∀ {as bs : List Item}, as.map Item.endOffset = bs.map Item.endOffset → ∀ i ∈ as, ∃ j ∈ bs, j.endOffset = i.endOffset := by
    intro as bs h i hi
    have : i.endOffset ∈ bs.map Item.endOffset := by rw [← h]; exact List.mem_map_of_mem hi
    simpa using this
  have last : ∀ {as bs : List Item}, as.map Item.endOffset = bs.map Item.endOffset → ∀ i, bs.getLast? = some i → ∃ j, as.getLast? = some j ∧ j.endOffset = i.endOffset := by
    intro as bs h i hi
    have : (as.map Item.endOffset).getLast? = some i.endOffset := by rw [h, List.getLast?_map, hi]; rfl
    rw [List.getLast?_map] at this
    simpa [Option.map_eq_some_iff] using this
  unfold Later at h ⊢
  split at h
  · obtain ⟨h3, h4⟩ := h
    rw [h3] at h1
    rw [h4] at h2
    exact ⟨by simpa using h1, by simpa using h2⟩
  · split at h
    · next hc =>
      rw [if_pos hc]
      obtain ⟨k, h3, h4⟩ := h
      obtain ⟨k', h5, h6⟩ := last h1 k h3
      refine ⟨k', h5, fun m hm => ?_⟩
      obtain ⟨m', h7, h8⟩ := mem h2 m hm
      rw [h6, ← h8]; exact h4 m' h7
    · next hc =>
      rw [if_neg hc]
      obtain ⟨k, h3, h4⟩ := h
      obtain ⟨k', h5, h6⟩ := last h2 k h3
      refine ⟨k', h5, fun m hm => ?_⟩
      obtain ⟨m', h7, h8⟩ := mem h1 m hm
      rw [h6, ← h8]; exact h4 m' h7

theorem Inv.comment {r : Bool} {ls : List Line} {n : Nat} {f : FileState} {d : SectionDocs} (h : Inv r ls n f d) (c : String) :
    Inv r (ls ++ [.comment c]) (n + 1) f (d.handleComment f.state c) := by
  rw [handleComment_place h.shape h.later]
  have hd := h.documented.comment c
  have names : ∀ d', d' = (if kept r (statements ls) then place (declarations ls) c d else d) → d'.constants.map Item.name = d.constants.map Item.name ∧
      d'.members.map Item.name = d.members.map Item.name ∧ d'.constants.map Item.endOffset = d.constants.map Item.endOffset ∧
      d'.members.map Item.endOffset = d.members.map Item.endOffset := by
    rintro d' rfl
    split
    · exact place_names _ _ _
    · exact ⟨rfl, rfl, rfl, rfl⟩
  generalize hd' : (if kept r (statements ls) then place (declarations ls) c d else d) = d' at hd ⊢
  obtain ⟨h1, h2, h3, h4⟩ := names d' hd'.symm
  refine ⟨by rw [statements_comment]; exact h.shape, hd, fun i hi => ?_, by rw [declarations_comment]; exact h.later.congr h3 h4, h1.trans h.constantNames,
    h2.trans h.memberNames⟩
  rcases hi with hi | hi
  · have : i.endOffset ∈ d.constants.map Item.endOffset := by rw [← h3]; exact List.mem_map_of_mem hi
    obtain ⟨j, hj, e⟩ := List.mem_map.1 this
    have := h.bounded j (.inl hj)
    omega
  · have : i.endOffset ∈ d.members.map Item.endOffset := by rw [← h4]; exact List.mem_map_of_mem hi
    obtain ⟨j, hj, e⟩ := List.mem_map.1 this
    have := h.bounded j (.inr hj)
    omega

/-- The comments of a section after a statement other than `---`. -/
def SectionDocs.declare (offset : Nat) (s : Statement) (d : SectionDocs) : SectionDocs :=
  { d with
    constants := d.constants ++ (addsConstant s).map fun n => ⟨n, "", offset⟩
    members := d.members ++ (addsMember s).map fun n => ⟨n, "", offset⟩ }

theorem statement_declare {s : Statement} (hm : s.isMarker = false) (n : Nat) (d : FileDocs) : d.statement n s = { d with current := d.current.declare n s } := by
  cases s <;> first | (cases hm; done) | simp [FileDocs.statement, SectionDocs.declare, addsConstant, addsMember]

theorem Documented.statement {keep : List Statement → Bool} {ls : List Line} {d : SectionDocs} (h : Documented keep ls d) {s : Statement} (hm : s.isMarker = false) (n : Nat) :
    Documented keep (ls ++ [.statement s]) (d.declare n s) := by
  have e : doc keep (ls ++ [.statement s]) = doc keep ls := by funext k; exact doc_statement keep ls s k
  have hl := doc_later keep ls ((declarations ls).length + 1) (Nat.lt_succ_self _)
  refine ⟨by rw [e]; exact h.type, ?_, ?_⟩
  · rw [e, declarations_snoc, SectionDocs.declare, List.map_append, h.constants, List.zipIdx_append, List.filter_append, List.map_append]
    congr 1
    cases s <;> first | (cases hm; done) | simp [Statement.declares, Statement.isField, Statement.isConstant, addsConstant, Statement.name, Nat.add_comm 1, hl]
  · rw [e, declarations_snoc, SectionDocs.declare, List.map_append, h.members, List.zipIdx_append, List.filter_append, List.map_append]
    congr 1
    cases s <;> first | (cases hm; done) | simp [Statement.declares, Statement.isField, Statement.isConstant, addsMember, Statement.name, Nat.add_comm 1, hl]

theorem Inv.statement {r : Bool} {ls : List Line} {n : Nat} {d : SectionDocs} {s : Statement} {cx cx' : Cx P} (h : Inv r ls n cx.file d) (hr : s.run x lookup cx = .ok cx')
    (hm : s.isMarker = false) : Inv r (ls ++ [.statement s]) (n + 1) cx'.file (d.declare n s) := by
  have hs := run_stepped hr hm h.shape
  refine ⟨by rw [statements_snoc]; exact hs.shape, h.documented.statement hm n, ?_, ?_, ?_, ?_⟩
  · intro i hi
    simp only [SectionDocs.declare, List.mem_append, List.mem_map] at hi
    rcases hi with (hi | ⟨_, _, rfl⟩) | (hi | ⟨_, _, rfl⟩)
    · exact Nat.lt_succ_of_lt (h.bounded i (.inl hi))
    · exact Nat.lt_succ_self n
    · exact Nat.lt_succ_of_lt (h.bounded i (.inr hi))
    · exact Nat.lt_succ_self n
  · rw [declarations_snoc]
    cases s with
    | constant ty name e =>
      simp only [Later, SectionDocs.declare, Statement.declares, Statement.isConstant, addsConstant, addsMember]
      simpa using fun m hm => h.bounded m (.inr hm)
    | field ty name =>
      simp only [Later, SectionDocs.declare, Statement.declares, Statement.isField, addsConstant, addsMember]
      simpa [Statement.isConstant] using fun m hm => h.bounded m (.inl hm)
    | padding b =>
      simp only [Later, SectionDocs.declare, Statement.declares, Statement.isField, addsConstant, addsMember]
      simpa [Statement.isConstant] using fun m hm => h.bounded m (.inl hm)
    | directive name value => simpa [SectionDocs.declare, Statement.declares, Statement.isField, Statement.isConstant, addsConstant, addsMember] using h.later
    | responseMarker => cases hm
  · simp only [SectionDocs.declare, List.map_append, h.constantNames, hs.constants, List.map_map]
    congr 1
    exact List.map_id'' (fun _ => rfl) _
  · simp only [SectionDocs.declare, List.map_append, h.memberNames, hs.members, List.map_map]
    congr 1
    exact List.map_id'' (fun _ => rfl) _

/-! ### A file -/

/-- What holds in a file after the lines `ls`. -/
def FileInv (ls : List Line) (offset : Nat) (f : FileState) (d : FileDocs) : Prop :=
  (d.request = none ∧ Inv false ls offset f d.current) ∨
  ∃ a b d₀ m, ls = a ++ .statement .responseMarker :: b ∧ d.request = some d₀ ∧ f.state.request = some m ∧ Documented (kept false) a d₀ ∧ NamesOf d₀ m ∧
    Inv true b offset f d.current

theorem Inv.start (r : Bool) (n : Nat) {f : FileState} (h : ShapeOf r [] f.state) (h1 : f.constants = []) (h2 : f.state.part.members = []) : Inv r [] n f .empty where
  shape := h
  documented := ⟨rfl, rfl, rfl⟩
  bounded i hi := by simp [SectionDocs.empty] at hi
  later := ⟨rfl, rfl⟩
  constantNames := by rw [h1]; rfl
  memberNames := by rw [h2]; rfl

theorem Inv.names {r : Bool} {ls : List Line} {n : Nat} {f : FileState} {d : SectionDocs} (h : Inv r ls n f d) {m : CMessage}
    (hm : MakesMessage f.state.part f.constants f.deprecated m) : NamesOf d m := by
  refine ⟨?_, ?_⟩
  · rw [h.constantNames, hm.constants]
  · rw [h.memberNames, hm.members]
    apply List.map_congr_left
    intro a _
    cases a <;> rfl

theorem FileInv.line {ls : List Line} {n : Nat} {d : FileDocs} {s : Statement} {cx cx' : Cx P} (h : FileInv ls n cx.file d) (hr : s.run x lookup cx = .ok cx') :
    FileInv (ls ++ [.statement s]) (n + 1) cx'.file (d.statement n s) := by
  cases hm : s.isMarker with
  | false =>
    rw [statement_declare hm]
    rcases h with ⟨h1, h2⟩ | ⟨a, b, d₀, m, h1, h2, h3, h4, h5, h6⟩
    · exact .inl ⟨h1, h2.statement hr hm⟩
    · refine .inr ⟨a, b ++ [.statement s], d₀, m, by rw [h1]; simp, h2, ?_, h4, h5, h6.statement hr hm⟩
      rw [(run_stepped hr hm h6.shape).request]; exact h3
  | true =>
    obtain rfl : s = .responseMarker := by cases s <;> first | rfl | cases hm
    obtain ⟨f', h7, h8⟩ := bind_ok hr
    cases h8
    obtain ⟨m, h9, h10, h11⟩ := handleMarker_part h7
    rcases h with ⟨h1, h2⟩ | ⟨a, b, d₀, m', h1, h2, h3, h4, h5, h6⟩
    · refine .inr ⟨ls, [], d.current, m, rfl, rfl, by dsimp only; rw [h11]; rfl, h2.documented, h2.names h9, ?_⟩
      dsimp only
      rw [h11]
      exact Inv.start true _ (by simp [ShapeOf, Shape, usedOffset]) rfl rfl
    · rw [h3] at h10; cases h10

theorem runLines_inv : ∀ (rest : List Line) (ls : List Line) (n : Nat) (cx cx' : Cx P) (d d' : FileDocs), runLines x lookup n rest cx d = .ok (cx', d') →
    FileInv ls n cx.file d → ∃ n', FileInv (ls ++ rest) n' cx'.file d'
  | [], ls, n, cx, cx', d, d', h, hi => by cases h; exact ⟨n, by simpa using hi⟩
  | .statement s :: rest, ls, n, cx, cx', d, d', h, hi => by
    obtain ⟨cx1, h1, h2⟩ := bind_ok h
    have := runLines_inv rest _ _ cx1 cx' _ d' h2 (hi.line h1)
    simpa using this
  | .comment c :: rest, ls, n, cx, cx', d, d', h, hi => by
    have h2 : FileInv (ls ++ [.comment c]) (n + 1) cx.file { d with current := d.current.handleComment cx.file.state c } := by
      rcases hi with ⟨h1, h2⟩ | ⟨a, b, d₀, m, h1, h2, h3, h4, h5, h6⟩
      · exact .inl ⟨h1, h2.comment c⟩
      · exact .inr ⟨a, b ++ [.comment c], d₀, m, by rw [h1]; simp, h2, h3, h4, h5, h6.comment c⟩
    have := runLines_inv rest _ _ cx cx' _ d' h h2
    simpa using this

end Verif.Docs
