import Verif.Front.ExprProps
import Verif.Front.SolveProps

/-!
C81 for whole expressions: set literals, attributes, and what holds for all values.
-/

namespace Verif.Front

open Verif.Bls Verif.Dsdl

/-! ### What holds for the values of all expressions -/

/-- The crate's sort of sets gives back some of the sets it was given. -/
def SortsSets (x : Externals) : Prop := ∀ l l', x.sortSets l = some l' → ∀ s ∈ l', s ∈ l

/-- What holds for the constants of all files. -/
def Constants.Good (cs : Constants) : Prop := ∀ e ∈ cs, e.2.dsdlValue.Proper

/-- What holds for all compiled messages: the lengths were made by the functions for lengths, and the values of the constants are values. -/
def CMessage.Good (m : CMessage) : Prop := Reg m.bitLength ∧ m.constants.Good

/-- What holds for all compiled types. -/
def Compiled.Good (c : Compiled) : Prop :=
  match c.kind with
  | .message m => m.Good
  | .service a b => a.Good ∧ b.Good

/-- A lookup finds such types, and keeps some condition on the persistent state. -/
def GoodLookup {P : Type} (I : P → Prop) (lookup : Lookup P) : Prop := ∀ key p c p', I p → lookup key p = .ok (c, p') → c.Good ∧ I p'

/-- The lengths in the state of a union. -/
def UnionState.Good : UnionState → Prop
  | .collecting vs => ∀ v ∈ vs, Reg v.size
  | .usedOffset vs l => (∀ v ∈ vs, Reg v.size) ∧ Reg l
  | .ended _ _ l => Reg l

/-- The lengths in the state of a file. -/
def State.Good : State → Prop
  | .message => True
  | .messageStruct _ l => Reg l
  | .messageUnion u => u.Good
  | .response m => m.Good
  | .responseStruct m _ l => m.Good ∧ Reg l
  | .responseUnion m u => m.Good ∧ u.Good

/-- What holds while a file is compiled. -/
def Cx.Good {P : Type} (I : P → Prop) (cx : Cx P) : Prop := cx.file.state.Good ∧ cx.file.constants.Good ∧ I cx.persistent

theorem union_proper {b a : List Value} (ha : (Value.set a).Proper) (hb : ∀ x ∈ b, x.Proper) (ht : ∀ x ∈ a ++ b, ∀ y ∈ a ++ b, x.ty = y.ty) :
    (Value.set (ValueSet.union a b)).Proper := by
  induction b generalizing a with
  | nil => exact ha
  | cons x b ih =>
    have hmem : ∀ u ∈ ValueSet.insertValue x a ++ b, u ∈ a ++ x :: b := by
      intro u hu
      rcases List.mem_append.1 hu with hu | hu
      · rcases mem_insertValue hu with rfl | hu <;> simp [*]
      · simp [hu]
    exact ih (a := ValueSet.insertValue x a) (insertValue_proper ha (hb x (by simp)) fun y hy => ht y (by simp [hy]) x (by simp)) (fun u hu => hb u (by simp [hu]))
      fun u hu w hw => ht u (hmem u hu) w (hmem w hw)

theorem insert_proper {s s' : List Value} {v : Value} (hs : (Value.set s).Proper) (hv : v.Proper) (h : ValueSet.insert s v = some s') : (Value.set s').Proper := by
  have hty : ∀ {t}, ValueSet.ty s = some t → ∀ y ∈ s, y.ty = t := by
    intro t ht y hy
    obtain ⟨x, hx, rfl⟩ := ty_of_head ht
    exact (proper_set.1 hs).2.2 y hy x hx
  unfold ValueSet.insert at h
  split at h
  · next t ht =>
    split at h
    · next he =>
      cases h
      exact insertValue_proper hs hv fun y hy => (hty ht y hy).trans he
    · split at h
      · split at h
        · split at h
          · next hr =>
            cases h
            exact insertValue_proper hs trivial fun y hy => (hty ht y hy).trans hr
          · cases h
        · cases h
      · cases h
  · next ht =>
    cases h
    have := ty_none.1 ht
    subst this
    exact insertValue_proper hs hv fun y hy => by simp at hy

theorem numberOp_proper {x : Externals} {op : BinOp} {a b : ℚ} {v : Value} (h : numberOp x op a b = .ok v) : ∃ r, v = .rational r := by
  by_cases hop : op.Arithmetic
  · exact ((numberOp_iff hop).1 h).imp fun r h => h.1
  · cases op <;> first | (exact absurd trivial hop) | cases h

theorem mapSet_proper {f : ℚ → Outcome Value} (hf : ∀ q v, f q = .ok v → ∃ r, v = .rational r) {s : ValueSet} {R : Value} (h : mapSet f s = .ok R) : R.Proper := by
  unfold mapSet at h
  generalize hm : mapAll _ s = o at h
  cases o with
  | ok vs =>
    have hall : ∀ v ∈ vs, ∃ r, v = .rational r := by
      intro v hv
      obtain ⟨u, hu, h⟩ := forall₂_right (mapAll_ok.1 hm) hv
      split at h
      · exact hf _ _ h
      · cases h
    obtain ⟨rs, rfl⟩ := numbers_list hall
    obtain ⟨s', h1, h2, -⟩ := collect_rationals rs
    simp only [Outcome.bind, h1] at h
    cases h
    exact h2
  | error => cases h
  | panic => cases h

theorem rationalBinary_proper {f : ℚ → ℚ → Outcome Value} (hf : ∀ a b v, f a b = .ok v → v.Proper) {A B R : Value} (h : rationalBinary f A B = .ok R) : R.Proper := by
  by_cases hn : (∃ a, A.Number a) ∧ ∃ b, B.Number b
  · obtain ⟨⟨a, ha⟩, b, hb⟩ := hn
    rw [rationalBinary_number f ha hb] at h
    exact hf _ _ _ h
  · rw [rationalBinary_error f hn] at h
    cases h

theorem rational_proper {f : ℚ → ℚ → Outcome Value} (hf : ∀ a b v, f a b = .ok v → ∃ r, v = .rational r) (a b : ℚ) (v : Value) (h : f a b = .ok v) : v.Proper := by
  obtain ⟨r, rfl⟩ := hf a b v h
  trivial

theorem elementwise_proper {f : ℚ → ℚ → Outcome Value} (hf : ∀ a b v, f a b = .ok v → ∃ r, v = .rational r) {A B R : Value} (h : elementwiseBinary f A B = .ok R) : R.Proper := by
  unfold elementwiseBinary at h
  split at h
  · split at h
    · exact mapSet_proper (fun q v h => hf _ _ _ h) h
    · cases h
  · split at h
    · exact mapSet_proper (fun q v h => hf _ _ _ h) h
    · cases h
  · exact rationalBinary_proper (rational_proper hf) h

theorem comparison_proper {f : ℚ → ℚ → Bool} {g : ValueSet → ValueSet → Bool} {A B R : Value} (h : rationalOrSetComparison f g A B = .ok R) : R.Proper := by
  unfold rationalOrSetComparison at h
  split at h
  · split at h
    · cases h; trivial
    · cases h
  · exact rationalBinary_proper (fun a b v h => by cases h; trivial) h

theorem equal_proper {neg : Bool} {A B R : Value} (h : equalValues neg A B = .ok R) : R.Proper := by
  unfold equalValues at h
  split at h
  · cases h; trivial
  · cases h; trivial
  · exact comparison_proper h

theorem ofNats_sorted {ns : List Nat} (h : ns.Pairwise (· < ·)) : (Value.set (ValueSet.ofNats ns)).Proper := (ofNats_proper h).1

theorem orSet_proper {f : ℚ → ℚ → Outcome Value} {g : ValueSet → ValueSet → ValueSet} {k : BitLengthSet → BitLengthSet → Value} {A B R : Value}
    (hf : ∀ a b v, f a b = .ok v → ∃ r, v = .rational r) (hA : A.Proper) (hB : B.Proper)
    (hg : ∀ a b, A = .set a → B = .set b → Compatible A B → (Value.set (g a b)).Proper) (hk : ∀ a b, Reg a → Reg b → (k a b).Proper)
    (h : rationalOrSetBinary f g k A B = .ok R) : R.Proper := by
  unfold rationalOrSetBinary at h
  split at h
  · split at h
    · next hc => cases h; exact hg _ _ rfl rfl ((compatible_iff hA hB).1 hc)
    · cases h
  · cases h; exact hk _ _ hA hB
  · exact rationalBinary_proper (rational_proper hf) h

theorem rem_reg {l : BitLengthSet} (h : Reg l) {d : Nat} (hd : 0 < d) : Reg (l.rem d) := by
  obtain ⟨⟨L, hL⟩, -⟩ := h
  refine ⟨⟨_, (C49_remainders_valid hL hd).2.2⟩, fun a ha => ?_⟩
  cases ha

theorem binary_proper {x : Externals} {op : BinOp} {A B R : Value} (hA : A.Proper) (hB : B.Proper) (h : evalBinary x op A B = .ok R) : R.Proper := by
  have num : ∀ op a b v, numberOp x op a b = .ok v → ∃ r, v = .rational r := fun op a b v h => numberOp_proper h
  have hset : ∀ {a b : List Value}, A = .set a → B = .set b → Compatible A B → (∀ c d : List Value, (∀ u ∈ c, u ∈ a) → (∀ u ∈ d, u ∈ b) → ∀ u ∈ c ++ d, ∀ w ∈ c ++ d, u.ty = w.ty) := by
    rintro a b rfl rfl hc c d h1 h2 u hu w hw
    rcases List.mem_append.1 hu with hu | hu <;> rcases List.mem_append.1 hw with hw | hw
    · exact (proper_set.1 hA).2.2 u (h1 u hu) w (h1 w hw)
    · exact hc u (h1 u hu) w (h2 w hw)
    · exact (hc w (h1 w hw) u (h2 u hu)).symm
    · exact (proper_set.1 hB).2.2 u (h2 u hu) w (h2 w hw)
  cases op with
  | exponent => exact elementwise_proper (num .exponent) h
  | multiply => exact elementwise_proper (num .multiply) h
  | divide => exact elementwise_proper (num .divide) h
  | subtract => exact elementwise_proper (num .subtract) h
  | modulo =>
    replace h : moduloValues A B = .ok R := h
    unfold moduloValues at h
    split at h
    · split at h
      · next q hu =>
        split at h
        · cases h
        · next hne =>
          cases h
          refine rem_reg hA ?_
          simp only [isU64, Bool.and_eq_true, decide_eq_true_eq] at hu
          omega
      · exact elementwise_proper (num .modulo) h
    · exact elementwise_proper (num .modulo) h
  | add =>
    replace h : addValues x A B = .ok R := h
    unfold addValues at h
    split at h
    · cases h; trivial
    · exact elementwise_proper (num .add) h
  | bitOr =>
    refine orSet_proper (k := fun a b => .lengths (a.unite [b])) (num .bitOr) hA hB (fun a b ea eb hc => ?_) (fun a b ha hb => ha.unite hb) h
    have ht := hset ea eb hc
    subst ea eb
    exact union_proper hA (proper_set.1 hB).1 (ht _ _ (fun u h => h) fun u h => h)
  | bitAnd =>
    refine orSet_proper (num .bitAnd) hA hB (fun a b ea eb hc => ?_) (fun a b ha hb => ?_) h
    · subst ea eb; exact filter_proper hA _
    · exact ofNats_sorted ((expand_pairwise ha).filter _)
  | bitXor =>
    refine orSet_proper (num .bitXor) hA hB (fun a b ea eb hc => ?_) (fun a b ha hb => ?_) h
    · have ht := hset ea eb hc
      subst ea eb
      have hf : ∀ {c : List Value} (p : Value → Bool), ∀ u ∈ c.filter p, u ∈ c := fun p u hu => (List.mem_filter.1 hu).1
      exact union_proper (filter_proper hA _) (proper_set.1 (filter_proper hB _)).1 (ht _ _ (hf _) (hf _))
    · exact ofNats_sorted (sorted_collectSet _)
  | equal => exact equal_proper h
  | notEqual => exact equal_proper h
  | lessOrEqual => exact comparison_proper h
  | greaterOrEqual => exact comparison_proper h
  | less => exact comparison_proper h
  | greater => exact comparison_proper h
  | logicalOr =>
    cases A <;> cases B <;> cases h
    trivial
  | logicalAnd =>
    cases A <;> cases B <;> cases h
    trivial

theorem mem_endOf {α : Type} {last : Bool} {l : List α} {a : α} (h : endOf last l = some a) : a ∈ l := by
  unfold endOf at h
  split at h
  · exact List.mem_of_getLast? h
  · exact List.mem_of_head? h

theorem innerSets_proper {s : ValueSet} {l : List ValueSet} (hs : ∀ u ∈ s, u.Proper) (h : innerSets s = some l) : ∀ i ∈ l, (Value.set i).Proper := by
  induction s generalizing l with
  | nil => cases h; simp
  | cons u s ih =>
    have hrest := fun w hw => hs w (List.mem_cons_of_mem _ hw)
    cases u with
    | set xs =>
      simp only [innerSets, Option.map_eq_some_iff] at h
      obtain ⟨l', h', rfl⟩ := h
      intro i hi
      rcases List.mem_cons.1 hi with rfl | hi
      · exact hs _ (by simp)
      · exact ih hrest h' i hi
    | lengths len =>
      simp only [innerSets, Option.map_eq_some_iff] at h
      obtain ⟨l', h', rfl⟩ := h
      intro i hi
      rcases List.mem_cons.1 hi with rfl | hi
      · exact ofNats_sorted (expand_pairwise (hs (.lengths len) (by simp)))
      · exact ih hrest h' i hi
    | _ => simp [innerSets] at h

theorem attribute_proper {x : Externals} (hx : SortsSets x) {s : ValueSet} (hs : (Value.set s).Proper) {name : String} {v : Value} (h : setAttribute x s name = .ok v) : v.Proper := by
  have ext : ∀ last, extremeValue x last s = .ok v → v.Proper := by
    intro last h
    have sets : ∀ {o}, (match (innerSets s).bind x.sortSets with
        | some sorted => match endOf last sorted with
          | some v => Outcome.ok (Value.set v)
          | none => .panic
        | none => .panic) = o → o = .ok v → v.Proper := by
      intro o ho h
      subst ho
      split at h
      · next sorted hsort =>
        split at h
        · next w hw =>
          cases h
          obtain ⟨l, hl, hl'⟩ := Option.bind_eq_some_iff.1 hsort
          exact innerSets_proper (proper_set.1 hs).1 hl _ (hx _ _ hl' _ (mem_endOf hw))
        · cases h
      · cases h
    unfold extremeValue at h
    split at h
    · cases he : endOf last s with
      | none => rw [he] at h; cases h
      | some w =>
        rw [he] at h
        cases h
        exact (proper_set.1 hs).1 _ (mem_endOf he)
    · exact sets rfl h
    · exact sets rfl h
    · split at h
      · next ns _ =>
        cases he : endOf last (sortNats ns) with
        | none => rw [he] at h; cases h
        | some n => rw [he] at h; cases h; trivial
      · cases h
    · cases h
  unfold setAttribute at h
  split at h
  · exact ext _ h
  · exact ext _ h
  · cases h; trivial
  · cases h

theorem lengths_proper {l : BitLengthSet} {name : String} {v : Value} (h : lengthsAttribute l name = .ok v) : v.Proper := by
  unfold lengthsAttribute at h
  split at h <;> cases h <;> trivial

theorem unionBitLength_reg {vs : List CVariant} (h : ∀ v ∈ vs, Reg v.size) : Reg (unionBitLength vs) := by
  refine Reg.concat (.single _) (Reg.reduceUnite fun y hy => ?_)
  obtain ⟨v, hv, rfl⟩ := List.mem_map.1 hy
  exact h v hv

theorem useOffset_good {s : State} (h : s.Good) : s.useOffset.Good ∧ Reg s.useOffset.offset := by
  cases s with
  | message => exact ⟨trivial, .single 0⟩
  | messageStruct st l => exact ⟨h, h⟩
  | response m => exact ⟨h, .single 0⟩
  | responseStruct m st l => exact ⟨h, h.2⟩
  | messageUnion u =>
    cases u with
    | collecting vs => exact ⟨⟨h, unionBitLength_reg h⟩, unionBitLength_reg h⟩
    | usedOffset vs l => exact ⟨h, h.2⟩
    | ended vs e l => exact ⟨h, h⟩
  | responseUnion m u =>
    cases u with
    | collecting vs => exact ⟨⟨h.1, h.2, unionBitLength_reg h.2⟩, unionBitLength_reg h.2⟩
    | usedOffset vs l => exact ⟨h, h.2.2⟩
    | ended vs e l => exact ⟨h, h.2⟩

theorem get_good {cs : Constants} (h : cs.Good) {name : String} {c : Constant} (hc : cs.get name = some c) : c.dsdlValue.Proper := by
  unfold Constants.get at hc
  obtain ⟨e, he, rfl⟩ := Option.map_eq_some_iff.1 hc
  exact h e (List.mem_of_find?_eq_some he)

section

variable {P : Type} {I : P → Prop} {lookup : Lookup P} (hl : GoodLookup I lookup)

include hl

theorem typeByKey_good {key : TypeKey} {cx cx' : Cx P} {r : TypeKey × Compiled} (hcx : cx.Good I) (h : typeByKey lookup key cx = .ok (r, cx')) : r.2.Good ∧ cx'.Good I := by
  unfold typeByKey at h
  obtain ⟨⟨c, p⟩, h1, h2⟩ := Outcome.bind_ok h
  cases h2
  obtain ⟨h3, h4⟩ := hl _ _ _ _ hcx.2.2 h1
  exact ⟨h3, hcx.1, hcx.2.1, h4⟩

theorem scalarLengths_good {s : ScalarTy} {cx cx' : Cx P} {l : BitLengthSet} (hcx : cx.Good I) (h : s.bitLengthSet lookup cx = .ok (l, cx')) : Reg l ∧ cx'.Good I := by
  cases s with
  | versioned key =>
    obtain ⟨⟨r, cx1⟩, h1, h2⟩ := Outcome.bind_ok h
    obtain ⟨h3, h4⟩ := typeByKey_good hl hcx h1
    unfold Compiled.Good at h3
    dsimp only at h2
    cases hk : r.2.kind with
    | message m => rw [hk] at h2 h3; cases h2; exact ⟨h3.1, h4⟩
    | service a b => rw [hk] at h2; cases h2
  | prim p => cases h; exact ⟨.single _, hcx⟩
  | void b => cases h; exact ⟨.single _, hcx⟩

theorem typeLengths_good {t : Ty} {cx cx' : Cx P} {l : BitLengthSet} (hcx : cx.Good I) (h : t.bitLengthSet lookup cx = .ok (l, cx')) : Reg l ∧ cx'.Good I := by
  cases t with
  | scalar s => exact scalarLengths_good hl hcx h
  | fixedArray s n =>
    obtain ⟨⟨r, cx1⟩, h1, h2⟩ := Outcome.bind_ok h
    cases h2
    obtain ⟨h3, h4⟩ := scalarLengths_good hl hcx h1
    exact ⟨h3.repeated n, h4⟩
  | variableArray s n =>
    obtain ⟨⟨r, cx1⟩, h1, h2⟩ := Outcome.bind_ok h
    cases h2
    obtain ⟨h3, h4⟩ := scalarLengths_good hl hcx h1
    exact ⟨h3.ranged n, h4⟩

theorem typeAttribute_good {t : Ty} {name : String} {cx cx' : Cx P} {v : Value} (hcx : cx.Good I) (h : typeAttribute lookup t name cx = .ok (v, cx')) : v.Proper ∧ cx'.Good I := by
  unfold typeAttribute at h
  split at h
  · obtain ⟨⟨r, cx1⟩, h1, h2⟩ := Outcome.bind_ok h
    cases h2
    exact typeLengths_good hl hcx h1
  · split at h
    · obtain ⟨⟨r, cx1⟩, h1, h2⟩ := Outcome.bind_ok h
      obtain ⟨h3, h4⟩ := typeByKey_good hl hcx h1
      unfold Compiled.Good at h3
      dsimp only at h2
      cases hk : r.2.kind with
      | message m =>
        rw [hk] at h2 h3
        dsimp only at h2
        cases hg : m.constants.get name with
        | some c => rw [hg] at h2; cases h2; exact ⟨get_good h3.2 hg, h4⟩
        | none => rw [hg] at h2; cases h2
      | service a b => rw [hk] at h2; cases h2
    · cases h

theorem evalAttribute_good {x : Externals} (hx : SortsSets x) {u : Value} {name : String} {cx cx' : Cx P} {v : Value} (hu : u.Proper) (hcx : cx.Good I)
    (h : evalAttribute x lookup u name cx = .ok (v, cx')) : v.Proper ∧ cx'.Good I := by
  unfold evalAttribute at h
  split at h
  · obtain ⟨w, h1, h2⟩ := Outcome.bind_ok h
    cases h2
    exact ⟨attribute_proper hx hu h1, hcx⟩
  · obtain ⟨w, h1, h2⟩ := Outcome.bind_ok h
    cases h2
    exact ⟨lengths_proper h1, hcx⟩
  · exact typeAttribute_good hl hcx h
  · cases h

omit hl in
theorem identifier_good {name : String} {cx cx' : Cx P} {v : Value} (hcx : cx.Good I) (h : evalIdentifier name cx = .ok (v, cx')) : v.Proper ∧ cx'.Good I := by
  unfold evalIdentifier at h
  split at h
  · cases h
    obtain ⟨h1, h2⟩ := useOffset_good hcx.1
    exact ⟨h2, h1, hcx.2⟩
  · split at h
    · next c hc => cases h; exact ⟨get_good hcx.2.1 hc, hcx⟩
    · cases h

omit hl in
theorem unary_proper {op : UnOp} {u v : Value} (h : evalUnary op u = .ok v) : v.Proper := by
  unfold evalUnary at h
  split at h <;> cases h <;> trivial

mutual
theorem eval_good {x : Externals} (hx : SortsSets x) : ∀ (e : Expr) {cx cx' : Cx P} {v : Value}, cx.Good I → e.eval x lookup cx = .ok (v, cx') → v.Proper ∧ cx'.Good I
  | .parenthesized e, cx, cx', v, hcx, h => by rw [Expr.eval] at h; exact eval_good hx e hcx h
  | .scalarType s, cx, cx', v, hcx, h => by rw [Expr.eval] at h; cases h; exact ⟨trivial, hcx⟩
  | .arrayType s kind length, cx, cx', v, hcx, h => by
    rw [Expr.eval] at h
    obtain ⟨⟨r, cx1⟩, h1, h2⟩ := Outcome.bind_ok h
    obtain ⟨n, -, h3⟩ := Outcome.bind_ok h2
    obtain ⟨t, -, h4⟩ := Outcome.bind_ok h3
    cases h4
    exact ⟨trivial, (eval_good hx length hcx h1).2⟩
  | .set es, cx, cx', v, hcx, h => by
    rw [Expr.eval] at h
    obtain ⟨⟨r, cx1⟩, h1, h2⟩ := Outcome.bind_ok h
    cases h2
    exact evalSet_good hx es (proper_set.2 (by simp)) hcx h1
  | .number q, cx, cx', v, hcx, h => by rw [Expr.eval] at h; cases h; exact ⟨trivial, hcx⟩
  | .string s, cx, cx', v, hcx, h => by rw [Expr.eval] at h; cases h; exact ⟨trivial, hcx⟩
  | .boolean b, cx, cx', v, hcx, h => by rw [Expr.eval] at h; cases h; exact ⟨trivial, hcx⟩
  | .identifier name, cx, cx', v, hcx, h => by rw [Expr.eval] at h; exact identifier_good hcx h
  | .unary op e, cx, cx', v, hcx, h => by
    rw [Expr.eval] at h
    obtain ⟨⟨r, cx1⟩, h1, h2⟩ := Outcome.bind_ok h
    obtain ⟨w, h3, h4⟩ := Outcome.bind_ok h2
    cases h4
    exact ⟨unary_proper h3, (eval_good hx e hcx h1).2⟩
  | .binary op a b, cx, cx', v, hcx, h => by
    rw [Expr.eval] at h
    obtain ⟨⟨u, cx1⟩, h1, h2⟩ := Outcome.bind_ok h
    obtain ⟨⟨w, cx2⟩, h3, h4⟩ := Outcome.bind_ok h2
    obtain ⟨r, h5, h6⟩ := Outcome.bind_ok h4
    cases h6
    obtain ⟨p1, g1⟩ := eval_good hx a hcx h1
    obtain ⟨p2, g2⟩ := eval_good hx b g1 h3
    exact ⟨binary_proper p1 p2 h5, g2⟩
  | .attribute e name, cx, cx', v, hcx, h => by
    rw [Expr.eval] at h
    obtain ⟨⟨u, cx1⟩, h1, h2⟩ := Outcome.bind_ok h
    obtain ⟨p1, g1⟩ := eval_good hx e hcx h1
    exact evalAttribute_good hl hx p1 g1 h2
theorem evalSet_good {x : Externals} (hx : SortsSets x) : ∀ (es : List Expr) {s s' : ValueSet} {cx cx' : Cx P}, (Value.set s).Proper → cx.Good I →
    Expr.evalSet x lookup es s cx = .ok (s', cx') → (Value.set s').Proper ∧ cx'.Good I
  | [], s, s', cx, cx', hs, hcx, h => by rw [Expr.evalSet] at h; cases h; exact ⟨hs, hcx⟩
  | e :: es, s, s', cx, cx', hs, hcx, h => by
    rw [Expr.evalSet] at h
    obtain ⟨⟨u, cx1⟩, h1, h2⟩ := Outcome.bind_ok h
    obtain ⟨p1, g1⟩ := eval_good hx e hcx h1
    dsimp only at h2
    cases hi : ValueSet.insert s u with
    | some s1 => rw [hi] at h2; exact evalSet_good hx es (insert_proper hs p1 hi) g1 h2
    | none => rw [hi] at h2; cases h2
end

theorem convertType_good {x : Externals} (hx : SortsSets x) {t : TypeAst} {cx cx' : Cx P} {r : Ty} (hcx : cx.Good I) (h : convertType x lookup t cx = .ok (r, cx')) : cx'.Good I := by
  cases t with
  | scalar s => cases h; exact hcx
  | array s kind length =>
    obtain ⟨⟨u, cx1⟩, h1, h2⟩ := Outcome.bind_ok h
    obtain ⟨n, -, h3⟩ := Outcome.bind_ok h2
    obtain ⟨t, -, h4⟩ := Outcome.bind_ok h3
    cases h4
    exact (eval_good hl hx length hcx h1).2

theorem resolve_good {t : Ty} {cx cx' : Cx P} {r : RScalar × Arity} (hcx : cx.Good I) (h : t.resolve lookup cx = .ok (r, cx')) : Reg r.1.size ∧ cx'.Good I := by
  have scalar : ∀ {s : ScalarTy} {q : RScalar}, s.resolve lookup cx = .ok (q, cx') → Reg q.size ∧ cx'.Good I := by
    intro s q h
    cases s with
    | versioned key =>
      obtain ⟨⟨r, cx1⟩, h1, h2⟩ := Outcome.bind_ok h
      obtain ⟨h3, h4⟩ := typeByKey_good hl hcx h1
      unfold Compiled.Good at h3
      dsimp only at h2
      cases hk : r.2.kind with
      | message m => rw [hk] at h2 h3; cases h2; exact ⟨h3.1, h4⟩
      | service a b => rw [hk] at h2; cases h2
    | prim p => cases h; exact ⟨.single _, hcx⟩
    | void b => cases h; exact ⟨.single _, hcx⟩
  cases t with
  | scalar s => obtain ⟨⟨q, cx1⟩, h1, h2⟩ := Outcome.bind_ok h; cases h2; exact scalar h1
  | fixedArray s n => obtain ⟨⟨q, cx1⟩, h1, h2⟩ := Outcome.bind_ok h; cases h2; exact scalar h1
  | variableArray s n => obtain ⟨⟨q, cx1⟩, h1, h2⟩ := Outcome.bind_ok h; cases h2; exact scalar h1

end

/-! ### Statements -/

theorem insert_good {cs : Constants} (h : cs.Good) {name : String} {c : Constant} (hc : c.dsdlValue.Proper) : (cs.insert name c).Good := by
  induction cs with
  | nil =>
    intro e he
    simp only [Constants.insert, List.mem_singleton] at he
    subst he
    exact hc
  | cons e es ih =>
    intro e' he'
    unfold Constants.insert at he'
    split at he'
    · rcases List.mem_cons.1 he' with rfl | he'
      · exact hc
      · exact h e' (by simp [he'])
    · rcases List.mem_cons.1 he' with rfl | he'
      · exact h _ (by simp)
      · exact ih (fun u hu => h u (by simp [hu])) e' he'

theorem alignment_pow (s : RScalar) : ∃ k, s.alignment = 2 ^ k := by
  cases s with
  | composite key m => exact ⟨3, rfl⟩
  | _ => exact ⟨0, rfl⟩

theorem totalLength_reg {s : RScalar} (h : Reg s.size) (a : Arity) : Reg (totalLength s a) := by
  unfold totalLength sizeOfType
  split
  · exact (h.aritySize a).concat (.single _)
  · exact h.aritySize a

theorem updateStructLength_reg {s : RScalar} (h : Reg s.size) (a : Arity) {l : BitLengthSet} (hl : Reg l) : Reg (updateStructLength s a l) :=
  ((hl.pad (alignment_pow s)).concat (totalLength_reg h a)).pad (alignment_pow s)

theorem addPadding_good {bits : Nat} {s s' : State} (h : s.Good) (he : s.addPadding bits = .ok s') : s'.Good := by
  unfold State.addPadding at he
  split at he <;> cases he
  · exact Reg.single _
  · exact Reg.concat h (.single _)
  · exact ⟨h, .single _⟩
  · exact ⟨h.1, h.2.concat (.single _)⟩

theorem pushField_reg {s : RScalar} (h : Reg s.size) {a : Arity} {name : String} {fields : List CField} {l : BitLengthSet} (hl : Reg l) {r : List CField × BitLengthSet}
    (he : pushField s a name fields l = some r) : Reg r.2 := by
  unfold pushField at he
  split at he
  · cases he
  · cases he; exact updateStructLength_reg h a hl

theorem pushVariant_reg {s : RScalar} (h : Reg s.size) {a : Arity} {name : String} {vs r : List CVariant} (hl : ∀ v ∈ vs, Reg v.size)
    (he : pushVariant s a name vs = some r) : ∀ v ∈ r, Reg v.size := by
  unfold pushVariant at he
  split at he
  · cases he
  · cases he
    intro v hv
    rcases List.mem_append.1 hv with hv | hv
    · exact hl v hv
    · rw [List.mem_singleton] at hv
      subst hv
      exact h.aritySize a

theorem addField_good {r : RScalar} (hr : Reg r.size) {a : Arity} {name : String} {s s' : State} (h : s.Good) (he : s.addField r a name = .ok s') : s'.Good := by
  unfold State.addField at he
  split at he
  · cases he; exact updateStructLength_reg hr a (.single 0)
  · cases he; exact ⟨h, updateStructLength_reg hr a (.single 0)⟩
  · obtain ⟨q, h1, h2⟩ := Outcome.bind_ok he; cases h2; exact pushField_reg hr h (Outcome.ofOption_ok h1)
  · obtain ⟨q, h1, h2⟩ := Outcome.bind_ok he; cases h2; exact ⟨h.1, pushField_reg hr h.2 (Outcome.ofOption_ok h1)⟩
  · obtain ⟨q, h1, h2⟩ := Outcome.bind_ok he; cases h2; exact pushVariant_reg hr h (Outcome.ofOption_ok h1)
  · obtain ⟨q, h1, h2⟩ := Outcome.bind_ok he; cases h2; exact ⟨h.1, pushVariant_reg hr h.2 (Outcome.ofOption_ok h1)⟩
  · cases he

theorem unionFinish_good {e : Option Nat} {u u' : UnionState} (h : u.Good) (he : u.finish e = .ok u') : u'.Good := by
  unfold UnionState.finish at he
  split at he
  · cases he
  · split at he
    · cases he; exact unionBitLength_reg h
    · cases he
  · split at he
    · cases he; exact h.2
    · cases he

theorem finish_good {e : Option Nat} {s s' : State} (h : s.Good) (he : s.finish e = .ok s') : s'.Good := by
  unfold State.finish at he
  split at he
  · cases he; exact Reg.single 0
  · cases he; exact ⟨h, .single 0⟩
  · obtain ⟨q, h1, h2⟩ := Outcome.bind_ok he; cases h2; exact h
  · obtain ⟨q, h1, h2⟩ := Outcome.bind_ok he; cases h2; exact h
  · obtain ⟨q, h1, h2⟩ := Outcome.bind_ok he; cases h2; exact unionFinish_good h h1
  · obtain ⟨q, h1, h2⟩ := Outcome.bind_ok he; cases h2; exact ⟨h.1, unionFinish_good h.2 h1⟩

theorem handleUnion_good {s s' : State} (h : s.Good) (he : s.handleUnion = .ok s') : s'.Good := by
  unfold State.handleUnion at he
  split at he <;> cases he
  · intro v hv; simp at hv
  · exact ⟨h, fun v hv => by simp at hv⟩

theorem withState_good {P : Type} {I : P → Prop} {cx cx' : Cx P} {s : Outcome State} (hcx : cx.Good I) (hs : ∀ s', s = .ok s' → s'.Good) (h : cx.withState s = .ok cx') :
    cx'.Good I := by
  unfold Cx.withState at h
  obtain ⟨q, h1, h2⟩ := Outcome.bind_ok h
  cases h2
  exact ⟨hs q h1, hcx.2⟩

theorem run_good {P : Type} {I : P → Prop} {lookup : Lookup P} (hl : GoodLookup I lookup) {x : Externals} (hx : SortsSets x) {s : Statement} {cx cx' : Cx P} (hcx : cx.Good I)
    (h : s.run x lookup cx = .ok cx') : cx'.Good I := by
  cases s with
  | directive name value =>
    replace h : evalDirective x lookup name value cx = .ok cx' := h
    unfold evalDirective at h
    split at h
    · exact withState_good hcx (fun s' hs => handleUnion_good hcx.1 hs) h
    · obtain ⟨⟨v, cx1⟩, h1, h2⟩ := Outcome.bind_ok h
      obtain ⟨n, -, h3⟩ := Outcome.bind_ok h2
      have g := (eval_good hl hx _ hcx h1).2
      exact withState_good g (fun s' hs => finish_good g.1 hs) h3
    · exact withState_good hcx (fun s' hs => finish_good hcx.1 hs) h
    · obtain ⟨f, h1, h2⟩ := Outcome.bind_ok h
      cases h2
      unfold FileState.handleDeprecated at h1
      split at h1
      · cases h1
      · split at h1
        · cases h1; exact hcx
        · split at h1
          · cases h1; exact hcx
          · cases h1
        · cases h1
    · obtain ⟨⟨v, cx1⟩, h1, h2⟩ := Outcome.bind_ok h
      have g := (eval_good hl hx _ hcx h1).2
      dsimp only at h2
      split at h2
      · cases h2; exact g
      · cases h2
    · obtain ⟨⟨v, cx1⟩, h1, h2⟩ := Outcome.bind_ok h
      cases h2
      exact (eval_good hl hx _ hcx h1).2
    · cases h; exact hcx
    · cases h
  | constant ty name value =>
    unfold Statement.run at h
    dsimp only at h
    split at h
    · cases h
    · obtain ⟨⟨c, cx1⟩, h1, h2⟩ := Outcome.bind_ok h
      cases h2
      unfold evalConstant at h1
      split at h1
      · cases h1
      · obtain ⟨⟨v, cx2⟩, h3, h4⟩ := Outcome.bind_ok h1
        obtain ⟨k, -, h5⟩ := Outcome.bind_ok h4
        cases h5
        obtain ⟨p, g⟩ := eval_good hl hx _ hcx h3
        exact ⟨g.1, insert_good g.2.1 p, g.2.2⟩
  | field ty name =>
    obtain ⟨⟨t, cx1⟩, h1, h2⟩ := Outcome.bind_ok h
    obtain ⟨⟨r, cx2⟩, h3, h4⟩ := Outcome.bind_ok h2
    have g1 := convertType_good hl hx hcx h1
    obtain ⟨hr, g2⟩ := resolve_good hl g1 h3
    dsimp only at h4
    split at h4
    · cases h4
    · exact withState_good g2 (fun s' hs => addField_good hr g2.1 hs) h4
  | padding bits => exact withState_good hcx (fun s' hs => addPadding_good hcx.1 hs) h
  | responseMarker =>
    obtain ⟨f, h1, h2⟩ := Outcome.bind_ok h
    cases h2
    unfold FileState.handleMarker at h1
    have hg := hcx.1
    split at h1
    · next hs => cases h1; rw [hs] at hg; exact ⟨⟨hg, hcx.2.1⟩, fun e he => by simp at he, hcx.2.2⟩
    · next hs => cases h1; rw [hs] at hg; exact ⟨⟨hg, hcx.2.1⟩, fun e he => by simp at he, hcx.2.2⟩
    · cases h1

theorem runAll_good {P : Type} {I : P → Prop} {lookup : Lookup P} (hl : GoodLookup I lookup) {x : Externals} (hx : SortsSets x) {ss : List Statement} {cx cx' : Cx P} (hcx : cx.Good I)
    (h : runAll x lookup ss cx = .ok cx') : cx'.Good I := by
  induction ss generalizing cx with
  | nil => cases h; exact hcx
  | cons s ss ih =>
    obtain ⟨cx1, h1, h2⟩ := Outcome.bind_ok h
    exact ih (run_good hl hx hcx h1) h2

theorem fileFinish_good {f : FileState} (h : f.state.Good) (hc : f.constants.Good) {port : Option Nat} {c : Compiled} (he : f.finish port = .ok c) : c.Good := by
  unfold FileState.finish at he
  split at he
  · next hs => cases he; rw [hs] at h; exact ⟨Reg.pad h pow_eight, hc⟩
  · next hs => cases he; rw [hs] at h; exact ⟨h.1, Reg.pad h.2 pow_eight, hc⟩
  · next hs => cases he; rw [hs] at h; exact ⟨Reg.pad h pow_eight, hc⟩
  · next hs => cases he; rw [hs] at h; exact ⟨h.1, Reg.pad h.2 pow_eight, hc⟩
  · cases he

theorem new_good {P : Type} {I : P → Prop} {path : List String} {p : P} (hp : I p) : (Cx.mk (FileState.new path) p).Good I :=
  ⟨trivial, fun e he => by simp [FileState.new] at he, hp⟩

theorem compileFile_good {P : Type} {I : P → Prop} {lookup : Lookup P} (hl : GoodLookup I lookup) {x : Externals} (hx : SortsSets x) {key : TypeKey} {file : File} {p p' : P} {c : Compiled}
    (hp : I p) (h : compileFile x lookup key file p = .ok (c, p')) : c.Good ∧ I p' := by
  unfold compileFile at h
  split at h
  · obtain ⟨cx, h1, h2⟩ := Outcome.bind_ok h
    obtain ⟨d, h3, h4⟩ := Outcome.bind_ok h2
    cases h4
    have g := runAll_good hl hx (new_good hp) h1
    exact ⟨fileFinish_good g.1 g.2.1 h3, g.2.2⟩
  · cases h

theorem table_good : GoodLookup (fun known : List (TypeKey × Compiled) => ∀ e ∈ known, e.2.Good) table := by
  intro key p c p' hp h
  obtain ⟨rfl, hm⟩ := table_ok h
  exact ⟨hp _ hm, hp⟩

theorem inOrder_good {x : Externals} (hx : SortsSets x) {files : List (TypeKey × File)} {types : List (TypeKey × Compiled)} (h : InOrder x files types) : ∀ e ∈ types, e.2.Good := by
  have hpre : ∀ before after, types = before ++ after → ∀ e ∈ before, e.2.Good := by
    intro before
    induction before using List.reverseRecOn with
    | nil => intro _ _ e he; simp at he
    | append_singleton before e ih =>
      intro after hs u hu
      rw [List.append_assoc, List.singleton_append] at hs
      rcases List.mem_append.1 hu with hu | hu
      · exact ih _ hs u hu
      · rw [List.mem_singleton] at hu
        subst hu
        obtain ⟨name, file, -, -, hc⟩ := h before u.1 u.2 after hs
        exact (compileFile_good table_good hx (ih _ hs) hc).1
  exact hpre types [] (by simp)

end Verif.Front
