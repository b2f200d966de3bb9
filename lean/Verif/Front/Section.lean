import Verif.Front.Types
import Mathlib.Data.List.Forall2

/-! Lemmas about the sections of a file. -/

namespace Verif.Front

open Verif.Bls
open Verif.Dsdl (Arity)

/-! ### Statements -/

section Statements

variable {x : Externals} {known : List (TypeKey × Compiled)} {path : List String}

theorem Touch.constants_eq {f f' : FileState} (h : Touch f f') : f'.constants = f.constants := by rcases h with rfl | rfl <;> rfl

theorem Touch.constants {f f' : FileState} (h : Touch f f') : f.constants <+: f'.constants := by rw [h.constants_eq]; exact List.prefix_refl _

/-- What holds of a section that is being compiled, after its statements `ss`. -/
structure PartInv (x : Externals) (known : List (TypeKey × Compiled)) (path : List String) (ss : List Statement) (cs : Constants) (d : Bool)
    (part : Part) : Prop where
  members : List.Forall₂ (Declares x known path cs) (ss.filter Statement.isField) part.members
  constants : List.Forall₂ (DeclaresConstant x known path cs) (ss.filter Statement.isConstant) cs
  noEnd : part.extent = none → ss.filter Statement.isEnd = []
  isEnd : ∀ e, part.extent = some e → ∃ s, ss.filter Statement.isEnd = [s] ∧ Ends x known path cs s e
  last : ss.Pairwise fun s s' => s.isEnd → ¬ s'.isField
  union : (ss.filter Statement.isUnion).length = if part.isUnion then 1 else 0
  first : ss.Pairwise fun s s' => s.isField → ¬ s'.isUnion
  directives : ∀ s ∈ ss, Accepts x known path cs s
  marker : ∀ s ∈ ss, ¬ s.isMarker
  names : (part.members.filterMap memberName).Nodup
  constantNames : (cs.map Prod.fst).Nodup
  enough : part.isUnion = true → part.extent ≠ none → 2 ≤ part.members.length
  noPadding : part.isUnion = true → ∀ mem ∈ part.members, ∃ n s a, mem = Member.data n s a
  known : ∀ n key inner a, Member.data n (.composite key inner) a ∈ part.members → ∃ port, (key, ⟨port, .message inner⟩) ∈ known
  deprecated : d = false → ∀ n key inner a, Member.data n (.composite key inner) a ∈ part.members → inner.deprecated = false

theorem PartInv.empty {d : Bool} : PartInv x known path [] [] d ⟨[], false, none⟩ where
  members := .nil
  constants := .nil
  noEnd _ := rfl
  isEnd e h := by cases h
  last := List.Pairwise.nil
  union := rfl
  first := List.Pairwise.nil
  directives s h := by simp at h
  marker s h := by simp at h
  names := by simp
  constantNames := by simp
  enough h := by cases h
  noPadding h := by cases h
  known := by simp
  deprecated := by simp

theorem pairwise_snoc {α : Type} {R : α → α → Prop} {l : List α} {a : α} (h : l.Pairwise R) (h' : ∀ b ∈ l, R b a) : (l ++ [a]).Pairwise R := by
  rw [List.pairwise_append]
  exact ⟨h, List.pairwise_singleton _ _, fun b hb c hc => by rw [List.mem_singleton.1 hc]; exact h' b hb⟩

theorem forall_snoc {α : Type} {p : α → Prop} {l : List α} {a : α} (h : ∀ b ∈ l, p b) (h' : p a) : ∀ b ∈ l ++ [a], p b := by
  intro b hb
  rcases List.mem_append.1 hb with hm | hm
  · exact h b hm
  · rw [List.mem_singleton.1 hm]; exact h'

theorem Ends.accepts {cs : Constants} {s : Statement} {e : Option Nat} (h : Ends x known path cs s e) : Accepts x known path cs s := by
  unfold Ends at h
  split at h
  · trivial
  · obtain ⟨n, _, hv, _⟩ := h
    exact ⟨_, hv⟩
  · exact h.elim

/-! Constants that are declared later change nothing. -/

theorem HasValue.mono {cs cs' : Constants} {e : Expr} {v : Value} (h : HasValue x known path cs e v) (hp : cs <+: cs') : HasValue x known path cs' e v := by
  obtain ⟨f, f', h1, h2, h3⟩ := h
  exact ⟨f, f', h1, h2.trans hp, h3⟩

theorem Accepts.mono {cs cs' : Constants} {s : Statement} (h : Accepts x known path cs s) (hp : cs <+: cs') : Accepts x known path cs' s := by
  unfold Accepts at h ⊢
  split at h
  · trivial
  · trivial
  · trivial
  · trivial
  · obtain ⟨v, hv⟩ := h
    exact ⟨v, hv.mono hp⟩
  · obtain ⟨v, hv⟩ := h
    exact ⟨v, hv.mono hp⟩
  · exact h.mono hp
  · exact h.elim
  · trivial

theorem Ends.mono {cs cs' : Constants} {s : Statement} {e : Option Nat} (h : Ends x known path cs s e) (hp : cs <+: cs') : Ends x known path cs' s e := by
  unfold Ends at h ⊢
  split at h
  · exact h
  · obtain ⟨n, h8, hv, hn⟩ := h
    exact ⟨n, h8, hv.mono hp, hn⟩
  · exact h.elim

theorem TypeMeans.mono {cs cs' : Constants} {t : TypeAst} {r : RScalar} {a : Arity} (h : TypeMeans x known path cs t r a) (hp : cs <+: cs') :
    TypeMeans x known path cs' t r a := by
  cases t with
  | scalar s => exact h
  | array s kind e =>
    obtain ⟨h1, n, h2, h3, h4⟩ := h
    exact ⟨h1, n, h2, h3.mono hp, h4⟩

theorem Declares.mono {cs cs' : Constants} {s : Statement} {mem : Member} (h : Declares x known path cs s mem) (hp : cs <+: cs') :
    Declares x known path cs' s mem := by
  unfold Declares at h ⊢
  split at h
  · exact h
  · exact ⟨h.1, h.2.mono hp⟩
  · exact h.elim

theorem DeclaresConstant.mono {cs cs' : Constants} {s : Statement} {c : String × Constant} (h : DeclaresConstant x known path cs s c) (hp : cs <+: cs') :
    DeclaresConstant x known path cs' s c := by
  cases s with
  | constant ty name e => exact ⟨h.1, h.2.1, h.2.2.1.mono hp, h.2.2.2⟩
  | _ => exact h

theorem forall₂_snoc {α β : Type} {R : α → β → Prop} {l : List α} {l' : List β} (h : List.Forall₂ R l l') {a : α} {b : β} (h' : R a b) :
    List.Forall₂ R (l ++ [a]) (l' ++ [b]) := List.rel_append h (.cons h' .nil)

/-- A statement that is none of those that matter. -/
theorem PartInv.other {ss : List Statement} {cs : Constants} {d : Bool} {part : Part} (h : PartInv x known path ss cs d part) {s : Statement}
    (h1 : s.isField = false) (h2 : s.isEnd = false) (h3 : s.isUnion = false) (h4 : s.isConstant = false) (h5 : s.isMarker = false)
    (h6 : Accepts x known path cs s) :
    PartInv x known path (ss ++ [s]) cs d part where
  members := by simpa [List.filter_append, h1] using h.members
  constants := by simpa [List.filter_append, h4] using h.constants
  noEnd := by simpa [List.filter_append, h2] using h.noEnd
  isEnd := by simpa [List.filter_append, h2] using h.isEnd
  last := pairwise_snoc h.last fun b _ _ => by simp [h1]
  union := by simpa [List.filter_append, h3] using h.union
  first := pairwise_snoc h.first fun b _ _ => by simp [h3]
  directives := forall_snoc h.directives h6
  marker s' hs' := by
    rcases List.mem_append.1 hs' with hm | hm
    · exact h.marker s' hm
    · rw [List.mem_singleton.1 hm]; simp [h5]
  names := h.names
  constantNames := h.constantNames
  enough := h.enough
  noPadding := h.noPadding
  known := h.known
  deprecated := h.deprecated

theorem PartInv.setUnion {ss : List Statement} {cs : Constants} {d : Bool} (h : PartInv x known path ss cs d ⟨[], false, none⟩) :
    PartInv x known path (ss ++ [.directive "union" none]) cs d ⟨[], true, none⟩ where
  members := by simpa [List.filter_append, Statement.isField] using h.members
  constants := by simpa [List.filter_append, Statement.isConstant] using h.constants
  noEnd := by simpa [List.filter_append, Statement.isEnd] using h.noEnd
  isEnd e he := by cases he
  last := pairwise_snoc h.last fun b _ _ => by simp [Statement.isField]
  union := by have := h.union; simpa [List.filter_append, Statement.isUnion] using this
  first := pairwise_snoc h.first fun b hb hf => by
    have := h.members
    simp only [List.forall₂_nil_right_iff, List.filter_eq_nil_iff] at this
    exact absurd hf (this b hb)
  directives := forall_snoc h.directives trivial
  marker s' hs' := by
    rcases List.mem_append.1 hs' with hm | hm
    · exact h.marker s' hm
    · rw [List.mem_singleton.1 hm]; simp [Statement.isMarker]
  names := h.names
  constantNames := h.constantNames
  enough _ he := absurd rfl he
  noPadding := by simp
  known := h.known
  deprecated := h.deprecated

theorem PartInv.setEnd {ss : List Statement} {cs : Constants} {d : Bool} {part : Part} (h : PartInv x known path ss cs d part) {s : Statement}
    (hs : s.isEnd = true) (he : part.extent = none) {e : Option Nat} (hends : Ends x known path cs s e) (hn : part.isUnion = true → 2 ≤ part.members.length) :
    PartInv x known path (ss ++ [s]) cs d { part with extent := some e } := by
  cases s with
  | directive name v =>
    have hname : name ≠ "union" := by
      rintro rfl; simp [Statement.isEnd] at hs
    exact {
      members := by simpa [List.filter_append, Statement.isField] using h.members
      constants := by simpa [List.filter_append, Statement.isConstant] using h.constants
      noEnd := fun h => by cases h
      isEnd := by
        intro e' he'
        cases he'
        exact ⟨_, by rw [List.filter_append, h.noEnd he, List.nil_append, List.filter_cons_of_pos hs, List.filter_nil], hends⟩
      last := pairwise_snoc h.last fun b _ _ => by simp [Statement.isField]
      union := by have := h.union; simpa [List.filter_append, Statement.isUnion, hname] using this
      first := pairwise_snoc h.first fun b _ _ => by simp [Statement.isUnion, hname]
      directives := forall_snoc h.directives hends.accepts
      marker := fun s' hs' => by
        rcases List.mem_append.1 hs' with hm | hm
        · exact h.marker s' hm
        · rw [List.mem_singleton.1 hm]; simp [Statement.isMarker]
      names := h.names
      constantNames := h.constantNames
      enough := fun hu _ => hn hu
      noPadding := h.noPadding
      known := h.known
      deprecated := h.deprecated }
  | _ => cases hs

theorem PartInv.addMember {ss : List Statement} {cs : Constants} {d : Bool} {part : Part} (h : PartInv x known path ss cs d part) {s : Statement}
    (hs : s.isField = true) (he : part.extent = none) {mem : Member} (hd : Declares x known path cs s mem)
    (hname : ∀ n, memberName mem = some n → n ∉ part.members.filterMap memberName)
    (hpad : part.isUnion = true → ∃ n s a, mem = Member.data n s a)
    (hdep : d = false → ∀ n key inner a, mem = Member.data n (.composite key inner) a → inner.deprecated = false) :
    PartInv x known path (ss ++ [s]) cs d { part with members := part.members ++ [mem] } := by
  have hend : s.isEnd = false := by cases s <;> first | rfl | cases hs
  have huni : s.isUnion = false := by cases s <;> first | rfl | cases hs
  have hcon : s.isConstant = false := by cases s <;> first | rfl | cases hs
  have hmark : s.isMarker = false := by cases s <;> first | rfl | cases hs
  exact {
    members := by
      rw [List.filter_append, List.filter_cons_of_pos hs, List.filter_nil]
      exact forall₂_snoc h.members hd
    constants := by simpa [List.filter_append, hcon] using h.constants
    noEnd := by simpa [List.filter_append, hend] using h.noEnd
    isEnd := fun e h => by rw [he] at h; cases h
    last := pairwise_snoc h.last fun b hb hbe => by
      have := h.noEnd he
      rw [List.filter_eq_nil_iff] at this
      exact absurd hbe (this b hb)
    union := by have := h.union; simpa [List.filter_append, huni] using this
    first := pairwise_snoc h.first fun b _ _ => by simp [huni]
    directives := forall_snoc h.directives (by cases s <;> trivial)
    marker := fun s' hs' => by
      rcases List.mem_append.1 hs' with hm | hm
      · exact h.marker s' hm
      · rw [List.mem_singleton.1 hm]; simp [hmark]
    names := by
      dsimp only
      rw [List.filterMap_append, List.nodup_append]
      refine ⟨h.names, ?_, ?_⟩
      · cases hm : memberName mem <;> simp [hm]
      · intro a ha b hb hab
        simp only [List.filterMap_cons, List.filterMap_nil] at hb
        cases hm : memberName mem with
        | none => simp [hm] at hb
        | some n =>
          simp only [hm, List.mem_singleton] at hb
          exact hname n hm (hb ▸ hab ▸ ha)
    constantNames := h.constantNames
    enough := fun _ hne => absurd he hne
    noPadding := fun hu m' hm' => by
      rcases List.mem_append.1 hm' with hm | hm
      · exact h.noPadding hu m' hm
      · rw [List.mem_singleton.1 hm]; exact hpad hu
    known := fun n key inner a hm' => by
      rcases List.mem_append.1 hm' with hm | hm
      · exact h.known n key inner a hm
      · rw [← List.mem_singleton.1 hm] at hd
        cases s with
        | field ty name =>
          have ht := hd.2
          cases ty with
          | scalar s =>
            have hs := ht.1
            cases s with
            | prim p => cases hs
            | void b => cases hs
            | versioned k =>
              obtain ⟨port, m, hm1, hm2⟩ := hs
              cases hm2
              exact ⟨port, hm1⟩
          | array s kind e =>
            have hs := ht.1
            cases s with
            | prim p => cases hs
            | void b => cases hs
            | versioned k =>
              obtain ⟨port, m, hm1, hm2⟩ := hs
              cases hm2
              exact ⟨port, hm1⟩
        | padding b => exact hd.elim
        | _ => cases hs
    deprecated := fun h0 n key inner a hm' => by
      rcases List.mem_append.1 hm' with hm | hm
      · exact h.deprecated h0 n key inner a hm
      · exact hdep h0 n key inner a (List.mem_singleton.1 hm).symm }

theorem Constants.insert_new : ∀ {cs : Constants} {name : String} {c : Constant}, cs.containsKey name = false → cs.insert name c = cs ++ [(name, c)]
  | [], _, _, _ => rfl
  | e :: es, name, c, h => by
    simp only [Constants.containsKey, List.any_cons, Bool.or_eq_false_iff] at h
    have h' : Constants.containsKey es name = false := h.2
    rw [Constants.insert, if_neg (by simp [h.1]), Constants.insert_new h']
    rfl

theorem PartInv.addConstant {ss : List Statement} {cs : Constants} {d : Bool} {part : Part} (h : PartInv x known path ss cs d part) {s : Statement}
    (hs : s.isConstant = true) {name : String} {c : Constant} (hn : cs.containsKey name = false) (hd : DeclaresConstant x known path (cs.insert name c) s (name, c)) :
    PartInv x known path (ss ++ [s]) (cs.insert name c) d part := by
  have hend : s.isEnd = false := by cases s <;> first | rfl | cases hs
  have huni : s.isUnion = false := by cases s <;> first | rfl | cases hs
  have hf : s.isField = false := by cases s <;> first | rfl | cases hs
  have hmark : s.isMarker = false := by cases s <;> first | rfl | cases hs
  rw [Constants.insert_new hn] at hd ⊢
  have hpre : cs <+: cs ++ [(name, c)] := List.prefix_append _ _
  exact {
    members := by simpa [List.filter_append, hf] using h.members.imp fun _ _ h => h.mono hpre
    constants := by
      rw [List.filter_append, List.filter_cons_of_pos hs, List.filter_nil]
      exact forall₂_snoc (h.constants.imp fun _ _ h => h.mono hpre) hd
    noEnd := by simpa [List.filter_append, hend] using h.noEnd
    isEnd := fun e he => by
      obtain ⟨s', h1, h2⟩ := h.isEnd e he
      exact ⟨s', by simpa [List.filter_append, hend] using h1, h2.mono hpre⟩
    last := pairwise_snoc h.last fun b _ _ => by simp [hf]
    union := by simpa [List.filter_append, huni] using h.union
    first := pairwise_snoc h.first fun b _ _ => by simp [huni]
    directives := forall_snoc (fun s hs => (h.directives s hs).mono hpre) (by cases s <;> trivial)
    marker := fun s' hs' => by
      rcases List.mem_append.1 hs' with hm | hm
      · exact h.marker s' hm
      · rw [List.mem_singleton.1 hm]; simp [hmark]
    names := h.names
    constantNames := by
      rw [List.map_append, List.nodup_append]
      refine ⟨h.constantNames, by simp, ?_⟩
      intro a ha b hb hab
      simp only [List.map_cons, List.map_nil, List.mem_singleton] at hb
      obtain ⟨e, he, hea⟩ := List.mem_map.1 ha
      simp only [Constants.containsKey, List.any_eq_false, beq_iff_eq] at hn
      exact hn e he (hea.trans (hab.trans hb))
    enough := h.enough
    noPadding := h.noPadding
    known := h.known
    deprecated := h.deprecated }

/-- A section whose end was declared describes its message. -/
theorem PartInv.finished {ss : List Statement} {cs : Constants} {d : Bool} {part : Part} (h : PartInv x known path ss cs d part) {m : CMessage}
    (hm : MakesMessage part cs d m) : Describes x known path ss m ∧ WellFormed known m := by
  refine ⟨⟨?_, ?_, ?_, h.last, ?_, h.first, ?_, h.marker⟩, ⟨?_, ?_, ?_, ?_, ?_, ?_⟩⟩
  · rw [hm.members, hm.constants]; exact h.members
  · rw [hm.constants]; exact h.constants
  · rw [hm.constants]; exact h.isEnd _ hm.extent
  · rw [hm.isUnion]; exact h.union
  · rw [hm.constants]; exact h.directives
  · unfold CMessage.memberNames; rw [hm.members]; exact h.names
  · rw [hm.constants]; exact h.constantNames
  · rw [hm.isUnion, hm.members]
    intro hu
    exact ⟨h.enough hu (by rw [hm.extent]; simp), h.noPadding hu⟩
  · intro e he
    obtain ⟨s, _, hs⟩ := h.isEnd _ hm.extent
    rw [he] at hs
    unfold Ends at hs
    split at hs
    · cases hs
    · obtain ⟨n, h8, _, hn⟩ := hs
      cases hn
      exact h8
    · exact hs.elim
  · rw [hm.members]; exact h.known
  · rw [hm.deprecated, hm.members]; exact h.deprecated

/-- What holds of a file after its statements `ss`. -/
structure FileInv (x : Externals) (known : List (TypeKey × Compiled)) (path : List String) (ss : List Statement) (f : FileState) : Prop where
  package : f.path = path
  deprecated : DescribesDeprecated ss f.deprecated
  sections : match f.state.request with
    | none => PartInv x known path ss f.constants f.deprecated f.state.part
    | some req => ∃ a b, ss = a ++ .responseMarker :: b ∧ Describes x known path a req ∧ WellFormed known req ∧ req.deprecated = f.deprecated ∧
      PartInv x known path b f.constants f.deprecated f.state.part

/-- A step in the current section. -/
theorem FileInv.step {ss : List Statement} {f f' : FileState} (h : FileInv x known path ss f) {s : Statement} (hp : f'.path = f.path)
    (hd : f'.deprecated = f.deprecated) (hs : s.isDeprecated = false) (hr : f'.state.request = f.state.request)
    (hpart : ∀ b, PartInv x known path b f.constants f.deprecated f.state.part → PartInv x known path (b ++ [s]) f'.constants f'.deprecated f'.state.part) :
    FileInv x known path (ss ++ [s]) f' where
  package := hp.trans h.package
  deprecated := by
    rw [hd]
    exact ⟨by simpa [List.filter_append, hs] using h.deprecated.count, pairwise_snoc h.deprecated.first fun b _ _ => by simp [hs]⟩
  sections := by
    have := h.sections
    rw [hr]
    cases hreq : f.state.request with
    | none => rw [hreq] at this; exact hpart ss this
    | some req =>
      rw [hreq] at this
      obtain ⟨a, b, rfl, h1, h2, h3, h4⟩ := this
      exact ⟨a, b ++ [s], by simp, h1, h2, by rw [hd]; exact h3, hpart b h4⟩

theorem FileInv.touch {ss : List Statement} {f f' : FileState} (h : FileInv x known path ss f) (ht : Touch f f') : FileInv x known path ss f' := by
  rcases ht with rfl | rfl
  · exact h
  · obtain ⟨h1, h2⟩ := part_useOffset f.state
    exact ⟨h.package, h.deprecated, by have := h.sections; dsimp only; rw [h1, h2]; exact this⟩

theorem FileInv.current {ss : List Statement} {f : FileState} (h : FileInv x known path ss f) : ∃ b, PartInv x known path b f.constants f.deprecated f.state.part := by
  have := h.sections
  cases hreq : f.state.request with
  | none => rw [hreq] at this; exact ⟨ss, this⟩
  | some req =>
    rw [hreq] at this
    obtain ⟨a, b, _, _, _, _, h4⟩ := this
    exact ⟨b, h4⟩

theorem directive_inv {ss : List Statement} {f f' : FileState} {p' : List (TypeKey × Compiled)} {name : String} {value : Option Expr}
    (hi : FileInv x known path ss f) (h : evalDirective x table name value ⟨f, known⟩ = .ok ⟨f', p'⟩) :
    p' = known ∧ FileInv x known path (ss ++ [.directive name value]) f' := by
  unfold evalDirective at h
  split at h
  · -- union
    obtain ⟨s, h1, h2⟩ := Outcome.bind_ok h
    cases h2
    obtain ⟨h3, h4, h5⟩ := handleUnion_part h1
    refine ⟨rfl, hi.step rfl rfl (by simp [Statement.isDeprecated]) h3 fun b hb => ?_⟩
    dsimp only
    rw [h5]
    rw [h4] at hb
    exact hb.setUnion
  · -- extent
    next e =>
    obtain ⟨⟨v, f1, p1⟩, h1, h2⟩ := Outcome.bind_ok h
    obtain ⟨n, h3, h4⟩ := Outcome.bind_ok h2
    obtain ⟨s, h5, h6⟩ := Outcome.bind_ok h4
    cases h6
    obtain ⟨rfl, ht⟩ := eval_keeps h1
    obtain ⟨rfl, h8⟩ := extentValue_means h3
    obtain ⟨h9, h10, h11, h12⟩ := finish_part h5
    refine ⟨rfl, (hi.touch ht).step rfl rfl (by simp [Statement.isDeprecated]) h9 fun b hb => ?_⟩
    dsimp only at h11 ⊢
    rw [h11]
    exact hb.setEnd (by simp [Statement.isEnd]) h10 (show Ends x _ path _ (.directive "extent" (some e)) (some n) from
      ⟨n, h8, ⟨f, f1, hi.package, ht.constants, h1⟩, rfl⟩) h12
  · -- sealed
    obtain ⟨s, h5, h6⟩ := Outcome.bind_ok h
    cases h6
    obtain ⟨h9, h10, h11, h12⟩ := finish_part h5
    refine ⟨rfl, hi.step rfl rfl (by simp [Statement.isDeprecated]) h9 fun b hb => ?_⟩
    dsimp only at h11 ⊢
    rw [h11]
    exact hb.setEnd (by simp [Statement.isEnd]) h10 (show Ends x known path _ (.directive "sealed" none) none from rfl) h12
  · -- deprecated
    obtain ⟨f1, h1, h2⟩ := Outcome.bind_ok h
    cases h2
    obtain ⟨rfl, h3, h4, h5⟩ := handleDeprecated_part h1
    have hs := hi.sections
    rw [h4] at hs
    dsimp only at hs
    have hother := hs.other (s := .directive "deprecated" none) rfl (by decide) (by decide) rfl rfl trivial
    refine ⟨rfl, hi.package, ⟨?_, ?_⟩, ?_⟩
    · have := hi.deprecated.count
      rw [h3] at this
      have h0 : List.filter Statement.isDeprecated ss = [] := List.length_eq_zero_iff.1 this
      rw [List.filter_append, h0]
      rfl
    · refine pairwise_snoc hi.deprecated.first fun b hb hc => ?_
      rcases hc with hc | hc
      · have := hs.members
        rw [h5, List.forall₂_nil_right_iff, List.filter_eq_nil_iff] at this
        exact absurd hc (this b hb)
      · exact absurd hc (hs.marker b hb)
    · dsimp only
      rw [h4]
      exact { hother with deprecated := fun h0 => by cases h0 }
  · -- assert
    next e =>
    obtain ⟨⟨v, f1, p1⟩, h1, h2⟩ := Outcome.bind_ok h
    obtain ⟨rfl, ht⟩ := eval_keeps h1
    dsimp only at h2
    split at h2
    · cases h2
      exact ⟨rfl, (hi.touch ht).step rfl rfl (by simp [Statement.isDeprecated]) rfl fun b hb =>
        hb.other rfl (by simp [Statement.isEnd]) (by simp [Statement.isUnion]) rfl rfl ⟨f, _, hi.package, ht.constants, h1⟩⟩
    · cases h2
  · -- print
    next e =>
    obtain ⟨⟨v, f1, p1⟩, h1, h2⟩ := Outcome.bind_ok h
    obtain ⟨rfl, ht⟩ := eval_keeps h1
    cases h2
    exact ⟨rfl, (hi.touch ht).step rfl rfl (by simp [Statement.isDeprecated]) rfl fun b hb =>
      hb.other rfl (by simp [Statement.isEnd]) (by simp [Statement.isUnion]) rfl rfl ⟨v, f, _, hi.package, ht.constants, h1⟩⟩
  · cases h
    exact ⟨rfl, hi.step rfl rfl (by simp [Statement.isDeprecated]) rfl fun b hb =>
      hb.other rfl (by simp [Statement.isEnd]) (by simp [Statement.isUnion]) rfl rfl trivial⟩
  · cases h

theorem statement_inv {ss : List Statement} {f f' : FileState} {p' : List (TypeKey × Compiled)} {s : Statement}
    (hi : FileInv x known path ss f) (h : s.run x table ⟨f, known⟩ = .ok ⟨f', p'⟩) :
    p' = known ∧ FileInv x known path (ss ++ [s]) f' := by
  cases s with
  | directive name value => exact directive_inv hi h
  | constant ty name value =>
    simp only [Statement.run] at h
    split at h
    · cases h
    · next hn =>
      obtain ⟨⟨c, f1, p1⟩, h1, h2⟩ := Outcome.bind_ok h
      unfold evalConstant at h1
      split at h1
      · cases h1
      · next hr =>
        obtain ⟨⟨v, f2, p2⟩, h3, h4⟩ := Outcome.bind_ok h1
        obtain ⟨cv, h5, h6⟩ := Outcome.bind_ok h4
        cases h6
        cases h2
        obtain ⟨rfl, ht⟩ := eval_keeps h3
        have hcon : f1.constants = f.constants := ht.constants_eq
        have hnew : f1.constants.containsKey name = false := by rw [hcon]; simpa using hn
        refine ⟨rfl, (hi.touch ht).step rfl rfl rfl rfl fun b hb => ?_⟩
        refine hb.addConstant rfl hnew ?_
        exact ⟨rfl, rfl, ⟨f, f1, hi.package, by
          rw [Constants.insert_new hnew]
          exact ht.constants.trans (List.prefix_append _ _), h3⟩, checkType_means h5, by simpa using hr⟩
  | field ty name =>
    simp only [Statement.run] at h
    obtain ⟨⟨t, f1, p1⟩, h1, h2⟩ := Outcome.bind_ok h
    obtain ⟨⟨⟨r, a⟩, f2, p2⟩, h3, h4⟩ := Outcome.bind_ok h2
    obtain ⟨ht, rfl, hm⟩ := field_means h1 h3
    dsimp only at h4
    split at h4
    · cases h4
    · next hdep =>
      obtain ⟨s', h5, h6⟩ := Outcome.bind_ok h4
      cases h6
      obtain ⟨h7, h8, h9, h10⟩ := addField_part h5
      refine ⟨rfl, (hi.touch ht).step rfl rfl rfl h7 fun b hb => ?_⟩
      dsimp only at h9 ⊢
      rw [h9]
      refine hb.addMember rfl h8 (mem := .data name r a) ?_ ?_ ?_ ?_
      · exact ⟨rfl, hi.package ▸ hm.mono ht.constants⟩
      · intro n hn; cases hn; exact h10
      · intro _; exact ⟨_, _, _, rfl⟩
      · intro hd n key inner a' hmem
        cases hmem
        simpa [hd, RScalar.deprecated] using hdep
  | padding bits =>
    obtain ⟨s', h5, h6⟩ := Outcome.bind_ok h
    cases h6
    obtain ⟨h7, h8, h9, h10⟩ := addPadding_part h5
    refine ⟨rfl, hi.step rfl rfl rfl h7 fun b hb => ?_⟩
    dsimp only at h10 ⊢
    rw [h10]
    refine hb.addMember rfl h8 (mem := .padding bits) rfl (fun n hn => by cases hn) (fun hu => ?_) (fun _ n key inner a hm => by cases hm)
    dsimp only at h9
    rw [h9] at hu; cases hu
  | responseMarker =>
    obtain ⟨f1, h1, h2⟩ := Outcome.bind_ok h
    cases h2
    obtain ⟨m, h3, h4, rfl⟩ := handleMarker_part h1
    have hs := hi.sections
    rw [h4] at hs
    dsimp only at hs
    obtain ⟨h5, h6⟩ := hs.finished h3
    refine ⟨rfl, hi.package, ⟨by simpa [List.filter_append, Statement.isDeprecated] using hi.deprecated.count,
      pairwise_snoc hi.deprecated.first fun b _ _ => by simp [Statement.isDeprecated]⟩, ?_⟩
    exact ⟨ss, [], rfl, h5, h6, h3.deprecated, PartInv.empty⟩

theorem statements_inv : ∀ {rest ss : List Statement} {f f' : FileState} {p' : List (TypeKey × Compiled)}, FileInv x known path ss f →
    runAll x table rest ⟨f, known⟩ = .ok ⟨f', p'⟩ → p' = known ∧ FileInv x known path (ss ++ rest) f'
  | [], ss, f, f', p', hi, h => by cases h; exact ⟨rfl, by simpa using hi⟩
  | s :: rest, ss, f, f', p', hi, h => by
    obtain ⟨⟨f1, p1⟩, h1, h2⟩ := Outcome.bind_ok h
    obtain ⟨h0, hi1⟩ := statement_inv hi h1
    rw [h0] at h2
    obtain ⟨h3, h4⟩ := statements_inv hi1 h2
    exact ⟨h3, by simpa using h4⟩

theorem new_inv : FileInv x known path [] (.new path) where
  package := rfl
  deprecated := ⟨rfl, List.Pairwise.nil⟩
  sections := PartInv.empty

end Statements

end Verif.Front
