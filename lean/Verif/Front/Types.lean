import Verif.Front.TypesSpec
import Verif.Front.Rel

/-! Lemmas about the state of a file. -/

namespace Verif.Front

open Verif.Bls
open Verif.Dsdl (Arity)

/-! ### What expressions do to the state of the file -/

/-- The state, or the state after `_offset_` was used. -/
def Touch (f f' : FileState) : Prop := f' = f ∨ f' = { f with state := f.state.useOffset }

theorem useOffset_idem (s : State) : s.useOffset.useOffset = s.useOffset := by
  cases s with
  | messageUnion u => cases u <;> rfl
  | responseUnion r u => cases u <;> rfl
  | _ => rfl

theorem Touch.trans {a b c : FileState} (h : Touch a b) (h' : Touch b c) : Touch a c := by
  rcases h with rfl | rfl <;> rcases h' with rfl | rfl
  · exact .inl rfl
  · exact .inr rfl
  · exact .inr rfl
  · right; simp only [useOffset_idem]

/-- Expressions leave the table as it is, and at most use the offset. -/
def keepRel : ExprRel (List (TypeKey × Compiled)) (List (TypeKey × Compiled)) where
  holds c _ := ∀ f p a f' p', c ⟨f, p⟩ = .ok (a, ⟨f', p'⟩) → p' = p ∧ Touch f f'
  ofRead o := by
    intro f p a f' p' h
    simp only [Step.ofRead] at h
    cases ho : o f with
    | ok r => rw [ho] at h; cases h; exact ⟨rfl, .inl rfl⟩
    | error => rw [ho] at h; cases h
    | panic => rw [ho] at h; cases h
  offset := by
    intro f p a f' p' h
    simp only [Step.offset, Step.ofFile] at h
    cases h
    exact ⟨rfl, .inr rfl⟩
  andThen := by
    intro α β c d k l hc hk f p a f' p' h
    simp only [Step.andThen] at h
    cases h1 : c ⟨f, p⟩ with
    | error => rw [h1] at h; cases h
    | panic => rw [h1] at h; cases h
    | ok r =>
      obtain ⟨b, ⟨f1, p1⟩⟩ := r
      rw [h1] at h
      obtain ⟨e1, t1⟩ := hc f p b f1 p1 h1
      obtain ⟨e2, t2⟩ := hk b f1 p1 a f' p' h
      exact ⟨e2.trans e1, t1.trans t2⟩

theorem table_keeps {key : TypeKey} {t t' : List (TypeKey × Compiled)} {c : Compiled} (h : table key t = .ok (c, t')) : t' = t ∧ (key, c) ∈ t := by
  unfold table at h
  split at h
  · next e hf =>
    cases h
    have hk := List.find?_some hf
    rw [decide_eq_true_iff] at hk
    exact ⟨rfl, hk ▸ List.mem_of_find?_eq_some hf⟩
  · cases h

theorem keep_lookup (key : TypeKey) : keepRel.holds (Step.ofLookup table key) (Step.ofLookup table key) := by
  intro f p a f' p' h
  simp only [Step.ofLookup] at h
  cases hc : table key p with
  | error => rw [hc] at h; cases h
  | panic => rw [hc] at h; cases h
  | ok r =>
    obtain ⟨c, t⟩ := r
    rw [hc] at h
    cases h
    exact ⟨(table_keeps hc).1, .inl rfl⟩

theorem eval_keeps {x : Externals} {e : Expr} {f f' : FileState} {p p' : List (TypeKey × Compiled)} {v : Value}
    (h : e.eval x table ⟨f, p⟩ = .ok (v, ⟨f', p'⟩)) : p' = p ∧ Touch f f' := keepRel.expr keep_lookup x e f p v f' p' h

/-! ### The part of a file that is being compiled -/

/-- What the state says about the current section. -/
structure Part where
  members : List Member
  isUnion : Bool
  extent : Option (Option Nat)

def StructState.part : StructState → Part
  | .collecting fields => ⟨fields.map CField.member, false, none⟩
  | .ended fields extent => ⟨fields.map CField.member, false, some extent⟩

def UnionState.part : UnionState → Part
  | .collecting vs => ⟨vs.map CVariant.member, true, none⟩
  | .usedOffset vs _ => ⟨vs.map CVariant.member, true, none⟩
  | .ended vs extent _ => ⟨vs.map CVariant.member, true, some extent⟩

def State.part : State → Part
  | .message => ⟨[], false, none⟩
  | .response _ => ⟨[], false, none⟩
  | .messageStruct s _ => s.part
  | .responseStruct _ s _ => s.part
  | .messageUnion u => u.part
  | .responseUnion _ u => u.part

def State.request : State → Option CMessage
  | .response r => some r
  | .responseStruct r _ _ => some r
  | .responseUnion r _ => some r
  | _ => none

def memberName : Member → Option String
  | .data n _ _ => some n
  | .padding _ => none

theorem part_useOffset (s : State) : s.useOffset.part = s.part ∧ s.useOffset.request = s.request := by
  cases s with
  | messageUnion u => cases u <;> exact ⟨rfl, rfl⟩
  | responseUnion r u => cases u <;> exact ⟨rfl, rfl⟩
  | _ => exact ⟨rfl, rfl⟩

theorem handleUnion_part {s s' : State} (h : s.handleUnion = .ok s') :
    s'.request = s.request ∧ s.part = ⟨[], false, none⟩ ∧ s'.part = ⟨[], true, none⟩ := by
  cases s <;> cases h <;> exact ⟨rfl, rfl, rfl⟩

theorem UnionState.finish_part {u u' : UnionState} {e : Option Nat} (h : u.finish e = .ok u') :
    u.part.extent = none ∧ u'.part = { u.part with extent := some e } ∧ 2 ≤ u.part.members.length := by
  cases u with
  | collecting vs =>
    simp only [UnionState.finish] at h
    split at h <;> cases h
    exact ⟨rfl, rfl, by simpa [UnionState.part]⟩
  | usedOffset vs l =>
    simp only [UnionState.finish] at h
    split at h <;> cases h
    exact ⟨rfl, rfl, by simpa [UnionState.part]⟩
  | ended => cases h

theorem StructState.finish_part {u u' : StructState} {e : Option Nat} (h : u.finish e = .ok u') :
    u.part.extent = none ∧ u'.part = { u.part with extent := some e } := by
  cases u <;> cases h
  exact ⟨rfl, rfl⟩

theorem Outcome.bind_ok {α β : Type} {o : Outcome α} {f : α → Outcome β} {b : β} (h : o.bind f = .ok b) : ∃ a, o = .ok a ∧ f a = .ok b := by
  cases o with
  | ok a => exact ⟨a, rfl, h⟩
  | error => cases h
  | panic => cases h

theorem Outcome.ofOption_ok {α : Type} {o : Option α} {a : α} (h : Outcome.ofOption o = .ok a) : o = some a := by
  cases o <;> cases h; rfl

theorem StructState.part_union (s : StructState) : s.part.isUnion = false := by cases s <;> rfl
theorem UnionState.part_union (s : UnionState) : s.part.isUnion = true := by cases s <;> rfl

theorem finish_part {s s' : State} {e : Option Nat} (h : s.finish e = .ok s') :
    s'.request = s.request ∧ s.part.extent = none ∧ s'.part = { s.part with extent := some e } ∧ (s.part.isUnion = true → 2 ≤ s.part.members.length) := by
  cases s with
  | message => cases h; exact ⟨rfl, rfl, rfl, fun h => by cases h⟩
  | response r => cases h; exact ⟨rfl, rfl, rfl, fun h => by cases h⟩
  | messageStruct s l =>
    obtain ⟨s1, h1, h2⟩ := Outcome.bind_ok h; cases h2
    obtain ⟨h3, h4⟩ := StructState.finish_part h1
    exact ⟨rfl, h3, h4, fun h => by simp [State.part, StructState.part_union] at h⟩
  | responseStruct r s l =>
    obtain ⟨s1, h1, h2⟩ := Outcome.bind_ok h; cases h2
    obtain ⟨h3, h4⟩ := StructState.finish_part h1
    exact ⟨rfl, h3, h4, fun h => by simp [State.part, StructState.part_union] at h⟩
  | messageUnion u =>
    obtain ⟨s1, h1, h2⟩ := Outcome.bind_ok h; cases h2
    obtain ⟨h3, h4, h5⟩ := UnionState.finish_part h1
    exact ⟨rfl, h3, h4, fun _ => h5⟩
  | responseUnion r u =>
    obtain ⟨s1, h1, h2⟩ := Outcome.bind_ok h; cases h2
    obtain ⟨h3, h4, h5⟩ := UnionState.finish_part h1
    exact ⟨rfl, h3, h4, fun _ => h5⟩

theorem pushField_member {s : RScalar} {a : Arity} {name : String} {fields : List CField} {l : BitLengthSet} {r : List CField × BitLengthSet}
    (h : pushField s a name fields l = some r) :
    r.1.map CField.member = fields.map CField.member ++ [.data name s a] ∧ name ∉ (fields.map CField.member).filterMap memberName := by
  unfold pushField at h
  split at h
  · cases h
  · next hn =>
    cases h
    refine ⟨by simp [CField.member], fun hm => hn ?_⟩
    obtain ⟨mem, h1, h2⟩ := List.mem_filterMap.1 hm
    obtain ⟨fl, h3, rfl⟩ := List.mem_map.1 h1
    rw [List.any_eq_true]
    refine ⟨fl, h3, ?_⟩
    cases fl with
    | padding => cases h2
    | data n s a al => cases h2; simp [CField.name]

theorem pushVariant_member {s : RScalar} {a : Arity} {name : String} {vs vs' : List CVariant}
    (h : pushVariant s a name vs = some vs') :
    vs'.map CVariant.member = vs.map CVariant.member ++ [.data name s a] ∧ name ∉ (vs.map CVariant.member).filterMap memberName := by
  unfold pushVariant at h
  split at h
  · cases h
  · next hn =>
    cases h
    refine ⟨by simp [CVariant.member], fun hm => hn ?_⟩
    obtain ⟨mem, h1, h2⟩ := List.mem_filterMap.1 hm
    obtain ⟨fl, h3, rfl⟩ := List.mem_map.1 h1
    rw [List.any_eq_true]
    refine ⟨fl, h3, ?_⟩
    cases fl with
    | mk n s a => cases h2; simp [CVariant.name]

theorem addField_part {st st' : State} {s : RScalar} {a : Arity} {name : String} (h : st.addField s a name = .ok st') :
    st'.request = st.request ∧ st.part.extent = none ∧ st'.part = { st.part with members := st.part.members ++ [.data name s a] } ∧
      name ∉ st.part.members.filterMap memberName := by
  cases st with
  | message => cases h; exact ⟨rfl, rfl, rfl, by simp [State.part]⟩
  | response r => cases h; exact ⟨rfl, rfl, rfl, by simp [State.part]⟩
  | messageStruct ss l =>
    cases ss with
    | ended => cases h
    | collecting fields =>
      obtain ⟨r, h1, h2⟩ := Outcome.bind_ok h; cases h2
      obtain ⟨h3, h4⟩ := pushField_member (Outcome.ofOption_ok h1)
      exact ⟨rfl, rfl, by simp only [State.part, StructState.part, h3], h4⟩
  | responseStruct req ss l =>
    cases ss with
    | ended => cases h
    | collecting fields =>
      obtain ⟨r, h1, h2⟩ := Outcome.bind_ok h; cases h2
      obtain ⟨h3, h4⟩ := pushField_member (Outcome.ofOption_ok h1)
      exact ⟨rfl, rfl, by simp only [State.part, StructState.part, h3], h4⟩
  | messageUnion u =>
    cases u with
    | collecting vs =>
      obtain ⟨r, h1, h2⟩ := Outcome.bind_ok h; cases h2
      obtain ⟨h3, h4⟩ := pushVariant_member (Outcome.ofOption_ok h1)
      exact ⟨rfl, rfl, by simp only [State.part, UnionState.part, h3], h4⟩
    | _ => cases h
  | responseUnion req u =>
    cases u with
    | collecting vs =>
      obtain ⟨r, h1, h2⟩ := Outcome.bind_ok h; cases h2
      obtain ⟨h3, h4⟩ := pushVariant_member (Outcome.ofOption_ok h1)
      exact ⟨rfl, rfl, by simp only [State.part, UnionState.part, h3], h4⟩
    | _ => cases h

theorem addPadding_part {st st' : State} {bits : Nat} (h : st.addPadding bits = .ok st') :
    st'.request = st.request ∧ st.part.extent = none ∧ st.part.isUnion = false ∧
      st'.part = { st.part with members := st.part.members ++ [.padding bits] } := by
  cases st with
  | message => cases h; exact ⟨rfl, rfl, rfl, rfl⟩
  | response r => cases h; exact ⟨rfl, rfl, rfl, rfl⟩
  | messageStruct ss l =>
    cases ss with
    | ended => cases h
    | collecting fields => cases h; exact ⟨rfl, rfl, rfl, by simp [State.part, StructState.part, CField.member]⟩
  | responseStruct req ss l =>
    cases ss with
    | ended => cases h
    | collecting fields => cases h; exact ⟨rfl, rfl, rfl, by simp [State.part, StructState.part, CField.member]⟩
  | messageUnion u => cases h
  | responseUnion req u => cases h

theorem handleDeprecated_part {f f' : FileState} (h : f.handleDeprecated = .ok f') :
    f' = { f with deprecated := true } ∧ f.deprecated = false ∧ f.state.request = none ∧ f.state.part.members = [] := by
  unfold FileState.handleDeprecated at h
  split at h
  · cases h
  · next hd =>
    split at h
    · next hs => cases h; exact ⟨rfl, by simpa using hd, by rw [hs]; rfl, by rw [hs]; rfl⟩
    · next vs hs =>
      split at h
      · next hv =>
        cases h
        rw [List.isEmpty_iff] at hv
        exact ⟨rfl, by simpa using hd, by rw [hs]; rfl, by rw [hs, hv]; rfl⟩
      · cases h
    · cases h

/-- The message that a section makes. -/
structure MakesMessage (part : Part) (constants : Constants) (deprecated : Bool) (m : CMessage) : Prop where
  members : m.members = part.members
  isUnion : m.isUnion = part.isUnion
  extent : part.extent = some m.extent
  constants : m.constants = constants
  deprecated : m.deprecated = deprecated

theorem handleMarker_part {f f' : FileState} (h : f.handleMarker = .ok f') :
    ∃ m, MakesMessage f.state.part f.constants f.deprecated m ∧ f.state.request = none ∧ f' = { f with constants := [], state := .response m } := by
  unfold FileState.handleMarker at h
  split at h
  · next hs => cases h; rw [hs]; exact ⟨_, ⟨rfl, rfl, rfl, rfl, rfl⟩, rfl, rfl⟩
  · next hs => cases h; rw [hs]; exact ⟨_, ⟨rfl, rfl, rfl, rfl, rfl⟩, rfl, rfl⟩
  · cases h

theorem finishFile_part {f : FileState} {port : Option Nat} {c : Compiled} (h : f.finish port = .ok c) :
    c.port = port ∧ ∃ m, MakesMessage f.state.part f.constants f.deprecated m ∧
      match f.state.request with
      | none => c.kind = .message m
      | some req => c.kind = .service req m := by
  unfold FileState.finish at h
  split at h
  · next hs => cases h; rw [hs]; exact ⟨rfl, _, ⟨rfl, rfl, rfl, rfl, rfl⟩, rfl⟩
  · next hs => cases h; rw [hs]; exact ⟨rfl, _, ⟨rfl, rfl, rfl, rfl, rfl⟩, rfl⟩
  · next hs => cases h; rw [hs]; exact ⟨rfl, _, ⟨rfl, rfl, rfl, rfl, rfl⟩, rfl⟩
  · next hs => cases h; rw [hs]; exact ⟨rfl, _, ⟨rfl, rfl, rfl, rfl, rfl⟩, rfl⟩
  · cases h

/-! ### What steps mean -/

theorem canonicalKey_eq (path : List String) (key : TypeKey) : canonicalKey path key = fullName path key := by
  unfold canonicalKey fullName
  cases key.path <;> simp

theorem resolveScalar_means {known p' : List (TypeKey × Compiled)} {s : ScalarTy} {f f' : FileState} {r : RScalar}
    (h : s.resolve table ⟨f, known⟩ = .ok (r, ⟨f', p'⟩)) : ScalarMeans known f.path s r ∧ f' = f ∧ p' = known := by
  cases s with
  | prim p => cases h; exact ⟨rfl, rfl, rfl⟩
  | void b => cases h; exact ⟨rfl, rfl, rfl⟩
  | versioned key =>
    simp only [ScalarTy.resolve, typeByKey] at h
    rw [Outcome.bind_assoc] at h
    obtain ⟨⟨c, t⟩, h1, h2⟩ := Outcome.bind_ok h
    obtain ⟨rfl, hm⟩ := table_keeps h1
    rw [canonicalKey_eq] at hm h2
    simp only [Outcome.bind] at h2
    cases hk : c.kind with
    | service _ _ => rw [hk] at h2; cases h2
    | message m =>
      rw [hk] at h2
      cases h2
      refine ⟨⟨c.port, m, ?_, rfl⟩, rfl, rfl⟩
      rw [← hk]; exact hm

theorem resolve_means {known p' : List (TypeKey × Compiled)} {t : Ty} {f f' : FileState} {r : RScalar} {a : Arity}
    (h : t.resolve table ⟨f, known⟩ = .ok ((r, a), ⟨f', p'⟩)) : f' = f ∧ p' = known ∧
      match t with
      | .scalar s => ScalarMeans known f.path s r ∧ a = .scalar
      | .fixedArray s n => ScalarMeans known f.path s r ∧ a = .fixed n
      | .variableArray s n => ScalarMeans known f.path s r ∧ a = .var n := by
  cases t <;>
  · obtain ⟨⟨r1, f1, p1⟩, h1, h2⟩ := Outcome.bind_ok h
    cases h2
    obtain ⟨h3, rfl, rfl⟩ := resolveScalar_means h1
    exact ⟨rfl, rfl, h3, rfl⟩

theorem isInteger_eq {q : ℚ} (h : isInteger q = true) : q = q.num := by
  unfold isInteger at h
  rw [beq_iff_eq] at h
  exact (Rat.den_eq_one_iff q).1 h |>.symm

theorem isNat_eq {q : ℚ} (h : isInteger q = true) (h0 : 0 ≤ q.num) : q = (q.num.toNat : ℕ) := by
  obtain ⟨n, hn⟩ := Int.eq_ofNat_of_zero_le h0
  have h1 := isInteger_eq h
  rw [hn] at h1 ⊢
  exact h1

theorem arrayLength_means {v : Value} {n : Nat} (h : arrayLength v = .ok n) : v = .rational n ∧ n < 2 ^ 64 := by
  cases v with
  | rational q =>
    simp only [arrayLength] at h
    split at h
    · next hc =>
      cases h
      simp only [Bool.and_eq_true, decide_eq_true_iff] at hc
      exact ⟨congrArg Value.rational (isNat_eq hc.1.1 hc.1.2), by omega⟩
    · cases h
  | _ => cases h

theorem extentValue_means {v : Value} {n : Nat} (h : extentValue v = .ok n) : v = .rational n ∧ n % 8 = 0 := by
  cases v with
  | rational q =>
    simp only [extentValue] at h
    split at h
    · next hc =>
      cases h
      simp only [Bool.and_eq_true, decide_eq_true_iff, beq_iff_eq] at hc
      exact ⟨congrArg Value.rational (isNat_eq hc.1.1.1 hc.1.1.2), hc.2⟩
    · cases h
  | _ => cases h

theorem convert_means {x : Externals} {known p' : List (TypeKey × Compiled)} {t : TypeAst} {f f' : FileState} {ty : Ty}
    (h : convertType x table t ⟨f, known⟩ = .ok (ty, ⟨f', p'⟩)) : Touch f f' ∧ p' = known ∧
      match t with
      | .scalar s => ty = .scalar s
      | .array s kind e => ∃ n : Nat, n < 2 ^ 64 ∧ HasValue x known f.path f.constants e (.rational n) ∧
        match kind with
        | .fixed => ty = .fixedArray s n
        | .inclusive => ty = .variableArray s n
        | .exclusive => 0 < n ∧ ty = .variableArray s (n - 1) := by
  cases t with
  | scalar s => cases h; exact ⟨.inl rfl, rfl, rfl⟩
  | array s kind e =>
    simp only [convertType] at h
    obtain ⟨⟨v, f1, p1⟩, h1, h2⟩ := Outcome.bind_ok h
    obtain ⟨n, h3, h4⟩ := Outcome.bind_ok h2
    obtain ⟨ty', h5, h6⟩ := Outcome.bind_ok h4
    cases h6
    obtain ⟨rfl, ht⟩ := eval_keeps h1
    obtain ⟨rfl, hn⟩ := arrayLength_means h3
    refine ⟨ht, rfl, n, hn, ⟨f, _, rfl, List.prefix_refl _, h1⟩, ?_⟩
    cases kind with
    | fixed => cases h5; rfl
    | inclusive => cases h5; rfl
    | exclusive =>
      simp only [arrayType] at h5
      split at h5
      · next hp => cases h5; exact ⟨hp, rfl⟩
      · cases h5

theorem field_means {x : Externals} {known p' : List (TypeKey × Compiled)} {t : TypeAst} {f f1 f' : FileState} {p1 : List (TypeKey × Compiled)} {ty : Ty}
    {r : RScalar} {a : Arity} (h : convertType x table t ⟨f, known⟩ = .ok (ty, ⟨f1, p1⟩)) (h' : ty.resolve table ⟨f1, p1⟩ = .ok ((r, a), ⟨f', p'⟩)) :
    Touch f f' ∧ p' = known ∧ TypeMeans x known f.path f.constants t r a := by
  obtain ⟨ht, rfl, hc⟩ := convert_means h
  obtain ⟨rfl, rfl, hr⟩ := resolve_means h'
  have hpath : f'.path = f.path := by rcases ht with rfl | rfl <;> rfl
  rw [hpath] at hr
  refine ⟨ht, rfl, ?_⟩
  cases t with
  | scalar s => cases hc; exact hr
  | array s kind e =>
    obtain ⟨n, hn, hv, hk⟩ := hc
    cases kind with
    | fixed => cases hk; exact ⟨hr.1, n, hn, hv, hr.2⟩
    | inclusive => cases hk; exact ⟨hr.1, n, hn, hv, hr.2⟩
    | exclusive =>
      obtain ⟨h0, rfl⟩ := hk
      exact ⟨hr.1, n, hn, hv, h0, hr.2⟩

theorem checkType_means {x : Externals} {ty : Prim} {v : Value} {c : ConstantValue} (h : checkType x ty v = .ok c) : Represents x ty v c := by
  unfold checkType at h
  split at h
  · cases h; exact ⟨_, rfl, rfl⟩
  · next bits mode s =>
    split at h
    · next hb =>
      split at h
      · next n hi =>
        cases h
        refine .inr ⟨hb, ?_⟩
        unfold implicitInt at hi
        split at hi
        · next ch hs =>
          split at hi
          · next hlt =>
            cases hi
            refine ⟨ch, ?_, rfl, hlt⟩
            congr 1
            rw [← String.toList_inj, hs, String.toList_singleton]
          · cases hi
        · cases hi
      · cases h
    · cases h
  · next bits q =>
    split at h
    · next hc =>
      cases h
      simp only [Bool.and_eq_true, decide_eq_true_iff] at hc
      refine ⟨q.num, ?_, rfl, hc.1.2, hc.2⟩
      rw [← isInteger_eq hc.1.1]
    · cases h
  · next bits mode q =>
    split at h
    · next hc =>
      cases h
      simp only [Bool.and_eq_true, decide_eq_true_iff] at hc
      obtain ⟨n, hn⟩ := Int.eq_ofNat_of_zero_le hc.1.2
      have h1 := isInteger_eq hc.1.1
      rw [hn] at h1
      refine .inl ⟨n, ?_, ?_, ?_⟩
      · rw [h1]; rfl
      · rw [hn]
      · have h2 := hc.2
        rw [hn] at h2
        exact_mod_cast h2
    · cases h
  · obtain ⟨n, h1, h2⟩ := Outcome.bind_ok h; cases h2; exact ⟨_, n, rfl, Outcome.ofOption_ok h1, rfl⟩
  · obtain ⟨n, h1, h2⟩ := Outcome.bind_ok h; cases h2; exact ⟨_, n, rfl, Outcome.ofOption_ok h1, rfl⟩
  · obtain ⟨n, h1, h2⟩ := Outcome.bind_ok h; cases h2; exact ⟨_, n, rfl, Outcome.ofOption_ok h1, rfl⟩
  · cases h

end Verif.Front
