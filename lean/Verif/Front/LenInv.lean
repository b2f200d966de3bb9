import Verif.Front.Section
import Verif.Front.LenSpec

/-!
Helper lemmas: the lengths and alignment flags that the compiler keeps are functions of the members.
-/

namespace Verif.Front

open Verif.Bls
open Verif.Dsdl (Arity lengthSoFar afterPadding alwaysAligned)

/-- The length after one more field. -/
def stepLen (l : Option BitLengthSet) : CField → Option BitLengthSet
  | .padding bits _ => some (afterPadding bits l)
  | .data _ s a _ => some (updateStructLength s a (lengthSoFar l))

/-- The length of a struct, `none` without fields. -/
def structLen (fields : List CField) : Option BitLengthSet := fields.foldl stepLen none

def FlagsOk (fields : List CField) : Prop := ∀ pre f post, fields = pre ++ f :: post → f.aligned = alwaysAligned (structLen pre)

theorem FlagsOk.snoc {fields : List CField} {f : CField} (h : FlagsOk fields) (hf : f.aligned = alwaysAligned (structLen fields)) : FlagsOk (fields ++ [f]) := by
  intro pre g post e
  rcases List.append_eq_append_iff.1 e with ⟨c, h1, h2⟩ | ⟨c, h1, h2⟩
  · cases c with
    | nil =>
      simp only [List.append_nil] at h1
      simp only [List.nil_append, List.cons.injEq] at h2
      rw [h1, ← h2.1]
      exact hf
    | cons x xs =>
      simp only [List.cons_append, List.cons.injEq, List.nil_eq_append_iff] at h2
      cases h2.2.2
  · cases c with
    | nil =>
      simp only [List.append_nil] at h1
      simp only [List.nil_append, List.cons.injEq] at h2
      rw [← h1, h2.1]
      exact hf
    | cons x xs =>
      simp only [List.cons_append, List.cons.injEq] at h2
      rw [h2.1]
      exact h pre x xs h1

theorem FlagsOk.nil : FlagsOk [] := by
  intro pre f post e
  cases pre <;> cases e

theorem structLen_snoc (fields : List CField) (f : CField) : structLen (fields ++ [f]) = stepLen (structLen fields) f := by
  simp [structLen]

/-- The length before it is rounded up to bytes. -/
def CMessage.rawLength : CMessage → BitLengthSet
  | .struct _ _ fields _ _ => lengthSoFar (structLen fields)
  | .union _ _ _ vs _ _ => unionBitLength vs

def MsgOk (request : Bool) (m : CMessage) : Prop :=
  m.bitLength = (if request then m.rawLength else m.rawLength.padToAlignment 8) ∧
    match m with
    | .struct _ _ fields _ _ => FlagsOk fields
    | .union _ _ bits vs _ _ => bits = discriminantBits vs.length

def StructState.Ok : StructState → BitLengthSet → Prop
  | .collecting fields, l => structLen fields = some l ∧ FlagsOk fields
  | .ended fields _, l => lengthSoFar (structLen fields) = l ∧ FlagsOk fields

def UnionState.Ok : UnionState → Prop
  | .collecting _ => True
  | .usedOffset vs l => l = unionBitLength vs
  | .ended vs _ l => l = unionBitLength vs

def State.Ok : State → Prop
  | .message => True
  | .response r => MsgOk true r
  | .messageStruct s l => s.Ok l
  | .responseStruct r s l => MsgOk true r ∧ s.Ok l
  | .messageUnion u => u.Ok
  | .responseUnion r u => MsgOk true r ∧ u.Ok

theorem ok_useOffset {s : State} (h : s.Ok) : s.useOffset.Ok := by
  cases s with
  | messageUnion u => cases u <;> first | rfl | exact h
  | responseUnion r u => cases u <;> first | exact ⟨h.1, rfl⟩ | exact h
  | _ => exact h

theorem ok_touch {f f' : FileState} (h : f.state.Ok) (ht : Touch f f') : f'.state.Ok := by
  rcases ht with rfl | rfl
  · exact h
  · exact ok_useOffset h

theorem ok_handleUnion {s s' : State} (h : s.Ok) (hs : s.handleUnion = .ok s') : s'.Ok := by
  cases s <;> cases hs
  · trivial
  · exact ⟨h, trivial⟩

theorem UnionState.ok_finish {u u' : UnionState} {e : Option Nat} (h : u.Ok) (hs : u.finish e = .ok u') : u'.Ok := by
  cases u <;> simp only [UnionState.finish] at hs
  · split at hs <;> cases hs; rfl
  · split at hs <;> cases hs; exact h
  · cases hs

theorem StructState.ok_finish {u u' : StructState} {e : Option Nat} {l : BitLengthSet} (h : u.Ok l) (hs : u.finish e = .ok u') : u'.Ok l := by
  cases u <;> cases hs
  exact ⟨by rw [h.1]; rfl, h.2⟩

theorem ok_finish {s s' : State} {e : Option Nat} (h : s.Ok) (hs : s.finish e = .ok s') : s'.Ok := by
  cases s with
  | message => cases hs; exact ⟨rfl, .nil⟩
  | response r => cases hs; exact ⟨h, rfl, .nil⟩
  | messageStruct s l =>
    obtain ⟨s1, h1, h2⟩ := Outcome.bind_ok hs; cases h2
    exact StructState.ok_finish h h1
  | responseStruct r s l =>
    obtain ⟨s1, h1, h2⟩ := Outcome.bind_ok hs; cases h2
    exact ⟨h.1, StructState.ok_finish h.2 h1⟩
  | messageUnion u =>
    obtain ⟨s1, h1, h2⟩ := Outcome.bind_ok hs; cases h2
    exact UnionState.ok_finish h h1
  | responseUnion r u =>
    obtain ⟨s1, h1, h2⟩ := Outcome.bind_ok hs; cases h2
    exact ⟨h.1, UnionState.ok_finish h.2 h1⟩

theorem ok_first (f : CField) (h : f.aligned = true) : FlagsOk [f] := FlagsOk.nil.snoc (fields := []) h

theorem ok_addPadding {st st' : State} {bits : Nat} (h : st.Ok) (hs : st.addPadding bits = .ok st') : st'.Ok := by
  have push : ∀ {fields l}, StructState.Ok (.collecting fields) l →
      StructState.Ok (.collecting (fields ++ [.padding bits l.isByteAligned])) (l.concatenate [.single bits]) := by
    intro fields l hok
    refine ⟨by rw [structLen_snoc, hok.1]; rfl, hok.2.snoc ?_⟩
    rw [hok.1]; rfl
  cases st with
  | message => cases hs; exact ⟨rfl, ok_first _ rfl⟩
  | response r => cases hs; exact ⟨h, rfl, ok_first _ rfl⟩
  | messageStruct ss l =>
    cases ss with
    | ended => cases hs
    | collecting fields => cases hs; exact push h
  | responseStruct req ss l =>
    cases ss with
    | ended => cases hs
    | collecting fields => cases hs; exact ⟨h.1, push h.2⟩
  | messageUnion u => cases hs
  | responseUnion req u => cases hs

theorem ok_addField {st st' : State} {s : RScalar} {a : Arity} {name : String} (h : st.Ok) (hs : st.addField s a name = .ok st') : st'.Ok := by
  have push : ∀ {fields l} {r : List CField × BitLengthSet}, StructState.Ok (.collecting fields) l → pushField s a name fields l = some r →
      StructState.Ok (.collecting r.1) r.2 := by
    intro fields l r hok hp
    unfold pushField at hp
    split at hp
    · cases hp
    · cases hp
      refine ⟨by rw [structLen_snoc, hok.1]; rfl, hok.2.snoc ?_⟩
      rw [hok.1]; rfl
  cases st with
  | message => cases hs; exact ⟨rfl, ok_first _ rfl⟩
  | response r => cases hs; exact ⟨h, rfl, ok_first _ rfl⟩
  | messageStruct ss l =>
    cases ss with
    | ended => cases hs
    | collecting fields =>
      obtain ⟨r, h1, h2⟩ := Outcome.bind_ok hs; cases h2
      exact push h (Outcome.ofOption_ok h1)
  | responseStruct req ss l =>
    cases ss with
    | ended => cases hs
    | collecting fields =>
      obtain ⟨r, h1, h2⟩ := Outcome.bind_ok hs; cases h2
      exact ⟨h.1, push h.2 (Outcome.ofOption_ok h1)⟩
  | messageUnion u =>
    cases u with
    | collecting vs =>
      obtain ⟨r, h1, h2⟩ := Outcome.bind_ok hs; cases h2
      trivial
    | _ => cases hs
  | responseUnion req u =>
    cases u with
    | collecting vs =>
      obtain ⟨r, h1, h2⟩ := Outcome.bind_ok hs; cases h2
      exact ⟨h.1, trivial⟩
    | _ => cases hs

theorem ok_handleMarker {f f' : FileState} (h : f.state.Ok) (hs : f.handleMarker = .ok f') : f'.state.Ok := by
  unfold FileState.handleMarker at hs
  split at hs
  · next e => cases hs; rw [e] at h; exact ⟨h.1.symm, h.2⟩
  · next e => cases hs; rw [e] at h; exact ⟨h, rfl⟩
  · cases hs

theorem ok_finishFile {f : FileState} {port : Option Nat} {c : Compiled} (h : f.state.Ok) (hs : f.finish port = .ok c) :
    match c.kind with
    | .message m => MsgOk false m
    | .service req resp => MsgOk true req ∧ MsgOk false resp := by
  unfold FileState.finish at hs
  split at hs
  · next e => cases hs; rw [e] at h; exact ⟨by rw [← h.1]; rfl, h.2⟩
  · next e => cases hs; rw [e] at h; exact ⟨h.1, by rw [← h.2.1]; rfl, h.2.2⟩
  · next e => cases hs; rw [e] at h; exact ⟨congrArg (fun l : BitLengthSet => l.padToAlignment 8) h, rfl⟩
  · next e => cases hs; rw [e] at h; exact ⟨h.1, congrArg (fun l : BitLengthSet => l.padToAlignment 8) h.2, rfl⟩
  · cases hs

section

variable {x : Externals} {known : List (TypeKey × Compiled)}

theorem ok_directive {f f' : FileState} {p' : List (TypeKey × Compiled)} {name : String} {value : Option Expr}
    (hi : f.state.Ok) (h : evalDirective x table name value ⟨f, known⟩ = .ok ⟨f', p'⟩) : f'.state.Ok := by
  unfold evalDirective at h
  split at h
  · obtain ⟨s, h1, h2⟩ := Outcome.bind_ok h
    cases h2
    exact ok_handleUnion hi h1
  · obtain ⟨⟨v, f1, p1⟩, h1, h2⟩ := Outcome.bind_ok h
    obtain ⟨n, h3, h4⟩ := Outcome.bind_ok h2
    obtain ⟨s, h5, h6⟩ := Outcome.bind_ok h4
    cases h6
    exact ok_finish (ok_touch hi (eval_keeps h1).2) h5
  · obtain ⟨s, h5, h6⟩ := Outcome.bind_ok h
    cases h6
    exact ok_finish hi h5
  · obtain ⟨f1, h1, h2⟩ := Outcome.bind_ok h
    cases h2
    obtain ⟨rfl, _⟩ := handleDeprecated_part h1
    exact hi
  · obtain ⟨⟨v, f1, p1⟩, h1, h2⟩ := Outcome.bind_ok h
    dsimp only at h2
    split at h2
    · cases h2
      exact ok_touch hi (eval_keeps h1).2
    · cases h2
  · obtain ⟨⟨v, f1, p1⟩, h1, h2⟩ := Outcome.bind_ok h
    cases h2
    exact ok_touch hi (eval_keeps h1).2
  · cases h
    exact hi
  · cases h

theorem ok_statement {f f' : FileState} {p' : List (TypeKey × Compiled)} {s : Statement}
    (hi : f.state.Ok) (h : s.run x table ⟨f, known⟩ = .ok ⟨f', p'⟩) : f'.state.Ok := by
  cases s with
  | directive name value => exact ok_directive hi h
  | constant ty name value =>
    simp only [Statement.run] at h
    split at h
    · cases h
    · obtain ⟨⟨c, f1, p1⟩, h1, h2⟩ := Outcome.bind_ok h
      unfold evalConstant at h1
      split at h1
      · cases h1
      · obtain ⟨⟨v, f2, p2⟩, h3, h4⟩ := Outcome.bind_ok h1
        obtain ⟨cv, h5, h6⟩ := Outcome.bind_ok h4
        cases h6
        cases h2
        have := ok_touch hi (eval_keeps h3).2
        exact this
  | field ty name =>
    simp only [Statement.run] at h
    obtain ⟨⟨t, f1, p1⟩, h1, h2⟩ := Outcome.bind_ok h
    obtain ⟨⟨⟨r, a⟩, f2, p2⟩, h3, h4⟩ := Outcome.bind_ok h2
    obtain ⟨ht, rfl, hm⟩ := field_means h1 h3
    dsimp only at h4
    split at h4
    · cases h4
    · obtain ⟨s', h5, h6⟩ := Outcome.bind_ok h4
      cases h6
      exact ok_addField (ok_touch hi ht) h5
  | padding bits =>
    obtain ⟨s', h5, h6⟩ := Outcome.bind_ok h
    cases h6
    exact ok_addPadding hi h5
  | responseMarker =>
    obtain ⟨f1, h1, h2⟩ := Outcome.bind_ok h
    cases h2
    exact ok_handleMarker hi h1

theorem ok_statements : ∀ {rest : List Statement} {f f' : FileState} {p p' : List (TypeKey × Compiled)}, f.state.Ok →
    runAll x table rest ⟨f, p⟩ = .ok ⟨f', p'⟩ → f'.state.Ok
  | [], f, f', p, p', hi, h => by cases h; exact hi
  | s :: rest, f, f', p, p', hi, h => by
    obtain ⟨⟨f1, p1⟩, h1, h2⟩ := Outcome.bind_ok h
    exact ok_statements (ok_statement hi h1) h2

theorem ok_compiles {key : TypeKey} {file : File} {c : Compiled} (h : Compiles x known key file c) :
    match c.kind with
    | .message m => MsgOk false m
    | .service req resp => MsgOk true req ∧ MsgOk false resp := by
  unfold Compiles compileFile at h
  split at h
  · obtain ⟨⟨f, p⟩, h1, h2⟩ := Outcome.bind_ok h
    obtain ⟨c', h3, h4⟩ := Outcome.bind_ok h2
    obtain rfl : c' = c := by cases h4; rfl
    exact ok_finishFile (ok_statements (f := .new key.path) trivial h1) h3
  · cases h

end

/-- The length that `_offset_` stands for. -/
theorem offset_ok {s : State} (h : s.Ok) :
    (∃ fields : List CField, s.part.isUnion = false ∧ s.part.members = fields.map CField.member ∧ s.useOffset.offset = lengthSoFar (structLen fields)) ∨
    ∃ vs : List CVariant, s.part.isUnion = true ∧ s.part.members = vs.map CVariant.member ∧ s.useOffset.offset = unionBitLength vs := by
  have hs : ∀ {ss : StructState} {l}, ss.Ok l → ∃ fields : List CField, ss.part.isUnion = false ∧ ss.part.members = fields.map CField.member ∧
      l = lengthSoFar (structLen fields) := by
    intro ss l hok
    cases ss with
    | collecting fields => exact ⟨fields, rfl, rfl, by rw [hok.1]; rfl⟩
    | ended fields e => exact ⟨fields, rfl, rfl, hok.1.symm⟩
  cases s with
  | message => exact .inl ⟨[], rfl, rfl, rfl⟩
  | response r => exact .inl ⟨[], rfl, rfl, rfl⟩
  | messageStruct ss l => exact .inl (hs h)
  | responseStruct r ss l => exact .inl (hs h.2)
  | messageUnion u => cases u <;> first | exact .inr ⟨_, rfl, rfl, rfl⟩ | exact .inr ⟨_, rfl, rfl, h⟩
  | responseUnion r u => cases u <;> first | exact .inr ⟨_, rfl, rfl, rfl⟩ | exact .inr ⟨_, rfl, rfl, h.2⟩

end Verif.Front
