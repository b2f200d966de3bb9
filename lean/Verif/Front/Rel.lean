import Verif.Front.Compile

/-!
Relations between two runs of the compiler that differ in the function that looks up types: what holds of every lookup, and is preserved by
sequencing, holds of the evaluation of every expression, statement and file.
-/

namespace Verif.Front

open Verif.Bls

/-- A step of the compiler. -/
abbrev Step (P α : Type) := Cx P → Outcome (α × Cx P)

/-- A step that only uses the state of the file. -/
def Step.ofFile {P α : Type} (o : FileState → Outcome (α × FileState)) : Step P α := fun cx =>
  (o cx.file).bind fun r => .ok (r.1, { cx with file := r.2 })

/-- One step after another. -/
def Step.andThen {P α β : Type} (c : Step P α) (k : α → Step P β) : Step P β := fun cx => (c cx).bind fun r => k r.1 r.2

/-- A lookup as a step. -/
def Step.ofLookup {P : Type} (lookup : Lookup P) (key : TypeKey) : Step P Compiled := fun cx =>
  (lookup key cx.persistent).bind fun r => .ok (r.1, { cx with persistent := r.2 })

/-- A step that reads the state of the file. -/
def Step.ofRead {P α : Type} (o : FileState → Outcome α) : Step P α := fun cx => (o cx.file).bind fun a => .ok (a, cx)

/-- The value of `_offset_`. -/
def Step.offset {P : Type} : Step P Value :=
  Step.ofFile fun f => .ok (.lengths f.state.useOffset.offset, { f with state := f.state.useOffset })

/-- Relations between steps that are preserved by sequencing, and hold of what expressions do to the state of the file. -/
structure ExprRel (P Q : Type) where
  holds : ∀ {α : Type}, Step P α → Step Q α → Prop
  ofRead : ∀ {α : Type} (o : FileState → Outcome α), holds (Step.ofRead o) (Step.ofRead o)
  offset : holds Step.offset Step.offset
  andThen : ∀ {α β : Type} {c : Step P α} {d : Step Q α} {k : α → Step P β} {l : α → Step Q β}, holds c d → (∀ a, holds (k a) (l a)) →
    holds (c.andThen k) (d.andThen l)

theorem Outcome.bind_assoc {α β γ : Type} (o : Outcome α) (f : α → Outcome β) (g : β → Outcome γ) :
    (o.bind f).bind g = o.bind fun a => (f a).bind g := by cases o <;> rfl

namespace ExprRel

variable {P Q : Type} (R : ExprRel P Q) {l₁ : Lookup P} {l₂ : Lookup Q}

/-- A result that does not depend on the state. -/
theorem const {α : Type} (o : Outcome α) : R.holds (fun cx => o.bind fun a => .ok (a, cx)) (fun cx => o.bind fun a => .ok (a, cx)) := R.ofRead fun _ => o

theorem pure {α : Type} (a : α) : R.holds (fun cx => .ok (a, cx)) (fun cx => .ok (a, cx)) := R.const (.ok a)

theorem fail {α : Type} : R.holds (fun _ => .error : Step P α) (fun _ => .error) := R.const .error

variable (h : ∀ key, R.holds (Step.ofLookup l₁ key) (Step.ofLookup l₂ key))

include h

theorem typeByKey (key : TypeKey) : R.holds (Front.typeByKey l₁ key) (Front.typeByKey l₂ key) := by
  have e : ∀ {P : Type} (l : Lookup P), Front.typeByKey l key =
      (Step.ofRead fun f => .ok (canonicalKey f.path key)).andThen fun k => (Step.ofLookup l k).andThen fun c cx => .ok ((k, c), cx) := by
    intro P l; funext cx
    simp only [Front.typeByKey, Step.ofRead, Step.andThen, Step.ofLookup, Outcome.bind_assoc]
    rfl
  rw [e, e]
  exact R.andThen (R.ofRead _) fun k => R.andThen (h k) fun c => R.pure _

theorem scalarLengths (s : ScalarTy) : R.holds (s.bitLengthSet l₁) (s.bitLengthSet l₂) := by
  cases s with
  | versioned key =>
    refine R.andThen (k := fun a cx => match a.2.kind with | .message m => .ok (m.bitLength, cx) | .service _ _ => .error)
      (l := fun a cx => match a.2.kind with | .message m => .ok (m.bitLength, cx) | .service _ _ => .error) (R.typeByKey h key) fun a => ?_
    cases a.2.kind with
    | message m => exact R.pure _
    | service _ _ => exact R.fail
  | prim p => exact R.pure _
  | void bits => exact R.pure _

theorem typeLengths (t : Ty) : R.holds (t.bitLengthSet l₁) (t.bitLengthSet l₂) := by
  cases t with
  | scalar s => exact R.scalarLengths h s
  | fixedArray s n => exact R.andThen (k := fun a cx => .ok (a.repeatTimes n, cx)) (R.scalarLengths h s) fun a => R.pure _
  | variableArray s n => exact R.andThen (k := fun a cx => .ok (a.repeatRange n, cx)) (R.scalarLengths h s) fun a => R.pure _

theorem typeAttribute (t : Ty) (name : String) : R.holds (Front.typeAttribute l₁ t name) (Front.typeAttribute l₂ t name) := by
  by_cases hn : name = "_bit_length_"
  · have e : ∀ {P : Type} (l : Lookup P), Front.typeAttribute l t name = (Step.andThen (t.bitLengthSet l) fun a cx => .ok (.lengths a, cx)) := by
      intro P l; funext cx; simp only [Front.typeAttribute, if_pos hn]; rfl
    rw [e, e]
    exact R.andThen (R.typeLengths h t) fun a => R.pure _
  · have ef : ∀ {P : Type} (l : Lookup P), (∀ key, t ≠ .scalar (.versioned key)) → Front.typeAttribute l t name = fun _ => .error := by
      intro P l hk; funext cx; simp only [Front.typeAttribute, if_neg hn]
    cases t with
    | scalar s =>
      cases s with
      | versioned key =>
        have e : ∀ {P : Type} (l : Lookup P), Front.typeAttribute l (.scalar (.versioned key)) name =
            (Step.andThen (Front.typeByKey l key) fun a cx => match a.2.kind with
              | .message m => match m.constants.get name with
                | some c => .ok (c.dsdlValue, cx)
                | none => .error
              | .service _ _ => .error) := by
          intro P l; funext cx; simp only [Front.typeAttribute, if_neg hn]; rfl
        rw [e, e]
        refine R.andThen (R.typeByKey h key) fun a => ?_
        cases a.2.kind with
        | message m =>
          dsimp only
          cases m.constants.get name with
          | some c => exact R.pure _
          | none => exact R.fail
        | service _ _ => exact R.fail
      | prim p => rw [ef l₁ (by intro k; simp), ef l₂ (by intro k; simp)]; exact R.fail
      | void b => rw [ef l₁ (by intro k; simp), ef l₂ (by intro k; simp)]; exact R.fail
    | fixedArray s n => rw [ef l₁ (by intro k; simp), ef l₂ (by intro k; simp)]; exact R.fail
    | variableArray s n => rw [ef l₁ (by intro k; simp), ef l₂ (by intro k; simp)]; exact R.fail

theorem valueAttribute (x : Externals) (v : Value) (name : String) : R.holds (evalAttribute x l₁ v name) (evalAttribute x l₂ v name) := by
  cases v with
  | set s => exact R.const _
  | lengths l => exact R.const _
  | type t => exact R.typeAttribute h t name
  | rational q => exact R.fail
  | string s => exact R.fail
  | boolean b => exact R.fail

omit h in
theorem identifier (name : String) : R.holds (evalIdentifier (P := P) name) (evalIdentifier (P := Q) name) := by
  by_cases hn : name = "_offset_"
  · have e : ∀ {P : Type}, (evalIdentifier name : Step P Value) = Step.offset := by
      intro P; funext cx; simp only [evalIdentifier, Step.offset, Step.ofFile, if_pos hn]; rfl
    rw [e, e]
    exact R.offset
  · have e : ∀ {P : Type}, (evalIdentifier name : Step P Value) = Step.ofRead fun f =>
        match f.constants.get name with
        | some c => .ok c.dsdlValue
        | none => .error := by
      intro P; funext cx; simp only [evalIdentifier, Step.ofRead, if_neg hn]
      cases cx.file.constants.get name <;> rfl
    rw [e, e]
    exact R.ofRead _

set_option linter.unusedSectionVars false in
mutual
theorem expr (x : Externals) : ∀ e : Expr, R.holds (e.eval x l₁) (e.eval x l₂)
  | .parenthesized e => expr x e
  | .scalarType s => R.pure _
  | .arrayType s kind length => by
    have e : ∀ {P : Type} (l : Lookup P), (Expr.arrayType s kind length).eval x l = (Step.andThen (length.eval x l) fun v cx =>
        ((arrayLength v).bind fun n => (Front.arrayType s kind n).bind fun t => .ok (Value.type t)).bind fun v => .ok (v, cx)) := by
      intro P l; funext cx; rw [Expr.eval]; simp only [Step.andThen, Outcome.bind_assoc]; rfl
    rw [e, e]
    exact R.andThen (expr x length) fun v => R.const _
  | .set es => by
    have e : ∀ {P : Type} (l : Lookup P), (Expr.set es).eval x l = (Step.andThen (Expr.evalSet x l es []) fun s cx => .ok (.set s, cx)) := by
      intro P l; funext cx; rw [Expr.eval]; rfl
    rw [e, e]
    exact R.andThen (exprs x es []) fun v => R.pure _
  | .number q => R.pure _
  | .string s => R.pure _
  | .boolean b => R.pure _
  | .identifier name => R.identifier name
  | .unary op e => by
    have e' : ∀ {P : Type} (l : Lookup P), (Expr.unary op e).eval x l = (Step.andThen (e.eval x l) fun v cx =>
        (evalUnary op v).bind fun v => .ok (v, cx)) := by
      intro P l; funext cx; rw [Expr.eval]; rfl
    rw [e', e']
    exact R.andThen (expr x e) fun v => R.const _
  | .binary op a b => by
    have e' : ∀ {P : Type} (l : Lookup P), (Expr.binary op a b).eval x l = (Step.andThen (a.eval x l) fun v =>
        Step.andThen (b.eval x l) fun w cx => (evalBinary x op v w).bind fun v => .ok (v, cx)) := by
      intro P l; funext cx; rw [Expr.eval]; rfl
    rw [e', e']
    exact R.andThen (expr x a) fun v => R.andThen (expr x b) fun w => R.const _
  | .attribute e name => by
    have e' : ∀ {P : Type} (l : Lookup P), (Expr.attribute e name).eval x l = (Step.andThen (e.eval x l) fun v => evalAttribute x l v name) := by
      intro P l; funext cx; rw [Expr.eval]; rfl
    rw [e', e']
    exact R.andThen (expr x e) fun v => R.valueAttribute h x v name
theorem exprs (x : Externals) : ∀ (es : List Expr) (s : ValueSet), R.holds (Expr.evalSet x l₁ es s) (Expr.evalSet x l₂ es s)
  | [], s => R.pure _
  | e :: es, s => by
    have e' : ∀ {P : Type} (l : Lookup P), Expr.evalSet x l (e :: es) s = (Step.andThen (e.eval x l) fun v =>
        match s.insert v with
        | some s' => Expr.evalSet x l es s'
        | none => fun _ => .error) := by
      intro P l; funext cx; rw [Expr.evalSet]; simp only [Step.andThen]
      congr 1; funext r; cases s.insert r.1 <;> rfl
    rw [e', e']
    refine R.andThen (expr x e) fun v => ?_
    cases s.insert v with
    | some s' => exact exprs x es s'
    | none => exact R.fail
end

theorem convert (x : Externals) (t : TypeAst) : R.holds (convertType x l₁ t) (convertType x l₂ t) := by
  cases t with
  | scalar s => exact R.pure _
  | array s kind length =>
    have e : ∀ {P : Type} (l : Lookup P), convertType x l (.array s kind length) = (Step.andThen (length.eval x l) fun v cx =>
        ((arrayLength v).bind fun n => Front.arrayType s kind n).bind fun v => .ok (v, cx)) := by
      intro P l; funext cx; simp only [convertType, Step.andThen, Outcome.bind_assoc]
    rw [e, e]
    exact R.andThen (R.expr h x length) fun v => R.const _

theorem resolveScalar (s : ScalarTy) : R.holds (s.resolve l₁) (s.resolve l₂) := by
  cases s with
  | versioned key =>
    refine R.andThen (k := fun a cx => match a.2.kind with | .message m => .ok (RScalar.composite a.1 m, cx) | .service _ _ => .error)
      (l := fun a cx => match a.2.kind with | .message m => .ok (RScalar.composite a.1 m, cx) | .service _ _ => .error) (R.typeByKey h key) fun a => ?_
    cases a.2.kind with
    | message m => exact R.pure _
    | service _ _ => exact R.fail
  | prim p => exact R.pure _
  | void bits => exact R.pure _

theorem resolve (t : Ty) : R.holds (t.resolve l₁) (t.resolve l₂) := by
  cases t with
  | scalar s => exact R.andThen (k := fun a cx => .ok ((a, Dsdl.Arity.scalar), cx)) (R.resolveScalar h s) fun a => R.pure _
  | fixedArray s n => exact R.andThen (k := fun a cx => .ok ((a, Dsdl.Arity.fixed n), cx)) (R.resolveScalar h s) fun a => R.pure _
  | variableArray s n => exact R.andThen (k := fun a cx => .ok ((a, Dsdl.Arity.var n), cx)) (R.resolveScalar h s) fun a => R.pure _

end ExprRel

/-- Relations between steps that are preserved by sequencing, and hold of everything that is done to the state of the file. -/
structure Rel (P Q : Type) extends ExprRel P Q where
  ofFile : ∀ {α : Type} (o : FileState → Outcome (α × FileState)), holds (Step.ofFile o) (Step.ofFile o)

/-- `Rel` from what it needs. -/
def Rel.of {P Q : Type} (holds : ∀ {α : Type}, Step P α → Step Q α → Prop)
    (ofFile : ∀ {α : Type} (o : FileState → Outcome (α × FileState)), holds (Step.ofFile o) (Step.ofFile o))
    (andThen : ∀ {α β : Type} {c : Step P α} {d : Step Q α} {k : α → Step P β} {l : α → Step Q β}, holds c d → (∀ a, holds (k a) (l a)) →
      holds (c.andThen k) (d.andThen l)) : Rel P Q where
  holds := holds
  ofRead o := by
    have e : ∀ {P : Type}, Step.ofRead o = (Step.ofFile fun f => (o f).bind fun a => .ok (a, f) : Step P _) := by
      intro P; funext cx; simp only [Step.ofRead, Step.ofFile]; cases o cx.file <;> rfl
    rw [e, e]; exact ofFile _
  offset := ofFile _
  andThen := andThen
  ofFile := ofFile

namespace Rel

variable {P Q : Type} (R : Rel P Q) {l₁ : Lookup P} {l₂ : Lookup Q} (h : ∀ key, R.holds (Step.ofLookup l₁ key) (Step.ofLookup l₂ key))

include h

/-- A step of the compiler without a result. -/
def _root_.Verif.Front.Step.ofUnit {P : Type} (c : Cx P → Outcome (Cx P)) : Step P Unit := fun cx => (c cx).bind fun cx => .ok ((), cx)

omit h in
theorem fileStep (o : FileState → Outcome FileState) :
    R.holds (Step.ofUnit fun cx => (o cx.file).bind fun f => .ok { cx with file := f }) (Step.ofUnit fun cx => (o cx.file).bind fun f => .ok { cx with file := f }) := by
  have e : ∀ {P : Type}, (Step.ofUnit fun cx : Cx P => (o cx.file).bind fun f => .ok { cx with file := f }) =
      Step.ofFile fun f => (o f).bind fun f => .ok ((), f) := by
    intro P; funext cx; simp only [Step.ofUnit, Step.ofFile, Outcome.bind_assoc]; rfl
  rw [e, e]
  exact R.ofFile _

omit h in
theorem stateStep (o : FileState → Outcome State) :
    R.holds (Step.ofUnit fun cx => cx.withState (o cx.file)) (Step.ofUnit fun cx => cx.withState (o cx.file)) := by
  have e : ∀ {P : Type}, (fun cx : Cx P => cx.withState (o cx.file)) =
      fun cx => ((fun f : FileState => (o f).bind fun s => .ok { f with state := s }) cx.file).bind fun f => .ok { cx with file := f } := by
    intro P; funext cx; simp only [Cx.withState, Outcome.bind_assoc]; rfl
  rw [e, e]
  exact R.fileStep fun f : FileState => (o f).bind fun s => .ok { f with state := s }

omit h in
theorem _root_.Verif.Front.Step.ofUnit_bind {P α : Type} (c : Step P α) (k : α → Cx P → Outcome (Cx P)) :
    Step.ofUnit (fun cx => (c cx).bind fun r => k r.1 r.2) = c.andThen fun a => Step.ofUnit (k a) := by
  funext cx; simp only [Step.ofUnit, Step.andThen, Outcome.bind_assoc]

theorem directive (x : Externals) (name : String) (value : Option Expr) :
    R.holds (Step.ofUnit (evalDirective x l₁ name value)) (Step.ofUnit (evalDirective x l₂ name value)) := by
  have hf : R.holds (Step.ofUnit fun _ => .error) (Step.ofUnit fun _ => .error) := R.fail
  have hp : R.holds (Step.ofUnit fun cx => .ok cx) (Step.ofUnit fun cx => .ok cx) := R.pure ()
  by_cases h1 : name = "union"
  · subst h1; cases value with
    | none => exact R.stateStep fun f => f.state.handleUnion
    | some e => exact hf
  by_cases h2 : name = "extent"
  · subst h2; cases value with
    | none => exact hf
    | some e =>
      have e' : ∀ {P : Type} (l : Lookup P), Step.ofUnit (evalDirective x l "extent" (some e)) = Step.andThen (e.eval x l) fun v =>
          Step.andThen (fun cx => (extentValue v).bind fun n => .ok (n, cx)) fun n => Step.ofUnit fun cx => cx.withState (cx.file.state.finish (some n)) := by
        intro P l; funext cx
        simp only [evalDirective, Step.ofUnit, Step.andThen, Outcome.bind_assoc]
        rfl
      rw [e', e']
      exact R.andThen (R.expr h x e) fun v => R.andThen (R.const _) fun n => R.stateStep fun f => f.state.finish (some n)
  by_cases h3 : name = "sealed"
  · subst h3; cases value with
    | none => exact R.stateStep fun f => f.state.finish none
    | some e => exact hf
  by_cases h4 : name = "deprecated"
  · subst h4; cases value with
    | none => exact R.fileStep fun f => f.handleDeprecated
    | some e => exact hf
  by_cases h5 : name = "assert"
  · subst h5; cases value with
    | none => exact hf
    | some e =>
      have e' : ∀ {P : Type} (l : Lookup P), Step.ofUnit (evalDirective x l "assert" (some e)) = Step.andThen (e.eval x l) fun v =>
          Step.ofUnit fun cx => match v with | .boolean true => .ok cx | _ => .error := by
        intro P l; rw [← Step.ofUnit_bind]; rfl
      rw [e', e']
      refine R.andThen (R.expr h x e) fun v => ?_
      split
      · exact hp
      · exact hf
  by_cases h6 : name = "print"
  · subst h6; cases value with
    | none => exact hp
    | some e =>
      have e' : ∀ {P : Type} (l : Lookup P), Step.ofUnit (evalDirective x l "print" (some e)) = Step.andThen (e.eval x l) fun _ =>
          Step.ofUnit fun cx => .ok cx := by
        intro P l; rw [← Step.ofUnit_bind]; rfl
      rw [e', e']
      exact R.andThen (R.expr h x e) fun v => hp
  have e' : ∀ {P : Type} (l : Lookup P), evalDirective x l name value = fun _ => .error := by
    intro P l; funext cx; unfold evalDirective; split <;> first | rfl | contradiction
  rw [e', e']
  exact hf

theorem constant (x : Externals) (ty : Prim) (name : String) (value : Expr) :
    R.holds (evalConstant x l₁ ty name value) (evalConstant x l₂ ty name value) := by
  by_cases hr : x.reserved name = true
  · have e : ∀ {P : Type} (l : Lookup P), evalConstant x l ty name value = fun _ => .error := by
      intro P l; funext cx; rw [evalConstant, if_pos hr]
    rw [e, e]; exact R.fail
  · have e : ∀ {P : Type} (l : Lookup P), evalConstant x l ty name value = Step.andThen (value.eval x l) fun v cx =>
        ((checkType x ty v).bind fun c => .ok (⟨ty, v, c⟩ : Constant)).bind fun c => .ok (c, cx) := by
      intro P l; funext cx; rw [evalConstant, if_neg hr]; simp only [Step.andThen, Outcome.bind_assoc]; rfl
    rw [e, e]
    exact R.andThen (R.expr h x value) fun v => R.const _

theorem statement (x : Externals) (s : Statement) : R.holds (Step.ofUnit (s.run x l₁)) (Step.ofUnit (s.run x l₂)) := by
  cases s with
  | directive name value => exact R.directive h x name value
  | constant ty name value =>
    have e : ∀ {P : Type} (l : Lookup P), Step.ofUnit ((Statement.constant ty name value).run x l) =
        (Step.ofFile fun f => if f.constants.containsKey name then .error else .ok ((), f)).andThen fun _ =>
          Step.andThen (evalConstant x l ty name value) fun c => Step.ofFile fun f => .ok ((), { f with constants := f.constants.insert name c }) := by
      intro P l; funext cx
      simp only [Statement.run, Step.ofUnit, Step.andThen, Step.ofFile]
      split
      · rfl
      · rw [Outcome.bind_assoc]; rfl
    rw [e, e]
    exact R.andThen (R.ofFile _) fun _ => R.andThen (R.constant h x ty name value) fun c => R.ofFile _
  | field ty name =>
    have e : ∀ {P : Type} (l : Lookup P), Step.ofUnit ((Statement.field ty name).run x l) =
        Step.andThen (convertType x l ty) fun t => Step.andThen (t.resolve l) fun r => Step.ofFile fun f =>
          if !f.deprecated && r.1.deprecated then .error else (f.state.addField r.1 r.2 name).bind fun s => .ok ((), { f with state := s }) := by
      intro P l; funext cx
      simp only [Statement.run, Step.ofUnit, Step.andThen, Step.ofFile, Outcome.bind_assoc, Cx.withState]
      congr 1; funext t; congr 1; funext r
      split
      · rfl
      · simp only [Outcome.bind_assoc]; rfl
    rw [e, e]
    exact R.andThen (R.convert h x ty) fun t => R.andThen (R.resolve h t) fun r => R.ofFile _
  | padding bits => exact R.stateStep fun f => f.state.addPadding bits
  | responseMarker => exact R.fileStep fun f => f.handleMarker

theorem statements (x : Externals) : ∀ ss : List Statement, R.holds (Step.ofUnit (runAll x l₁ ss)) (Step.ofUnit (runAll x l₂ ss))
  | [] => R.pure ()
  | s :: rest => by
    have e : ∀ {P : Type} (l : Lookup P), Step.ofUnit (runAll x l (s :: rest)) = Step.andThen (Step.ofUnit (s.run x l)) fun _ => Step.ofUnit (runAll x l rest) := by
      intro P l; funext cx; simp only [runAll, Step.ofUnit, Step.andThen, Outcome.bind_assoc]; rfl
    rw [e, e]
    exact R.andThen (R.statement h x s) fun _ => statements x rest

/-- Compiling the statements of a file, from the empty state. -/
def _root_.Verif.Front.fileStep {P : Type} (x : Externals) (l : Lookup P) (ss : List Statement) (port : Option Nat) : Step P Compiled :=
  Step.andThen (Step.ofUnit (runAll x l ss)) fun _ => Step.ofFile fun f => (f.finish port).bind fun c => .ok (c, f)

theorem file (x : Externals) (ss : List Statement) (port : Option Nat) : R.holds (Front.fileStep x l₁ ss port) (Front.fileStep x l₂ ss port) :=
  R.andThen (R.statements h x ss) fun _ => R.ofFile _

end Rel

/-- `compileFile` runs the statements of the file from the empty state. -/
theorem compileFile_eq {P : Type} (x : Externals) (l : Lookup P) (key : TypeKey) (file : File) (p : P) :
    compileFile x l key file p = match file.statements with
      | some ss => (fileStep x l ss file.port ⟨.new key.path, p⟩).bind fun r => .ok (r.1, r.2.persistent)
      | none => .error := by
  unfold compileFile
  cases file.statements with
  | none => rfl
  | some ss =>
    simp only [fileStep, Step.andThen, Step.ofUnit, Step.ofFile, Outcome.bind_assoc]
    rfl

end Verif.Front
