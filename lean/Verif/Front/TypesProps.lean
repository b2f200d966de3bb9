import Verif.Front.Section
import Verif.Front.SolveProps

/-!
C85: a compiled type is the one that its DSDL file describes. C87: what a file may not contain. C83: the constants of a type are those that its file declares, with values that their types can represent.
-/

namespace Verif.Front

open Verif.Dsdl (Arity)

/-- **C85** (one file): a compiled type has the port that the file has. A message is what the statements of the file describe: its members and constants are those that are
declared, in order; it is a union, sealed or deprecated exactly if the file says so. For a service, the request is what the statements before `---` describe, and the
response what those after it describe. All assertions in the file are true. -/
theorem C85_file (x : Externals) (known : List (TypeKey × Compiled)) (key : TypeKey) (file : File) (c : Compiled) (h : Compiles x known key file c) :
    ∃ ss, file.statements = some ss ∧ c.port = file.port ∧ DescribedBy x known key.path ss c.kind := by
  unfold Compiles compileFile at h
  split at h
  · next ss hss =>
    obtain ⟨⟨f, p⟩, h1, h2⟩ := Outcome.bind_ok h
    obtain ⟨c', h3, h4⟩ := Outcome.bind_ok h2
    obtain ⟨rfl, rfl⟩ : c' = c ∧ p = known := by cases h4; exact ⟨rfl, rfl⟩
    obtain ⟨_, hi⟩ := statements_inv new_inv h1
    rw [List.nil_append] at hi
    obtain ⟨hp, m, hm, hk⟩ := finishFile_part h3
    refine ⟨ss, hss, hp, ?_⟩
    have hs := hi.sections
    have hd := hi.deprecated
    dsimp only at hk
    cases hr : f.state.request with
    | none =>
      rw [hr] at hs hk
      rw [hk]
      exact ⟨(hs.finished hm).1, by rw [hm.deprecated]; exact hd⟩
    | some req =>
      rw [hr] at hs hk
      rw [hk]
      obtain ⟨a, b, h5, h6, h7, h8, h9⟩ := hs
      exact ⟨a, b, h5, h6, (h9.finished hm).1, by rw [h8]; exact hd, hm.deprecated.trans h8.symm⟩
  · cases h

/-- **C87** (each message): the messages of a compiled type have members with different names and constants with different names; a union has at least two variants and no
padding; the extent is a whole number of bytes; members of other types are the known types with these names; and a type that is not deprecated has no members
of deprecated types. Missing: the rules in the counterexamples below. -/
theorem C87_messages_partial (x : Externals) (known : List (TypeKey × Compiled)) (key : TypeKey) (file : File) (c : Compiled) (h : Compiles x known key file c)
    (m : CMessage) (hmem : m ∈ c.messages) : WellFormed known m := by
  unfold Compiles compileFile at h
  split at h
  · next ss hss =>
    obtain ⟨⟨f, p⟩, h1, h2⟩ := Outcome.bind_ok h
    obtain ⟨c', h3, h4⟩ := Outcome.bind_ok h2
    obtain ⟨rfl, rfl⟩ : c' = c ∧ p = known := by cases h4; exact ⟨rfl, rfl⟩
    obtain ⟨_, hi⟩ := statements_inv new_inv h1
    obtain ⟨hp, m', hm, hk⟩ := finishFile_part h3
    have hs := hi.sections
    dsimp only at hk
    unfold Compiled.messages at hmem
    cases hr : f.state.request with
    | none =>
      rw [hr] at hs hk
      rw [hk] at hmem
      rw [List.mem_singleton.1 hmem]
      exact (hs.finished hm).2
    | some req =>
      rw [hr] at hs hk
      rw [hk] at hmem
      obtain ⟨a, b, h5, h6, h7, h8, h9⟩ := hs
      rcases List.mem_cons.1 hmem with rfl | hmem
      · exact h7
      · rw [List.mem_singleton.1 hmem]
        exact (h9.finished hm).2
  · cases h

/-- **C87** (the statements of a file): in each section of a file that compiles there is exactly one `@sealed` or `@extent`, after all members, and at most one `@union`,
before all members; `@deprecated` occurs at most once in the file, before all members; other directives are known, and what is asserted is true; there is at
most one `---`. -/
theorem C87_statements (x : Externals) (known : List (TypeKey × Compiled)) (key : TypeKey) (file : File) (c : Compiled) (h : Compiles x known key file c)
    (ss : List Statement) (hss : file.statements = some ss) :
    (∃ d, DescribesDeprecated ss d) ∧
    ∃ sections : List (List Statement), ss = (sections.intersperse [Statement.responseMarker]).flatten ∧ sections.length = c.messages.length ∧
      ∀ part ∈ sections, (∃ s, part.filter Statement.isEnd = [s]) ∧ (part.Pairwise fun s s' => s.isEnd → ¬ s'.isField) ∧
        (part.filter Statement.isUnion).length ≤ 1 ∧ (part.Pairwise fun s s' => s.isField → ¬ s'.isUnion) ∧ (∀ s ∈ part, ¬ s.isMarker) ∧
        ∃ cs, ∀ s ∈ part, Accepts x known key.path cs s := by
  obtain ⟨ss', hss', _, hk⟩ := C85_file x known key file c h
  obtain rfl : ss' = ss := Option.some.inj (hss'.symm.trans hss)
  have one : ∀ {part : List Statement} {m : CMessage}, Describes x known key.path part m →
      (∃ s, part.filter Statement.isEnd = [s]) ∧ (part.Pairwise fun s s' => s.isEnd → ¬ s'.isField) ∧
        (part.filter Statement.isUnion).length ≤ 1 ∧ (part.Pairwise fun s s' => s.isField → ¬ s'.isUnion) ∧ (∀ s ∈ part, ¬ s.isMarker) ∧
        ∃ cs, ∀ s ∈ part, Accepts x known key.path cs s := by
    intro part m hd
    obtain ⟨s, hs, _⟩ := hd.extent
    refine ⟨⟨s, hs⟩, hd.last, ?_, hd.first, hd.marker, _, hd.directives⟩
    rw [hd.union]
    split <;> decide
  unfold Compiled.messages
  cases hc : c.kind with
  | message m =>
    rw [hc] at hk
    exact ⟨⟨_, hk.2⟩, [ss'], by simp [List.intersperse], rfl, by
      intro part hp
      rw [List.mem_singleton.1 hp]
      exact one hk.1⟩
  | service req resp =>
    rw [hc] at hk
    obtain ⟨a, b, hab, h1, h2, h3, _⟩ := hk
    refine ⟨⟨_, h3⟩, [a, b], by simp [List.intersperse, hab], rfl, ?_⟩
    intro part hp
    rcases List.mem_cons.1 hp with rfl | hp
    · exact one h1
    · rw [List.mem_singleton.1 hp]
      exact one h2

/-- **C85** (all files): each type that compiling files gives is described by its own file, where the names of other types stand for the types in the result. -/
theorem C85_all (x : Externals) (files : List (TypeKey × File)) (types : List (TypeKey × Compiled)) (hd : DifferentNames files)
    (h : compile x files = .ok types) (key : TypeKey) (c : Compiled) (hm : (key, c) ∈ types) :
    ∃ name file ss, (name, file) ∈ files ∧ SameName name key ∧ file.statements = some ss ∧ c.port = file.port ∧ DescribedBy x types key.path ss c.kind ∧
      ∀ m ∈ c.messages, WellFormed types m := by
  obtain ⟨name, file, hf, hn, hc⟩ := C84_closed x files types hd h key c hm
  obtain ⟨ss, hss, hp, hk⟩ := C85_file x types key file c hc
  exact ⟨name, file, ss, hf, hn, hss, hp, hk, C87_messages_partial x types key file c hc⟩

theorem declared_constant {x : Externals} {known : List (TypeKey × Compiled)} {path : List String} {cs : Constants} :
    ∀ {ss : List Statement} {l : Constants}, List.Forall₂ (DeclaresConstant x known path cs) ss l →
      (∀ e ∈ l, ∃ s ∈ ss, DeclaresConstant x known path cs s e) ∧ ∀ s ∈ ss, ∃ e ∈ l, DeclaresConstant x known path cs s e
  | _, _, .nil => ⟨by simp, by simp⟩
  | _, _, .cons h t => by
    obtain ⟨h1, h2⟩ := declared_constant t
    constructor
    · intro e he
      rcases List.mem_cons.1 he with rfl | he
      · exact ⟨_, List.mem_cons_self, h⟩
      · obtain ⟨s, hs, hd⟩ := h1 e he
        exact ⟨s, List.mem_cons_of_mem _ hs, hd⟩
    · intro s hs
      rcases List.mem_cons.1 hs with rfl | hs
      · exact ⟨_, List.mem_cons_self, h⟩
      · obtain ⟨e, he, hd⟩ := h2 s hs
        exact ⟨e, List.mem_cons_of_mem _ he, hd⟩

theorem describes_constants {x : Externals} {known : List (TypeKey × Compiled)} {path : List String} {ss : List Statement} {m : CMessage}
    (h : Describes x known path ss m) :
    (∀ e ∈ m.constants, ∃ expr, Statement.constant e.2.ty e.1 expr ∈ ss ∧ HasValue x known path m.constants expr e.2.dsdlValue ∧
      Represents x e.2.ty e.2.dsdlValue e.2.value ∧ x.reserved e.1 = false) ∧
    ∀ ty name expr, Statement.constant ty name expr ∈ ss → ∃ e ∈ m.constants, e.1 = name ∧ e.2.ty = ty ∧ HasValue x known path m.constants expr e.2.dsdlValue := by
  obtain ⟨h1, h2⟩ := declared_constant h.constants
  constructor
  · intro e he
    obtain ⟨s, hs, hd⟩ := h1 e he
    cases s with
    | constant ty name expr =>
      obtain ⟨rfl, rfl, h3, h4, h5⟩ := hd
      exact ⟨expr, (List.mem_filter.1 hs).1, h3, h4, h5⟩
    | _ => exact hd.elim
  · intro ty name expr hs
    obtain ⟨e, he, hd⟩ := h2 _ (List.mem_filter.2 ⟨hs, rfl⟩)
    exact ⟨e, he, hd.1, hd.2.1, hd.2.2.1⟩

/-- **C83** (constants of a type): each constant of a compiled message has a name of its own that is not reserved, and the file declares it with this type and an
expression that has this value. The type represents the value: integers are in its range, a character for `uint8` is an ASCII character. -/
theorem C83_constants (x : Externals) (known : List (TypeKey × Compiled)) (key : TypeKey) (file : File) (c : Compiled) (h : Compiles x known key file c)
    (m : CMessage) (hm : m ∈ c.messages) :
    (m.constants.map Prod.fst).Nodup ∧
    ∀ e ∈ m.constants, x.reserved e.1 = false ∧ Represents x e.2.ty e.2.dsdlValue e.2.value ∧
      ∃ ss expr, file.statements = some ss ∧ Statement.constant e.2.ty e.1 expr ∈ ss ∧ HasValue x known key.path m.constants expr e.2.dsdlValue := by
  refine ⟨(C87_messages_partial x known key file c h m hm).constants, ?_⟩
  obtain ⟨ss, hss, _, hk⟩ := C85_file x known key file c h
  have key : ∃ part, part ⊆ ss ∧ Describes x known key.path part m := by
    unfold Compiled.messages at hm
    cases hc : c.kind with
    | message m' =>
      rw [hc] at hm hk
      rw [List.mem_singleton.1 hm]
      exact ⟨ss, List.Subset.refl _, hk.1⟩
    | service req resp =>
      rw [hc] at hm hk
      obtain ⟨a, b, rfl, h1, h2, _⟩ := hk
      rcases List.mem_cons.1 hm with rfl | hm
      · exact ⟨a, List.subset_append_left _ _, h1⟩
      · rw [List.mem_singleton.1 hm]
        exact ⟨b, fun s hs => List.mem_append_right _ (List.mem_cons_of_mem _ hs), h2⟩
  obtain ⟨part, hsub, hd⟩ := key
  intro e he
  obtain ⟨expr, h1, h2, h3, h4⟩ := (describes_constants hd).1 e he
  exact ⟨h4, h3, ss, expr, hss, hsub h1, h2⟩

/-- **C83** (declared constants): each constant that the file declares is a constant of a message of the type, with the declared type and the value of the
expression. -/
theorem C83_declared (x : Externals) (known : List (TypeKey × Compiled)) (key : TypeKey) (file : File) (c : Compiled) (h : Compiles x known key file c)
    (ss : List Statement) (hss : file.statements = some ss) (ty : Prim) (name : String) (expr : Expr) (hs : Statement.constant ty name expr ∈ ss) :
    ∃ m ∈ c.messages, ∃ e ∈ m.constants, e.1 = name ∧ e.2.ty = ty ∧ HasValue x known key.path m.constants expr e.2.dsdlValue := by
  obtain ⟨ss', hss', _, hk⟩ := C85_file x known key file c h
  obtain rfl : ss' = ss := Option.some.inj (hss'.symm.trans hss)
  unfold Compiled.messages
  cases hc : c.kind with
  | message m =>
    rw [hc] at hk
    exact ⟨m, List.mem_singleton.2 rfl, (describes_constants hk.1).2 ty name expr hs⟩
  | service req resp =>
    rw [hc] at hk
    obtain ⟨a, b, rfl, h1, h2, _⟩ := hk
    rcases List.mem_append.1 hs with hs | hs
    · exact ⟨req, by simp, (describes_constants h1).2 ty name expr hs⟩
    · rcases List.mem_cons.1 hs with hs | hs
      · cases hs
      · exact ⟨resp, by simp, (describes_constants h2).2 ty name expr hs⟩

/-! ### Cases -/

theorem compiles_of_check {x : Externals} {known : List (TypeKey × Compiled)} {key : TypeKey} {file : File} {check : Compiled → Bool}
    (h : (match compileFile x table key file known with | .ok r => check r.1 | _ => false) = true) : ∃ c, Compiles x known key file c ∧ check c = true := by
  cases hc : compileFile x table key file known with
  | error => rw [hc] at h; cases h
  | panic => rw [hc] at h; cases h
  | ok r =>
    rw [hc] at h
    refine ⟨r.1, ?_, h⟩
    unfold Compiles
    rw [hc]
    unfold compileFile at hc
    split at hc
    · obtain ⟨⟨f, p⟩, h1, h2⟩ := Outcome.bind_ok hc
      obtain ⟨c, h3, h4⟩ := Outcome.bind_ok h2
      cases h4
      rw [(statements_inv new_inv h1).1]
    · cases hc

/-- The name and the number of elements of the members, without padding. -/
def CMessage.outline (m : CMessage) : List (String × Arity) := m.members.filterMap fun
  | .data n _ a => some (n, a)
  | .padding _ => none

/-- The names and values of the constants. -/
def CMessage.constantValues (m : CMessage) : List (String × ConstantValue) := m.constants.map fun c => (c.1, c.2.value)

/-- An unsigned integer type. -/
abbrev uintTy (bits : Nat) : Prim := .uint bits .saturated

/-- A service:
```
@deprecated
@union
uint8 N = 4
uint8 LETTER = 'A'
uint8 a
uint16[<N] b
@assert N > 3
@sealed
---
bool[3] flags
void5
uint8[<=2] more
@extent 8 * 64
```
-/
def demoService : File := ⟨some 100, some [
  .directive "deprecated" none,
  .directive "union" none,
  .constant (uintTy 8) "N" (.number 4),
  .constant (uintTy 8) "LETTER" (.string "A"),
  .field (.scalar (.prim (uintTy 8))) "a",
  .field (.array (.prim (uintTy 16)) .exclusive (.identifier "N")) "b",
  .directive "assert" (some (.binary .greater (.identifier "N") (.number 3))),
  .directive "sealed" none,
  .responseMarker,
  .field (.array (.prim .boolean) .fixed (.number 3)) "flags",
  .padding 5,
  .field (.array (.prim (uintTy 8)) .inclusive (.number 2)) "more",
  .directive "extent" (some (.binary .multiply (.number 8) (.number 64)))]⟩

-- The service compiles, to what it says.
example : ∃ c, Compiles demoX [] (demoKey "S") demoService c ∧ (match c.kind with
    | .service a b => c.port == some 100 && a.isUnion && !b.isUnion && a.deprecated && b.deprecated && a.extent == none && b.extent == some 512 &&
      a.outline == [("a", .scalar), ("b", .var 3)] && b.outline == [("flags", .fixed 3), ("more", .var 2)] && b.members.length == 3 &&
      a.constantValues == [("N", .int 4), ("LETTER", .int 65)] && b.constantValues == []
    | _ => false) = true :=
  compiles_of_check (by decide +kernel)

-- The files of C84 compile, so that C85_all applies to them.
example : DifferentNames demoFiles ∧ (match compile demoX demoFiles with | .ok l => l.length | _ => 0) = 3 :=
  ⟨(different_iff _).2 (by decide +kernel), by decide +kernel⟩

-- A declared constant.
example : ∃ c, Compiles demoX [] (demoKey "S") demoService c ∧ ∃ ss, demoService.statements = some ss ∧ Statement.constant (uintTy 8) "N" (.number 4) ∈ ss := by
  obtain ⟨c, hc, _⟩ := compiles_of_check (x := demoX) (known := []) (key := demoKey "S") (file := demoService) (check := fun _ => true) (by decide +kernel)
  exact ⟨c, hc, _, rfl, by simp⟩

/-- A file with these statements. -/
def fileOf (ss : List Statement) : File := ⟨none, some ss⟩

/-- Whether a file compiles. -/
def compilesB (ss : List Statement) : Bool :=
  match compileFile demoX table (demoKey "T") (fileOf ss) [] with
  | .ok _ => true
  | _ => false

-- Not accepted: no end, two ends, a field after the end, a union with one variant, padding in a union, two fields of the same name, an assertion that is false,
-- an unknown directive, a constant out of range, and a constant with a reserved name.
example : compilesB [.field (.scalar (.prim (uintTy 8))) "a"] = false ∧
    compilesB [.directive "sealed" none, .directive "sealed" none] = false ∧
    compilesB [.directive "sealed" none, .field (.scalar (.prim (uintTy 8))) "a"] = false ∧
    compilesB [.directive "union" none, .field (.scalar (.prim (uintTy 8))) "a", .directive "sealed" none] = false ∧
    compilesB [.directive "union" none, .padding 8, .directive "sealed" none] = false ∧
    compilesB [.field (.scalar (.prim (uintTy 8))) "a", .field (.scalar (.prim (uintTy 8))) "a", .directive "sealed" none] = false ∧
    compilesB [.directive "sealed" none, .directive "assert" (some (.boolean false))] = false ∧
    compilesB [.directive "sealed" none, .directive "other" none] = false ∧
    compilesB [.constant (uintTy 8) "N" (.number 256), .directive "sealed" none] = false ∧
    compilesB [.constant (uintTy 8) "bool" (.number 1), .directive "sealed" none] = false := by decide +kernel

/-- **C87 does not hold**: an extent that is smaller than the type is accepted. The type of this file takes 16 bits, its extent is 8 bits. -/
theorem C87_counterexample_extent : ∃ c, Compiles demoX [] (demoKey "T")
    (fileOf [.field (.scalar (.prim (uintTy 16))) "a", .directive "extent" (some (.number 8))]) c ∧
    (match c.kind with | .message m => m.extent == some 8 && m.outline == [("a", .scalar)] | _ => false) = true :=
  compiles_of_check (by decide +kernel)

/-- **C87 does not hold**: a field of a void type may have a name, and there may be arrays of void. -/
theorem C87_counterexample_void : ∃ c, Compiles demoX [] (demoKey "T")
    (fileOf [.field (.scalar (.void 8)) "a", .field (.array (.void 3) .fixed (.number 2)) "b", .directive "sealed" none]) c ∧
    (match c.kind with | .message m => m.outline == [("a", .scalar), ("b", .fixed 2)] | _ => false) = true :=
  compiles_of_check (by decide +kernel)

/-- **C87 does not hold**: a field and a constant may have the same name. -/
theorem C87_counterexample_same_name : ∃ c, Compiles demoX [] (demoKey "T")
    (fileOf [.constant (uintTy 8) "a" (.number 1), .field (.scalar (.prim (uintTy 8))) "a", .directive "sealed" none]) c ∧
    (match c.kind with | .message m => m.outline == [("a", .scalar)] && m.constantValues == [("a", .int 1)] | _ => false) = true :=
  compiles_of_check (by decide +kernel)

/-- **C87 does not hold**: reserved names are rejected for constants, but not for fields. -/
theorem C87_counterexample_reserved : demoX.reserved "bool" = true ∧ ∃ c, Compiles demoX [] (demoKey "T")
    (fileOf [.field (.scalar (.prim (uintTy 8))) "bool", .directive "sealed" none]) c ∧
    (match c.kind with | .message m => m.outline == [("bool", .scalar)] | _ => false) = true :=
  ⟨by decide +kernel, compiles_of_check (by decide +kernel)⟩

/-- **C87 does not hold**: an array may have no elements. -/
theorem C87_counterexample_empty_array : ∃ c, Compiles demoX [] (demoKey "T")
    (fileOf [.field (.array (.prim (uintTy 8)) .fixed (.number 0)) "a", .field (.array (.prim (uintTy 8)) .inclusive (.number 0)) "b", .directive "sealed" none]) c ∧
    (match c.kind with | .message m => m.outline == [("a", .fixed 0), ("b", .var 0)] | _ => false) = true :=
  compiles_of_check (by decide +kernel)

end Verif.Front
