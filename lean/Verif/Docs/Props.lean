import Verif.Docs.Inv
import Verif.Front.SolveProps
import Verif.Pkg.Code
import Verif.Parse.Check

/-! Properties of documentation comments. -/

namespace Verif.Docs

open Verif.Front
open Verif.Parse (Line)

variable {P : Type} {x : Externals} {lookup : Lookup P}

/-! ### C134: what a comment documents -/

theorem runLines_statements : ∀ (ls : List Line) (n : Nat) (cx : Cx P) (d : FileDocs),
    ((runLines x lookup n ls cx d).bind fun r => .ok r.1) = runAll x lookup (statements ls) cx
  | [], n, cx, d => rfl
  | .statement s :: ls, n, cx, d => by
    have e : statements (.statement s :: ls) = s :: statements ls := rfl
    rw [e, runLines, runAll, Outcome.bind_assoc]
    congr 1
    funext cx'
    exact runLines_statements ls (n + 1) cx' _
  | .comment c :: ls, n, cx, d => by
    have e : statements (.comment c :: ls) = statements ls := rfl
    rw [e, runLines]
    exact runLines_statements ls (n + 1) cx _

/-- Comments change nothing in the compiled types: a file gives what its statements give. -/
theorem C134_same (key : TypeKey) (port : Option Nat) (lines : List Line) (p : P) :
    ((compileLines x lookup key port lines p).bind fun r => .ok (r.1, r.2.2)) = compileFile x lookup key ⟨port, some (Line.statements lines)⟩ p := by
  have h := runLines_statements (x := x) (lookup := lookup) lines 0 ⟨.new key.path, p⟩ ⟨none, .empty⟩
  unfold compileLines compileFile
  dsimp only
  rw [show Line.statements lines = statements lines from rfl, ← h]
  cases runLines x lookup 0 lines ⟨.new key.path, p⟩ ⟨none, .empty⟩ with
  | error => rfl
  | panic => rfl
  | ok r =>
    simp only [Outcome.bind]
    cases r.1.file.finish port <;> rfl

/-- What the comments of a compiled file are. -/
theorem C134_documents (key : TypeKey) (port : Option Nat) (lines : List Line) (p p' : P) (c : Compiled) (d : FileDocs)
    (h : compileLines x lookup key port lines p = .ok (c, d, p')) : Sections (fun r ls d m => Documented (kept r) ls d ∧ NamesOf d m) lines c d := by
  obtain ⟨⟨cx, d'⟩, h1, h2⟩ := bind_ok h
  obtain ⟨c', h3, h4⟩ := bind_ok h2
  cases h4
  have h0 : FileInv [] 0 (FileState.new key.path) ⟨none, .empty⟩ := .inl ⟨rfl, Inv.start false 0 (by simp [ShapeOf, Shape, usedOffset, FileState.new]) rfl rfl⟩
  obtain ⟨n, h5⟩ := runLines_inv lines [] 0 _ cx _ d' h1 h0
  rw [List.nil_append] at h5
  obtain ⟨_, m, h6, h7⟩ := finishFile_part h3
  unfold Sections
  rcases h5 with ⟨h8, h9⟩ | ⟨a, b, d₀, m', h8, h9, h10, h11, h12, h13⟩
  · have hr : cx.file.state.request = none := by
      have := Shape.request h9.shape
      simpa using this
    dsimp only at h7
    rw [hr] at h7
    dsimp only at h7
    rw [h7]
    exact ⟨h8, h9.documented, h9.names h6⟩
  · dsimp only at h7
    rw [h10] at h7
    dsimp only at h7
    rw [h7]
    exact ⟨a, b, d₀, h8, h9, ⟨h11, h12⟩, h13.documented, h13.names h6⟩

theorem about_congr {keep keep' : List Statement → Bool} {ls : List Line} (h : ∀ a c b, ls = a ++ .comment c :: b → keep (statements a) = keep' (statements a)) (k : Nat) :
    about keep ls k = about keep' ls k := by
  unfold about
  apply List.filterMap_congr
  intro i hi
  rw [List.mem_range] at hi
  cases hl : (ls[i]? : Option Line) with
  | none => rfl
  | some l =>
    cases l with
    | statement s => rfl
    | comment c =>
      have : ls = ls.take i ++ .comment c :: ls.drop (i + 1) := by
        obtain ⟨h1, h2⟩ := List.getElem?_eq_some_iff.1 hl
        rw [← h2, List.cons_getElem_drop_succ, List.take_append_drop]
      dsimp only
      rw [h _ _ _ this]

theorem kept_ordinary {ls : List Line} (h : Ordinary ls) (r : Bool) {a b : List Line} {c : String} (hl : ls = a ++ .comment c :: b) : kept r (statements a) = true := by
  obtain ⟨h1, h2⟩ := h a c b hl
  unfold kept
  split
  · next hu =>
    obtain ⟨h3, h4⟩ := h2 hu
    rw [h1, h3, h4]
    cases r <;> rfl
  · rw [h1]; rfl

theorem Documented.congr {keep keep' : List Statement → Bool} {ls : List Line} {d : SectionDocs} (h : Documented keep ls d)
    (he : ∀ a c b, ls = a ++ .comment c :: b → keep (statements a) = keep' (statements a)) : Documented keep' ls d := by
  have e : doc keep ls = doc keep' ls := by funext k; unfold doc; rw [about_congr he]
  exact ⟨e ▸ h.type, e ▸ h.constants, e ▸ h.members⟩

/-- Every comment documents the constant, field or variant that is declared last before it, or the type. Missing: comments after `@sealed` or `@extent`, and in a union
those before the first declaration and after a use of `_offset_`; see the counterexamples. -/
theorem C134_documents_partial (key : TypeKey) (port : Option Nat) (lines : List Line) (p p' : P) (c : Compiled) (d : FileDocs)
    (h : compileLines x lookup key port lines p = .ok (c, d, p')) : Sections (fun _ ls d _ => Ordinary ls → Documented all ls d) lines c d := by
  have := C134_documents key port lines p p' c d h
  unfold Sections at this ⊢
  split at this
  · exact ⟨this.1, fun ho => this.2.1.congr fun a c b hl => kept_ordinary ho _ hl⟩
  · obtain ⟨a, b, d₀, h1, h2, h3, h4⟩ := this
    exact ⟨a, b, d₀, h1, h2, fun ho => h3.1.congr fun a c b hl => kept_ordinary ho _ hl, fun ho => h4.1.congr fun a c b hl => kept_ordinary ho _ hl⟩

/-- The comments that a file has after it was compiled. -/
def docsOf (lines : List Line) : Outcome FileDocs := (compileLines demoX table ⟨["a"], "B", 1, 0⟩ none lines []).bind fun r => .ok r.2.1

/-- `uint8 name`. -/
def byteField (name : String) : Line := .statement (.field (.scalar (.prim (.uint 8 .saturated))) name)

/-- `uint8 name = value`. -/
def byteConstant (name : String) (value : ℚ) : Line := .statement (.constant (.uint 8 .saturated) name (.number value))

/-- `@name`. -/
def at_ (name : String) : Line := .statement (.directive name none)

/-- A struct with comments about the type, a constant, a field and padding. -/
def commented : List Line := [.comment "", .comment " Speed", .comment " of a wheel", byteConstant "MAX" 9, .comment " limit", byteField "v", .comment " m/s", .comment "",
  .comment " x", .statement (.padding 8), .comment " pad", at_ "sealed"]

example : docsOf commented = .ok ⟨none, ⟨" Speed\n of a wheel", [⟨some "MAX", " limit", 3⟩], [⟨some "v", " m/s\n\n x", 5⟩, ⟨none, " pad", 9⟩]⟩⟩ := by decide +kernel

theorem ordinary_of {ls : List Line} (h : (List.range ls.length).all (fun i =>
    match (ls[i]? : Option Line) with
    | some (.comment _) => !(statements (ls.take i)).any Statement.isEnd && (!(statements (ls.take i)).any Statement.isUnion ||
        ((statements (ls.take i)).any Statement.declares && !usedOffset (statements (ls.take i))))
    | _ => true) = true) : Ordinary ls := by
  rintro a c b rfl
  rw [List.all_eq_true] at h
  have := h a.length (by simp)
  simp only [List.getElem?_append_right (Nat.le_refl _), Nat.sub_self, List.getElem?_cons_zero, List.take_left', Bool.and_eq_true, Bool.or_eq_true, Bool.not_eq_true'] at this
  refine ⟨this.1, fun hu => ?_⟩
  rcases this.2 with h' | h'
  · rw [hu] at h'; cases h'
  · exact h'

example : Ordinary commented := ordinary_of (by decide +kernel)

example : (declarations commented).length = 3 ∧ doc all commented 0 = " Speed\n of a wheel" ∧ doc all commented 2 = " m/s\n\n x" := by decide +kernel

/-- A constant may be declared after `@sealed`. -/
def afterSealed : List Line := [byteField "v", at_ "sealed", byteConstant "MAX" 9, .comment " limit"]

/-- What is said about a constant after `@sealed` is lost. -/
theorem C134_sealed_counterexample : docsOf afterSealed = .ok ⟨none, ⟨"", [⟨some "MAX", "", 2⟩], [⟨some "v", "", 0⟩]⟩⟩ ∧ doc all afterSealed 2 = " limit" := by
  decide +kernel

/-- A union that is described after `@union`. -/
def describedUnion : List Line := [at_ "union", .comment " speed or force", byteField "v", .comment " m/s", byteField "f", at_ "sealed"]

/-- What is said about a union after `@union` is lost. -/
theorem C134_union_counterexample :
    docsOf describedUnion = .ok ⟨none, ⟨"", [], [⟨some "v", " m/s", 2⟩, ⟨some "f", "", 4⟩]⟩⟩ ∧ doc all describedUnion 0 = " speed or force" := by
  decide +kernel

/-- `@print _offset_`. -/
def printOffset : Line := .statement (.directive "print" (some (.identifier "_offset_")))

/-- A union whose constants come after a use of `_offset_` and after `@sealed`. -/
def offsetUnion : List Line := [at_ "union", byteField "v", byteField "f", printOffset, byteConstant "A" 1, .comment " first", at_ "sealed", byteConstant "B" 2,
  .comment " second"]

/-- The same union as a message and as a response: the message loses the comment after `_offset_`, the response the one after `@sealed`. -/
theorem C134_offset_counterexample :
    docsOf offsetUnion = .ok ⟨none, ⟨"", [⟨some "A", "", 4⟩, ⟨some "B", " second", 7⟩], [⟨some "v", "", 1⟩, ⟨some "f", "", 2⟩]⟩⟩ ∧
    docsOf ([at_ "sealed", .statement .responseMarker] ++ offsetUnion) =
      .ok ⟨some ⟨"", [], []⟩, ⟨"", [⟨some "A", " first", 6⟩, ⟨some "B", "", 9⟩], [⟨some "v", "", 3⟩, ⟨some "f", "", 4⟩]⟩⟩ ∧
    doc all offsetUnion 3 = " first" ∧ doc all offsetUnion 4 = " second" := by
  decide +kernel

/-! ### C135: which types become enums -/

theorem joinLines_toList : ∀ ls : List String, (joinLines ls).toList = ['\n'].intercalate (ls.map String.toList)
  | [] => rfl
  | [a] => by simp [joinLines, List.intercalate]
  | a :: b :: rest => by
    rw [joinLines, String.toList_append, String.toList_append, joinLines_toList (b :: rest)]
    simp [List.intercalate]

/-- The directive is found in the comments of a type if one of them starts with it. -/
theorem hasEnumDirective_join {ls : List String} (h : ∀ c ∈ ls, '\n' ∉ c.toList) : hasEnumDirective (joinLines ls) = true ↔ ∃ c ∈ ls, enumDirective <+: c.toList := by
  unfold hasEnumDirective textLines
  rw [joinLines_toList]
  cases ls with
  | nil =>
    simp only [List.map_nil, List.not_mem_nil, false_and, exists_false, iff_false]
    decide +kernel
  | cons a as =>
    rw [List.splitOn_intercalate _ (by simpa using h) (by simp)]
    simp [List.any_eq_true]

theorem mem_dropWhile_or {α : Type} {p : α → Bool} : ∀ {ls : List α} {a : α}, a ∈ ls → p a = false → a ∈ ls.dropWhile p
  | b :: bs, a, h, hp => by
    rw [List.dropWhile_cons]
    split
    · next hb =>
      rcases List.mem_cons.1 h with rfl | h
      · rw [hp] at hb; cases hb
      · exact mem_dropWhile_or h hp
    · exact h

theorem about_sublist {keep : List Statement → Bool} {ls : List Line} {k : Nat} {c : String} : c ∈ about keep ls k ↔
    ∃ a b, ls = a ++ .comment c :: b ∧ (declarations a).length = k ∧ keep (statements a) = true := by
  unfold about
  rw [List.mem_filterMap]
  constructor
  · rintro ⟨i, hi, h⟩
    split at h
    · next c' hl =>
      split at h
      · next hk =>
        cases h
        obtain ⟨h1, h2⟩ := List.getElem?_eq_some_iff.1 hl
        exact ⟨ls.take i, ls.drop (i + 1), by rw [← h2, List.cons_getElem_drop_succ, List.take_append_drop], hk⟩
      · cases h
    · cases h
  · rintro ⟨a, b, rfl, hk⟩
    refine ⟨a.length, by simp, ?_⟩
    simp only [List.getElem?_append_right (Nat.le_refl _), Nat.sub_self, List.getElem?_cons_zero, List.take_left']
    rw [if_pos hk]

/-- A type becomes an enum if and only if one of the comments before its first declaration and before `@union`, `@sealed` and `@extent` starts with the directive. -/
theorem enum_iff {r : Bool} {ls : List Line} {d : SectionDocs} (hd : Documented (kept r) ls d) (hl : ∀ c, Line.comment c ∈ ls → '\n' ∉ c.toList) :
    hasEnumDirective d.comments = true ↔ EnumRequested ls := by
  rw [hd.type, doc, hasEnumDirective_join]
  · unfold EnumRequested
    constructor
    · rintro ⟨c, h1, h2⟩
      obtain ⟨a, b, h3, h4, h5⟩ := about_sublist.1 ((List.dropWhile_sublist _).subset h1)
      have h6 : declarations a = [] := List.length_eq_zero_iff.1 h4
      have h7 : (statements a).any Statement.declares = false := by rw [declarations_any, h6]; rfl
      unfold kept at h5
      rw [h7] at h5
      refine ⟨a, c, b, h3, fun s hs => ?_, h2⟩
      rw [List.any_eq_false] at h7
      split at h5
      · simp at h5
      · next hu =>
        simp only [List.any_eq_true, not_exists, not_and, Bool.not_eq_true] at hu
        simp only [Bool.not_eq_true', List.any_eq_false] at h5
        exact ⟨by simpa using h7 s hs, hu s hs, by simpa using h5 s hs⟩
    · rintro ⟨a, c, b, h1, h2, h3⟩
      refine ⟨c, mem_dropWhile_or (about_sublist.2 ⟨a, b, h1, ?_, ?_⟩) ?_, h3⟩
      · rw [List.length_eq_zero_iff, declarations, List.filter_eq_nil_iff]
        intro s hs
        rw [(h2 s hs).1]; simp
      · unfold kept
        rw [if_neg]
        · rw [Bool.not_eq_true', List.any_eq_false]
          intro s hs
          rw [(h2 s hs).2.2]; simp
        · rw [Bool.not_eq_true, List.any_eq_false]
          intro s hs
          rw [(h2 s hs).2.1]; simp
      · rw [decide_eq_false_iff_not]
        rintro rfl
        exact absurd h3 (by decide +kernel)
  · intro c hc
    obtain ⟨a, b, h3, _⟩ := about_sublist.1 ((List.dropWhile_sublist _).subset hc)
    exact hl c (by rw [h3]; simp)

theorem lineText_comments {S : Verif.Parse.Style} {ls : List Line} {t : List Char} (h : Verif.Parse.LineText S ls t) {c : String} (hc : Line.comment c ∈ ls) :
    '\n' ∉ c.toList := by
  cases h with
  | empty => simp at hc
  | statement => simp at hc
  | comment _ _ h => simp only [List.mem_singleton, Line.comment.injEq] at hc; subst hc; simpa using h
  | both _ _ _ h => simp at hc; subst hc; simpa using h

theorem definitionText_comments {S : Verif.Parse.Style} {ls : List Line} {t : List Char} (h : Verif.Parse.DefinitionText S ls t) {c : String} (hc : Line.comment c ∈ ls) :
    '\n' ∉ c.toList := by
  induction h with
  | last h => exact lineText_comments h hc
  | line h _ _ ih =>
    rcases List.mem_append.1 hc with hc | hc
    exacts [lineText_comments h hc, ih hc]

/-- What is generated for the types of a text: an enum if and only if a comment before the first declaration and before `@union`, `@sealed` and `@extent` starts with the
directive, and then nothing else than an enum. -/
theorem C135_enum (text : String) (lines : List Line) (hp : Verif.Parse.parse text = .ok lines) (key : TypeKey) (port : Option Nat) (p p' : P) (c : Compiled) (d : FileDocs)
    (h : compileLines x lookup key port lines p = .ok (c, d, p')) :
    Sections (fun _ ls d m => ∀ en request M, generateWith en request m d = .ok M → (EnumRequested ls ↔ ∃ extent bits values, M = .enum extent request bits values))
      lines c d := by
  have hl : ∀ c, Line.comment c ∈ lines → '\n' ∉ c.toList := fun c hc => definitionText_comments (Verif.Parse.parse_sound hp) hc
  have key : ∀ {r : Bool} {ls : List Line} {d : SectionDocs} {m : CMessage}, Documented (kept r) ls d → (∀ c, Line.comment c ∈ ls → '\n' ∉ c.toList) →
      ∀ en request M, generateWith en request m d = .ok M → (EnumRequested ls ↔ ∃ extent bits values, M = .enum extent request bits values) := by
    intro r ls d m hd hl en request M hg
    rw [← enum_iff hd hl]
    unfold generateWith at hg
    cases he : hasEnumDirective d.comments with
    | true =>
      rw [he] at hg
      simp only [true_iff]
      cases m with
      | struct dep extent fields l cs =>
        rw [CMessage.generate, if_pos rfl] at hg
        unfold enumFromStruct at hg
        split at hg
        · obtain ⟨zs, _, h2⟩ := bind_ok hg
          obtain ⟨ds, _, h3⟩ := bind_ok h2
          cases h3
          exact ⟨_, _, _, rfl⟩
        · cases hg
      | union => rw [CMessage.generate, if_pos rfl] at hg; cases hg
    | false =>
      rw [he] at hg
      simp only [Bool.false_eq_true, false_iff]
      rintro ⟨_, _, _, rfl⟩
      cases m with
      | struct dep extent fields l cs =>
        rw [CMessage.generate, if_neg (by simp)] at hg
        obtain ⟨_, _, h2⟩ := bind_ok hg
        cases h2
      | union =>
        rw [CMessage.generate, if_neg (by simp)] at hg
        obtain ⟨_, _, h2⟩ := bind_ok hg
        cases h2
  have := C134_documents _ port lines p p' c d h
  unfold Sections at this ⊢
  split at this
  · exact ⟨this.1, key this.2.1 hl⟩
  · obtain ⟨a, b, d₀, h1, h2, h3, h4⟩ := this
    exact ⟨a, b, d₀, h1, h2, key h3.1 fun c hc => hl c (by rw [h1]; simp [hc]), key h4.1 fun c hc => hl c (by rw [h1]; simp [hc])⟩

/-- What is generated for the message of a file. -/
def generatedOf (lines : List Line) : Outcome Verif.Dsdl.Message :=
  (compileLines demoX table ⟨["a"], "B", 1, 0⟩ none lines []).bind fun r =>
    match r.1.kind with
    | .message m => generateWith (fun _ => false) false m r.2.1.current
    | .service _ _ => .error

/-- A comment before the first field, and before the constants. -/
def enumFirst : List Line := [.comment " Colour", .comment "[canadensis(enum)]", byteConstant "RED" 1, byteConstant "BLUE" 3, byteField "value", at_ "sealed"]

example : Verif.Parse.parse "# Colour\n#[canadensis(enum)]\nuint8 RED = 1\nuint8 BLUE = 3\nuint8 value\n@sealed\n" = .ok enumFirst :=
  Verif.Parse.parse_of_reads (by decide +kernel)

example : EnumRequested enumFirst := ⟨[.comment " Colour"], _, _, rfl, by simp [statements, Verif.Parse.Line.statements], by decide +kernel⟩

example : generatedOf enumFirst = .ok (.enum none false 8 [1, 3]) := by rfl

/-- A comment before the first field, and after the constants. -/
def enumAfter : List Line := [.comment " Colour", byteConstant "RED" 1, byteConstant "BLUE" 3, .comment "[canadensis(enum)]", byteField "value", at_ "sealed"]

example : Verif.Parse.parse "# Colour\nuint8 RED = 1\nuint8 BLUE = 3\n#[canadensis(enum)]\nuint8 value\n@sealed\n" = .ok enumAfter :=
  Verif.Parse.parse_of_reads (by decide +kernel)

/-- "A DSDL file with the comment `#[canadensis(enum)]` before the first field will become an enum" (canadensis_codegen_rust/src/struct_as_enum.rs L5-10): not if a
constant comes before it. -/
theorem C135_constant_counterexample : generatedOf enumAfter = .ok (.struct none false (.data (.prim (.uint 8 true)) .scalar .nil)) := by rfl

/-- A union with the directive before its first variant. -/
def enumUnion : List Line := [at_ "union", .comment "[canadensis(enum)]", byteField "v", byteField "f", at_ "sealed"]

/-- "A file with `#[canadensis(enum)]` that does not meet all the above requirements will trigger an error" (canadensis_codegen_rust/src/struct_as_enum.rs L12-13): not if
the directive comes after `@union`, though it does before it. -/
theorem C135_union_counterexample :
    generatedOf enumUnion = .ok (.union none false (.cons (.prim (.uint 8 true)) .scalar (.cons (.prim (.uint 8 true)) .scalar .nil))) ∧
    generatedOf (.comment "[canadensis(enum)]" :: enumUnion) = .error := by
  exact ⟨rfl, rfl⟩

end Verif.Docs
