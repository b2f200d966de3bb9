import Verif.Macro.Spec

/-! # Lemmas about the macro -/

namespace Verif.Macro

open Verif.Front (TypeKey Outcome ExternalPackages Item ModuleTree generateItems)
open Verif.Pkg (Call afterCalls KeyText Package)

theorem bind_ok {α β : Type} {x : Outcome α} {f : α → Outcome β} {b : β} : x.bind f = .ok b ↔ ∃ a, x = .ok a ∧ f a = .ok b := by
  cases x <;> simp [Outcome.bind]

/-! ### Statements -/

/-- The tokens of a statement, whatever the function. -/
inductive StatementText : Statement → List Token → Prop
  | function (name : String) (arguments : List Token) : StatementText (.function name arguments) [.ident name, .group .parenthesis arguments]
  | inlineType (name dsdl : String) : StatementText (.inlineType name dsdl) [.ident "type", .str name, .group .brace [.str dsdl]]

/-- The tokens of some statements. -/
inductive StatementsText : List Statement → List Token → Prop
  | none : StatementsText [] []
  | more {s : Statement} {ss : List Statement} {ts rest : List Token} (h : StatementText s ts) (more : StatementsText ss rest) : StatementsText (s :: ss) (ts ++ rest)

theorem parseStatement_sound {before : List Token} {d : Delimiter} {stream : List Token} {s : Statement} (h : parseStatement before d stream = .ok s) :
    StatementText s (before ++ [.group d stream]) := by
  unfold parseStatement at h
  cases d with
  | parenthesis =>
    dsimp only at h
    unfold parseFunction at h
    split at h <;> cases h
    exact .function _ _
  | brace =>
    dsimp only at h
    unfold parseInlineType at h
    split at h
    · cases h
    · split at h
      · rename_i hw
        subst hw
        obtain ⟨dsdl, h1, h2⟩ := bind_ok.1 h
        cases h2
        unfold parseStringInGroup at h1
        split at h1
        · cases h1
        · rename_i t
          cases t <;> simp [stringFromToken] at h1
          subst h1
          exact .inlineType _ _
        · cases h1
      · cases h
    · cases h
  | bracket => cases h
  | none => cases h

theorem parse_sound {before ts : List Token} {ss : List Statement} (h : parseInput before ts = .ok ss) : StatementsText ss (before ++ ts) := by
  fun_induction parseInput before ts generalizing ss with
  | case1 => cases h; exact .none
  | case2 name rest ih => exact ih h
  | case3 => cases h
  | case4 => cases h
  | case5 b before d stream rest ih =>
    obtain ⟨s, h1, h2⟩ := bind_ok.1 h
    obtain ⟨ss', h3, h4⟩ := bind_ok.1 h2
    cases h4
    have := StatementsText.more (parseStatement_sound h1) (ih h3)
    simpa using this
  | case6 b before t rest _ ih => simpa using ih h

theorem parse_complete {ss : List Statement} {ts : List Token} (h : StatementsText ss ts) : parseInput [] ts = .ok ss := by
  induction h with
  | none => rfl
  | more h _ ih =>
    cases h with
    | function name arguments => simp [parseInput, parseStatement, parseFunction, Outcome.bind, ih]
    | inlineType name dsdl => simp [parseInput, parseStatement, parseInlineType, parseStringInGroup, stringFromToken, Outcome.bind, ih]

theorem parse_iff {ss : List Statement} {ts : List Token} : parseInput [] ts = .ok ss ↔ StatementsText ss ts := ⟨fun h => by simpa using parse_sound h, parse_complete⟩

theorem parse_no_panic {before ts : List Token} : parseInput before ts ≠ .panic := by
  have h1 : ∀ (b : Token) (before : List Token) d stream, parseStatement (b :: before) d stream ≠ .panic := by
    intro b before d stream h
    unfold parseStatement at h
    cases d <;> dsimp only at h
    · unfold parseFunction at h
      split at h <;> simp_all
    · unfold parseInlineType at h
      split at h
      · simp_all
      · split at h
        · unfold parseStringInGroup at h
          split at h
          · simp [Outcome.bind] at h
          · rename_i t
            cases t <;> simp [Outcome.bind, stringFromToken] at h
          · simp [Outcome.bind] at h
        · cases h
      · cases h
    · cases h
    · cases h
  fun_induction parseInput before ts with
  | case1 => nofun
  | case2 name rest ih => exact ih
  | case3 => nofun
  | case4 => nofun
  | case5 b before d stream rest ih =>
    intro h
    cases hs : parseStatement (b :: before) d stream with
    | panic => exact h1 _ _ _ _ hs
    | error => simp [hs, Outcome.bind] at h
    | ok s =>
      cases hr : parseInput [] rest with
      | panic => exact ih hr
      | error => simp [hs, hr, Outcome.bind] at h
      | ok ss => simp [hs, hr, Outcome.bind] at h
  | case6 b before t rest _ ih => exact ih

/-! ### Paths -/

theorem foldl_append (l : List String) (a b : String) : l.foldl (· ++ ·) (a ++ b) = a ++ l.foldl (· ++ ·) b := by
  induction l generalizing b with
  | nil => rfl
  | cons c l ih => simp only [List.foldl_cons]; rw [String.append_assoc, ih]

theorem pathText_cons {w : World} {part : PathPart} {parts : List PathPart} {s : String} :
    pathText w (part :: parts) = some s ↔ ∃ a b, part.value w = some a ∧ pathText w parts = some b ∧ s = a ++ b := by
  unfold pathText
  simp only [List.mapM_cons, Option.bind_eq_bind, Option.pure_def, Option.map_eq_some_iff, Option.bind_eq_some_iff]
  have hf (a : String) (l : List String) : (a :: l).foldl (· ++ ·) "" = a ++ l.foldl (· ++ ·) "" := by
    rw [List.foldl_cons, ← foldl_append, String.empty_append, String.append_empty]
  constructor
  · rintro ⟨_, ⟨a, h1, l, h2, h3⟩, rfl⟩
    cases h3
    exact ⟨a, _, h1, ⟨l, h2, rfl⟩, hf a l⟩
  · rintro ⟨a, _, h1, ⟨l, h2, rfl⟩, rfl⟩
    exact ⟨a :: l, ⟨a, h1, l, h2, rfl⟩, hf a l⟩

theorem evalEnv {w : World} {name value : String} : evalEnvVariable w name = .ok value ↔ name = "CARGO_MANIFEST_DIR" ∧ w.manifestDir = some value := by
  unfold evalEnvVariable
  split
  · cases w.manifestDir <;> simp_all
  · simp_all

theorem path_sound {w : World} {after : Bool} {path : String} {ts : List Token} {v : String} (h : evalPathArguments w after path ts = .ok v) :
    match after with
    | false => ∃ parts s, PathText parts ts ∧ pathText w parts = some s ∧ v = path ++ s
    | true => (ts = [] ∧ v = path) ∨ ∃ ts' parts s, ts = .punct ',' :: ts' ∧ PathText parts ts' ∧ pathText w parts = some s ∧ v = path ++ s := by
  have aux {part : PathPart} {a path : String} {ts : List Token} (hv : part.value w = some a)
      (ih : (ts = [] ∧ v = path ++ a) ∨ ∃ ts' parts s, ts = .punct ',' :: ts' ∧ PathText parts ts' ∧ pathText w parts = some s ∧ v = path ++ a ++ s) :
      ∃ parts s, PathText parts (part.tokens ++ ts) ∧ pathText w parts = some s ∧ v = path ++ s := by
    rcases ih with ⟨rfl, rfl⟩ | ⟨ts', parts, s, rfl, h1, h2, rfl⟩
    · refine ⟨[part], a ++ "", by simpa using PathText.last part, pathText_cons.2 ⟨a, "", hv, rfl, rfl⟩, by simp⟩
    · exact ⟨part :: parts, a ++ s, .more part h1, pathText_cons.2 ⟨a, s, hv, h2, rfl⟩, by rw [String.append_assoc]⟩
  induction hn : ts.length using Nat.strong_induction_on generalizing after path ts with
  | _ n ih =>
    subst hn
    cases ts with
    | nil =>
      have h : Outcome.ok path = .ok v := by cases after <;> simpa [evalPathArguments] using h
      cases h
      cases after
      · exact ⟨[], "", .none, rfl, by simp⟩
      · exact .inl ⟨rfl, rfl⟩
    | cons t ts =>
      cases after with
      | true =>
        cases t with
        | punct c =>
          by_cases hc : c = ','
          · subst hc
            have h : evalPathArguments w false path ts = .ok v := by simpa [evalPathArguments] using h
            obtain ⟨parts, s, h1, h2, h3⟩ := ih ts.length (by simp) (after := false) (ts := ts) h rfl
            exact .inr ⟨ts, parts, s, rfl, h1, h2, h3⟩
          · simp [evalPathArguments, hc] at h
        | _ => simp [evalPathArguments] at h
      | false =>
        cases t with
        | punct c =>
          cases ts with
          | nil => simp [evalPathArguments] at h
          | cons t ts =>
            cases t with
            | ident name =>
              simp only [evalPathArguments] at h
              split at h
              · rename_i hc
                subst hc
                obtain ⟨value, h1, h2⟩ := bind_ok.1 h
                obtain ⟨rfl, h3⟩ := evalEnv.1 h1
                exact aux (part := .manifestDir) h3 (ih ts.length (by simp; omega) (after := true) (ts := ts) h2 rfl)
              · cases h
            | _ => simp [evalPathArguments] at h
        | str value =>
          simp only [evalPathArguments] at h
          exact aux (part := .text value) rfl (ih ts.length (by simp) (after := true) (ts := ts) h rfl)
        | _ => simp [evalPathArguments] at h

theorem path_complete {w : World} {parts : List PathPart} {ts : List Token} (h : PathText parts ts) :
    ∀ (path s : String), pathText w parts = some s → evalPathArguments w false path ts = .ok (path ++ s) := by
  induction h with
  | none => intro path s h; cases h; simp [evalPathArguments]
  | last part =>
    intro path s h
    obtain ⟨a, b, h1, h2, rfl⟩ := pathText_cons.1 h
    cases h2
    cases part with
    | text value => cases h1; simp [PathPart.tokens, evalPathArguments]
    | manifestDir =>
      have : w.manifestDir = some a := h1
      simp [PathPart.tokens, evalPathArguments, evalEnvVariable, this, Outcome.bind]
  | more part _ ih =>
    intro path s h
    obtain ⟨a, b, h1, h2, rfl⟩ := pathText_cons.1 h
    cases part with
    | text value => cases h1; simp [PathPart.tokens, evalPathArguments, ih _ _ h2, String.append_assoc]
    | manifestDir =>
      have : w.manifestDir = some a := h1
      simp [PathPart.tokens, evalPathArguments, evalEnvVariable, this, Outcome.bind, ih _ _ h2, String.append_assoc]

theorem path_iff {w : World} {ts : List Token} {v : String} : evalPathArguments w false "" ts = .ok v ↔ ∃ parts, PathText parts ts ∧ pathText w parts = some v := by
  constructor
  · intro h
    obtain ⟨parts, s, h1, h2, h3⟩ := path_sound h
    rw [String.empty_append] at h3
    exact ⟨parts, h1, h3 ▸ h2⟩
  · rintro ⟨parts, h1, h2⟩
    simpa using path_complete h1 "" v h2

/-! ### External packages -/

theorem cyphal_sound {names : List String} {ts : List Token} {r : List String × List Token} (h : cyphalPackage names ts = .ok r) :
    r.2 = [] ∨ ∃ ps, ps ≠ [] ∧ r.1 = names ++ ps ∧ ts = joined [.punct '.'] ps ++ .punct ',' :: r.2 := by
  fun_induction cyphalPackage names ts with
  | case1 => cases h; exact .inl rfl
  | case2 names name rest ih =>
    rcases ih h with h | ⟨ps, h1, h2, h3⟩
    · exact .inl h
    · refine .inr ⟨name :: ps, by simp, by rw [h2]; simp, ?_⟩
      cases ps with
      | nil => exact absurd rfl h1
      | cons p ps => rw [h3]; rfl
  | case3 names name rest hc =>
    cases h
    exact .inr ⟨[name], by simp, rfl, rfl⟩
  | case4 => cases h
  | case5 => cases h

theorem cyphal_complete {ps : List String} (hp : ps ≠ []) (names : List String) (rest : List Token) :
    cyphalPackage names (joined [.punct '.'] ps ++ .punct ',' :: rest) = .ok (names ++ ps, rest) := by
  induction ps generalizing names with
  | nil => exact absurd rfl hp
  | cons p ps ih =>
    cases ps with
    | nil => simp [joined, cyphalPackage]
    | cons q ps =>
      have := ih (by simp) (names ++ [p])
      simp [joined, cyphalPackage] at this ⊢
      exact this

theorem rust_sound {names : List String} {ts : List Token} {m : List String} (h : rustModule names ts = .ok m) :
    (ts = [] ∧ m = names) ∨ ∃ ps colons, ps ≠ [] ∧ m = names ++ ps ∧ (colons = [] ∨ colons = [.punct ':', .punct ':']) ∧ ts = joined [.punct ':', .punct ':'] ps ++ colons := by
  fun_induction rustModule names ts with
  | case1 => cases h; exact .inl ⟨rfl, rfl⟩
  | case2 names name => cases h; exact .inr ⟨[name], [], by simp, rfl, .inl rfl, rfl⟩
  | case3 names name c d rest hc ih =>
    obtain ⟨rfl, rfl⟩ := hc
    rcases ih h with ⟨rfl, rfl⟩ | ⟨ps, colons, h1, h2, h3, h4⟩
    · exact .inr ⟨[name], [.punct ':', .punct ':'], by simp, rfl, .inr rfl, rfl⟩
    · refine .inr ⟨name :: ps, colons, by simp, by rw [h2]; simp, h3, ?_⟩
      cases ps with
      | nil => exact absurd rfl h1
      | cons p ps => rw [h4]; rfl
  | case4 => cases h
  | case5 => cases h

theorem rust_complete {ps : List String} (hp : ps ≠ []) (names : List String) {colons : List Token} (hc : colons = [] ∨ colons = [.punct ':', .punct ':']) :
    rustModule names (joined [.punct ':', .punct ':'] ps ++ colons) = .ok (names ++ ps) := by
  induction ps generalizing names with
  | nil => exact absurd rfl hp
  | cons p ps ih =>
    cases ps with
    | nil => rcases hc with rfl | rfl <;> simp [joined, rustModule]
    | cons q ps =>
      have := ih (by simp) (names ++ [p])
      simp [joined, rustModule] at this ⊢
      exact this

theorem lookup_none {ext : ExternalPackages} {package : List String} : ext.lookup package = none ↔ package ∉ ext.map Prod.fst := by
  induction ext with
  | nil => simp
  | cons e ext ih =>
    by_cases h : package = e.1
    · subst h; simp [List.lookup]
    · have : (package == e.1) = false := by simpa using h
      rw [List.map_cons, List.mem_cons, or_iff_right h, ← ih, show List.lookup package (e :: ext) = List.lookup package ext from by simp [List.lookup, this]]

theorem external_iff {ext ext' : ExternalPackages} {ts : List Token} : evalMakeExternalFunction ext ts = .ok ext' ↔
    ∃ ps ms colons, ps ≠ [] ∧ ms ≠ [] ∧ (colons = [] ∨ colons = [.punct ':', .punct ':']) ∧
      ts = joined [.punct '.'] ps ++ .punct ',' :: (joined [.punct ':', .punct ':'] ms ++ colons) ∧ ps ∉ ext.map Prod.fst ∧ ext' = ext ++ [(ps, ms)] := by
  constructor
  · intro h
    unfold evalMakeExternalFunction at h
    obtain ⟨⟨p, rest⟩, h1, h2⟩ := bind_ok.1 h
    dsimp only at h2
    split at h2
    · cases h2
    rename_i hp
    obtain ⟨m, h3, h4⟩ := bind_ok.1 h2
    split at h4
    · cases h4
    rename_i hm
    split at h4
    · rename_i hl
      cases h4
      rcases rust_sound h3 with ⟨_, rfl⟩ | ⟨ms, colons, h5, h6, h7, h8⟩
      · exact absurd rfl hm
      rcases cyphal_sound h1 with h9 | ⟨ps, h9, h10, h11⟩
      · subst h9
        cases ms with
        | nil => exact absurd rfl h5
        | cons a ms => cases ms <;> simp [joined] at h8
      · dsimp only at h10 h11
        rw [List.nil_append] at h10 h6
        subst h10 h6
        exact ⟨p, m, colons, h9, h5, h7, by rw [h11, h8], lookup_none.1 hl, rfl⟩
    · cases h4
  · rintro ⟨ps, ms, colons, h1, h2, h3, rfl, h4, rfl⟩
    unfold evalMakeExternalFunction
    rw [cyphal_complete h1]
    simp [Outcome.bind, h1, rust_complete h2 [] h3, h2, lookup_none.2 h4]

/-! ### Statements and what they ask for -/

/-- A statement asks for something. -/
inductive Means : Statement → Command → Prop
  | package {path : List PathPart} {ts : List Token} (h : PathText path ts) : Means (.function "package" ts) (.package path)
  | makeExternal {package rustModule : List String} (hp : package ≠ []) (hm : rustModule ≠ []) (colons : List Token) (hc : colons = [] ∨ colons = [.punct ':', .punct ':']) :
      Means (.function "make_external" (joined [.punct '.'] package ++ .punct ',' :: (joined [.punct ':', .punct ':'] rustModule ++ colons))) (.makeExternal package rustModule)
  | type (name dsdl : String) : Means (.inlineType name dsdl) (.type name dsdl)
  | generate (arguments : List Token) : Means (.function "generate" arguments) .generate

theorem means_function {name : String} {ts : List Token} {c : Command} (h : Means (.function name ts) c) :
    (name = "package" ∧ ∃ path, PathText path ts ∧ c = .package path) ∨
    (name = "make_external" ∧ ∃ ps ms colons, ps ≠ [] ∧ ms ≠ [] ∧ (colons = [] ∨ colons = [.punct ':', .punct ':']) ∧
      ts = joined [.punct '.'] ps ++ .punct ',' :: (joined [.punct ':', .punct ':'] ms ++ colons) ∧ c = .makeExternal ps ms) ∨
    (name = "generate" ∧ c = .generate) := by
  cases h with
  | package h => exact .inl ⟨rfl, _, h, rfl⟩
  | makeExternal hp hm colons hc => exact .inr (.inl ⟨rfl, _, _, colons, hp, hm, hc, rfl, rfl⟩)
  | generate => exact .inr (.inr ⟨rfl, rfl⟩)

theorem inputText_iff {cs : List Command} {ts : List Token} : InputText cs ts ↔ ∃ ss, StatementsText ss ts ∧ List.Forall₂ Means ss cs := by
  constructor
  · intro h
    induction h with
    | none => exact ⟨[], .none, .nil⟩
    | more h _ ih =>
      obtain ⟨ss, h1, h2⟩ := ih
      cases h with
      | package hp => exact ⟨_, .more (.function _ _) h1, .cons (.package hp) h2⟩
      | makeExternal hp hm colons hc => exact ⟨_, .more (.function _ _) h1, .cons (.makeExternal hp hm colons hc) h2⟩
      | type name dsdl => exact ⟨_, .more (.inlineType _ _) h1, .cons (.type _ _) h2⟩
      | generate arguments => exact ⟨_, .more (.function _ _) h1, .cons (.generate _) h2⟩
  · rintro ⟨ss, h1, h2⟩
    induction h2 generalizing ts with
    | nil => cases h1; exact .none
    | cons hm _ ih =>
      cases h1 with
      | more hs hrest =>
        refine .more ?_ (ih hrest)
        cases hm with
        | package hp => cases hs; exact .package hp
        | makeExternal hp hm colons hc => cases hs; exact .makeExternal hp hm colons hc
        | type name dsdl => cases hs; exact .type _ _
        | generate arguments => cases hs; exact .generate _

theorem afterCalls_snoc (nd : Char → Bool) (calls : List Call) (c : Call) : afterCalls nd (calls ++ [c]) = (c.run nd (afterCalls nd calls)).2 := by
  simp [afterCalls]

/-- The result of some statements after some calls and with some external packages. -/
def ResultFrom (w : World) (before : List Call) (ext : ExternalPackages) (cs : List Command) (out : Option ModuleTree) : Prop :=
  ∃ adds calls, Calls w adds calls ∧ Successful w (before ++ calls) ∧ ((ext ++ externals adds).map Prod.fst).Nodup ∧
    ((cs = adds ∧ out = none) ∨
      (cs = adds ++ [.generate] ∧ ∃ types items, (afterCalls w.nd (before ++ calls)).compile w.x w.disk = .ok types ∧
        generateItems Front.Heck.snake w.asEnum (ext ++ externals adds) types = .ok items ∧ out = some (ModuleTree.fromItems items)))

theorem ofReturned_ok {r : Pkg.Returned × Package} {p : Package} : ofReturned r = .ok p ↔ r.1 = .ok ∧ r.2 = p := by
  obtain ⟨r, q⟩ := r
  cases r <;> simp [ofReturned]

theorem addDirectory_ok {w : World} {before : List Call} {path : String} {p : Package} : addDirectory w (afterCalls w.nd before) path = .ok p ↔
    ∃ root listing, w.directory path = some (root, listing) ∧ ((Call.addFiles root listing).run w.nd (afterCalls w.nd before)).1 = .ok ∧ p = afterCalls w.nd (before ++ [.addFiles root listing]) := by
  unfold addDirectory
  cases w.directory path with
  | none => simp
  | some r =>
    obtain ⟨root, listing⟩ := r
    simp only [Option.some.injEq, Prod.mk.injEq, ofReturned_ok]
    constructor
    · rintro ⟨h1, rfl⟩
      exact ⟨root, listing, ⟨rfl, rfl⟩, h1, by rw [afterCalls_snoc]; rfl⟩
    · rintro ⟨_, _, ⟨rfl, rfl⟩, h1, rfl⟩
      exact ⟨h1, by rw [afterCalls_snoc]; rfl⟩

theorem inline_ok {w : World} {before : List Call} {name dsdl : String} {p : Package} : evalInlineType w (afterCalls w.nd before) name dsdl = .ok p ↔
    ∃ key, KeyText key name.toList ∧ ((Call.addString none key dsdl).run w.nd (afterCalls w.nd before)).1 = .ok ∧ p = afterCalls w.nd (before ++ [.addString none key dsdl]) := by
  unfold evalInlineType
  cases hk : Pkg.keyFromStr w.nd name with
  | none =>
    simp only [reduceCtorEq, false_iff, not_exists, not_and]
    intro key h
    rw [Pkg.C95_reads w.nd name key |>.2 h] at hk
    cases hk
  | some key =>
    simp only [ofReturned_ok]
    constructor
    · rintro ⟨h1, rfl⟩
      exact ⟨key, (Pkg.C95_reads w.nd name key).1 hk, h1, by rw [afterCalls_snoc]; rfl⟩
    · rintro ⟨key', h, h1, rfl⟩
      rw [(Pkg.C95_reads w.nd name key').2 h] at hk
      cases hk
      exact ⟨h1, by rw [afterCalls_snoc]; rfl⟩

theorem successful_cons {w : World} {before calls : List Call} {c : Call} (h : Successful w (before ++ c :: calls)) : (c.run w.nd (afterCalls w.nd before)).1 = .ok :=
  h before c calls rfl

theorem generate_ok {w : World} {p : Package} {ext : ExternalPackages} {tree : ModuleTree} : evalGenerateFunction w p ext = .ok tree ↔
    ∃ types items, p.compile w.x w.disk = .ok types ∧ generateItems Front.Heck.snake w.asEnum ext types = .ok items ∧ tree = ModuleTree.fromItems items := by
  unfold evalGenerateFunction
  simp only [bind_ok, Outcome.ok.injEq]
  constructor
  · rintro ⟨types, h1, items, h2, h3⟩; exact ⟨types, items, h1, h2, h3.symm⟩
  · rintro ⟨types, items, h1, h2, h3⟩; exact ⟨types, h1, items, h2, h3.symm⟩

theorem run_iff {w : World} {ss : List Statement} {before : List Call} {ext : ExternalPackages} {out : Option ModuleTree} (hb : Successful w before) (he : (ext.map Prod.fst).Nodup) :
    runStatements w (afterCalls w.nd before) ext ss = .ok out ↔ ∃ cs, List.Forall₂ Means ss cs ∧ ResultFrom w before ext cs out := by
  induction ss generalizing before ext with
  | nil =>
    constructor
    · intro h
      cases h
      exact ⟨[], .nil, [], [], .none, by simpa using hb, by simpa [externals] using he, .inl ⟨rfl, rfl⟩⟩
    · rintro ⟨cs, h1, adds, calls, h2, h3, h4, h⟩
      cases h1
      rcases h with ⟨_, rfl⟩ | ⟨h, _⟩
      · rfl
      · simp at h
  | cons s ss ih =>
    have snoc {c : Call} (hc : (c.run w.nd (afterCalls w.nd before)).1 = .ok) : Successful w (before ++ [c]) := by
      intro b d a h
      rcases List.eq_nil_or_concat a with rfl | ⟨a, z, rfl⟩
      · have hi := List.append_inj' h rfl
        have h0 : d = c := by have := hi.2; simp at this; exact this.symm
        rw [← hi.1, h0]
        exact hc
      · rw [List.concat_eq_append, ← List.cons_append, ← List.append_assoc] at h
        obtain ⟨h, _⟩ := List.append_inj' h rfl
        exact hb b d a h
    -- A statement that adds one call.
    have step {c : Command} {call : Call} (hcalls : ∀ {cs calls}, Calls w cs calls → Calls w (c :: cs) (call :: calls)) (hx : ∀ cs, externals (c :: cs) = externals cs)
        {cs : List Command} (h : ResultFrom w (before ++ [call]) ext cs out) : ResultFrom w before ext (c :: cs) out := by
      obtain ⟨adds, calls, h1, h2, h3, h4⟩ := h
      refine ⟨c :: adds, call :: calls, hcalls h1, by simpa using h2, by rw [hx]; exact h3, ?_⟩
      rw [List.append_assoc, List.singleton_append] at h4
      rcases h4 with ⟨rfl, h5⟩ | ⟨rfl, h5⟩
      · exact .inl ⟨rfl, h5⟩
      · exact .inr ⟨rfl, by rw [hx]; exact h5⟩
    have unstep {c : Command} {cs adds : List Command} {call : Call} {calls : List Call} (hx : ∀ cs, externals (c :: cs) = externals cs) (h1 : Calls w adds calls)
        (h2 : Successful w (before ++ call :: calls)) (h3 : ((ext ++ externals (c :: adds)).map Prod.fst).Nodup)
        (h4 : (c :: cs = c :: adds ∧ out = none) ∨ (c :: cs = c :: adds ++ [.generate] ∧ ∃ types items, (afterCalls w.nd (before ++ call :: calls)).compile w.x w.disk = .ok types ∧
          generateItems Front.Heck.snake w.asEnum (ext ++ externals (c :: adds)) types = .ok items ∧ out = some (ModuleTree.fromItems items))) :
        ResultFrom w (before ++ [call]) ext cs out := by
      refine ⟨adds, calls, h1, by simpa using h2, by rw [← hx]; exact h3, ?_⟩
      rw [List.append_assoc, List.singleton_append]
      rcases h4 with ⟨h, h5⟩ | ⟨h, h5⟩
      · exact .inl ⟨(List.cons.inj h).2, h5⟩
      · exact .inr ⟨(List.cons.inj h).2, by rw [← hx]; exact h5⟩
    cases s with
    | inlineType name dsdl =>
      simp only [runStatements, bind_ok, inline_ok]
      constructor
      · rintro ⟨_, ⟨key, hk, hc, rfl⟩, h⟩
        obtain ⟨cs, h1, h2⟩ := (ih (snoc hc) he).1 h
        exact ⟨.type name dsdl :: cs, .cons (.type _ _) h1, step (fun h => .type hk h) (fun _ => rfl) h2⟩
      · rintro ⟨cs, h1, adds, calls, h2, h3, h4, h5⟩
        obtain _ | ⟨hm, h1⟩ := h1
        cases hm
        cases h2 with
        | none => rcases h5 with ⟨h5, _⟩ | ⟨h5, _⟩ <;> simp at h5
        | @type adds' _ name' dsdl' key hk rest =>
          have hn : KeyText key name.toList := by rcases h5 with ⟨h5, _⟩ | ⟨h5, _⟩ <;> cases h5 <;> exact hk
          have hd : dsdl' = dsdl := by rcases h5 with ⟨h5, _⟩ | ⟨h5, _⟩ <;> cases h5 <;> rfl
          subst hd
          refine ⟨_, ⟨_, hn, successful_cons h3, rfl⟩, (ih (snoc (successful_cons h3)) he).2 ⟨_, h1, unstep (c := .type name dsdl') (fun _ => rfl) rest h3 h4 ?_⟩⟩
          rcases h5 with ⟨h5, h6⟩ | ⟨h5, h6⟩
          · cases h5; exact .inl ⟨rfl, h6⟩
          · cases h5; exact .inr ⟨rfl, h6⟩
        | package => rcases h5 with ⟨h5, _⟩ | ⟨h5, _⟩ <;> cases h5
        | makeExternal => rcases h5 with ⟨h5, _⟩ | ⟨h5, _⟩ <;> cases h5
    | function name arguments =>
      simp only [runStatements]
      split
      · rename_i hname
        subst hname
        simp only [evalPackageFunction, bind_ok]
        constructor
        · rintro ⟨_, ⟨path, hp, hd⟩, h⟩
          obtain ⟨parts, hp1, hp2⟩ := path_iff.1 hp
          obtain ⟨root, listing, hdir, hc, rfl⟩ := addDirectory_ok.1 hd
          obtain ⟨cs, h1, h2⟩ := (ih (snoc hc) he).1 h
          exact ⟨.package parts :: cs, .cons (.package hp1) h1, step (fun h => .package hp2 hdir h) (fun _ => rfl) h2⟩
        · rintro ⟨cs, h1, adds, calls, h2, h3, h4, h5⟩
          obtain _ | ⟨hm, h1⟩ := h1
          rcases means_function hm with ⟨_, parts, htext, rfl⟩ | ⟨hne, _⟩ | ⟨hne, _⟩
          · cases h2 with
            | none => rcases h5 with ⟨h5, _⟩ | ⟨h5, _⟩ <;> simp at h5
            | type => rcases h5 with ⟨h5, _⟩ | ⟨h5, _⟩ <;> cases h5
            | makeExternal => rcases h5 with ⟨h5, _⟩ | ⟨h5, _⟩ <;> cases h5
            | @package adds' _ parts' _ _ _ hp hd rest =>
              have hparts : parts' = parts := by rcases h5 with ⟨h5, _⟩ | ⟨h5, _⟩ <;> cases h5 <;> rfl
              subst hparts
              refine ⟨_, ⟨_, path_iff.2 ⟨_, htext, hp⟩, addDirectory_ok.2 ⟨_, _, hd, successful_cons h3, rfl⟩⟩,
                (ih (snoc (successful_cons h3)) he).2 ⟨_, h1, unstep (c := .package parts') (fun _ => rfl) rest h3 h4 ?_⟩⟩
              rcases h5 with ⟨h5, h6⟩ | ⟨h5, h6⟩
              · cases h5; exact .inl ⟨rfl, h6⟩
              · cases h5; exact .inr ⟨rfl, h6⟩
          · exact absurd hne (by decide)
          · exact absurd hne (by decide)
      · split
        · rename_i hname
          subst hname
          simp only [bind_ok, external_iff]
          constructor
          · rintro ⟨_, ⟨ps, ms, colons, hp, hm, hc, rfl, hnew, rfl⟩, h⟩
            have he' : ((ext ++ [(ps, ms)]).map Prod.fst).Nodup := by
              rw [List.map_append, List.nodup_append]
              exact ⟨he, by simp, fun a ha b hb => by simp at hb; subst hb; exact fun hab => hnew (hab ▸ ha)⟩
            obtain ⟨cs, h1, adds, calls, h2, h3, h4, h5⟩ := (ih hb he').1 h
            refine ⟨.makeExternal ps ms :: cs, .cons (.makeExternal hp hm colons hc) h1, .makeExternal ps ms :: adds, calls, .makeExternal h2, h3, ?_, ?_⟩
            · simpa [externals] using h4
            · rcases h5 with ⟨rfl, h5⟩ | ⟨rfl, types, items, h5, h6, h7⟩
              · exact .inl ⟨rfl, h5⟩
              · exact .inr ⟨rfl, types, items, h5, by simpa [externals] using h6, h7⟩
          · rintro ⟨cs, h1, adds, calls, h2, h3, h4, h5⟩
            obtain _ | ⟨hm, h1⟩ := h1
            rcases means_function hm with ⟨hne, _⟩ | ⟨_, ps, ms, colons, hp, hms, hc, rfl, rfl⟩ | ⟨hne, _⟩
            · exact absurd hne (by decide)
            · cases h2 with
              | none => rcases h5 with ⟨h5, _⟩ | ⟨h5, _⟩ <;> simp at h5
              | type => rcases h5 with ⟨h5, _⟩ | ⟨h5, _⟩ <;> cases h5
              | package => rcases h5 with ⟨h5, _⟩ | ⟨h5, _⟩ <;> cases h5
              | @makeExternal adds' _ ps' ms' rest =>
                have hps : ps' = ps ∧ ms' = ms := by rcases h5 with ⟨h5, _⟩ | ⟨h5, _⟩ <;> cases h5 <;> exact ⟨rfl, rfl⟩
                obtain ⟨rfl, rfl⟩ := hps
                have h4' : ((ext ++ [(ps', ms')] ++ externals adds').map Prod.fst).Nodup := by simpa [externals] using h4
                have he' : ((ext ++ [(ps', ms')]).map Prod.fst).Nodup := by
                  rw [List.map_append] at h4'
                  exact (List.nodup_append.1 h4').1
                have hnew : ps' ∉ ext.map Prod.fst := by
                  rw [List.map_append, List.nodup_append] at he'
                  exact fun hmem => he'.2.2 _ hmem ps' (by simp) rfl
                refine ⟨_, ⟨ps', ms', colons, hp, hms, hc, rfl, hnew, rfl⟩, (ih hb he').2 ⟨_, h1, adds', calls, rest, h3, h4', ?_⟩⟩
                rcases h5 with ⟨h5, h6⟩ | ⟨h5, types, items, h6, h7, h8⟩
                · cases h5; exact .inl ⟨rfl, h6⟩
                · cases h5; exact .inr ⟨rfl, types, items, h6, by simpa [externals] using h7, h8⟩
            · exact absurd hne (by decide)
        · split
          · rename_i hname
            subst hname
            simp only [bind_ok, generate_ok]
            constructor
            · rintro ⟨tree, ⟨types, items, h1, h2, rfl⟩, h3⟩
              cases ss with
              | cons => cases h3
              | nil =>
                cases h3
                refine ⟨[.generate], .cons (.generate _) .nil, [], [], .none, by simpa using hb, by simpa [externals] using he, .inr ⟨rfl, types, items, ?_, ?_, rfl⟩⟩
                · simpa using h1
                · simpa [externals] using h2
            · rintro ⟨cs, h1, adds, calls, h2, h3, h4, h5⟩
              obtain _ | ⟨hm, h1⟩ := h1
              rcases means_function hm with ⟨hne, _⟩ | ⟨hne, _⟩ | ⟨_, rfl⟩
              · exact absurd hne (by decide)
              · exact absurd hne (by decide)
              cases h2 with
              | none =>
                rcases h5 with ⟨h5, _⟩ | ⟨h5, types, items, h6, h7, h8⟩
                · cases h5
                · cases h5
                  cases h1
                  exact ⟨_, ⟨types, items, by simpa using h6, by simpa [externals] using h7, rfl⟩, by rw [h8]⟩
              | type => rcases h5 with ⟨h5, _⟩ | ⟨h5, _⟩ <;> cases h5
              | package => rcases h5 with ⟨h5, _⟩ | ⟨h5, _⟩ <;> cases h5
              | makeExternal => rcases h5 with ⟨h5, _⟩ | ⟨h5, _⟩ <;> cases h5
          · rename_i n1 n2 n3
            constructor
            · intro h; cases h
            · rintro ⟨cs, h1, _⟩
              obtain _ | ⟨hm, h1⟩ := h1
              rcases means_function hm with ⟨h, _⟩ | ⟨h, _⟩ | ⟨h, _⟩ <;> simp [h] at n1 n2 n3

end Verif.Macro
