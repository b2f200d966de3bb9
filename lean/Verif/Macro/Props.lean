import Verif.Macro.Lemmas

/-! # Properties of the macro `types_from_dsdl!` -/

namespace Verif.Macro

open Verif.Front (TypeKey Outcome ExternalPackages Item ModuleTree generateItems SameName Compiled DescribedBy externalModule)
open Verif.Pkg (Call afterCalls KeyText Package OsStr Entry)

/-! ### C124 -/

/-- **C124** (language): the macro expands to code, or to nothing, exactly if its tokens are statements of the forms in `CommandText` that can be carried out, and then to what they ask for;
for anything else there is an error (or a panic, see `C124_panic`). -/
theorem C124_language (w : World) (ts : List Token) (out : Option ModuleTree) : typesFromDsdl w ts = .ok out ↔ ∃ cs, InputText cs ts ∧ Result w cs out := by
  have hb : Successful w [] := by intro b c a h; simp at h
  have hr : ∀ cs, ResultFrom w [] [] cs out ↔ Result w cs out := fun cs => Iff.rfl
  unfold typesFromDsdl
  rw [bind_ok]
  constructor
  · rintro ⟨ss, h1, h2⟩
    obtain ⟨cs, h3, h4⟩ := (run_iff (before := []) hb (by simp)).1 h2
    exact ⟨cs, inputText_iff.2 ⟨ss, parse_iff.1 h1, h3⟩, (hr cs).1 h4⟩
  · rintro ⟨cs, h1, h2⟩
    obtain ⟨ss, h3, h4⟩ := inputText_iff.1 h1
    exact ⟨ss, parse_iff.2 h3, (run_iff (before := []) hb (by simp)).2 ⟨cs, h4, (hr cs).2 h2⟩⟩

theorem pathText_unique {parts parts' : List PathPart} {ts : List Token} (h : PathText parts ts) (h' : PathText parts' ts) : parts = parts' := by
  have ne (part : PathPart) : part.tokens ≠ [] := by cases part <;> simp [PathPart.tokens]
  have key {p p' : PathPart} {a b : List Token} (h : p.tokens ++ a = p'.tokens ++ b) : p = p' ∧ a = b := by
    cases p <;> cases p' <;> simp [PathPart.tokens] at h
    · exact ⟨by rw [h.1], h.2⟩
    · exact ⟨rfl, h⟩
  induction h generalizing parts' with
  | none =>
    generalize hts : ([] : List Token) = ts at h'
    cases h' with
    | none => rfl
    | last part => exact absurd hts.symm (ne part)
    | more part _ => have := congrArg List.length hts; simp at this
  | last part =>
    generalize hts : part.tokens = ts at h'
    cases h' with
    | none => exact absurd hts (ne part)
    | last part' => rw [(key (p := part) (p' := part') (a := []) (b := []) (by simpa using hts)).1]
    | more part' _ => exact absurd (key (a := []) (by simpa using hts)).2 (by simp)
  | more part _ ih =>
    rename_i ts0 _
    generalize hts : part.tokens ++ Token.punct ',' :: ts0 = ts at h'
    cases h' with
    | none => simp at hts
    | last part' => exact absurd (key (b := []) (by simpa using hts)).2 (by simp)
    | more part' rest' =>
      obtain ⟨rfl, h⟩ := key hts
      cases h
      rw [ih rest']

/-- **C124** (unambiguous): tokens ask for one thing only. -/
theorem C124_unambiguous (ts : List Token) (cs cs' : List Command) (h : InputText cs ts) (h' : InputText cs' ts) : cs = cs' := by
  obtain ⟨ss, h1, h2⟩ := inputText_iff.1 h
  obtain ⟨ss', h1', h2'⟩ := inputText_iff.1 h'
  have : ss = ss' := by
    have := (parse_iff.2 h1).symm.trans (parse_iff.2 h1')
    cases this; rfl
  subst this
  clear h h' h1 h1'
  induction h2 generalizing cs' with
  | nil => cases h2'; rfl
  | @cons s c ss cs hm _ ih =>
    obtain _ | ⟨hm', h2'⟩ := h2'
    rw [ih _ h2']
    congr 1
    cases s with
    | inlineType => cases hm; cases hm'; rfl
    | function name args =>
      rcases means_function hm with ⟨rfl, path, hp, rfl⟩ | ⟨rfl, ps, ms, colons, h1, h2, h3, rfl, rfl⟩ | ⟨rfl, rfl⟩ <;>
        rcases means_function hm' with ⟨hne, path', hp', rfl⟩ | ⟨hne, ps', ms', colons', h1', h2', h3', he, rfl⟩ | ⟨hne, rfl⟩ <;>
        first | exact absurd hne (by decide) | rfl | skip
      · rw [pathText_unique hp hp']
      · have h4 := cyphal_complete h1 [] (joined [.punct ':', .punct ':'] ms ++ colons)
        rw [he, cyphal_complete h1' []] at h4
        have h5 := rust_complete h2 [] h3
        simp only [Outcome.ok.injEq, Prod.mk.injEq, List.nil_append] at h4
        rw [← h4.2, rust_complete h2' [] h3'] at h5
        simp only [Outcome.ok.injEq, List.nil_append] at h5
        rw [h4.1, h5]

theorem run_keeps {nd : Char → Bool} {calls : List Call} {c : Call} {e : TypeKey × Pkg.DsdlFile} (h : e ∈ afterCalls nd calls) : e ∈ (c.run nd (afterCalls nd calls)).2 := by
  have hg := Pkg.afterCalls_good nd calls
  have insert {key : TypeKey} {dsdl : Pkg.DsdlFile} : e ∈ ((afterCalls nd calls).tryInsert nd key dsdl).2 := by
    by_cases hok : ((afterCalls nd calls).tryInsert nd key dsdl).1 = .ok
    · exact (Pkg.tryInsert_adds hg hok).2.symm.subset (List.mem_cons_of_mem _ h)
    · rw [Pkg.tryInsert_keeps hok]; exact h
  cases c with
  | addFile port key path => exact insert
  | addString port key dsdl => exact insert
  | addFiles root listing =>
    obtain ⟨_, new, h1, _⟩ := Pkg.addFiles_always (nd := nd) (root := root) (listing := listing) hg
    exact h1.symm.subset (List.mem_append_right _ h)

theorem calls_keep {nd : Char → Bool} {before after : List Call} {e : TypeKey × Pkg.DsdlFile} (h : e ∈ afterCalls nd before) : e ∈ afterCalls nd (before ++ after) := by
  induction after using List.reverseRecOn with
  | nil => simpa using h
  | append_singleton after c ih =>
    rw [← List.append_assoc, afterCalls_snoc]
    exact run_keeps ih

theorem call_of_type {w : World} {adds : List Command} {calls : List Call} (h : Calls w adds calls) {name dsdl : String} (hm : .type name dsdl ∈ adds) :
    ∃ key, KeyText key name.toList ∧ .addString none key dsdl ∈ calls := by
  induction h with
  | none => simp at hm
  | package _ _ _ ih =>
    rcases List.mem_cons.1 hm with h | h
    · cases h
    · obtain ⟨key, h1, h2⟩ := ih h; exact ⟨key, h1, List.mem_cons_of_mem _ h2⟩
  | type hk _ ih =>
    rcases List.mem_cons.1 hm with h | h
    · cases h; exact ⟨_, hk, by simp⟩
    · obtain ⟨key, h1, h2⟩ := ih h; exact ⟨key, h1, List.mem_cons_of_mem _ h2⟩
  | makeExternal _ ih =>
    rcases List.mem_cons.1 hm with h | h
    · cases h
    · exact ih h

theorem not_external {cs : List Command} {path : List String} (h : ∀ start rest m, path = start ++ rest → Command.makeExternal start m ∉ cs) :
    externalModule path (externals cs) = none := by
  cases he : externalModule path (externals cs) with
  | none => rfl
  | some m =>
    obtain ⟨start, rest, base, h1, _, h2, _⟩ := (Front.C89_external _ _ _).1 he
    have hm : start ∈ (externals cs).map Prod.fst := by
      by_contra hn
      rw [lookup_none.2 hn] at h2
      cases h2
    obtain ⟨⟨_, b⟩, h3, rfl⟩ := List.mem_map.1 hm
    refine absurd ?_ (h _ rest b h1)
    obtain ⟨c, h4, h5⟩ := List.mem_filterMap.1 h3
    cases c <;> simp at h5
    obtain ⟨rfl, rfl⟩ := h5
    exact h4

/-- The Rust module for a type. -/
def moduleOf (key : TypeKey) : List String := key.path.map Front.makeRustIdentifier ++ [Front.versionModule Front.Heck.snake key]

/-- **C124** (what is generated): if the macro generates code, then for each type that is written in it there is a type in a module with the name of the type and its version (two for a
service, the request and the response), that is described by the statements that its text stands for, unless its package or one around it is marked as external. -/
theorem C124_types (w : World) (ts : List Token) (cs : List Command) (tree : ModuleTree) (hcs : InputText cs ts) (h : typesFromDsdl w ts = .ok (some tree)) :
    ∃ adds calls types, cs = adds ++ [.generate] ∧ Calls w adds calls ∧ (afterCalls w.nd calls).compile w.x w.disk = .ok types ∧ ∀ name dsdl, .type name dsdl ∈ cs →
    ∃ (key key' : TypeKey) (c : Compiled) (lines : List Parse.Line), KeyText key name.toList ∧ (key', c) ∈ types ∧ SameName key key' ∧
      Parse.DefinitionText Parse.accepted lines dsdl.toList ∧ DescribedBy w.x types key'.path (Parse.Line.statements lines) c.kind ∧
      ((∀ start rest m, key'.path = start ++ rest → Command.makeExternal start m ∉ cs) →
        match c.kind with
        | .message _ => ⟨.type, true, moduleOf key', Front.makeRustIdentifier key'.name⟩ ∈ tree.at (moduleOf key')
        | .service _ _ => ⟨.type, true, moduleOf key', Front.makeRustIdentifier key'.name ++ "Request"⟩ ∈ tree.at (moduleOf key') ∧
            ⟨.type, true, moduleOf key', Front.makeRustIdentifier key'.name ++ "Response"⟩ ∈ tree.at (moduleOf key')) := by
  obtain ⟨cs', h1, adds, calls, h2, h3, h4, h5⟩ := (C124_language w ts _).1 h
  cases C124_unambiguous ts _ _ hcs h1
  rcases h5 with ⟨_, h5⟩ | ⟨rfl, types, items, h5, h6, h7⟩
  · cases h5
  cases h7
  refine ⟨adds, calls, types, rfl, h2, h5, fun name dsdl hm => ?_⟩
  have hm' : .type name dsdl ∈ adds := by
    rcases List.mem_append.1 hm with h | h
    · exact h
    · simp at h
  obtain ⟨key, hk, hcall⟩ := call_of_type h2 hm'
  obtain ⟨before, after, rfl⟩ := List.append_of_mem hcall
  have hin : (key, (⟨.text dsdl, none⟩ : Pkg.DsdlFile)) ∈ afterCalls w.nd (before ++ .addString none key dsdl :: after) := by
    rw [show before ++ Call.addString none key dsdl :: after = (before ++ [.addString none key dsdl]) ++ after by simp]
    refine calls_keep ?_
    rw [afterCalls_snoc]
    exact (Pkg.tryInsert_adds (Pkg.afterCalls_good _ _) (h3 before _ after rfl)).2.symm.subset (by simp)
  obtain ⟨h8, h9⟩ := Pkg.C99_package w.nd _ w.x w.disk types h5
  have hf : key.folded ∈ types.map fun e => e.1.folded := h8.symm.subset (List.mem_map_of_mem (f := fun e => e.1.folded) hin)
  obtain ⟨⟨key', c⟩, hkc, hfold⟩ := List.mem_map.1 hf
  obtain ⟨name', f, text, lines, h10, h11, h12, h13, _, h14⟩ := h9 key' c hkc
  have hsame : (name', f) = (key, (⟨.text dsdl, none⟩ : Pkg.DsdlFile)) := by
    have hnd := (Pkg.C97_valid w.nd (before ++ .addString none key dsdl :: after)).2
    rw [Front.different_iff] at hnd
    refine List.inj_on_of_nodup_map hnd h10 hin ?_
    show name'.folded = key.folded
    rw [← hfold]
    exact h11
  cases hsame
  have htext : text = dsdl := by
    rcases h12 with ⟨_, h, _⟩ | h
    · cases h
    · cases h; rfl
  subst htext
  refine ⟨key, key', c, lines, hk, hkc, h11, h13, h14, fun hext => ?_⟩
  have hx : externalModule key'.path (externals adds) = none := not_external fun start rest m hp => by
    have := hext start rest m hp
    rw [List.mem_append] at this
    exact fun hc => this (.inl hc)
  obtain ⟨own, hown⟩ := Front.generated_of_mem h6 hkc hx
  have hall : ∀ i ∈ own, i.name.path = moduleOf key' → i ∈ (ModuleTree.fromItems items).at (moduleOf key') := by
    intro i hi hp
    rw [(Front.C89_modules items).2, List.mem_filter]
    exact ⟨(Front.mem_generateItems h6 i).2 ⟨key', c, own, hkc, hx, hown, hi⟩, by simpa using hp⟩
  have hname : Front.RustTypeName.forMessageType Front.Heck.snake key' (externals adds) = ⟨true, moduleOf key', Front.makeRustIdentifier key'.name⟩ := by
    simp only [Front.RustTypeName.forMessageType, hx, moduleOf]
  unfold Front.generateFromDsdl at hown
  cases hkind : c.kind with
  | message m =>
    rw [hkind] at hown
    obtain ⟨M, _, h15⟩ := bind_ok.1 hown
    cases h15
    rw [hname] at hall
    exact hall _ (by simp [Front.typeItems]) rfl
  | service request response =>
    rw [hkind] at hown
    obtain ⟨M, _, h15⟩ := bind_ok.1 hown
    obtain ⟨M', _, h16⟩ := bind_ok.1 h15
    cases h16
    simp only [Front.RustTypeName.forServiceType, hname] at hall
    exact ⟨hall _ (by simp [Front.typeItems]) rfl, hall _ (by simp [Front.typeItems]) rfl⟩

/-- **C124** (nothing else is generated): everything in the code is in the module of a type that was added by one of the statements and is not in an external package. -/
theorem C124_only (w : World) (ts : List Token) (cs : List Command) (tree : ModuleTree) (hcs : InputText cs ts) (h : typesFromDsdl w ts = .ok (some tree)) (path : List String) (i : Item)
    (hi : i ∈ tree.at path) : ∃ adds calls key key' f, cs = adds ++ [.generate] ∧ Calls w adds calls ∧ (key, f) ∈ afterCalls w.nd calls ∧ SameName key key' ∧ path = moduleOf key' ∧
      ∀ start rest m, key'.path = start ++ rest → start ≠ [] → Command.makeExternal start m ∉ cs := by
  obtain ⟨cs', h1, adds, calls, h2, h3, h4, h5⟩ := (C124_language w ts _).1 h
  cases C124_unambiguous ts _ _ hcs h1
  rcases h5 with ⟨_, h5⟩ | ⟨rfl, types, items, h5, h6, h7⟩
  · cases h5
  cases h7
  rw [(Front.C89_modules items).2, List.mem_filter] at hi
  obtain ⟨key', c, own, hkc, hx, hown, hio⟩ := (Front.mem_generateItems h6 i).1 hi.1
  obtain ⟨name, f, _, _, h7, h8, _⟩ := (Pkg.C99_package w.nd _ w.x w.disk types h5).2 key' c hkc
  refine ⟨adds, calls, name, key', f, rfl, h2, h7, h8, ?_, ?_⟩
  · have hname : Front.RustTypeName.forMessageType Front.Heck.snake key' (externals adds) = ⟨true, moduleOf key', Front.makeRustIdentifier key'.name⟩ := by
      simp only [Front.RustTypeName.forMessageType, hx, moduleOf]
    have port {n : Front.RustTypeName} {s : String} {p : Option Nat} (hn : n.path = moduleOf key') : ∀ i ∈ Front.portItems n s p, i.name.path = moduleOf key' := by
      intro i hi
      cases p <;> simp [Front.portItems] at hi
      subst hi; exact hn
    have type {n : Front.RustTypeName} {M : Dsdl.Message} (hn : n.path = moduleOf key') : ∀ i ∈ Front.typeItems n M, i.name.path = moduleOf key' := by
      intro i hi
      unfold Front.typeItems at hi
      rcases List.mem_cons.1 hi with rfl | hi
      · exact hn
      · split at hi <;> simp at hi
        subst hi; exact hn
    have hp : i.name.path = path := by simpa using hi.2
    rw [← hp]
    unfold Front.generateFromDsdl at hown
    cases hkind : c.kind with
    | message m =>
      rw [hkind] at hown
      obtain ⟨M, _, h15⟩ := bind_ok.1 hown
      cases h15
      rcases List.mem_append.1 hio with h | h
      · exact port (by rw [hname]) i h
      · exact type (by rw [hname]) i h
    | service request response =>
      rw [hkind] at hown
      obtain ⟨M, _, h15⟩ := bind_ok.1 hown
      obtain ⟨M', _, h16⟩ := bind_ok.1 h15
      cases h16
      rcases List.mem_append.1 hio with h | h
      · exact port (by simp [Front.RustTypeName.forServiceType, hname]) i h
      · rcases List.mem_append.1 h with h | h
        · exact type (by simp [Front.RustTypeName.forServiceType, hname]) i h
        · exact type (by simp [Front.RustTypeName.forServiceType, hname]) i h
  · intro start rest m hp hne hmem
    have hmem : Command.makeExternal start m ∈ adds := by
      rcases List.mem_append.1 hmem with h | h
      · exact h
      · simp at h
    have hin : (start, m) ∈ externals adds := List.mem_filterMap.2 ⟨_, hmem, rfl⟩
    -- The longest part of the path that is marked.
    have hex : ∃ n, ∃ start rest, key'.path = start ++ rest ∧ start ≠ [] ∧ start.length = n ∧ start ∈ (externals adds).map Prod.fst :=
      ⟨_, start, rest, hp, hne, rfl, List.mem_map_of_mem hin⟩
    classical
    let P := fun n => ∃ start rest, key'.path = start ++ rest ∧ start ≠ [] ∧ start.length = n ∧ start ∈ (externals adds).map Prod.fst
    have hbound : ∀ n, P n → n ≤ key'.path.length := by
      rintro n ⟨s, r, h, _, rfl, _⟩
      rw [h]; simp
    obtain ⟨n, hn⟩ := hex
    have hspec : P (Nat.findGreatest P key'.path.length) := Nat.findGreatest_spec (hbound n hn) hn
    obtain ⟨s, r, h10, h11, h12, h13⟩ := hspec
    have : ∃ b, (externals adds).lookup s = some b := by
      cases hl : (externals adds).lookup s with
      | none => exact absurd h13 (lookup_none.1 hl)
      | some b => exact ⟨b, rfl⟩
    obtain ⟨b, hb⟩ := this
    have := (Front.C89_external key'.path (externals adds) (b ++ r)).2 ⟨s, r, b, h10, h11, hb, rfl, fun longer more h14 h15 => by
      rw [lookup_none]
      intro h16
      have h17 : P longer.length := ⟨longer, more, h14, by rintro rfl; simp at h15, rfl, h16⟩
      have := Nat.le_findGreatest (hbound _ h17) h17
      omega⟩
    rw [hx] at this
    cases this

theorem bind_panic {α β : Type} {x : Outcome α} {f : α → Outcome β} : x.bind f = .panic ↔ x = .panic ∨ ∃ a, x = .ok a ∧ f a = .panic := by
  cases x <;> simp [Outcome.bind]

theorem path_no_panic {w : World} {after : Bool} {path : String} {ts : List Token} : evalPathArguments w after path ts ≠ .panic := by
  induction hn : ts.length using Nat.strong_induction_on generalizing after path ts with
  | _ n ih =>
    subst hn
    intro h
    cases ts with
    | nil => cases after <;> simp [evalPathArguments] at h
    | cons t ts =>
      cases after with
      | true =>
        cases t with
        | punct c =>
          by_cases hc : c = ','
          · subst hc
            exact ih ts.length (by simp) (after := false) (path := path) (ts := ts) rfl (by simpa [evalPathArguments] using h)
          · simp [evalPathArguments, hc] at h
        | _ => simp [evalPathArguments] at h
      | false =>
        cases t with
        | punct c =>
          cases ts with
          | nil => simp [evalPathArguments] at h
          | cons t ts =>
            cases t with
            | ident name =>
              by_cases hc : c = '$'
              · subst hc
                simp only [evalPathArguments, if_true, bind_panic] at h
                rcases h with h | ⟨value, _, h⟩
                · unfold evalEnvVariable at h
                  split at h
                  · cases hm : w.manifestDir <;> simp [hm] at h
                  · cases h
                · exact ih ts.length (by simp; omega) (after := true) (ts := ts) rfl h
              · simp [evalPathArguments, hc] at h
            | _ => simp [evalPathArguments] at h
        | str value =>
          simp only [evalPathArguments] at h
          exact ih ts.length (by simp) (after := true) (ts := ts) rfl h
        | _ => simp [evalPathArguments] at h

theorem external_no_panic {ext : ExternalPackages} {ts : List Token} : evalMakeExternalFunction ext ts ≠ .panic := by
  have h1 (names : List String) (ts : List Token) : cyphalPackage names ts ≠ .panic := by
    fun_induction cyphalPackage names ts <;> simp_all
  have h2 (names : List String) (ts : List Token) : rustModule names ts ≠ .panic := by
    fun_induction rustModule names ts <;> simp_all
  intro h
  unfold evalMakeExternalFunction at h
  rcases bind_panic.1 h with h | ⟨r, _, h⟩
  · exact h1 _ _ h
  · split at h
    · cases h
    · rcases bind_panic.1 h with h | ⟨m, _, h⟩
      · exact h2 _ _ h
      · split at h
        · cases h
        · split at h <;> cases h

theorem run_panic {w : World} (hdir : ∀ path root listing, w.directory path = some (root, listing) → ∀ e ∈ Pkg.dsdlFiles listing, ∃ rest, rest ≠ [] ∧ e.path = root ++ rest) :
    ∀ (ss : List Statement) (before : List Call) (ext : ExternalPackages), runStatements w (afterCalls w.nd before) ext ss = .panic →
      ∃ first arguments rest cs calls, ss = first ++ .function "generate" arguments :: rest ∧ List.Forall₂ Means first cs ∧ Calls w cs calls ∧
        evalGenerateFunction w (afterCalls w.nd (before ++ calls)) (ext ++ externals cs) = .panic := by
  have returned {r : Pkg.Returned × Package} (h : r.1 ≠ .panic) : ofReturned r ≠ .panic := by
    obtain ⟨r, q⟩ := r
    cases r <;> simp_all [ofReturned]
  intro ss
  induction ss with
  | nil => intro before ext h; cases h
  | cons s ss ih =>
    intro before ext h
    cases s with
    | inlineType name dsdl =>
      rcases bind_panic.1 h with h | ⟨_, h1, h⟩
      · unfold evalInlineType at h
        split at h
        · cases h
        · exact absurd h (returned Pkg.tryInsert_no_panic)
      · obtain ⟨key, hk, _, rfl⟩ := inline_ok.1 h1
        obtain ⟨first, arguments, rest, cs, calls, rfl, h2, h3, h4⟩ := ih _ _ h
        exact ⟨_ :: first, arguments, rest, .type name dsdl :: cs, _ :: calls, rfl, .cons (.type _ _) h2, .type hk h3, by simpa [externals] using h4⟩
    | function name arguments =>
      simp only [runStatements] at h
      split at h
      · rename_i hname
        subst hname
        rcases bind_panic.1 h with h | ⟨_, h1, h⟩
        · rcases bind_panic.1 h with h | ⟨path, _, h⟩
          · exact absurd h path_no_panic
          · unfold addDirectory at h
            split at h
            · rename_i root listing hd
              exact absurd h (returned (Pkg.C98_no_panic w.nd _ root listing (hdir _ _ _ hd)))
            · cases h
        · obtain ⟨path, hp, hd⟩ := bind_ok.1 h1
          obtain ⟨parts, hp1, hp2⟩ := path_iff.1 hp
          obtain ⟨root, listing, hdir', _, rfl⟩ := addDirectory_ok.1 hd
          obtain ⟨first, arguments', rest, cs, calls, rfl, h2, h3, h4⟩ := ih _ _ h
          exact ⟨_ :: first, arguments', rest, .package parts :: cs, _ :: calls, rfl, .cons (.package hp1) h2, .package hp2 hdir' h3, by simpa [externals] using h4⟩
      · split at h
        · rename_i hname
          subst hname
          rcases bind_panic.1 h with h | ⟨_, h1, h⟩
          · exact absurd h external_no_panic
          · obtain ⟨ps, ms, colons, hp, hm, hc, rfl, _, rfl⟩ := external_iff.1 h1
            obtain ⟨first, arguments', rest, cs, calls, rfl, h2, h3, h4⟩ := ih _ _ h
            exact ⟨_ :: first, arguments', rest, .makeExternal ps ms :: cs, calls, rfl, .cons (.makeExternal hp hm colons hc) h2, .makeExternal h3, by simpa [externals] using h4⟩
        · split at h
          · rename_i hname
            subst hname
            rcases bind_panic.1 h with h | ⟨_, _, h⟩
            · exact ⟨[], arguments, ss, [], [], rfl, .nil, .none, by simpa [externals] using h⟩
            · split at h <;> cases h
          · cases h

/-- **C124** (panic): the macro panics only if the compiler or the generator of code does, with what was added before `generate`. Files that are found in a directory are below it. -/
theorem C124_panic (w : World) (hdir : ∀ path root listing, w.directory path = some (root, listing) → ∀ e ∈ Pkg.dsdlFiles listing, ∃ rest, rest ≠ [] ∧ e.path = root ++ rest)
    (ts : List Token) (h : typesFromDsdl w ts = .panic) :
    ∃ before arguments after cs calls, ts = before ++ .ident "generate" :: .group .parenthesis arguments :: after ∧ InputText cs before ∧ Calls w cs calls ∧
      ((afterCalls w.nd calls).compile w.x w.disk = .panic ∨
        ∃ types, (afterCalls w.nd calls).compile w.x w.disk = .ok types ∧ generateItems Front.Heck.snake w.asEnum (externals cs) types = .panic) := by
  rcases bind_panic.1 h with h | ⟨ss, hs, h⟩
  · exact absurd h parse_no_panic
  · obtain ⟨first, arguments, rest, cs, calls, rfl, h1, h2, h3⟩ := run_panic hdir ss [] [] h
    have split : ∀ (first : List Statement) (ts : List Token), StatementsText (first ++ .function "generate" arguments :: rest) ts →
        ∃ before after, ts = before ++ .ident "generate" :: .group .parenthesis arguments :: after ∧ StatementsText first before := by
      intro first
      induction first with
      | nil =>
        intro ts h
        cases h with
        | more h hrest => cases h; exact ⟨[], _, rfl, .none⟩
      | cons s first ih =>
        intro ts h
        cases h with
        | more h hrest =>
          obtain ⟨before, after, rfl, h1⟩ := ih _ hrest
          exact ⟨_, after, (List.append_assoc _ _ _).symm, .more h h1⟩
    obtain ⟨before, after, rfl, h4⟩ := split first ts (parse_iff.1 hs)
    refine ⟨before, arguments, after, cs, calls, rfl, inputText_iff.2 ⟨first, h4, h1⟩, h2, ?_⟩
    rcases bind_panic.1 h3 with h | ⟨types, h5, h⟩
    · exact .inl h
    · rcases bind_panic.1 h with h | ⟨items, _, h⟩
      · exact .inr ⟨types, h5, h⟩
      · cases h

/-! ### Cases -/

/-- A world with one directory, for the examples. -/
def demoWorld : World where
  nd := fun _ => false
  manifestDir := some "/crate"
  directory := fun path => if path = "/crate/../d" then some ([.text "d"], Pkg.demoListing) else none
  disk := Pkg.demoDisk
  x := Front.demoX
  asEnum := fun _ _ => false

/-- `package($CARGO_MANIFEST_DIR, "/../d") make_external(ns, other::ns) type "my.T.1.0" { "ns.B.1.0 b\n@sealed\n" } generate()`, and the same without `generate()`. -/
def demoInput : List Token :=
  [.ident "package", .group .parenthesis [.punct '$', .ident "CARGO_MANIFEST_DIR", .punct ',', .str "/../d"],
    .ident "make_external", .group .parenthesis [.ident "ns", .punct ',', .ident "other", .punct ':', .punct ':', .ident "ns"],
    .ident "type", .str "my.T.1.0", .group .brace [.str "ns.B.1.0 b\n@sealed\n"]]

/-- What is asked for by `demoInput`. -/
def demoCommands : List Command := [.package [.manifestDir, .text "/../d"], .makeExternal ["ns"] ["other", "ns"], .type "my.T.1.0" "ns.B.1.0 b\n@sealed\n"]

theorem checked {out : Outcome (Option ModuleTree)} {check : ModuleTree → Bool} (h : (match out with | .ok (some tree) => check tree | _ => false) = true) :
    ∃ tree, out = .ok (some tree) ∧ check tree = true := by
  cases out with
  | ok o =>
    cases o with
    | some tree => exact ⟨tree, rfl, h⟩
    | none => cases h
  | error => cases h
  | panic => cases h

-- With `generate()` there is the type that is not external, and nothing of the external package.
example : InputText (demoCommands ++ [.generate]) (demoInput ++ [.ident "generate", .group .parenthesis []]) ∧
    ∃ tree, typesFromDsdl demoWorld (demoInput ++ [.ident "generate", .group .parenthesis []]) = .ok (some tree) ∧
      decide (tree.at ["my", "t_1_0"] ≠ [] ∧ tree.at ["ns", "b_1_0"] = []) = true :=
  ⟨by
    have h := InputText.more (.package (.more .manifestDir (.last (.text "/../d"))))
      (.more (.makeExternal (package := ["ns"]) (rustModule := ["other", "ns"]) (by simp) (by simp) [] (.inl rfl))
        (.more (.type "my.T.1.0" "ns.B.1.0 b\n@sealed\n") (.more (.generate []) .none)))
    simpa [demoCommands, demoInput, joined, PathPart.tokens] using h, checked (by decide +kernel)⟩

-- Without it there is nothing; with something after it, with an unknown function, or with a package that is marked twice there is an error.
example : (match typesFromDsdl demoWorld demoInput with | .ok none => true | _ => false) = true ∧
    (match typesFromDsdl demoWorld ([.ident "generate", .group .parenthesis []] ++ demoInput) with | .error => true | _ => false) = true ∧
    (match typesFromDsdl demoWorld (demoInput ++ [.ident "make_external", .group .parenthesis [.ident "ns", .punct ',', .ident "a"]]) with | .error => true | _ => false) = true ∧
    (match typesFromDsdl demoWorld (demoInput ++ [.ident "generates", .group .parenthesis []]) with | .error => true | _ => false) = true := by decide +kernel

-- A type whose text makes the compiler panic (C82).
example : (match typesFromDsdl demoWorld [.ident "type", .str "my.T.1.0", .group .brace [.str "@assert 1 / 0 == 1\n@sealed\n"], .ident "generate", .group .parenthesis []] with
    | .panic => true | _ => false) = true := by decide +kernel

-- The files in the directory are below it.
example : ∀ path root listing, demoWorld.directory path = some (root, listing) → ∀ e ∈ Pkg.dsdlFiles listing, ∃ rest, rest ≠ [] ∧ e.path = root ++ rest := by
  intro path root listing h
  simp only [demoWorld] at h
  split at h <;> cases h
  intro e he
  have hall : (Pkg.dsdlFiles Pkg.demoListing).all (fun e => e.path.head? = some (.text "d") ∧ e.path.length > 1) = true := by decide +kernel
  have := List.all_eq_true.1 hall e he
  simp only [decide_eq_true_eq] at this
  obtain ⟨path, isFile⟩ := e
  match path, this with
  | [_], h => simp at h
  | a :: b :: rest, h => exact ⟨b :: rest, by simp, by simp at h; simp [h]⟩

end Verif.Macro
