import Verif.Front.Names
import Mathlib.Data.List.Nodup

/-!
C89: the Rust names and modules of generated types.
-/

namespace Verif.Front

/-! ### External packages -/

theorem externalFrom_some {package : List String} {ext : ExternalPackages} {n : Nat} {m : List String} (h : externalFrom package ext n = some m) :
    ∃ i base, 0 < i ∧ i ≤ n ∧ ext.lookup (package.take i) = some base ∧ m = base ++ package.drop i ∧
      ∀ j, i < j → j ≤ n → ext.lookup (package.take j) = none := by
  induction n with
  | zero => simp [externalFrom] at h
  | succ n ih =>
    unfold externalFrom at h
    cases hl : ext.lookup (package.take (n + 1)) with
    | some base =>
      rw [hl] at h
      simp only [Option.some.injEq] at h
      exact ⟨n + 1, base, by omega, by omega, hl, h.symm, fun j h1 h2 => by omega⟩
    | none =>
      rw [hl] at h
      obtain ⟨i, base, h1, h2, h3, h4, h5⟩ := ih h
      refine ⟨i, base, h1, by omega, h3, h4, fun j hj hj' => ?_⟩
      rcases Nat.lt_or_ge n j with hh | hh
      · have : j = n + 1 := by omega
        rw [this]; exact hl
      · exact h5 j hj hh

theorem externalFrom_none {package : List String} {ext : ExternalPackages} {n : Nat} : externalFrom package ext n = none ↔
    ∀ i, 0 < i → i ≤ n → ext.lookup (package.take i) = none := by
  induction n with
  | zero => simp [externalFrom]; intro i h1 h2; omega
  | succ n ih =>
    unfold externalFrom
    cases hl : ext.lookup (package.take (n + 1)) with
    | some base =>
      simp only [reduceCtorEq, false_iff]
      intro h
      have := h (n + 1) (by omega) (by omega)
      rw [hl] at this
      cases this
    | none =>
      simp only [ih]
      constructor
      · intro h i h1 h2
        rcases Nat.lt_or_ge n i with hh | hh
        · have : i = n + 1 := by omega
          rw [this]; exact hl
        · exact h i h1 hh
      · intro h i h1 h2
        exact h i h1 (by omega)

/-- **C89** (external packages): a package is taken from elsewhere exactly if it or a package that it is in was registered. The longest registered part of its name
determines the Rust module; the rest of the name is appended to it. -/
theorem C89_external (package : List String) (ext : ExternalPackages) (m : List String) :
    externalModule package ext = some m ↔ ∃ start rest base, package = start ++ rest ∧ start ≠ [] ∧ ext.lookup start = some base ∧ m = base ++ rest ∧
      ∀ longer more, package = longer ++ more → start.length < longer.length → ext.lookup longer = none := by
  constructor
  · intro h
    obtain ⟨i, base, h1, h2, h3, h4, h5⟩ := externalFrom_some h
    refine ⟨package.take i, package.drop i, base, (List.take_append_drop i package).symm, ?_, h3, h4, ?_⟩
    · intro he
      have := congrArg List.length he
      simp at this
      rcases this with h | h
      · omega
      · rw [h] at h2; simp at h2; omega
    · intro longer more he hl
      have hlen : longer.length ≤ package.length := by rw [he]; simp
      have := h5 longer.length (by simp at hl; omega) hlen
      rwa [he, List.take_left] at this
  · rintro ⟨start, rest, base, he, hne, hl, hm, hlong⟩
    have hlen : start.length ≤ package.length := by rw [he]; simp
    have hpos : 0 < start.length := List.length_pos_iff.2 hne
    have htake : package.take start.length = start := by rw [he, List.take_left]
    cases hx : externalModule package ext with
    | none =>
      have := externalFrom_none.1 hx start.length hpos hlen
      rw [htake, hl] at this
      cases this
    | some m' =>
      obtain ⟨i, base', h1, h2, h3, h4, h5⟩ := externalFrom_some hx
      have hi : i = start.length := by
        rcases Nat.lt_trichotomy i start.length with h | h | h
        · have := h5 start.length h hlen
          rw [htake, hl] at this
          cases this
        · exact h
        · have := hlong (package.take i) (package.drop i) (List.take_append_drop i package).symm (by simp; omega)
          rw [h3] at this
          cases this
      rw [hi, htake, hl] at h3
      cases h3
      rw [h4, hm, hi]
      congr 2
      rw [he, List.drop_left]

/-! ### Modules -/

theorem find_entry (name other : String) (f : ModuleTree → ModuleTree) (children : List (String × ModuleTree)) (hs : children.Pairwise fun a b => a.1 < b.1) :
    (ModuleTree.entry name f children).find? (fun c => c.1 = other) =
      if name = other then some (name, f (((children.find? fun c => c.1 = name).map Prod.snd).getD .empty)) else children.find? (fun c => c.1 = other) := by
  induction children with
  | nil => simp only [ModuleTree.entry, List.find?_cons, List.find?_nil]; by_cases h : name = other <;> simp [h]
  | cons c rest ih =>
    obtain ⟨k, t⟩ := c
    have hr : ∀ {c}, c ∈ rest → k < c.1 := fun hc => List.rel_of_pairwise_cons hs hc
    unfold ModuleTree.entry
    by_cases h1 : name < k
    · rw [if_pos h1]
      have hnone : ((k, t) :: rest).find? (fun c => c.1 = name) = none := by
        rw [List.find?_eq_none]
        intro c hc
        rcases List.mem_cons.1 hc with rfl | hc
        · simpa using h1.ne'
        · simpa using (h1.trans (hr hc)).ne'
      rw [hnone, List.find?_cons]
      by_cases h : name = other <;> simp [h]
    · rw [if_neg h1]
      by_cases h2 : name = k
      · subst h2
        simp only [if_true, List.find?_cons]
        by_cases h : name = other <;> simp [h]
      · rw [if_neg h2, List.find?_cons]
        by_cases h3 : k = other
        · subst h3
          simp [h2]
        · simp only [h3, decide_false, List.find?_cons, Ne.symm h2]
          exact ih hs.of_cons

theorem entry_names (name : String) (f : ModuleTree → ModuleTree) (children : List (String × ModuleTree)) {c : String × ModuleTree} (h : c ∈ ModuleTree.entry name f children) :
    (c = (name, f .empty) ∨ ∃ t, (name, t) ∈ children ∧ c = (name, f t)) ∨ c ∈ children := by
  induction children with
  | nil => simp [ModuleTree.entry] at h; exact .inl (.inl h)
  | cons d rest ih =>
    obtain ⟨k, t⟩ := d
    unfold ModuleTree.entry at h
    split at h
    · rcases List.mem_cons.1 h with rfl | h
      · exact .inl (.inl rfl)
      · exact .inr h
    · split at h
      · rename_i h2
        rcases List.mem_cons.1 h with rfl | h
        · refine .inl (.inr ⟨t, ?_, ?_⟩) <;> simp [h2]
        · exact .inr (List.mem_cons_of_mem _ h)
      · rcases List.mem_cons.1 h with rfl | h
        · exact .inr (by simp)
        · rcases ih h with (h | ⟨t', h, h'⟩) | h
          · exact .inl (.inl h)
          · exact .inl (.inr ⟨t', List.mem_cons_of_mem _ h, h'⟩)
          · exact .inr (List.mem_cons_of_mem _ h)

theorem entry_sorted (name : String) (f : ModuleTree → ModuleTree) (children : List (String × ModuleTree)) (hs : children.Pairwise fun a b => a.1 < b.1) :
    (ModuleTree.entry name f children).Pairwise fun a b => a.1 < b.1 := by
  induction children with
  | nil => simp [ModuleTree.entry]
  | cons d rest ih =>
    obtain ⟨k, t⟩ := d
    have hr : ∀ {c}, c ∈ rest → k < c.1 := fun hc => List.rel_of_pairwise_cons hs hc
    unfold ModuleTree.entry
    split
    · rename_i h1
      refine List.pairwise_cons.2 ⟨fun c hc => ?_, hs⟩
      rcases List.mem_cons.1 hc with rfl | hc
      · exact h1
      · exact h1.trans (hr hc)
    · rename_i h1
      split
      · refine List.pairwise_cons.2 ⟨fun c hc => hr hc, hs.of_cons⟩
      · rename_i h2
        refine List.pairwise_cons.2 ⟨fun c hc => ?_, ih hs.of_cons⟩
        have hlt : k < name := lt_of_le_of_ne (not_lt.1 h1) (Ne.symm h2)
        rcases entry_names name f rest hc with (rfl | ⟨t', _, rfl⟩) | hc
        · exact hlt
        · exact hlt
        · exact hr hc

theorem empty_sorted : ModuleTree.empty.Sorted := .node [] [] List.Pairwise.nil (by simp)

theorem addItem_sorted (item : Item) (path : List String) : ∀ t : ModuleTree, t.Sorted → (t.addItem item path).Sorted := by
  induction path with
  | nil => rintro ⟨items, children⟩ ⟨_, _, h1, h2⟩; exact .node _ _ h1 h2
  | cons name rest ih =>
    rintro ⟨items, children⟩ ⟨_, _, h1, h2⟩
    refine .node _ _ (entry_sorted _ _ _ h1) fun c hc => ?_
    rcases entry_names _ _ _ hc with (rfl | ⟨t, ht, rfl⟩) | hc
    · exact ih _ empty_sorted
    · exact ih _ (h2 _ ht)
    · exact h2 _ hc

theorem at_empty (path : List String) : ModuleTree.empty.at path = [] := by cases path <;> rfl

theorem addItem_at (item : Item) (path : List String) : ∀ (t : ModuleTree), t.Sorted → ∀ other, (t.addItem item path).at other = t.at other ++ if path = other then [item] else [] := by
  induction path with
  | nil =>
    rintro ⟨items, children⟩ _ other
    cases other with
    | nil => rfl
    | cons o os => simp [ModuleTree.addItem, ModuleTree.at]
  | cons name rest ih =>
    rintro ⟨items, children⟩ ⟨_, _, h1, h2⟩ other
    cases other with
    | nil => simp [ModuleTree.addItem, ModuleTree.at]
    | cons o os =>
      simp only [ModuleTree.addItem, ModuleTree.at, find_entry name o _ _ h1]
      by_cases h : name = o
      · subst h
        simp only [if_true, List.cons.injEq, true_and]
        cases hf : children.find? (fun c => c.1 = name) with
        | none => simp [ih _ empty_sorted, at_empty]
        | some c => simpa using ih _ (h2 _ (List.mem_of_find?_eq_some hf)) os
      · simp [h]

/-- **C89** (modules): the module with some path contains exactly the items whose name has this path, in the order in which they were generated. No module contains two
modules with the same name. -/
theorem C89_modules (items : List Item) : (ModuleTree.fromItems items).Sorted ∧
    ∀ path, (ModuleTree.fromItems items).at path = items.filter fun i => i.name.path = path := by
  induction items using List.reverseRecOn with
  | nil => exact ⟨empty_sorted, at_empty⟩
  | append_singleton items i ih =>
    unfold ModuleTree.fromItems at *
    rw [List.foldl_append, List.foldl_cons, List.foldl_nil]
    refine ⟨addItem_sorted _ _ _ ih.1, fun path => ?_⟩
    rw [addItem_at _ _ _ ih.1, ih.2, List.filter_append]
    by_cases h : i.name.path = path <;> simp [h]

/-! ### Names -/

theorem split_last {u u' d d' : List Char} (h : u ++ '_' :: d = u' ++ '_' :: d') (hd : '_' ∉ d) (hd' : '_' ∉ d') : u = u' ∧ d = d' := by
  rcases List.append_eq_append_iff.1 h with ⟨a, h1, h2⟩ | ⟨a, h1, h2⟩
  · cases a with
    | nil => simp at h2; exact ⟨by simpa using h1.symm, h2⟩
    | cons c a =>
      simp only [List.cons_append, List.cons.injEq] at h2
      exact absurd (h2.2 ▸ by simp) hd
  · cases a with
    | nil => simp at h2; exact ⟨by simpa using h1, h2.symm⟩
    | cons c a =>
      simp only [List.cons_append, List.cons.injEq] at h2
      exact absurd (h2.2 ▸ by simp) hd'

theorem toString_inj {a b : Nat} (h : (toString a).toList = (toString b).toList) : a = b := by
  rw [Nat.toString_eq_repr, Nat.toString_eq_repr, Nat.toList_repr, Nat.toList_repr] at h
  have := congrArg (fun l => Nat.ofDigitChars 10 l 0) h
  simpa [Nat.ofDigitChars_ten_toDigits] using this

theorem no_underscore (a : Nat) : '_' ∉ (toString a).toList := by
  rw [Nat.toString_eq_repr, Nat.toList_repr]
  exact Nat.underscore_not_in_toDigits

/-- The module of a version tells the version, and the name in snake case. -/
theorem versionModule_inj {snake : String → String} {a b : TypeKey} (h : versionModule snake a = versionModule snake b) :
    snake a.name = snake b.name ∧ a.major = b.major ∧ a.minor = b.minor := by
  have hl := congrArg String.toList h
  simp only [versionModule, String.toList_append] at hl
  have e : "_".toList = ['_'] := rfl
  simp only [e, List.append_assoc, List.singleton_append] at hl
  rw [← List.append_assoc, ← List.append_assoc] at hl
  obtain ⟨h1, h2⟩ := split_last hl (no_underscore _) (no_underscore _)
  obtain ⟨h3, h4⟩ := split_last h1 (no_underscore _) (no_underscore _)
  exact ⟨String.toList_inj.1 h3, toString_inj h4, toString_inj h2⟩

theorem makeRustIdentifier_id {s : String} (h : s ≠ "_") : makeRustIdentifier s = s := if_neg h

theorem letters_append (a b : String) : letters (a ++ b) = letters a + letters b := by simp [letters, String.toList_append]

/-- The path of an internal name. -/
theorem internal_name {snake : String → String} {ext : ExternalPackages} {k : TypeKey} (hp : k.Plain) (he : externalModule k.path ext = none) :
    RustTypeName.forMessageType snake k ext = ⟨true, k.path ++ [versionModule snake k], k.name⟩ := by
  unfold RustTypeName.forMessageType
  rw [he, makeRustIdentifier_id hp.2.1]
  have : k.path.map makeRustIdentifier = k.path := by
    conv => rhs; rw [← List.map_id k.path]
    exact List.map_congr_left fun p hm => makeRustIdentifier_id (hp.2.2 p hm)
  rw [this]

/-- Whether a type is a service. -/
def Compiled.isService (c : Compiled) : Bool :=
  match c.kind with
  | .message _ => false
  | .service _ _ => true

/-- What the items of a type are, except for tests. -/
def ItemOf (snake : String → String) (k : TypeKey) (c : Compiled) (i : Item) : Prop :=
  let path := k.path ++ [versionModule snake k]
  (c.port ≠ none ∧ i = ⟨.constant, ⟨true, path, if c.isService then "SERVICE" else "SUBJECT"⟩⟩) ∨
  (c.isService = false ∧ i = ⟨.type, ⟨true, path, k.name⟩⟩) ∨
  (c.isService = true ∧ (i = ⟨.type, ⟨true, path, k.name ++ "Request"⟩⟩ ∨ i = ⟨.type, ⟨true, path, k.name ++ "Response"⟩⟩))

theorem typeItems_filter (name : RustTypeName) (M : Verif.Dsdl.Message) : (typeItems name M).filter (fun i => i.kind ≠ .test) = [⟨.type, name⟩] := by
  unfold typeItems
  split <;> simp

theorem suffix_ne (a b : String) : a ++ "Request" ≠ b ++ "Response" := by
  intro h
  have hl := congrArg (fun s => s.toList.reverse.take 7) h
  simp only [String.toList_append, List.reverse_append] at hl
  have e1 : "Request".toList.reverse = ['t', 's', 'e', 'u', 'q', 'e', 'R'] := by decide +kernel
  have e2 : "Response".toList.reverse = ['e', 's', 'n', 'o', 'p', 's', 'e', 'R'] := by decide +kernel
  rw [e1, e2] at hl
  simp at hl

/-- The items of one type are different. -/
theorem items_of {snake : String → String} {asEnum : TypeKey → Bool → Bool} {ext : ExternalPackages} {k : TypeKey} {c : Compiled} {items : List Item} (hp : k.Plain)
    (he : externalModule k.path ext = none) (h : generateFromDsdl snake asEnum ext k c = .ok items) :
    (items.filter fun i => i.kind ≠ .test).Nodup ∧ ∀ i ∈ items, i.kind ≠ .test → ItemOf snake k c i := by
  have hsub : ∀ l : List Item, items.filter (fun i => i.kind ≠ .test) = l → (∀ i ∈ l, ItemOf snake k c i) → ∀ i ∈ items, i.kind ≠ .test → ItemOf snake k c i := by
    intro l hl ha i hi hk
    exact ha i (hl ▸ List.mem_filter.2 ⟨hi, by simpa using hk⟩)
  have hport : ∀ name const, (portItems name const c.port).filter (fun i => i.kind ≠ .test) = portItems name const c.port := by
    intro name const
    unfold portItems
    split <;> simp
  have hn := internal_name (snake := snake) hp he
  unfold generateFromDsdl at h
  cases hk : c.kind with
  | message m =>
    rw [hk] at h
    have hs : c.isService = false := by simp [Compiled.isService, hk]
    obtain ⟨M, _, h2⟩ := Outcome.bind_ok h
    simp only [Outcome.ok.injEq] at h2
    have hf : items.filter (fun i => i.kind ≠ .test) = portItems ⟨true, k.path ++ [versionModule snake k], k.name⟩ "SUBJECT" c.port ++
        [⟨.type, ⟨true, k.path ++ [versionModule snake k], k.name⟩⟩] := by
      rw [← h2, List.filter_append, hport, typeItems_filter, hn]
    refine ⟨?_, hsub _ hf ?_⟩
    · rw [hf]
      unfold portItems
      split <;> simp
    · intro i hi
      unfold portItems at hi
      cases hc : c.port with
      | none => simp [hc] at hi; exact .inr (.inl ⟨hs, hi⟩)
      | some port =>
        simp [hc] at hi
        rcases hi with rfl | rfl
        · exact .inl ⟨by simp [hc], by simp [hs]⟩
        · exact .inr (.inl ⟨hs, rfl⟩)
  | service a b =>
    rw [hk] at h
    have hs : c.isService = true := by simp [Compiled.isService, hk]
    obtain ⟨M, _, h1⟩ := Outcome.bind_ok h
    obtain ⟨M', _, h2⟩ := Outcome.bind_ok h1
    simp only [Outcome.ok.injEq] at h2
    have hf : items.filter (fun i => i.kind ≠ .test) = portItems ⟨true, k.path ++ [versionModule snake k], k.name ++ "Request"⟩ "SERVICE" c.port ++
        [⟨.type, ⟨true, k.path ++ [versionModule snake k], k.name ++ "Request"⟩⟩, ⟨.type, ⟨true, k.path ++ [versionModule snake k], k.name ++ "Response"⟩⟩] := by
      rw [← h2, List.filter_append, List.filter_append, hport, typeItems_filter, typeItems_filter]
      simp only [RustTypeName.forServiceType, hn]
      rfl
    refine ⟨?_, hsub _ hf ?_⟩
    · rw [hf]
      unfold portItems
      have := suffix_ne k.name k.name
      split <;> simp [this]
    · intro i hi
      unfold portItems at hi
      cases hc : c.port with
      | none => simp [hc] at hi; exact .inr (.inr ⟨hs, hi⟩)
      | some port =>
        simp [hc] at hi
        rcases hi with rfl | hi
        · exact .inl ⟨by simp [hc], by simp [hs]⟩
        · exact .inr (.inr ⟨hs, hi⟩)

/-- Two types whose constants for fixed ports are not in the same module. -/
def OtherPort (snake : String → String) (a b : TypeKey × Compiled) : Prop :=
  a.2.port ≠ none → b.2.port ≠ none → a.2.isService = b.2.isService → a.1.path = b.1.path → a.1.major = b.1.major → a.1.minor = b.1.minor →
    snake a.1.name ≠ snake b.1.name

theorem itemOf_disjoint {snake : String → String} (hsn : KeepsLetters snake) {k k' : TypeKey} {c c' : Compiled} {i : Item} (hp : k.Plain) (hp' : k'.Plain)
    (ho : OtherPort snake (k, c) (k', c')) (hne : k ≠ k') (h : ItemOf snake k c i) (h' : ItemOf snake k' c' i) : False := by
  -- one name cannot be the other with letters appended
  have key : ∀ {a b : TypeKey} {s : String}, a.Plain → b.Plain → letters s ≠ 0 → snake a.name = snake b.name → a.name = b.name ++ s → False := by
    intro a b s ha hb hs hsnake hname
    have e1 := hsn a.name ha.1
    have e2 := hsn b.name hb.1
    rw [hsnake, e2, hname, letters_append] at e1
    omega
  have hreq : letters "Request" ≠ 0 := by decide +kernel
  have hresp : letters "Response" ≠ 0 := by decide +kernel
  have same : ∀ {n n' : String} {kd kd' : ItemKind}, (⟨kd, ⟨true, k.path ++ [versionModule snake k], n⟩⟩ : Item) = ⟨kd', ⟨true, k'.path ++ [versionModule snake k'], n'⟩⟩ →
      k.path = k'.path ∧ snake k.name = snake k'.name ∧ k.major = k'.major ∧ k.minor = k'.minor ∧ n = n' := by
    intro n n' kd kd' he
    simp only [Item.mk.injEq, RustTypeName.mk.injEq, true_and] at he
    obtain ⟨_, e1, e2⟩ := he
    obtain ⟨e3, e4⟩ := List.append_inj' e1 rfl
    simp only [List.cons.injEq, and_true] at e4
    obtain ⟨e5, e6, e7⟩ := versionModule_inj e4
    exact ⟨e3, e5, e6, e7, e2⟩
  have keyEq : k.path = k'.path → k.major = k'.major → k.minor = k'.minor → k.name = k'.name → False := by
    intro h1 h2 h3 h4
    apply hne
    cases k; cases k'
    simp_all
  unfold ItemOf at h h'
  simp only at h h'
  rcases h with ⟨hport, rfl⟩ | ⟨hs, rfl⟩ | ⟨hs, rfl | rfl⟩ <;> rcases h' with ⟨hport', h'⟩ | ⟨hs', h'⟩ | ⟨hs', h' | h'⟩
  · obtain ⟨e1, e2, e3, e4, e5⟩ := same h'
    refine ho hport hport' ?_ e1 e3 e4 e2
    show c.isService = c'.isService
    revert e5
    cases c.isService <;> cases c'.isService <;> decide +kernel
  · simp at h'
  · simp at h'
  · simp at h'
  · simp at h'
  · obtain ⟨e1, e2, e3, e4, e5⟩ := same h'; exact keyEq e1 e3 e4 e5
  · obtain ⟨e1, e2, e3, e4, e5⟩ := same h'; exact key hp hp' hreq e2 e5
  · obtain ⟨e1, e2, e3, e4, e5⟩ := same h'; exact key hp hp' hresp e2 e5
  · simp at h'
  · obtain ⟨e1, e2, e3, e4, e5⟩ := same h'; exact key hp' hp hreq e2.symm e5.symm
  · obtain ⟨e1, e2, e3, e4, e5⟩ := same h'; exact keyEq e1 e3 e4 (String.append_left_inj _ |>.1 e5)
  · obtain ⟨e1, e2, e3, e4, e5⟩ := same h'; exact suffix_ne _ _ e5
  · simp at h'
  · obtain ⟨e1, e2, e3, e4, e5⟩ := same h'; exact key hp' hp hresp e2.symm e5.symm
  · obtain ⟨e1, e2, e3, e4, e5⟩ := same h'; exact suffix_ne _ _ e5.symm
  · obtain ⟨e1, e2, e3, e4, e5⟩ := same h'; exact keyEq e1 e3 e4 (String.append_left_inj _ |>.1 e5)

/-- Every item is of one of the types. -/
theorem mem_generateItems {snake : String → String} {asEnum : TypeKey → Bool → Bool} {ext : ExternalPackages} {types : List (TypeKey × Compiled)} {items : List Item}
    (h : generateItems snake asEnum ext types = .ok items) (i : Item) : i ∈ items ↔
    ∃ k c own, (k, c) ∈ types ∧ externalModule k.path ext = none ∧ generateFromDsdl snake asEnum ext k c = .ok own ∧ i ∈ own := by
  induction types generalizing items with
  | nil => simp [generateItems] at h; subst h; simp
  | cons t rest ih =>
    obtain ⟨k, c⟩ := t
    unfold generateItems at h
    cases hx : externalModule k.path ext with
    | some m =>
      rw [hx] at h
      rw [ih h]
      constructor
      · rintro ⟨k', c', own, h1, h2⟩; exact ⟨k', c', own, List.mem_cons_of_mem _ h1, h2⟩
      · rintro ⟨k', c', own, h1, h2, h3⟩
        rcases List.mem_cons.1 h1 with he | h1
        · cases he; rw [hx] at h2; cases h2
        · exact ⟨k', c', own, h1, h2, h3⟩
    | none =>
      rw [hx] at h
      obtain ⟨first, h1, h2⟩ := Outcome.bind_ok h
      obtain ⟨more, h3, h4⟩ := Outcome.bind_ok h2
      simp only [Outcome.ok.injEq] at h4
      rw [← h4, List.mem_append, ih h3]
      constructor
      · rintro (hi | ⟨k', c', own, h5, h6⟩)
        · exact ⟨k, c, first, by simp, hx, h1, hi⟩
        · exact ⟨k', c', own, List.mem_cons_of_mem _ h5, h6⟩
      · rintro ⟨k', c', own, h5, h6, h7, h8⟩
        rcases List.mem_cons.1 h5 with he | h5
        · cases he; rw [h1] at h7; cases h7; exact .inl h8
        · exact .inr ⟨k', c', own, h5, h6, h7, h8⟩

/-- Code is generated for every type that is not external. -/
theorem generated_of_mem {snake : String → String} {asEnum : TypeKey → Bool → Bool} {ext : ExternalPackages} {types : List (TypeKey × Compiled)} {items : List Item}
    (h : generateItems snake asEnum ext types = .ok items) {k : TypeKey} {c : Compiled} (hk : (k, c) ∈ types) (hx : externalModule k.path ext = none) :
    ∃ own, generateFromDsdl snake asEnum ext k c = .ok own := by
  induction types generalizing items with
  | nil => simp at hk
  | cons t rest ih =>
    obtain ⟨k', c'⟩ := t
    unfold generateItems at h
    rcases List.mem_cons.1 hk with he | hk
    · cases he
      rw [hx] at h
      obtain ⟨first, h1, _⟩ := Outcome.bind_ok h
      exact ⟨first, h1⟩
    · cases hx' : externalModule k'.path ext with
      | some m => rw [hx'] at h; exact ih h hk
      | none =>
        rw [hx'] at h
        obtain ⟨first, _, h2⟩ := Outcome.bind_ok h
        obtain ⟨more, h3, _⟩ := Outcome.bind_ok h2
        exact ih h3 hk

theorem items_nodup {snake : String → String} (hsn : KeepsLetters snake) {asEnum : TypeKey → Bool → Bool} {ext : ExternalPackages} {types : List (TypeKey × Compiled)} {items : List Item}
    (hp : ∀ e ∈ types, e.1.Plain) (ho : types.Pairwise (OtherPort snake)) (hne : types.Pairwise fun a b => a.1 ≠ b.1)
    (h : generateItems snake asEnum ext types = .ok items) : (items.filter fun i => i.kind ≠ .test).Nodup := by
  induction types generalizing items with
  | nil => simp [generateItems] at h; subst h; simp
  | cons t rest ih =>
    obtain ⟨k, c⟩ := t
    have hrest := fun {items} => ih (items := items) (fun e he => hp e (List.mem_cons_of_mem _ he)) ho.of_cons hne.of_cons
    unfold generateItems at h
    cases hx : externalModule k.path ext with
    | some m => rw [hx] at h; exact hrest h
    | none =>
      rw [hx] at h
      obtain ⟨first, h1, h2⟩ := Outcome.bind_ok h
      obtain ⟨more, h3, h4⟩ := Outcome.bind_ok h2
      simp only [Outcome.ok.injEq] at h4
      obtain ⟨hn, hi⟩ := items_of (hp (k, c) (by simp)) hx h1
      rw [← h4, List.filter_append, List.nodup_append]
      refine ⟨hn, hrest h3, ?_⟩
      rintro i hi1 j hj rfl
      have hi1 := List.mem_filter.1 hi1
      have hj := List.mem_filter.1 hj
      have hk : i.kind ≠ .test := by simpa using hi1.2
      obtain ⟨k', c', own, h5, h6, h7, h8⟩ := (mem_generateItems h3 i).1 hj.1
      have hown := (items_of (hp (k', c') (List.mem_cons_of_mem _ h5)) h6 h7).2 i h8 hk
      exact itemOf_disjoint hsn (hp (k, c) (by simp)) (hp (k', c') (List.mem_cons_of_mem _ h5)) (List.rel_of_pairwise_cons ho h5) (List.rel_of_pairwise_cons hne h5)
        (hi i hi1.1 hk) hown

/-! ### The properties -/

/-- **C89** (no name is used twice): the Rust types that code is generated for have different names or are in different modules, and so have the constants with fixed port IDs.
This is only so if no name is `_`, and if no two types with the same version and fixed ports have the same name in snake case. The tests that are generated with the types are
left out. -/
theorem C89_unique_partial (snake : String → String) (hsn : KeepsLetters snake) (x : Externals) (files : List (TypeKey × File)) (types : List (TypeKey × Compiled))
    (hd : DifferentNames files) (h : compile x files = .ok types) (hplain : ∀ e ∈ types, e.1.Plain) (hports : types.Pairwise (OtherPort snake))
    (asEnum : TypeKey → Bool → Bool) (ext : ExternalPackages) (items : List Item) (hg : generateItems snake asEnum ext types = .ok items) :
    (items.filter fun i => i.kind ≠ .test).Nodup := by
  obtain ⟨hperm, _⟩ := C84_order x files types hd h
  have hnd : (types.map fun e => e.1.folded).Nodup := hperm.nodup_iff.2 ((different_iff files).1 hd)
  refine items_nodup hsn hplain hports ?_ hg
  have := List.pairwise_map.1 hnd
  exact this.imp fun hab he => hab (by rw [he])

/-- **C89** (names that are referred to): if a field or variant has a type with a name, it is taken from an external package, or code is generated for it, and under the name by which
the field or variant refers to it. -/
theorem C89_references (snake : String → String) (x : Externals) (files : List (TypeKey × File)) (types : List (TypeKey × Compiled)) (hd : DifferentNames files)
    (h : compile x files = .ok types) (asEnum : TypeKey → Bool → Bool) (ext : ExternalPackages) (items : List Item)
    (hg : generateItems snake asEnum ext types = .ok items) (key : TypeKey) (c : Compiled) (hm : (key, c) ∈ types) (m : CMessage) (hr : m ∈ c.messages)
    (name : String) (key' : TypeKey) (inner : CMessage) (a : Verif.Dsdl.Arity) (hmem : Member.data name (.composite key' inner) a ∈ m.members) :
    externalModule key'.path ext ≠ none ∨ ⟨.type, RustTypeName.forMessageType snake key' ext⟩ ∈ items := by
  obtain ⟨n, file, hf, hn, hc⟩ := C84_closed x files types hd h key c hm
  have hw := C87_messages_partial x types key file c hc m hr
  obtain ⟨port, hk⟩ := hw.known name key' inner a hmem
  cases hx : externalModule key'.path ext with
  | some m => exact .inl (by simp)
  | none =>
    right
    obtain ⟨own, ho⟩ := generated_of_mem hg hk hx
    refine (mem_generateItems hg _).2 ⟨key', _, own, hk, hx, ho, ?_⟩
    unfold generateFromDsdl at ho
    obtain ⟨M, _, h2⟩ := Outcome.bind_ok ho
    simp only [Outcome.ok.injEq] at h2
    rw [← h2]
    simp [typeItems]

/-- **C89** (names in other crates): a package that is in another crate, and registered as the module of that crate for this package, is referred to by the names that its types
were generated with in that crate. This is only so if no name of a package in it is `_`. -/
theorem C89_across_partial (snake : String → String) (ext : ExternalPackages) (key : TypeKey) (package rest base : List String) (hp : key.path = package ++ rest)
    (hr : ∀ p ∈ rest, p ≠ "_") (hne : package ≠ []) (hb : ext.lookup package = some (base ++ package.map makeRustIdentifier))
    (hlong : ∀ longer more, key.path = longer ++ more → package.length < longer.length → ext.lookup longer = none) :
    RustTypeName.forMessageType snake key ext =
      { RustTypeName.forMessageType snake key [] with internal := false, path := base ++ (RustTypeName.forMessageType snake key []).path } := by
  have h1 := (C89_external key.path ext _).2 ⟨package, rest, _, hp, hne, hb, rfl, hlong⟩
  have h2 : externalModule key.path [] = none := externalFrom_none.2 fun i _ _ => rfl
  unfold RustTypeName.forMessageType
  rw [h1, h2]
  have : rest.map makeRustIdentifier = rest := by
    conv => rhs; rw [← List.map_id rest]
    exact List.map_congr_left fun p hm => makeRustIdentifier_id (hr p hm)
  simp [hp, this]

/-! ### Cases -/

/-- A conversion into snake case: `_` between words, where a word begins with an uppercase letter or after `_`. -/
def demoSnakeFrom : Bool → Bool → List Char → List Char
  | _, _, [] => []
  | start, after, c :: cs =>
    if c = '_' then demoSnakeFrom start true cs
    else (if !start && (after || c.isUpper) then ['_'] else []) ++ c.toLower :: demoSnakeFrom false false cs

/-- `demoSnakeFrom` for strings. -/
def demoSnake (s : String) : String := String.ofList (demoSnakeFrom true false s.toList)

example : demoSnake "FooBar" = "foo_bar" ∧ demoSnake "Foo_Bar" = "foo_bar" ∧ demoSnake "GetInfo2" = "get_info2" := by decide +kernel

theorem toLower_ne {c : Char} (h : c ≠ '_') : c.toLower ≠ '_' := by
  unfold Char.toLower
  split
  · rename_i hc
    intro he
    have := congrArg (fun c : Char => c.val.toNat) he
    simp [UInt32.le_iff_toNat_le] at this hc
    omega
  · exact h

theorem demoSnake_keeps : KeepsLetters demoSnake := by
  intro s _
  unfold letters demoSnake
  rw [String.toList_ofList]
  generalize s.toList = l
  generalize true = start
  generalize false = after
  induction l generalizing start after with
  | nil => rfl
  | cons c cs ih =>
    unfold demoSnakeFrom
    by_cases h : c = '_'
    · subst h
      simpa using ih start true
    · rw [if_neg h, List.filter_append, List.length_append, List.filter_cons_of_pos (by simpa using toLower_ne h), List.filter_cons_of_pos (by simpa using h)]
      have : ((if !start && (after || c.isUpper) then ['_'] else []).filter fun c => c ≠ '_') = [] := by split <;> simp
      rw [this]
      simpa using ih false false

/-- What holds for the items that are generated, checked by evaluation. -/
theorem items_of_check {x : Externals} {files : List (TypeKey × File)} {ext : ExternalPackages} {check : List (TypeKey × Compiled) → List Item → Bool}
    (h : (match compile x files with
      | .ok types => match generateItems demoSnake (fun _ _ => false) ext types with | .ok items => check types items | _ => false
      | _ => false) = true) :
    ∃ types items, compile x files = .ok types ∧ generateItems demoSnake (fun _ _ => false) ext types = .ok items ∧ check types items = true := by
  cases hc : compile x files with
  | error => rw [hc] at h; cases h
  | panic => rw [hc] at h; cases h
  | ok types =>
    rw [hc] at h
    simp only at h
    cases hi : generateItems demoSnake (fun _ _ => false) ext types with
    | error => rw [hi] at h; cases h
    | panic => rw [hi] at h; cases h
    | ok items => rw [hi] at h; exact ⟨types, items, rfl, hi, h⟩

/-- `TypeKey.Plain`, computed. -/
def TypeKey.plainB (k : TypeKey) : Bool := k.name.toList.all (fun c => c.isAlphanum || c == '_') && k.name != "_" && k.path.all (· != "_")

/-- `OtherPort`, computed. -/
def otherPortB (snake : String → String) (a b : TypeKey × Compiled) : Bool :=
  a.2.port.isNone || b.2.port.isNone || a.2.isService != b.2.isService || a.1.path != b.1.path || a.1.major != b.1.major || a.1.minor != b.1.minor ||
    snake a.1.name != snake b.1.name

theorem plain_of_check {k : TypeKey} (h : k.plainB = true) : k.Plain := by
  simp only [TypeKey.plainB, Bool.and_eq_true, List.all_eq_true, Bool.or_eq_true, beq_iff_eq, bne_iff_ne, ne_eq] at h
  exact ⟨h.1.1, h.1.2, h.2⟩

theorem otherPort_of_check {snake : String → String} {a b : TypeKey × Compiled} (h : otherPortB snake a b = true) : OtherPort snake a b := by
  unfold OtherPort
  simp [otherPortB] at h
  intro h1 h2 h3 h4 h5 h6
  simp_all

/-- A message `pkg.FooBar.1.0` with a fixed port, `pkg.Foo_Bar.1.0` without one, a service `pkg.FooBar.1.1`, and a message in `pkg.sub` with a member of the first. -/
def nameFiles : List (TypeKey × File) :=
  [(⟨["pkg"], "FooBar", 1, 0⟩, ⟨some 100, some [.field (.scalar (.prim (uintTy 8))) "a", .directive "sealed" none]⟩),
    (⟨["pkg"], "Foo_Bar", 1, 0⟩, ⟨none, some [.field (.scalar (.prim (uintTy 8))) "a", .directive "sealed" none]⟩),
    (⟨["pkg"], "FooBar", 1, 1⟩, ⟨some 100, some [.field (.scalar (.prim (uintTy 8))) "a", .directive "sealed" none, .responseMarker, .padding 8, .directive "sealed" none]⟩),
    (⟨["pkg", "sub"], "User", 1, 0⟩, ⟨none, some [.field (.scalar (.versioned ⟨["pkg"], "FooBar", 1, 0⟩)) "m", .directive "sealed" none]⟩)]

-- The files meet the requirements of C89_unique_partial and C89_references.
example : DifferentNames nameFiles ∧ ∃ types items, compile demoX nameFiles = .ok types ∧ generateItems demoSnake (fun _ _ => false) [] types = .ok items ∧
    (types.all (fun e => e.1.plainB) && (types.Pairwise fun a b => otherPortB demoSnake a b = true) &&
      items.filter (fun i => i.kind ≠ .test) == [⟨.constant, ⟨true, ["pkg", "foo_bar_1_0"], "SUBJECT"⟩⟩, ⟨.type, ⟨true, ["pkg", "foo_bar_1_0"], "FooBar"⟩⟩,
        ⟨.type, ⟨true, ["pkg", "foo_bar_1_0"], "Foo_Bar"⟩⟩, ⟨.constant, ⟨true, ["pkg", "foo_bar_1_1"], "SERVICE"⟩⟩, ⟨.type, ⟨true, ["pkg", "foo_bar_1_1"], "FooBarRequest"⟩⟩,
        ⟨.type, ⟨true, ["pkg", "foo_bar_1_1"], "FooBarResponse"⟩⟩, ⟨.type, ⟨true, ["pkg", "sub", "user_1_0"], "User"⟩⟩]) = true :=
  ⟨by simp [nameFiles, DifferentNames, SameName]; decide +kernel, items_of_check (by decide +kernel)⟩

-- With `pkg` in another crate the type is referred to in that crate.
example : RustTypeName.forMessageType demoSnake ⟨["pkg", "sub"], "User", 1, 0⟩ [(["pkg"], ["types", "pkg"]), (["other"], ["x"])] = ⟨false, ["types", "pkg", "sub", "user_1_0"], "User"⟩ ∧
    externalModule ["a", "b", "c"] [(["a"], ["x"]), (["a", "b"], ["y", "z"]), (["b", "c"], ["w"])] = some ["y", "z", "c"] ∧
    externalModule ["a"] [([], ["x"]), (["a", "b"], ["y"])] = none := by decide +kernel

/-- **C89 does not hold** for two types with fixed ports whose names are the same in snake case: both constants are called `SUBJECT`, and are in the same module. -/
theorem C89_counterexample_subject : ∃ files types items, DifferentNames files ∧ compile demoX files = .ok types ∧ (∀ e ∈ types, e.1.Plain) ∧
    generateItems demoSnake (fun _ _ => false) [] types = .ok items ∧ ¬ (items.filter fun i => i.kind ≠ .test).Nodup := by
  let files : List (TypeKey × File) := [(⟨["pkg"], "FooBar", 1, 0⟩, ⟨some 100, some [.directive "sealed" none]⟩), (⟨["pkg"], "Foo_Bar", 1, 0⟩, ⟨some 101, some [.directive "sealed" none]⟩)]
  obtain ⟨types, items, h1, h2, h3⟩ : ∃ types items, compile demoX files = .ok types ∧ generateItems demoSnake (fun _ _ => false) [] types = .ok items ∧
      (types.all (fun e => e.1.plainB) && !decide (items.filter fun i => i.kind ≠ .test).Nodup) = true := items_of_check (by decide +kernel)
  simp only [Bool.and_eq_true, List.all_eq_true, Bool.not_eq_true', decide_eq_false_iff_not] at h3
  exact ⟨files, types, items, by simp [files, DifferentNames, SameName]; decide +kernel, h1, fun e he => plain_of_check (h3.1 e he), h2, h3.2⟩

/-- **C89 does not hold** for packages named `_`: it is replaced by `_0`, which can be the name of another package. -/
theorem C89_counterexample_underscore : ∃ files types items, DifferentNames files ∧ compile demoX files = .ok types ∧ types.Pairwise (OtherPort demoSnake) ∧
    generateItems demoSnake (fun _ _ => false) [] types = .ok items ∧ ¬ (items.filter fun i => i.kind ≠ .test).Nodup := by
  let files : List (TypeKey × File) := [(⟨["_"], "T", 1, 0⟩, ⟨none, some [.directive "sealed" none]⟩), (⟨["_0"], "T", 1, 0⟩, ⟨none, some [.directive "sealed" none]⟩)]
  obtain ⟨types, items, h1, h2, h3⟩ : ∃ types items, compile demoX files = .ok types ∧ generateItems demoSnake (fun _ _ => false) [] types = .ok items ∧
      ((types.Pairwise fun a b => otherPortB demoSnake a b = true) && !decide (items.filter fun i => i.kind ≠ .test).Nodup) = true := items_of_check (by decide +kernel)
  simp only [Bool.and_eq_true, decide_eq_true_eq, Bool.not_eq_true', decide_eq_false_iff_not] at h3
  exact ⟨files, types, items, by simp [files, DifferentNames, SameName]; decide +kernel, h1, h3.1.imp otherPort_of_check, h2, h3.2⟩

/-- **C89 does not hold** for the tests: the tests for the request and the response of a service have the same name and are in the same module, so that the generated code does not
compile as a test. -/
theorem C89_counterexample_test : ∃ files types items, DifferentNames files ∧ compile demoX files = .ok types ∧ (∀ e ∈ types, e.1.Plain) ∧
    types.Pairwise (OtherPort demoSnake) ∧ generateItems demoSnake (fun _ _ => false) [] types = .ok items ∧ ¬ items.Nodup := by
  let files : List (TypeKey × File) := [(⟨["pkg"], "Get", 1, 0⟩,
    ⟨none, some [.field (.scalar (.prim (uintTy 8))) "a", .directive "sealed" none, .responseMarker, .field (.scalar (.prim (uintTy 16))) "b", .directive "sealed" none]⟩)]
  obtain ⟨types, items, h1, h2, h3⟩ : ∃ types items, compile demoX files = .ok types ∧ generateItems demoSnake (fun _ _ => false) [] types = .ok items ∧
      (types.all (fun e => e.1.plainB) && (types.Pairwise fun a b => otherPortB demoSnake a b = true) && !decide items.Nodup) = true := items_of_check (by decide +kernel)
  simp only [Bool.and_eq_true, List.all_eq_true, decide_eq_true_eq, Bool.not_eq_true', decide_eq_false_iff_not] at h3
  exact ⟨files, types, items, by simp [files, DifferentNames], h1, fun e he => plain_of_check (h3.1.1 e he), h3.1.2.imp otherPort_of_check, h2, h3.2⟩

/-- **C89 does not hold** for packages named `_` in another crate: they are generated as `_0`, but referred to as `_`. -/
theorem C89_counterexample_across : (RustTypeName.forMessageType demoSnake ⟨["pkg", "_"], "T", 1, 0⟩ [(["pkg"], ["crate_name", "pkg"])]).path = ["crate_name", "pkg", "_", "t_1_0"] ∧
    (RustTypeName.forMessageType demoSnake ⟨["pkg", "_"], "T", 1, 0⟩ []).path = ["pkg", "_0", "t_1_0"] := by decide +kernel

end Verif.Front
