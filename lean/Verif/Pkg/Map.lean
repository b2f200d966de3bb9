import Verif.Pkg.Words
import Mathlib.Data.List.Perm.Basic
import Verif.Front.ExprOrder

/-! The map of a package, and the files of a directory. -/

namespace Verif.Pkg

open Verif.Front (TypeKey SameName DifferentNames)

/-! ### The order of names -/

instance : Std.TransCmp keyCmp :=
  inferInstanceAs (Std.TransCmp (compareLex (compareOn fun k : TypeKey => k.folded.1) (compareLex (compareOn fun k : TypeKey => k.folded.2.1)
    (compareOn fun k : TypeKey => k.folded.2.2))))

theorem keyCmp_eq {a b : TypeKey} : keyCmp a b = .eq ↔ SameName a b := by
  unfold keyCmp SameName
  rw [compareLex_eq_eq, compareLex_eq_eq]
  simp only [compareOn, Std.LawfulEqCmp.compare_eq_iff_eq]
  simp [Prod.ext_iff]

/-- The entries of a map are in the order of their keys. -/
def Sorted (p : Package) : Prop := p.Pairwise fun a b => keyCmp a.1 b.1 = .lt

theorem Sorted.different {p : Package} (h : Sorted p) : DifferentNames p :=
  h.imp fun {a b} hlt hs => by rw [keyCmp_eq.2 hs] at hlt; cases hlt

/-- Maps with the same entries are the same. -/
theorem Sorted.eq_of_perm {p q : Package} (hp : Sorted p) (hq : Sorted q) (h : p.Perm q) : p = q :=
  h.eq_of_pairwise (fun a b _ _ h1 h2 => by
    rw [Std.OrientedCmp.gt_iff_lt.2 h2] at h1; cases h1) hp hq

theorem entry_ok {key : TypeKey} {dsdl : DsdlFile} : ∀ {p q : Package}, Sorted p → p.entry key dsdl = .ok q →
    Sorted q ∧ q.Perm ((key, dsdl) :: p) ∧ ∀ e ∈ p, ¬ SameName e.1 key
  | [], q, _, h => by
    cases h
    exact ⟨by simp [Sorted], .refl _, by simp⟩
  | e :: rest, q, hs, h => by
    unfold Package.entry at h
    have hs' := List.pairwise_cons.1 hs
    split at h
    · rename_i hc
      cases h
      refine ⟨List.pairwise_cons.2 ⟨fun a ha => ?_, hs⟩, .refl _, fun a ha hn => ?_⟩
      · rcases List.mem_cons.1 ha with rfl | ha
        · exact hc
        · exact Std.TransCmp.lt_trans hc (hs'.1 a ha)
      · have hlt : keyCmp key a.1 = .lt := by
          rcases List.mem_cons.1 ha with rfl | ha
          · exact hc
          · exact Std.TransCmp.lt_trans hc (hs'.1 a ha)
        rw [keyCmp_eq.2 (show SameName key a.1 from hn.symm)] at hlt
        cases hlt
    · cases h
    · rename_i hc
      cases hr : Package.entry key dsdl rest with
      | error o => rw [hr] at h; cases h
      | ok r =>
        rw [hr] at h
        cases h
        obtain ⟨h1, h2, h3⟩ := entry_ok hs'.2 hr
        have hlt : keyCmp e.1 key = .lt := Std.OrientedCmp.gt_iff_lt.1 hc
        refine ⟨List.pairwise_cons.2 ⟨fun a ha => ?_, h1⟩, (h2.cons e).trans (.swap _ _ _), fun a ha => ?_⟩
        · rcases List.mem_cons.1 (h2.subset ha) with rfl | ha
          · exact hlt
          · exact hs'.1 a ha
        · rcases List.mem_cons.1 ha with rfl | ha
          · intro hn; rw [keyCmp_eq.2 hn] at hlt; cases hlt
          · exact h3 a ha

theorem entry_error {key old : TypeKey} {dsdl : DsdlFile} : ∀ {p : Package}, p.entry key dsdl = .error old → ∃ f, (old, f) ∈ p ∧ SameName old key
  | [], h => by cases h
  | e :: rest, h => by
    unfold Package.entry at h
    split at h
    · cases h
    · rename_i hc
      cases h
      exact ⟨e.2, by simp, (keyCmp_eq.1 hc).symm⟩
    · cases hr : Package.entry key dsdl rest with
      | error o =>
        rw [hr] at h
        cases h
        obtain ⟨f, hf, hn⟩ := entry_error hr
        exact ⟨f, by simp [hf], hn⟩
      | ok r => rw [hr] at h; cases h

/-! ### What is in a package -/

/-- A package that can be: sorted, and with valid names. -/
structure Good (p : Package) : Prop where
  sorted : Sorted p
  valid : ∀ e ∈ p, ValidKey e.1

theorem good_new : Good [] := ⟨by simp [Sorted], by simp⟩

theorem tryInsert_ok {nd : Char → Bool} {p : Package} {key : TypeKey} {dsdl : DsdlFile} (hp : Good p) :
    (p.tryInsert nd key dsdl).1 = .ok ↔ ValidKey key ∧ ∀ e ∈ p, ¬ SameName e.1 key := by
  unfold Package.tryInsert
  cases hv : validateFullKey nd key with
  | some e =>
    simp only [reduceCtorEq, false_iff, not_and]
    intro h; rw [validateFullKey_iff.2 h] at hv; cases hv
  | none =>
    have hk := validateFullKey_iff.1 hv
    cases he : p.entry key dsdl with
    | ok q => simpa [hk] using (entry_ok hp.sorted he).2.2
    | error old =>
      simp only [reduceCtorEq, false_iff, not_and]
      intro _ h
      obtain ⟨f, hf, hn⟩ := entry_error he
      exact h _ hf hn

theorem tryInsert_adds {nd : Char → Bool} {p : Package} {key : TypeKey} {dsdl : DsdlFile} (hp : Good p) (h : (p.tryInsert nd key dsdl).1 = .ok) :
    Good (p.tryInsert nd key dsdl).2 ∧ (p.tryInsert nd key dsdl).2.Perm ((key, dsdl) :: p) := by
  have hk := ((tryInsert_ok hp).1 h).1
  unfold Package.tryInsert at h ⊢
  cases hv : validateFullKey nd key with
  | some e => rw [hv] at h; cases h
  | none =>
    rw [hv] at h
    cases he : p.entry key dsdl with
    | error old => rw [he] at h; cases h
    | ok q =>
      obtain ⟨h1, h2, _⟩ := entry_ok hp.sorted he
      refine ⟨⟨h1, fun e hm => ?_⟩, h2⟩
      rcases List.mem_cons.1 (h2.subset hm) with rfl | hm
      · exact hk
      · exact hp.valid e hm

theorem tryInsert_keeps {nd : Char → Bool} {p : Package} {key : TypeKey} {dsdl : DsdlFile} (h : (p.tryInsert nd key dsdl).1 ≠ .ok) :
    (p.tryInsert nd key dsdl).2 = p := by
  unfold Package.tryInsert at h ⊢
  cases hv : validateFullKey nd key with
  | some e => rfl
  | none =>
    rw [hv] at h
    cases he : p.entry key dsdl with
    | error old => rfl
    | ok q => rw [he] at h; exact absurd rfl h

theorem tryInsert_good {nd : Char → Bool} {p : Package} {key : TypeKey} {dsdl : DsdlFile} (hp : Good p) : Good (p.tryInsert nd key dsdl).2 := by
  by_cases h : (p.tryInsert nd key dsdl).1 = .ok
  · exact (tryInsert_adds hp h).1
  · rw [tryInsert_keeps h]; exact hp

theorem tryInsert_no_panic {nd : Char → Bool} {p : Package} {key : TypeKey} {dsdl : DsdlFile} : (p.tryInsert nd key dsdl).1 ≠ .panic := by
  unfold Package.tryInsert
  cases validateFullKey nd key with
  | some e => simp
  | none => cases p.entry key dsdl <;> simp

/-! ### The files of a directory -/

theorem stripRoot_append : ∀ (root rest : List OsStr), stripRoot root (root ++ rest) = some rest
  | [], rest => by cases rest <;> rfl
  | r :: root, rest => by rw [List.cons_append, stripRoot, if_pos rfl, stripRoot_append root rest]

theorem stripRoot_some : ∀ {root file rest : List OsStr}, stripRoot root file = some rest → rest ≠ [] → file = root ++ rest
  | [], file, rest, h, _ => by
    have : stripRoot [] file = some file := by cases file <;> rfl
    rw [this] at h; exact Option.some.inj h
  | _ :: _, [], rest, h, hne => by
    rw [stripRoot] at h; exact absurd (Option.some.inj h).symm hne
  | r :: root, f :: file, rest, h, hne => by
    rw [stripRoot] at h
    split at h
    · rename_i he
      rw [List.cons_append, ← stripRoot_some h hne, he]
    · cases h

theorem utf8Components_iff : ∀ {xs : List OsStr} {ys : List String}, utf8Components xs = some ys ↔ xs = ys.map OsStr.text
  | [], ys => by cases ys <;> simp [utf8Components]
  | .bytes _ :: xs, ys => by cases ys <;> simp [utf8Components]
  | .text s :: xs, ys => by
    rw [utf8Components]
    cases ys with
    | nil => simp
    | cons y ys => simp [utf8Components_iff, and_comm, eq_comm]

theorem infoFromPath_iff {nd : Char → Bool} {root path : List OsStr} {key : TypeKey} {port : Option Nat} :
    infoFromPath nd root path = .ok (key, port) ↔ Defines root path key port := by
  unfold infoFromPath
  constructor
  · intro h
    cases h1 : stripRoot root path with
    | none => rw [h1] at h; cases h
    | some rest =>
      rw [h1] at h
      dsimp only at h
      cases h2 : utf8Components rest with
      | none => rw [h2] at h; cases h
      | some comps =>
        rw [h2] at h
        dsimp only at h
        cases h3 : comps.getLast? with
        | none => rw [h3] at h; cases h
        | some fn =>
          rw [h3] at h
          dsimp only at h
          cases h4 : parseFileName nd fn with
          | none => rw [h4] at h; cases h
          | some info =>
            rw [h4] at h
            cases h
            have hc : comps = comps.dropLast ++ [fn] := (List.dropLast_append_getLast? fn h3).symm
            have hr := utf8Components_iff.1 h2
            refine ⟨comps.dropLast, fn, info, ?_, parseFileName_iff.1 h4, rfl, rfl⟩
            rw [stripRoot_some h1 (by rw [hr, hc]; simp), hr, List.append_assoc]
            conv_lhs => rw [hc]
            simp
  · rintro ⟨dirs, fn, info, rfl, h, rfl, rfl⟩
    rw [List.append_assoc, stripRoot_append]
    have : utf8Components (dirs.map OsStr.text ++ [.text fn]) = some (dirs ++ [fn]) := utf8Components_iff.2 (by simp)
    dsimp only
    rw [this]
    dsimp only
    rw [List.getLast?_concat, List.dropLast_concat]
    dsimp only
    rw [parseFileName_iff.2 h]

theorem infoFromPath_no_panic {nd : Char → Bool} {root rest : List OsStr} (h : rest ≠ []) : infoFromPath nd root (root ++ rest) ≠ .panic := by
  unfold infoFromPath
  rw [stripRoot_append]
  dsimp only
  cases h2 : utf8Components rest with
  | none => simp
  | some comps =>
    dsimp only
    cases h3 : comps.getLast? with
    | none =>
      rw [List.getLast?_eq_none_iff] at h3
      exact absurd (by rw [utf8Components_iff.1 h2, h3]; rfl) h
    | some fn =>
      dsimp only
      cases parseFileName nd fn <;> simp

/-- A file defines one type at most. -/
theorem defines_unique {root path : List OsStr} {k k' : TypeKey} {port port' : Option Nat} (h : Defines root path k port) (h' : Defines root path k' port') :
    k = k' ∧ port = port' := by
  have h1 := (infoFromPath_iff (nd := fun _ => false)).2 h
  have h2 := (infoFromPath_iff (nd := fun _ => false)).2 h'
  rw [h1] at h2
  injection h2 with h2
  exact Prod.mk.inj h2

/-- An entry of a package comes from a file. -/
def FromFile (root : List OsStr) (e : Entry) (n : TypeKey × DsdlFile) : Prop := Defines root e.path n.1 n.2.port ∧ n.2.source = .file e.path

theorem fromFile_unique {root : List OsStr} {e : Entry} {n m : TypeKey × DsdlFile} (h : FromFile root e n) (h' : FromFile root e m) : n = m := by
  obtain ⟨h1, h2⟩ := defines_unique h.1 h'.1
  obtain ⟨k, s, p⟩ := n
  obtain ⟨k', s', p'⟩ := m
  have h3 : s = s' := h.2.trans h'.2.symm
  simp_all

theorem addFileFromPath_ok {nd : Char → Bool} {root : List OsStr} {p : Package} {e : Entry} :
    (p.addFileFromPath nd root e).1 = .ok ↔ ∃ n, FromFile root e n ∧ (p.tryInsert nd n.1 n.2).1 = .ok := by
  unfold Package.addFileFromPath
  constructor
  · intro h
    split at h
    · rename_i k port hi
      exact ⟨(k, ⟨.file e.path, port⟩), ⟨infoFromPath_iff.1 hi, rfl⟩, h⟩
    · cases h
    · cases h
  · rintro ⟨⟨k, s, port⟩, ⟨h1, h2⟩, h3⟩
    rw [infoFromPath_iff.2 h1]
    simp only at h2
    subst h2
    exact h3

theorem addFileFromPath_eq {nd : Char → Bool} {root : List OsStr} {p : Package} {e : Entry} {n : TypeKey × DsdlFile} (h : FromFile root e n) :
    p.addFileFromPath nd root e = p.tryInsert nd n.1 n.2 := by
  obtain ⟨k, s, port⟩ := n
  obtain ⟨h1, h2⟩ := h
  simp only at h2
  subst h2
  unfold Package.addFileFromPath
  rw [infoFromPath_iff.2 h1]

theorem addFileFromPath_keeps {nd : Char → Bool} {root : List OsStr} {p : Package} {e : Entry} (h : (p.addFileFromPath nd root e).1 ≠ .ok) :
    (p.addFileFromPath nd root e).2 = p := by
  unfold Package.addFileFromPath at h ⊢
  split
  · rename_i hi
    rw [hi] at h
    exact tryInsert_keeps h
  · rfl
  · rfl

/-- The DSDL files of what was found. -/
def dsdlFiles (listing : List (Option Entry)) : List Entry := (listing.filterMap id).filter Entry.isDsdl

theorem addFiles_cons {nd : Char → Bool} {root : List OsStr} {e : Entry} {rest : List (Option Entry)} {p : Package} (hd : e.isDsdl = true) :
    Package.addFiles nd root (some e :: rest) p =
      if (p.addFileFromPath nd root e).1 = .ok then Package.addFiles nd root rest (p.addFileFromPath nd root e).2 else p.addFileFromPath nd root e := by
  rw [Package.addFiles, if_pos hd]
  generalize p.addFileFromPath nd root e = r
  obtain ⟨r, q⟩ := r
  cases r <;> simp

theorem different_cons {α : Type} {a : TypeKey × α} {l : List (TypeKey × α)} : DifferentNames (a :: l) ↔ (∀ e ∈ l, ¬ SameName e.1 a.1) ∧ DifferentNames l := by
  unfold DifferentNames
  rw [List.pairwise_cons]
  exact and_congr_left fun _ => forall₂_congr fun e _ => not_congr ⟨Eq.symm, Eq.symm⟩

theorem different_perm {α : Type} {l m : List (TypeKey × α)} (h : l.Perm m) : DifferentNames l ↔ DifferentNames m :=
  h.pairwise_iff fun {_ _} hn hs => hn hs.symm

theorem addFiles_iff {nd : Char → Bool} {root : List OsStr} : ∀ {listing : List (Option Entry)} {p : Package}, Good p →
    ((Package.addFiles nd root listing p).1 = .ok ↔ none ∉ listing ∧
      ∃ new, List.Forall₂ (FromFile root) (dsdlFiles listing) new ∧ (∀ n ∈ new, ValidKey n.1) ∧ DifferentNames (new ++ p))
  | [], p, hp => by
    simp only [Package.addFiles, List.not_mem_nil, not_false_eq_true, true_and, true_iff]
    exact ⟨[], .nil, by simp, hp.sorted.different⟩
  | none :: rest, p, hp => by simp [Package.addFiles]
  | some e :: rest, p, hp => by
    by_cases hd : e.isDsdl = true
    · have hf : dsdlFiles (some e :: rest) = e :: dsdlFiles rest := by simp [dsdlFiles, hd]
      rw [addFiles_cons hd, hf]
      constructor
      · intro h
        split at h
        · rename_i hok
          obtain ⟨n, hn, hins⟩ := addFileFromPath_ok.1 hok
          rw [addFileFromPath_eq hn] at h
          obtain ⟨hg, hperm⟩ := tryInsert_adds hp hins
          obtain ⟨h1, new, h2, h3, h4⟩ := (addFiles_iff hg).1 h
          refine ⟨by simpa using h1, n :: new, .cons hn h2, ?_, ?_⟩
          · intro m hm
            rcases List.mem_cons.1 hm with rfl | hm
            · exact ((tryInsert_ok hp).1 hins).1
            · exact h3 m hm
          · refine (different_perm ?_).1 h4
            exact (hperm.append_left new).trans List.perm_middle
        · rename_i hno; exact absurd h hno
      · rintro ⟨h1, new, h2, h3, h4⟩
        cases h2 with
        | @cons _ n _ new hn h2 =>
          have h5 := different_cons.1 h4
          have hins : (p.tryInsert nd n.1 n.2).1 = .ok := (tryInsert_ok hp).2 ⟨h3 n (by simp), fun e he => h5.1 e (by simp [he])⟩
          obtain ⟨hg, hperm⟩ := tryInsert_adds hp hins
          rw [addFileFromPath_eq hn, if_pos hins]
          refine (addFiles_iff hg).2 ⟨by simpa using h1, new, h2, fun n hn => h3 n (by simp [hn]), ?_⟩
          exact (different_perm ((hperm.append_left new).trans List.perm_middle)).2 h4
    · have hf : dsdlFiles (some e :: rest) = dsdlFiles rest := by simp [dsdlFiles, hd]
      rw [Package.addFiles, if_neg hd, addFiles_iff hp, hf]
      simp

theorem addFiles_adds {nd : Char → Bool} {root : List OsStr} : ∀ {listing : List (Option Entry)} {p : Package} {new : Package}, Good p →
    (Package.addFiles nd root listing p).1 = .ok → List.Forall₂ (FromFile root) (dsdlFiles listing) new → (Package.addFiles nd root listing p).2.Perm (new ++ p)
  | [], p, new, hp, _, hn => by cases hn; exact .refl _
  | none :: rest, p, _, _, h, _ => by cases h
  | some e :: rest, p, new, hp, h, hn => by
    by_cases hd : e.isDsdl = true
    · have hf : dsdlFiles (some e :: rest) = e :: dsdlFiles rest := by simp [dsdlFiles, hd]
      rw [hf] at hn
      rw [addFiles_cons hd] at h ⊢
      cases hn with
      | @cons _ n _ new hn h2 =>
        split at h
        · rename_i hok
          rw [if_pos hok]
          rw [addFileFromPath_eq hn] at h hok ⊢
          obtain ⟨hg, hperm⟩ := tryInsert_adds hp hok
          exact (addFiles_adds hg h h2).trans ((hperm.append_left new).trans List.perm_middle)
        · rename_i hno; exact absurd h hno
    · have hf : dsdlFiles (some e :: rest) = dsdlFiles rest := by simp [dsdlFiles, hd]
      rw [hf] at hn
      rw [Package.addFiles, if_neg hd] at h ⊢
      exact addFiles_adds hp h hn

/-- Whatever happens, what was there stays, and what is new comes from a file that was found. -/
theorem addFiles_always {nd : Char → Bool} {root : List OsStr} : ∀ {listing : List (Option Entry)} {p : Package}, Good p →
    Good (Package.addFiles nd root listing p).2 ∧
      ∃ new, (Package.addFiles nd root listing p).2.Perm (new ++ p) ∧ ∀ n ∈ new, ∃ e ∈ dsdlFiles listing, FromFile root e n
  | [], p, hp => ⟨hp, [], .refl _, by simp⟩
  | none :: rest, p, hp => ⟨hp, [], .refl _, by simp⟩
  | some e :: rest, p, hp => by
    by_cases hd : e.isDsdl = true
    · have hf : dsdlFiles (some e :: rest) = e :: dsdlFiles rest := by simp [dsdlFiles, hd]
      rw [addFiles_cons hd, hf]
      split
      · rename_i hok
        obtain ⟨n, hn, hins⟩ := addFileFromPath_ok.1 hok
        rw [addFileFromPath_eq hn]
        obtain ⟨hg, hperm⟩ := tryInsert_adds hp hins
        obtain ⟨h1, new, h2, h3⟩ := addFiles_always hg
        refine ⟨h1, n :: new, h2.trans ((hperm.append_left new).trans List.perm_middle), ?_⟩
        intro m hm
        rcases List.mem_cons.1 hm with rfl | hm
        · exact ⟨e, by simp, hn⟩
        · obtain ⟨e', he', hfe⟩ := h3 m hm
          exact ⟨e', by simp [he'], hfe⟩
      · rename_i hno
        rw [addFileFromPath_keeps hno]
        exact ⟨hp, [], .refl _, by simp⟩
    · have hf : dsdlFiles (some e :: rest) = dsdlFiles rest := by simp [dsdlFiles, hd]
      rw [Package.addFiles, if_neg hd, hf]
      exact addFiles_always hp

theorem addFiles_no_panic {nd : Char → Bool} {root : List OsStr} : ∀ {listing : List (Option Entry)} {p : Package},
    (∀ e ∈ dsdlFiles listing, ∃ rest, rest ≠ [] ∧ e.path = root ++ rest) → (Package.addFiles nd root listing p).1 ≠ .panic
  | [], p, _ => by simp [Package.addFiles]
  | none :: rest, p, _ => by simp [Package.addFiles]
  | some e :: rest, p, h => by
    by_cases hd : e.isDsdl = true
    · have hf : dsdlFiles (some e :: rest) = e :: dsdlFiles rest := by simp [dsdlFiles, hd]
      rw [hf] at h
      rw [addFiles_cons hd]
      split
      · exact addFiles_no_panic fun e he => h e (by simp [he])
      · obtain ⟨r, hr, hp⟩ := h e (by simp)
        unfold Package.addFileFromPath
        rw [hp]
        split
        · exact tryInsert_no_panic
        · simp
        · rename_i hi; exact absurd hi (infoFromPath_no_panic hr)
    · have hf : dsdlFiles (some e :: rest) = dsdlFiles rest := by simp [dsdlFiles, hd]
      rw [hf] at h
      rw [Package.addFiles, if_neg hd]
      exact addFiles_no_panic h

/-! ### DSDL files by their names -/

theorem extensionOf_iff {α : Type} [DecidableEq α] {dot : α} {name ext : List α} (hd : dot ∉ ext) :
    extensionOf dot name = some ext ↔ ∃ before, before ≠ [] ∧ name = before ++ dot :: ext := by
  unfold extensionOf
  constructor
  · intro h
    dsimp only at h
    split at h
    · rename_i hl
      have he := Option.some.inj h
      have hsplit := List.takeWhile_append_dropWhile (p := fun x => decide (x ≠ dot)) (l := name.reverse)
      cases hw : name.reverse.dropWhile fun x => decide (x ≠ dot) with
      | nil =>
        rw [hw, List.append_nil] at hsplit
        rw [hsplit] at hl
        simp at hl
      | cons c rest =>
        have hc : c = dot := by
          have := List.head?_dropWhile_not (fun x => decide (x ≠ dot)) name.reverse
          rw [hw] at this
          simpa using this
        rw [hw] at hsplit
        have : name = rest.reverse ++ c :: (name.reverse.takeWhile fun x => decide (x ≠ dot)).reverse := by
          have := congrArg List.reverse hsplit
          simpa using this.symm
        rw [he, hc] at this
        refine ⟨rest.reverse, ?_, this⟩
        intro hr
        rw [hr] at this
        rw [he, this] at hl
        simp at hl
    · cases h
  · rintro ⟨before, hb, rfl⟩
    have htake : ((before ++ dot :: ext).reverse.takeWhile fun x => decide (x ≠ dot)) = ext.reverse := by
      rw [List.reverse_append, List.reverse_cons, List.append_assoc]
      rw [List.takeWhile_append_of_pos (by
        intro x hx
        simp only [List.mem_reverse] at hx
        simp only [ne_eq, decide_not, Bool.not_eq_eq_eq_not, Bool.not_true, decide_eq_false_iff_not]
        rintro rfl; exact hd hx)]
      simp
    dsimp only
    rw [htake]
    have : 0 < before.length := List.length_pos_iff.2 hb
    simp only [List.reverse_reverse, List.length_append, List.length_cons]
    rw [if_pos (by omega)]

theorem isDsdl_iff {e : Entry} : e.isDsdl = true ↔ e.isFile = true ∧ ∃ name, e.path.getLast? = some name ∧ DsdlFileName name := by
  unfold Entry.isDsdl
  rw [Bool.and_eq_true]
  refine and_congr_right fun _ => ?_
  cases h : e.path.getLast? with
  | none => simp
  | some name =>
    simp only [Option.some.injEq, exists_eq_left', Bool.or_eq_true]
    have d1 : '.' ∉ "dsdl".toList := by decide
    have d2 : '.' ∉ "uavcan".toList := by decide
    have d3 : '.'.toUInt8 ∉ "dsdl".toList.map Char.toUInt8 := by decide
    have d4 : '.'.toUInt8 ∉ "uavcan".toList.map Char.toUInt8 := by decide
    cases name with
    | text s =>
      simp only [OsStr.hasExtension, beq_iff_eq, extensionOf_iff d1, extensionOf_iff d2]
      constructor
      · rintro (⟨b, h1, h2⟩ | ⟨b, h1, h2⟩)
        · exact .inl ⟨s, b, _, rfl, h1, .inr rfl, h2⟩
        · exact .inl ⟨s, b, _, rfl, h1, .inl rfl, h2⟩
      · rintro (⟨s', b, ext, hs, h1, he, h2⟩ | ⟨bs, b, ext, hs, _⟩)
        · cases hs
          rcases he with rfl | rfl
          · exact .inr ⟨b, h1, h2⟩
          · exact .inl ⟨b, h1, h2⟩
        · cases hs
    | bytes bs =>
      simp only [OsStr.hasExtension, beq_iff_eq, extensionOf_iff d3, extensionOf_iff d4]
      constructor
      · rintro (⟨b, h1, h2⟩ | ⟨b, h1, h2⟩)
        · exact .inr ⟨bs, b, _, rfl, h1, .inr rfl, h2⟩
        · exact .inr ⟨bs, b, _, rfl, h1, .inl rfl, h2⟩
      · rintro (⟨s', b, ext, hs, _⟩ | ⟨bs', b, ext, hs, h1, he, h2⟩)
        · cases hs
        · cases hs
          rcases he with rfl | rfl
          · exact .inr ⟨b, h1, h2⟩
          · exact .inl ⟨b, h1, h2⟩

theorem utf8Components_none : ∀ {xs : List OsStr}, utf8Components xs = none → ∃ bs, .bytes bs ∈ xs
  | [], h => by simp [utf8Components] at h
  | .bytes bs :: xs, _ => ⟨bs, by simp⟩
  | .text s :: xs, h => by
    rw [utf8Components, Option.map_eq_none_iff] at h
    obtain ⟨bs, hb⟩ := utf8Components_none h
    exact ⟨bs, by simp [hb]⟩

theorem infoFromPath_error {nd : Char → Bool} {root path : List OsStr} {e : AddError} (h : infoFromPath nd root path = .err e) :
    (e = .notUtf8 ∧ ∃ bs, .bytes bs ∈ path) ∨ (e = .fileName ∧ ∃ s, path.getLast? = some (.text s) ∧ ¬ ∃ info, FileNameText info s.toList) := by
  unfold infoFromPath at h
  cases h1 : stripRoot root path with
  | none => rw [h1] at h; cases h
  | some comps =>
    have hs : comps.Sublist path ∧ (comps ≠ [] → comps.getLast? = path.getLast?) := by
      clear h
      induction root generalizing path with
      | nil => cases h1; exact ⟨.refl _, fun _ => rfl⟩
      | cons r root ih =>
        cases path with
        | nil => cases h1; exact ⟨.refl _, fun _ => rfl⟩
        | cons f file =>
          rw [stripRoot] at h1
          split at h1
          · obtain ⟨i1, i2⟩ := ih h1
            refine ⟨i1.cons f, fun hne => ?_⟩
            have : file ≠ [] := by rintro rfl; exact hne (List.sublist_nil.1 i1)
            rw [i2 hne, List.getLast?_cons_of_ne_nil this]
          · cases h1
    rw [h1] at h
    dsimp only at h
    cases h2 : utf8Components comps with
    | none =>
      rw [h2] at h
      cases h
      obtain ⟨bs, hb⟩ := utf8Components_none h2
      exact .inl ⟨rfl, bs, hs.1.subset hb⟩
    | some parts =>
      rw [h2] at h
      dsimp only at h
      cases h3 : parts.getLast? with
      | none => rw [h3] at h; cases h
      | some name =>
        rw [h3] at h
        dsimp only at h
        cases h4 : parseFileName nd name with
        | some info => rw [h4] at h; cases h
        | none =>
          rw [h4] at h
          cases h
          have hc := utf8Components_iff.1 h2
          refine .inr ⟨rfl, name, ?_, ?_⟩
          · rw [← hs.2 (by rw [hc]; rintro e; simp at e; subst e; simp at h3), hc, List.getLast?_map, h3]; rfl
          · rintro ⟨info, hi⟩
            rw [parseFileName_iff.2 hi] at h4
            cases h4

theorem errorAbout_directory {root : List OsStr} {listing : List (Option Entry)} {files : List Entry} {p : Package} {key : TypeKey} {port : Option Nat} {f : Entry} {e : AddError}
    (he : ErrorAbout key e) (hf : f ∈ files) (hd : Defines root f.path key port) : ErrorInDirectory root listing files p e := by
  cases e <;> first | exact ⟨f, hf, key, port, hd, he⟩ | exact he.elim

theorem ErrorInDirectory.mono {root : List OsStr} {listing listing' : List (Option Entry)} {files files' : List Entry} {p : Package} {e : AddError}
    (h : ErrorInDirectory root listing files p e) (h1 : none ∈ listing → none ∈ listing') (h2 : ∀ f ∈ files, f ∈ files') : ErrorInDirectory root listing' files' p e := by
  cases e with
  | walk => exact h1 h
  | _ => obtain ⟨f, hf, hr⟩ := h; exact ⟨f, h2 f hf, hr⟩

theorem addFiles_error {nd : Char → Bool} {root : List OsStr} {e : AddError} : ∀ {listing : List (Option Entry)} {p : Package},
    (Package.addFiles nd root listing p).1 = .err e → ErrorInDirectory root listing (dsdlFiles listing) (Package.addFiles nd root listing p).2 e
  | [], p, h => by cases h
  | none :: rest, p, h => by cases h; exact List.mem_cons_self
  | some f :: rest, p, h => by
    by_cases hd : f.isDsdl = true
    · have hm : f ∈ dsdlFiles (some f :: rest) := by simp [dsdlFiles, hd]
      rw [addFiles_cons hd] at h ⊢
      split at h
      · rename_i h1
        rw [if_pos h1]
        exact (addFiles_error h).mono (fun h => by simp [h]) fun g hg => by simp [dsdlFiles, hd] at hg ⊢; exact .inr hg
      · rename_i h1
        rw [if_neg h1]
        unfold Package.addFileFromPath at h ⊢
        cases hi : infoFromPath nd root f.path with
        | panic => rw [hi] at h; cases h
        | err e' =>
          rw [hi] at h
          cases h
          rcases infoFromPath_error hi with ⟨rfl, hb⟩ | ⟨rfl, hb⟩
          · exact ⟨f, hm, hb⟩
          · exact ⟨f, hm, hb⟩
        | ok kp =>
          obtain ⟨key, port⟩ := kp
          have hdef := infoFromPath_iff.1 hi
          rw [hi] at h
          dsimp only at h ⊢
          unfold Package.tryInsert at h ⊢
          cases hv : validateFullKey nd key with
          | some e' =>
            rw [hv] at h
            cases h
            exact errorAbout_directory (validateFullKey_error hv) hm hdef
          | none =>
            rw [hv] at h
            dsimp only at h ⊢
            cases he : p.entry key ⟨.file f.path, port⟩ with
            | ok q => rw [he] at h; cases h
            | error old =>
              rw [he] at h
              cases h
              obtain ⟨d, h1, h2⟩ := entry_error he
              exact ⟨f, hm, key, port, hdef, validateFullKey_iff.1 hv, h2, d, h1⟩
    · have e1 : Package.addFiles nd root (some f :: rest) p = Package.addFiles nd root rest p := by rw [Package.addFiles, if_neg hd]
      rw [e1] at h ⊢
      exact (addFiles_error h).mono (fun h => by simp [h]) fun g hg => by simp [dsdlFiles, hd] at hg ⊢; exact hg

end Verif.Pkg
