import Verif.Front.SolveSpec
import Verif.Front.Rel
import Mathlib.Data.List.Nodup
import Mathlib.Data.List.Perm.Subperm

/-! Lemmas about compiling all files. -/

namespace Verif.Front

theorem TypeKey.eq_iff (a b : TypeKey) : a.eq b = true ↔ a.folded = b.folded := by
  unfold TypeKey.eq; exact beq_iff_eq

theorem TypeKey.caseSensitiveEqual_iff (a b : TypeKey) : a.caseSensitiveEqual b = true ↔ a = b := by
  unfold TypeKey.caseSensitiveEqual; exact beq_iff_eq

theorem different_iff {α : Type} (l : List (TypeKey × α)) : DifferentNames l ↔ (l.map fun e => e.1.folded).Nodup := by
  unfold DifferentNames List.Nodup SameName
  rw [List.pairwise_map]

/-! ### The maps -/

theorem getKeyValue_some {α : Type} {m : List (TypeKey × α)} {key : TypeKey} {e : TypeKey × α} (h : getKeyValue m key = some e) :
    e ∈ m ∧ e.1.folded = key.folded := by
  unfold getKeyValue at h
  have h' := List.find?_some (p := fun e : TypeKey × α => e.1.eq key) h
  exact ⟨List.mem_of_find?_eq_some h, (TypeKey.eq_iff _ _).1 h'⟩

theorem getKeyValue_none {α : Type} {m : List (TypeKey × α)} {key : TypeKey} (h : getKeyValue m key = none) :
    key.folded ∉ m.map fun e => e.1.folded := by
  unfold getKeyValue at h
  rw [List.find?_eq_none] at h
  intro hm
  obtain ⟨e, he, hf⟩ := List.mem_map.1 hm
  exact h e he ((TypeKey.eq_iff _ _).2 hf)

theorem getKeyValue_isSome {α : Type} {m : List (TypeKey × α)} {key : TypeKey} (h : key.folded ∈ m.map fun e => e.1.folded) :
    ∃ e, getKeyValue m key = some e := by
  cases hg : getKeyValue m key with
  | some e => exact ⟨e, rfl⟩
  | none => exact absurd h (getKeyValue_none hg)

theorem mem_unique_of {α β : Type} {f : α → β} : ∀ {l : List α}, (l.map f).Nodup → ∀ {a b}, a ∈ l → b ∈ l → f a = f b → a = b
  | [], _, _, _, ha, _, _ => by simp at ha
  | c :: l, hn, a, b, ha, hb, h => by
    rw [List.map_cons, List.nodup_cons] at hn
    rcases List.mem_cons.1 ha with rfl | ha' <;> rcases List.mem_cons.1 hb with rfl | hb'
    · rfl
    · exact absurd (h ▸ List.mem_map_of_mem hb') hn.1
    · exact absurd (h ▸ List.mem_map_of_mem ha') hn.1
    · exact mem_unique_of hn.2 ha' hb' h

theorem mem_unique {α : Type} {m : List (TypeKey × α)} (hn : (m.map fun e => e.1.folded).Nodup) {a b : TypeKey × α} (ha : a ∈ m) (hb : b ∈ m)
    (h : a.1.folded = b.1.folded) : a = b :=
  mem_unique_of hn ha hb h

theorem getCaseSensitive_some {α : Type} {m : List (TypeKey × α)} {key : TypeKey} {c : α} (h : getCaseSensitive m key = some c) : (key, c) ∈ m := by
  unfold getCaseSensitive at h
  cases hg : getKeyValue m key with
  | none => rw [hg] at h; cases h
  | some e =>
    rw [hg] at h
    dsimp only at h
    split at h
    · next hc =>
      rw [TypeKey.caseSensitiveEqual_iff] at hc
      cases h
      rw [← hc]
      exact (getKeyValue_some hg).1
    · cases h

theorem getCaseSensitive_of_mem {α : Type} {m : List (TypeKey × α)} (hn : (m.map fun e => e.1.folded).Nodup) {key : TypeKey} {c : α}
    (h : (key, c) ∈ m) : getCaseSensitive m key = some c := by
  obtain ⟨e, he⟩ := getKeyValue_isSome (m := m) (key := key) (List.mem_map.2 ⟨_, h, rfl⟩)
  have := mem_unique hn (getKeyValue_some he).1 h (getKeyValue_some he).2
  unfold getCaseSensitive
  rw [he, this]
  simp [TypeKey.caseSensitiveEqual]

theorem table_of_mem {t : List (TypeKey × Compiled)} (hn : (t.map fun e => e.1.folded).Nodup) {key : TypeKey} {c : Compiled} (h : (key, c) ∈ t) :
    table key t = .ok (c, t) := by
  unfold table
  cases hf : t.find? fun e => e.1 = key with
  | none =>
    rw [List.find?_eq_none] at hf
    exact absurd (by simp) (hf _ h)
  | some e =>
    have hk := List.find?_some hf
    rw [decide_eq_true_iff] at hk
    have := mem_unique hn (List.mem_of_find?_eq_some hf) h (by rw [hk])
    rw [this]

theorem table_ok {t t' : List (TypeKey × Compiled)} {key : TypeKey} {c : Compiled} (h : table key t = .ok (c, t')) : t' = t ∧ (key, c) ∈ t := by
  unfold table at h
  split at h
  · next e hf =>
    cases h
    have hk := List.find?_some hf
    rw [decide_eq_true_iff] at hk
    exact ⟨rfl, hk ▸ List.mem_of_find?_eq_some hf⟩
  · cases h

theorem removeKey_some {α : Type} {m : List (TypeKey × α)} {key : TypeKey} {a : α} {rest : List (TypeKey × α)} (h : removeKey m key = some (a, rest)) :
    (∃ name, (name, a) ∈ m ∧ name.folded = key.folded) ∧ rest = m.filter (fun e => !e.1.eq key) := by
  unfold removeKey at h
  cases hg : getKeyValue m key with
  | none => rw [hg] at h; cases h
  | some e =>
    rw [hg] at h
    cases h
    exact ⟨⟨e.1, (getKeyValue_some hg).1, (getKeyValue_some hg).2⟩, rfl⟩

theorem filter_keys_perm {α : Type} : ∀ {m : List (TypeKey × α)} {key : TypeKey}, (m.map fun e => e.1.folded).Nodup →
    key.folded ∈ m.map (fun e => e.1.folded) → (m.map fun e => e.1.folded).Perm (key.folded :: (m.filter fun e => !e.1.eq key).map fun e => e.1.folded)
  | [], key, _, h => by simp at h
  | e :: m, key, hn, h => by
    rw [List.map_cons, List.nodup_cons] at hn
    by_cases he : e.1.folded = key.folded
    · have hk : e.1.eq key = true := (TypeKey.eq_iff _ _).2 he
      have hrest : m.filter (fun e => !e.1.eq key) = m := by
        rw [List.filter_eq_self]
        intro e' he'
        by_contra hc
        have hc' : e'.1.eq key = true := by simpa using hc
        rw [TypeKey.eq_iff] at hc'
        exact hn.1 (List.mem_map.2 ⟨e', he', hc'.trans he.symm⟩)
      rw [List.filter_cons_of_neg (by simp [hk]), hrest, List.map_cons, he]
    · have hk : ¬ e.1.eq key = true := fun hc => he ((TypeKey.eq_iff _ _).1 hc)
      rw [List.filter_cons_of_pos (by simp [hk]), List.map_cons, List.map_cons]
      have h' : key.folded ∈ m.map fun e => e.1.folded := by
        rw [List.map_cons, List.mem_cons] at h
        exact h.resolve_left fun hc => he hc.symm
      exact ((filter_keys_perm hn.2 h').cons _).trans (.swap _ _ _)

theorem insertDone_ok {p p' : Persistent} {key : TypeKey} {c : Compiled} (h : insertDone p key c = .ok p') :
    key.folded ∉ p.done.map (fun e => e.1.folded) ∧ p'.pending = p.pending ∧ p'.done = p.done ++ [(key, c)] := by
  unfold insertDone at h
  split at h
  · cases h
  · next hg => cases h; exact ⟨getKeyValue_none hg, rfl, rfl⟩

theorem InOrder.snoc {x : Externals} {files : List (TypeKey × File)} {types : List (TypeKey × Compiled)} (h : InOrder x files types) {key : TypeKey}
    {c : Compiled} (hc : ∃ name file, (name, file) ∈ files ∧ SameName name key ∧ Compiles x types key file c) : InOrder x files (types ++ [(key, c)]) := by
  intro before k d after he
  rcases List.eq_nil_or_concat after with ha | ⟨after', z, ha⟩
  · subst ha
    obtain ⟨h1, h2⟩ := List.append_inj' he rfl
    cases h2
    exact h1 ▸ hc
  · subst ha
    rw [List.concat_eq_append, ← List.cons_append, ← List.append_assoc] at he
    exact h before k d after' (List.append_inj' he rfl).1

theorem InOrder.nil (x : Externals) (files : List (TypeKey × File)) : InOrder x files [] := by
  intro before k d after he
  cases before <;> cases he

/-! ### Every result is that of its file -/

/-- What holds while the compiler runs. -/
structure Inv (x : Externals) (files : List (TypeKey × File)) (p : Persistent) : Prop where
  done : (p.done.map fun e => e.1.folded).Nodup
  order : InOrder x files p.done
  pending : (p.pending.map fun e => e.1.folded).Nodup
  files : ∀ e ∈ p.pending, e ∈ files

/-- The names of all types that are pending or done. -/
def Persistent.keys (p : Persistent) : List (List String × String × List Nat) := p.pending.map (fun e => e.1.folded) ++ p.done.map (fun e => e.1.folded)

/-- What changes between two states. -/
structure Ext (p p' : Persistent) : Prop where
  done : p.done <+: p'.done
  pending : p'.pending.Sublist p.pending
  keys : p'.keys.Perm p.keys

theorem Ext.refl (p : Persistent) : Ext p p := ⟨List.prefix_refl _, List.Sublist.refl _, List.Perm.refl _⟩

theorem Ext.trans {p q r : Persistent} (h : Ext p q) (h' : Ext q r) : Ext p r :=
  ⟨h.done.trans h'.done, h'.pending.trans h.pending, h'.keys.trans h.keys⟩

/-- Running with the real lookup gives what running with the table of all results gives. -/
def soundRel (x : Externals) (files : List (TypeKey × File)) : Rel Persistent (List (TypeKey × Compiled)) := Rel.of
  (fun c d => ∀ f p a f' p', Inv x files p → c ⟨f, p⟩ = .ok (a, ⟨f', p'⟩) → Inv x files p' ∧ Ext p p' ∧
    ∀ t, p'.done <+: t → (t.map fun e => e.1.folded).Nodup → d ⟨f, t⟩ = .ok (a, ⟨f', t⟩))
  (by
    intro _ o f p a f' p' hp h
    simp only [Step.ofFile] at h ⊢
    cases ho : o f with
    | ok r => rw [ho] at h; cases h; exact ⟨hp, Ext.refl _, fun t _ _ => rfl⟩
    | error => rw [ho] at h; cases h
    | panic => rw [ho] at h; cases h)
  (by
    intro α β c d k l hc hk f p a f' p' hp h
    simp only [Step.andThen] at h ⊢
    cases h1 : c ⟨f, p⟩ with
    | ok r =>
      obtain ⟨b, ⟨f1, p1⟩⟩ := r
      rw [h1] at h
      obtain ⟨hi1, he1, ht1⟩ := hc f p b f1 p1 hp h1
      obtain ⟨hi2, he2, ht2⟩ := hk b f1 p1 a f' p' hi1 h
      refine ⟨hi2, he1.trans he2, fun t ht hn => ?_⟩
      rw [ht1 t (he2.done.trans ht) hn]
      exact ht2 t ht hn
    | error => rw [h1] at h; cases h
    | panic => rw [h1] at h; cases h)

/-- A file that was taken out of `pending`, compiled and put into `done`. -/
theorem compile_taken {x : Externals} {files : List (TypeKey × File)} {l : Lookup Persistent}
    (hl : ∀ key, (soundRel x files).holds (Step.ofLookup l key) (Step.ofLookup table key)) {p q r : Persistent} {key : TypeKey} {file : File} {c : Compiled}
    {rest : List (TypeKey × File)} (hp : Inv x files p) (hsub : rest.Sublist p.pending)
    (hkeys : (p.pending.map fun e => e.1.folded).Perm (key.folded :: rest.map fun e => e.1.folded)) (hfile : ∃ name, (name, file) ∈ files ∧ SameName name key)
    (hc : compileFile x l key file { p with pending := rest } = .ok (c, q)) (hi : insertDone q key c = .ok r) :
    Inv x files r ∧ Ext p r ∧ (key, c) ∈ r.done := by
  have hp' : Inv x files { p with pending := rest } :=
    ⟨hp.done, hp.order, hp.pending.sublist (hsub.map _), fun e he => hp.files e (hsub.subset he)⟩
  rw [compileFile_eq] at hc
  cases hs : file.statements with
  | none => rw [hs] at hc; cases hc
  | some ss =>
    rw [hs] at hc
    dsimp only at hc
    cases hr : fileStep x l ss file.port ⟨.new key.path, { p with pending := rest }⟩ with
    | error => rw [hr] at hc; cases hc
    | panic => rw [hr] at hc; cases hc
    | ok v =>
      obtain ⟨c', ⟨f', q'⟩⟩ := v
      rw [hr] at hc
      cases hc
      obtain ⟨hi1, he1, ht1⟩ := (soundRel x files).file hl x ss file.port _ _ _ _ _ hp' hr
      obtain ⟨hnew, hpend, hdone⟩ := insertDone_ok hi
      refine ⟨⟨?_, ?_, ?_, ?_⟩, ⟨?_, ?_, ?_⟩, ?_⟩
      · rw [hdone, List.map_append, List.nodup_append]
        refine ⟨hi1.done, by simp, ?_⟩
        intro a ha b hb
        simp only [List.map_cons, List.map_nil, List.mem_singleton] at hb
        subst hb
        intro heq
        exact hnew (heq ▸ ha)
      · rw [hdone]
        refine hi1.order.snoc ?_
        obtain ⟨name, hm, hsn⟩ := hfile
        refine ⟨name, file, hm, hsn, ?_⟩
        unfold Compiles
        rw [compileFile_eq, hs]
        dsimp only
        rw [ht1 _ (List.prefix_refl _) hi1.done]
        rfl
      · rw [hpend]; exact hi1.pending
      · rw [hpend]; exact hi1.files
      · rw [hdone]; exact he1.done.trans (List.prefix_append _ _)
      · rw [hpend]; exact he1.pending.trans hsub
      · unfold Persistent.keys
        rw [hpend, hdone, List.map_append]
        have h1 := he1.keys
        unfold Persistent.keys at h1
        dsimp only at h1
        rw [← List.append_assoc]
        refine (h1.append_right _).trans ?_
        refine List.perm_append_comm.trans ?_
        exact (hkeys.append_right _).symm
      · rw [hdone]; simp

theorem sound_lookup (x : Externals) (files : List (TypeKey × File)) : ∀ (fuel : Nat) (key : TypeKey),
    (soundRel x files).holds (Step.ofLookup (Persistent.typeByKey x fuel) key) (Step.ofLookup table key) := by
  intro fuel
  induction fuel with
  | zero =>
    intro key f p a f' p' hp h
    simp only [Step.ofLookup] at h ⊢
    rw [Persistent.typeByKey] at h
    cases hg : getCaseSensitive p.done key with
    | none => rw [hg] at h; cases h
    | some c =>
      rw [hg] at h
      cases h
      refine ⟨hp, Ext.refl _, fun t ht hn => ?_⟩
      rw [table_of_mem hn (ht.subset (getCaseSensitive_some hg))]
      rfl
  | succ fuel ih =>
    intro key f p a f' p' hp h
    simp only [Step.ofLookup] at h ⊢
    rw [Persistent.typeByKey] at h
    cases hg : getCaseSensitive p.done key with
    | some c =>
      rw [hg] at h
      cases h
      refine ⟨hp, Ext.refl _, fun t ht hn => ?_⟩
      rw [table_of_mem hn (ht.subset (getCaseSensitive_some hg))]
      rfl
    | none =>
      rw [hg] at h
      dsimp only at h
      cases hr : removeKey p.pending key with
      | none => rw [hr] at h; cases h
      | some v =>
        obtain ⟨file, rest⟩ := v
        rw [hr] at h
        dsimp only at h
        cases hc : compileFile x (Persistent.typeByKey x fuel) key file { p with pending := rest } with
        | error => rw [hc] at h; cases h
        | panic => rw [hc] at h; cases h
        | ok v =>
          obtain ⟨c, q⟩ := v
          rw [hc] at h
          simp only [Outcome.bind] at h
          cases hi : insertDone q key c with
          | error => rw [hi] at h; cases h
          | panic => rw [hi] at h; cases h
          | ok r =>
            rw [hi] at h
            cases h
            obtain ⟨⟨name, hm, hname⟩, hrest⟩ := removeKey_some hr
            have hk : key.folded ∈ p.pending.map fun e => e.1.folded := List.mem_map.2 ⟨_, hm, hname⟩
            obtain ⟨h1, h2, h3⟩ := compile_taken ih hp (hrest ▸ List.filter_sublist) (hrest ▸ filter_keys_perm hp.pending hk)
              ⟨name, hp.files _ hm, hname⟩ hc hi
            refine ⟨h1, h2, fun t ht hn => ?_⟩
            rw [table_of_mem hn (ht.subset h3)]
            rfl

theorem sound_all (x : Externals) (files : List (TypeKey × File)) : ∀ (rounds : Nat) (p p' : Persistent), Inv x files p →
    p.compileAll x rounds = .ok p' → Inv x files p' ∧ Ext p p' ∧ p'.pending = [] := by
  intro rounds
  induction rounds with
  | zero =>
    intro p p' hp h
    rw [Persistent.compileAll] at h
    cases hpend : p.pending with
    | nil => rw [hpend] at h; cases h; exact ⟨hp, Ext.refl _, hpend⟩
    | cons e rest => rw [hpend] at h; cases h
  | succ rounds ih =>
    intro p p' hp h
    rw [Persistent.compileAll] at h
    cases hpend : p.pending with
    | nil => rw [hpend] at h; cases h; exact ⟨hp, Ext.refl _, hpend⟩
    | cons e rest =>
      obtain ⟨key, file⟩ := e
      rw [hpend] at h
      dsimp only at h
      cases hc : compileFile x (Persistent.typeByKey x rest.length) key file { p with pending := rest } with
      | error => rw [hc] at h; cases h
      | panic => rw [hc] at h; cases h
      | ok v =>
        obtain ⟨c, q⟩ := v
        rw [hc] at h
        simp only [Outcome.bind] at h
        cases hi : insertDone q key c with
        | error => rw [hi] at h; cases h
        | panic => rw [hi] at h; cases h
        | ok r =>
          rw [hi] at h
          obtain ⟨h1, h2, _⟩ := compile_taken (sound_lookup x files rest.length) hp (hpend ▸ List.sublist_cons_self _ _) (by rw [hpend]; exact List.Perm.refl _)
            ⟨key, hp.files _ (hpend ▸ List.mem_cons_self), rfl⟩ hc hi
          obtain ⟨h3, h4, h5⟩ := ih r p' h1 h
          exact ⟨h3, h2.trans h4, h5⟩

/-- A table with more types gives the same results. -/
def tableRel (t t' : List (TypeKey × Compiled)) : Rel (List (TypeKey × Compiled)) (List (TypeKey × Compiled)) := Rel.of
  (fun c d => ∀ f a f' r, c ⟨f, t⟩ = .ok (a, ⟨f', r⟩) → r = t ∧ d ⟨f, t'⟩ = .ok (a, ⟨f', t'⟩))
  (by
    intro _ o f a f' r h
    simp only [Step.ofFile] at h ⊢
    cases ho : o f with
    | ok r => rw [ho] at h; cases h; exact ⟨rfl, rfl⟩
    | error => rw [ho] at h; cases h
    | panic => rw [ho] at h; cases h)
  (by
    intro α β c d k l hc hk f a f' r h
    simp only [Step.andThen] at h ⊢
    cases h1 : c ⟨f, t⟩ with
    | error => rw [h1] at h; cases h
    | panic => rw [h1] at h; cases h
    | ok v =>
      obtain ⟨b, ⟨f1, r1⟩⟩ := v
      rw [h1] at h
      obtain ⟨rfl, hd⟩ := hc f b f1 r1 h1
      rw [hd]
      exact hk b f1 a f' r h)

theorem compiles_mono {x : Externals} {t t' : List (TypeKey × Compiled)} {key : TypeKey} {file : File} {c : Compiled} (h : Compiles x t key file c)
    (hp : t <+: t') (hn : (t'.map fun e => e.1.folded).Nodup) : Compiles x t' key file c := by
  have hl : ∀ key, (tableRel t t').holds (Step.ofLookup table key) (Step.ofLookup table key) := by
    intro key f a f' r h
    simp only [Step.ofLookup] at h ⊢
    cases hc : table key t with
    | error => rw [hc] at h; cases h
    | panic => rw [hc] at h; cases h
    | ok v =>
      obtain ⟨c, t1⟩ := v
      obtain ⟨rfl, hm⟩ := table_ok hc
      rw [hc] at h
      cases h
      rw [table_of_mem hn (hp.subset hm)]
      exact ⟨rfl, rfl⟩
  unfold Compiles at h ⊢
  rw [compileFile_eq] at h ⊢
  cases hs : file.statements with
  | none => rw [hs] at h; cases h
  | some ss =>
    rw [hs] at h
    dsimp only at h ⊢
    cases hr : fileStep x table ss file.port ⟨.new key.path, t⟩ with
    | error => rw [hr] at h; cases h
    | panic => rw [hr] at h; cases h
    | ok v =>
      obtain ⟨c', ⟨f', r⟩⟩ := v
      rw [hr] at h
      cases h
      rw [((tableRel _ _).file hl x ss file.port _ _ _ _ hr).2]
      rfl

/-! ### The depth of the recursion -/

/-- The number of pending files does not grow, and a run with less fuel gives the same as one with more. -/
def depthRel (n : Nat) : Rel Persistent Persistent := Rel.of
  (fun c d => ∀ f p, p.pending.length ≤ n → c ⟨f, p⟩ = d ⟨f, p⟩ ∧ ∀ a f' p', c ⟨f, p⟩ = .ok (a, ⟨f', p'⟩) → p'.pending.length ≤ p.pending.length)
  (by
    intro _ o f p _
    refine ⟨rfl, fun a f' p' h => ?_⟩
    simp only [Step.ofFile] at h
    cases ho : o f with
    | ok r => rw [ho] at h; cases h; exact Nat.le_refl _
    | error => rw [ho] at h; cases h
    | panic => rw [ho] at h; cases h)
  (by
    intro α β c d k l hc hk f p hp
    obtain ⟨h1, h2⟩ := hc f p hp
    simp only [Step.andThen]
    rw [← h1]
    cases hr : c ⟨f, p⟩ with
    | error => exact ⟨rfl, fun a f' p' h => by cases h⟩
    | panic => exact ⟨rfl, fun a f' p' h => by cases h⟩
    | ok v =>
      obtain ⟨b, ⟨f1, p1⟩⟩ := v
      have hp1 := h2 b f1 p1 hr
      obtain ⟨h3, h4⟩ := hk b f1 p1 (Nat.le_trans hp1 hp)
      exact ⟨h3, fun a f' p' h => Nat.le_trans (h4 a f' p' h) hp1⟩)

theorem removeKey_length {α : Type} {m : List (TypeKey × α)} {key : TypeKey} {a : α} {rest : List (TypeKey × α)} (h : removeKey m key = some (a, rest)) :
    rest.length < m.length := by
  obtain ⟨⟨name, hm, hname⟩, hrest⟩ := removeKey_some h
  rw [hrest]
  rw [List.length_filter_lt_length_iff_exists]
  refine ⟨(name, a), hm, ?_⟩
  simp [(TypeKey.eq_iff name key).2 hname]

theorem depth_lookup (x : Externals) : ∀ (n m : Nat), n ≤ m → ∀ key, (depthRel n).holds (Step.ofLookup (Persistent.typeByKey x n) key)
    (Step.ofLookup (Persistent.typeByKey x m) key) := by
  intro n
  induction n with
  | zero =>
    intro m _ key f p hp
    have hnil : p.pending = [] := List.length_eq_zero_iff.1 (Nat.le_zero.1 hp)
    simp only [Step.ofLookup]
    have e : ∀ m, Persistent.typeByKey x m key p = match getCaseSensitive p.done key with | some c => .ok (c, p) | none => .error := by
      intro m
      cases m with
      | zero => rw [Persistent.typeByKey]; rfl
      | succ m =>
        rw [Persistent.typeByKey]
        cases getCaseSensitive p.done key with
        | some c => rfl
        | none => dsimp only; rw [hnil]; rfl
    rw [e, e]
    refine ⟨rfl, fun a f' p' h => ?_⟩
    cases hg : getCaseSensitive p.done key with
    | none => rw [hg] at h; cases h
    | some c => rw [hg] at h; cases h; exact Nat.le_refl _
  | succ n ih =>
    intro m hm key f p hp
    obtain ⟨m, rfl⟩ : ∃ k, m = k + 1 := ⟨m - 1, by omega⟩
    simp only [Step.ofLookup]
    rw [Persistent.typeByKey, Persistent.typeByKey]
    cases hg : getCaseSensitive p.done key with
    | some c =>
      refine ⟨rfl, fun a f' p' h => ?_⟩
      cases h; exact Nat.le_refl _
    | none =>
      dsimp only
      cases hr : removeKey p.pending key with
      | none => exact ⟨rfl, fun a f' p' h => by cases h⟩
      | some v =>
        obtain ⟨file, rest⟩ := v
        dsimp only
        have hlen := removeKey_length hr
        rw [compileFile_eq, compileFile_eq]
        cases hs : file.statements with
        | none => exact ⟨rfl, fun a f' p' h => by cases h⟩
        | some ss =>
          dsimp only
          obtain ⟨h1, h2⟩ := (depthRel n).file (ih m (by omega)) x ss file.port (.new key.path) { p with pending := rest } (by dsimp only; omega)
          rw [← h1]
          refine ⟨rfl, fun a f' p' h => ?_⟩
          cases hc : fileStep x (Persistent.typeByKey x n) ss file.port ⟨.new key.path, { p with pending := rest }⟩ with
          | error => rw [hc] at h; cases h
          | panic => rw [hc] at h; cases h
          | ok v =>
            obtain ⟨c, ⟨f1, q⟩⟩ := v
            rw [hc] at h
            simp only [Outcome.bind] at h
            cases hi : insertDone q key c with
            | error => rw [hi] at h; cases h
            | panic => rw [hi] at h; cases h
            | ok r =>
              rw [hi] at h
              cases h
              have := h2 c f1 q hc
              rw [(insertDone_ok hi).2.1]
              dsimp only at this
              omega

/-! ### If the results can be arranged, the compiler finds them -/

section Complete

variable {x : Externals} {files : List (TypeKey × File)} {types : List (TypeKey × Compiled)}

/-- The names of the types are those of the files, and each is compiled from its file with the types before it. -/
structure Arranged (x : Externals) (files : List (TypeKey × File)) (types : List (TypeKey × Compiled)) : Prop where
  different : (files.map fun e => e.1.folded).Nodup
  names : (types.map Prod.fst).Perm (files.map Prod.fst)
  order : InOrder x files types

theorem Arranged.folded (h : Arranged x files types) : (types.map fun e => e.1.folded).Perm (files.map fun e => e.1.folded) := by
  have := h.names.map TypeKey.folded
  simpa [List.map_map, Function.comp_def] using this

theorem Arranged.nodup (h : Arranged x files types) : (types.map fun e => e.1.folded).Nodup := h.folded.nodup_iff.2 h.different

/-- The file that a type is compiled from is the one with its name. -/
theorem Arranged.compiles (h : Arranged x files types) {before after : List (TypeKey × Compiled)} {key : TypeKey} {c : Compiled}
    (he : types = before ++ (key, c) :: after) {file : File} {name : TypeKey} (hf : (name, file) ∈ files) (hn : name.folded = key.folded) :
    Compiles x before key file c ∧ name = key := by
  obtain ⟨name', file', hf', hs, hc⟩ := h.order before key c after he
  have e1 := mem_unique h.different hf hf' (hn.trans hs.symm)
  cases e1
  refine ⟨hc, ?_⟩
  have hk : key ∈ files.map Prod.fst := h.names.subset (by rw [he]; simp)
  obtain ⟨⟨k, file''⟩, hm, rfl⟩ := List.mem_map.1 hk
  have e2 := mem_unique h.different hf hm hn
  cases e2
  rfl

/-- What holds of a state while the compiler runs. -/
structure Base (files : List (TypeKey × File)) (types : List (TypeKey × Compiled)) (p : Persistent) : Prop where
  done : ∀ e ∈ p.done, e ∈ types
  pending : ∀ e ∈ p.pending, e ∈ files
  keys : p.keys.Nodup

/-- Running with the table of the types `known` is repeated by the real lookup. -/
def completeRel (files : List (TypeKey × File)) (types known : List (TypeKey × Compiled)) (n : Nat) : Rel (List (TypeKey × Compiled)) Persistent := Rel.of
  (fun c d => ∀ f a f' t', c ⟨f, known⟩ = .ok (a, ⟨f', t'⟩) → t' = known ∧ ∀ p, Base files types p → (∀ e ∈ known, e.1.folded ∈ p.keys) →
    p.pending.length ≤ n → ∃ p', d ⟨f, p⟩ = .ok (a, ⟨f', p'⟩) ∧ Base files types p' ∧ p'.keys.Perm p.keys ∧ p'.pending.length ≤ p.pending.length)
  (by
    intro _ o f a f' t' h
    simp only [Step.ofFile] at h ⊢
    cases ho : o f with
    | ok r => rw [ho] at h; cases h; exact ⟨rfl, fun p hp _ _ => ⟨p, rfl, hp, List.Perm.refl _, Nat.le_refl _⟩⟩
    | error => rw [ho] at h; cases h
    | panic => rw [ho] at h; cases h)
  (by
    intro α β c d k l hc hk f a f' t' h
    simp only [Step.andThen] at h ⊢
    cases h1 : c ⟨f, known⟩ with
    | error => rw [h1] at h; cases h
    | panic => rw [h1] at h; cases h
    | ok r =>
      obtain ⟨b, ⟨f1, t1⟩⟩ := r
      rw [h1] at h
      obtain ⟨ht1, hp1⟩ := hc f b f1 t1 h1
      subst ht1
      obtain ⟨ht2, hp2⟩ := hk b f1 a f' t' h
      refine ⟨ht2, fun p hp ha hn => ?_⟩
      obtain ⟨q, hq, hb, hperm, hlen⟩ := hp1 p hp ha hn
      obtain ⟨r, hr, hb', hperm', hlen'⟩ := hp2 q hb (fun e he => hperm.symm.subset (ha e he)) (Nat.le_trans hlen hn)
      exact ⟨r, by rw [hq]; exact hr, hb', hperm'.trans hperm, Nat.le_trans hlen' hlen⟩)

/-- A file that is taken out of `pending` compiles, if the types before it are available. -/
theorem compile_taken_ok (h : Arranged x files types) {n : Nat} {l : Lookup Persistent} {before after : List (TypeKey × Compiled)} {key : TypeKey} {c : Compiled}
    (he : types = before ++ (key, c) :: after) (hl : ∀ k, (completeRel files types before n).holds (Step.ofLookup table k) (Step.ofLookup l k))
    {p : Persistent} {file : File} {rest : List (TypeKey × File)} (hp : Base files types p) (ha : ∀ e ∈ before, e.1.folded ∈ p.keys)
    (hsub : rest.Sublist p.pending) (hkeys : (p.pending.map fun e => e.1.folded).Perm (key.folded :: rest.map fun e => e.1.folded))
    (hfile : ∃ name, (name, file) ∈ files ∧ name.folded = key.folded) (hn : rest.length ≤ n) :
    ∃ q r, compileFile x l key file { p with pending := rest } = .ok (c, q) ∧ insertDone q key c = .ok r ∧ Base files types r ∧ r.keys.Perm p.keys ∧
      r.pending.length ≤ rest.length := by
  obtain ⟨name, hf, hname⟩ := hfile
  obtain ⟨hc, _⟩ := h.compiles he hf hname
  have hall : (key.folded :: (rest.map (fun e => e.1.folded) ++ p.done.map fun e => e.1.folded)).Perm p.keys := (hkeys.append_right _).symm
  have hnod := hall.nodup_iff.2 hp.keys
  rw [List.nodup_cons] at hnod
  have hp' : Base files types { p with pending := rest } := ⟨hp.done, fun e he => hp.pending e (hsub.subset he), hnod.2⟩
  have ha' : ∀ e ∈ before, e.1.folded ∈ ({ p with pending := rest } : Persistent).keys := by
    intro e hm
    have := hall.symm.subset (ha e hm)
    rcases List.mem_cons.1 this with hk | hk
    · exfalso
      have hnt := h.nodup
      rw [he, List.map_append, List.map_cons, List.nodup_append] at hnt
      exact hnt.2.2 _ (List.mem_map.2 ⟨e, hm, rfl⟩) _ List.mem_cons_self hk
    · exact hk
  unfold Compiles at hc
  rw [compileFile_eq] at hc ⊢
  cases hs : file.statements with
  | none => rw [hs] at hc; cases hc
  | some ss =>
    rw [hs] at hc
    dsimp only at hc ⊢
    cases hr : fileStep x table ss file.port ⟨.new key.path, before⟩ with
    | error => rw [hr] at hc; cases hc
    | panic => rw [hr] at hc; cases hc
    | ok v =>
      obtain ⟨c', ⟨f', t'⟩⟩ := v
      rw [hr] at hc
      obtain ⟨rfl, rfl⟩ : c' = c ∧ t' = before := by cases hc; exact ⟨rfl, rfl⟩
      obtain ⟨_, hrun⟩ := (completeRel files types _ n).file hl x ss file.port _ _ _ _ hr
      obtain ⟨q, hq, hb, hperm, hlen⟩ := hrun _ hp' ha' hn
      have hnotq : key.folded ∉ q.keys := fun hk => hnod.1 (hperm.subset hk)
      have hins : insertDone q key c' = .ok { q with done := q.done ++ [(key, c')] } := by
        unfold insertDone
        cases hg : getKeyValue q.done key with
        | none => rfl
        | some e =>
          obtain ⟨hm, hk⟩ := getKeyValue_some hg
          exact absurd (List.mem_append_right _ (List.mem_map.2 ⟨e, hm, hk⟩)) hnotq
      refine ⟨q, _, by rw [hq]; rfl, hins, ⟨?_, hb.pending, ?_⟩, ?_, hlen⟩
      · intro e hm
        rcases List.mem_append.1 hm with hm | hm
        · exact hb.done e hm
        · rw [List.mem_singleton.1 hm, he]; simp
      · have : ({ q with done := q.done ++ [(key, c')] } : Persistent).keys.Perm (key.folded :: q.keys) := by
          unfold Persistent.keys
          rw [List.map_append, ← List.append_assoc]
          exact List.perm_append_comm
        rw [this.nodup_iff, List.nodup_cons]
        exact ⟨hnotq, hb.keys⟩
      · have : ({ q with done := q.done ++ [(key, c')] } : Persistent).keys.Perm (key.folded :: q.keys) := by
          unfold Persistent.keys
          rw [List.map_append, ← List.append_assoc]
          exact List.perm_append_comm
        exact this.trans ((hperm.cons _).trans hall)

theorem complete_lookup (h : Arranged x files types) : ∀ (n : Nat) (before after : List (TypeKey × Compiled)), types = before ++ after →
    ∀ key, (completeRel files types before n).holds (Step.ofLookup table key) (Step.ofLookup (Persistent.typeByKey x n) key) := by
  intro n
  induction n with
  | zero =>
    intro before after hb key f a f' t' hl
    simp only [Step.ofLookup] at hl ⊢
    cases hc : table key before with
    | error => rw [hc] at hl; cases hl
    | panic => rw [hc] at hl; cases hl
    | ok v =>
      obtain ⟨c, t⟩ := v
      rw [hc] at hl
      cases hl
      obtain ⟨rfl, hm⟩ := table_ok hc
      refine ⟨rfl, fun p hp ha hn => ⟨p, ?_, hp, List.Perm.refl _, Nat.le_refl _⟩⟩
      have hnil : p.pending = [] := List.length_eq_zero_iff.1 (Nat.le_zero.1 hn)
      have hk := ha _ hm
      unfold Persistent.keys at hk
      rw [hnil, List.map_nil, List.nil_append] at hk
      obtain ⟨e, hd, hke⟩ := List.mem_map.1 hk
      have e1 : e = (key, c) := mem_unique h.nodup (hp.done _ hd) (by rw [hb]; exact List.mem_append_left _ hm) hke
      have hnd : (p.done.map fun e => e.1.folded).Nodup := hp.keys.sublist (List.sublist_append_right _ _)
      rw [Persistent.typeByKey, getCaseSensitive_of_mem hnd (e1 ▸ hd)]
      rfl
  | succ n ih =>
    intro before after hb key f a f' t' hl
    simp only [Step.ofLookup] at hl ⊢
    cases hc : table key before with
    | error => rw [hc] at hl; cases hl
    | panic => rw [hc] at hl; cases hl
    | ok v =>
      obtain ⟨c, t⟩ := v
      rw [hc] at hl
      cases hl
      obtain ⟨rfl, hm⟩ := table_ok hc
      refine ⟨rfl, fun p hp ha hn => ?_⟩
      have hmt : (key, c) ∈ types := by rw [hb]; exact List.mem_append_left _ hm
      have hnd : (p.done.map fun e => e.1.folded).Nodup := hp.keys.sublist (List.sublist_append_right _ _)
      have hnp : (p.pending.map fun e => e.1.folded).Nodup := hp.keys.sublist (List.sublist_append_left _ _)
      rw [Persistent.typeByKey]
      rcases List.mem_append.1 (ha _ hm) with hk | hk
      · have hnotdone : getCaseSensitive p.done key = none := by
          cases hg : getCaseSensitive p.done key with
          | none => rfl
          | some c' =>
            have hnk := hp.keys
            unfold Persistent.keys at hnk
            rw [List.nodup_append] at hnk
            exact absurd rfl (hnk.2.2 _ hk _ (List.mem_map.2 ⟨_, getCaseSensitive_some hg, rfl⟩))
        rw [hnotdone]
        dsimp only
        obtain ⟨e, hg⟩ := getKeyValue_isSome hk
        have hr : removeKey p.pending key = some (e.2, p.pending.filter fun e => !e.1.eq key) := by
          unfold removeKey; rw [hg]; rfl
        have hlen := removeKey_length hr
        rw [hr]
        dsimp only
        obtain ⟨b', a', hsplit⟩ := List.append_of_mem hm
        have hsplit' : types = b' ++ (key, c) :: (a' ++ after) := by rw [hb, hsplit]; simp
        obtain ⟨q, r, h1, h2, h3, h4, h5⟩ := compile_taken_ok h hsplit' (ih b' _ hsplit') hp
          (fun e he => ha e (by rw [hsplit]; exact List.mem_append_left _ he)) List.filter_sublist (filter_keys_perm hnp hk)
          ⟨e.1, hp.pending _ (getKeyValue_some hg).1, (getKeyValue_some hg).2⟩ (by omega)
        rw [h1]
        simp only [Outcome.bind]
        rw [h2]
        exact ⟨r, rfl, h3, h4, by omega⟩
      · obtain ⟨e, hd, hke⟩ := List.mem_map.1 hk
        have e1 : e = (key, c) := mem_unique h.nodup (hp.done _ hd) hmt hke
        rw [getCaseSensitive_of_mem hnd (e1 ▸ hd)]
        exact ⟨p, rfl, hp, List.Perm.refl _, Nat.le_refl _⟩

theorem complete_all (h : Arranged x files types) : ∀ (rounds : Nat) (p : Persistent), Base files types p → p.keys.Perm (types.map fun e => e.1.folded) →
    p.pending.length ≤ rounds → ∃ p', p.compileAll x rounds = .ok p' ∧ p'.done.Perm types := by
  intro rounds
  have finish : ∀ p : Persistent, Base files types p → p.keys.Perm (types.map fun e => e.1.folded) → p.pending = [] → p.done.Perm types := by
    intro p hp hk hnil
    unfold Persistent.keys at hk
    rw [hnil, List.map_nil, List.nil_append] at hk
    have hnd : p.done.Nodup := List.Nodup.of_map _ (hk.nodup_iff.2 h.nodup)
    exact (List.subperm_of_subset hnd hp.done).perm_of_length_le (by have := hk.length_eq; simp only [List.length_map] at this; omega)
  induction rounds with
  | zero =>
    intro p hp hk hlen
    have hnil : p.pending = [] := List.length_eq_zero_iff.1 (Nat.le_zero.1 hlen)
    refine ⟨p, ?_, finish p hp hk hnil⟩
    rw [Persistent.compileAll, hnil]
  | succ rounds ih =>
    intro p hp hk hlen
    cases hpend : p.pending with
    | nil =>
      refine ⟨p, ?_, finish p hp hk hpend⟩
      rw [Persistent.compileAll, hpend]
    | cons e rest =>
      obtain ⟨key, file⟩ := e
      have hf : (key, file) ∈ files := hp.pending _ (hpend ▸ List.mem_cons_self)
      have hkt : key ∈ types.map Prod.fst := h.names.symm.subset (List.mem_map.2 ⟨_, hf, rfl⟩)
      obtain ⟨⟨k, c⟩, hm, rfl⟩ := List.mem_map.1 hkt
      obtain ⟨before, after, hsplit⟩ := List.append_of_mem hm
      obtain ⟨q, r, h1, h2, h3, h4, h5⟩ := compile_taken_ok h hsplit (complete_lookup h rest.length before _ hsplit) hp
        (fun e he => hk.symm.subset (List.mem_map.2 ⟨e, by rw [hsplit]; exact List.mem_append_left _ he, rfl⟩))
        (hpend ▸ List.sublist_cons_self _ _) (by rw [hpend]; exact List.Perm.refl _) ⟨k, hf, rfl⟩ (Nat.le_refl _)
      rw [hpend, List.length_cons] at hlen
      obtain ⟨p', h6, h7⟩ := ih r h3 (h4.trans hk) (by omega)
      refine ⟨p', ?_, h7⟩
      rw [Persistent.compileAll, hpend]
      dsimp only at h1 ⊢
      rw [h1]
      simp only [Outcome.bind]
      rw [h2]
      exact h6

end Complete

end Verif.Front
