import Verif.Ses.Spec
import Mathlib.Data.List.Nodup
import Mathlib.Data.List.Perm.Subperm

/-!
Lemmas about the session tables.
-/

namespace Verif.Ses

variable {N S T : Type}

/-- A table that does what a map does, as long as the nodes of the calls satisfy `ok`, returns what the map returns. -/
theorem replies_refine (step : T → Op N S → Option (T × Reply S)) (spec : Map N S → Op N S → Map N S × Reply S) (inv : T → Map N S → Prop)
    (ok : Op N S → Prop) (h : ∀ t m op, ok op → inv t m → ∃ t', step t op = some (t', (spec m op).2) ∧ inv t' (spec m op).1) :
    ∀ (history : List (Op N S)) (t : T) (m : Map N S), (∀ op ∈ history, ok op) → inv t m → replies step t history = some (Map.replies spec m history)
  | [], _, _, _, _ => rfl
  | op :: rest, t, m, ho, hi => by
    obtain ⟨t', h1, h2⟩ := h t m op (ho op (by simp)) hi
    rw [replies, h1]
    simp only [replies_refine step spec inv ok h rest t' _ (fun op hop => ho op (by simp [hop])) h2, Option.map_some, Map.replies]

/-! ### `SessionLinearMap` -/

section
variable [DecidableEq N]

theorem find_append (node : N) (p : N × S) : ∀ map : List (N × S),
    linearFind node (map ++ [p]) = match linearFind node map with | some s => some s | none => if p.1 = node then some p.2 else none
  | [] => by obtain ⟨n, s⟩ := p; rfl
  | (n, s) :: rest => by
    rw [List.cons_append, linearFind, linearFind, find_append node p rest]
    split <;> rfl

theorem find_change (node n : N) (f : S → S) : ∀ map : List (N × S),
    linearFind n (linearChange node f map) = if n = node then (linearFind n map).map f else linearFind n map
  | [] => by simp [linearChange, linearFind]
  | (k, s) :: rest => by
    rw [linearChange]
    by_cases h1 : k = node
    · rw [if_pos h1, linearFind, linearFind]
      by_cases h2 : k = n
      · rw [if_pos h2, if_pos h2, if_pos (h2.symm.trans h1)]; rfl
      · rw [if_neg h2, if_neg h2, if_neg (fun e => h2 (h1.trans e.symm))]
    · rw [if_neg h1, linearFind, linearFind, find_change node n f rest]
      by_cases h2 : k = n
      · rw [if_pos h2, if_pos h2, if_neg (fun e => h1 (h2.trans e))]
      · rw [if_neg h2, if_neg h2]

theorem keys_change (node : N) (f : S → S) : ∀ map : List (N × S), (linearChange node f map).map Prod.fst = map.map Prod.fst
  | [] => rfl
  | (k, s) :: rest => by
    rw [linearChange]
    split
    · rfl
    · rw [List.map_cons, keys_change node f rest]; rfl

theorem find_none {node : N} : ∀ {map : List (N × S)}, linearFind node map = none ↔ node ∉ map.map Prod.fst
  | [] => by simp [linearFind]
  | (k, s) :: rest => by
    rw [linearFind, List.map_cons, List.mem_cons, not_or, ← find_none (map := rest)]
    by_cases h : k = node
    · simp [h]
    · simp [h, Ne.symm h]

theorem find_mem {node : N} {s : S} : ∀ {map : List (N × S)}, (map.map Prod.fst).Nodup → (linearFind node map = some s ↔ (node, s) ∈ map)
  | [], _ => by simp [linearFind]
  | (k, t) :: rest, h => by
    rw [List.map_cons, List.nodup_cons] at h
    rw [linearFind, List.mem_cons]
    by_cases hk : k = node
    · subst hk
      have : (k, s) ∉ rest := fun hm => h.1 (List.mem_map.2 ⟨_, hm, rfl⟩)
      simp [this, eq_comm]
    · rw [if_neg hk, find_mem h.2]
      constructor
      · exact .inr
      · rintro (e | e)
        · exact absurd (Prod.mk.inj e).1.symm hk
        · exact e

theorem find_perm {a b : List (N × S)} (h : a.Perm b) (hn : (a.map Prod.fst).Nodup) (node : N) : linearFind node a = linearFind node b := by
  apply Option.ext
  intro s
  rw [find_mem hn, find_mem ((h.map _).nodup_iff.1 hn)]
  exact h.mem_iff

theorem swapRemove_perm {α : Type} (a : List α) (x : α) (b : List α) : (swapRemove (a ++ x :: b) a.length).Perm (a ++ b) := by
  unfold swapRemove
  cases hb : b.reverse with
  | nil =>
    have : b = [] := by simpa using hb
    subst this
    simp
  | cons y b' =>
    have : b = b'.reverse ++ [y] := by rw [← List.reverse_reverse b, hb]; simp
    subst this
    have e : a ++ x :: (b'.reverse ++ [y]) = (a ++ x :: b'.reverse) ++ [y] := by simp
    rw [e, List.getLast?_concat]
    simp only
    rw [if_neg (by simp), List.set_append_left _ _ (by simp), List.dropLast_concat]
    rw [List.set_append_right _ _ (by omega)]
    simp only [Nat.sub_self, List.set_cons_zero]
    refine List.Perm.append_left a ?_
    exact (List.perm_append_singleton y b'.reverse).symm

theorem linearRemove_spec (node : N) (map : List (N × S)) (hn : (map.map Prod.fst).Nodup) :
    ((linearRemove node map).map Prod.fst).Nodup ∧ (linearRemove node map).length ≤ map.length ∧
      ∀ n, linearFind n (linearRemove node map) = if n = node then none else linearFind n map := by
  unfold linearRemove
  cases h : map.findIdx? (fun p => p.1 = node) with
  | none =>
    refine ⟨hn, Nat.le_refl _, fun n => ?_⟩
    by_cases e : n = node
    · subst e
      rw [if_pos rfl]
      simp only
      rw [find_none]
      rw [List.findIdx?_eq_none_iff] at h
      intro hm
      obtain ⟨p, hp, e⟩ := List.mem_map.1 hm
      have := h p hp
      simp [e] at this
    · rw [if_neg e]
  | some i =>
    rw [List.findIdx?_eq_some_iff_getElem] at h
    obtain ⟨hi, hk, -⟩ := h
    have hk : map[i].1 = node := by simpa using hk
    have hsplit : map = map.take i ++ map[i] :: map.drop (i + 1) := by simp
    have hlen : (map.take i).length = i := by simp; omega
    generalize map.take i = a at *
    generalize map.drop (i + 1) = b at *
    generalize map[i] = x at *
    obtain ⟨k, s⟩ := x
    simp only at hk
    subst hk
    subst hsplit
    subst hlen
    have hp := swapRemove_perm a (k, s) b
    have hn' : ((a ++ b).map Prod.fst).Nodup := by
      refine List.Nodup.sublist ?_ hn
      apply List.Sublist.map
      simp
    have hn2 := (hp.map Prod.fst).nodup_iff.2 hn'
    have hmid : k ∉ (a ++ b).map Prod.fst := by
      have : ((a ++ (k, s) :: b).map Prod.fst).Perm (k :: (a ++ b).map Prod.fst) := by
        have := (List.perm_middle (a := (k, s)) (l₁ := a) (l₂ := b)).map Prod.fst
        simpa using this
      exact (List.nodup_cons.1 (this.nodup_iff.1 hn)).1
    refine ⟨hn2, by rw [hp.length_eq]; simp, fun n => ?_⟩
    rw [find_perm hp hn2]
    split
    · rename_i e
      rw [e, find_none]
      exact hmid
    · rename_i e
      apply Option.ext
      intro t
      rw [find_mem hn', find_mem hn]
      simp only [List.mem_append, List.mem_cons, Prod.mk.injEq]
      constructor
      · rintro (h | h)
        · exact .inl h
        · exact .inr (.inr h)
      · rintro (h | h | h)
        · exact .inl h
        · exact absurd h.1 e
        · exact .inr h

theorem full_iff {map : List (N × S)} (hn : (map.map Prod.fst).Nodup) (c : Nat) :
    Map.full (fun n => linearFind n map) c ↔ c ≤ map.length := by
  have hmem : ∀ n, (linearFind n map).isSome = true ↔ n ∈ map.map Prod.fst := by
    intro n
    cases h : linearFind n map with
    | none => simpa using find_none.1 h
    | some s =>
      simp only [Option.isSome_some, true_iff]
      by_contra hc
      rw [find_none.2 hc] at h
      cases h
  constructor
  · rintro ⟨nodes, h1, h2, h3⟩
    have := (List.subperm_of_subset h1 (fun n hm => (hmem n).1 (h3 n hm))).length_le
    simpa [h2] using this
  · intro h
    refine ⟨(map.map Prod.fst).take c, hn.sublist (List.take_sublist _ _), by simp [h], fun n hm => (hmem n).2 (List.mem_of_mem_take hm)⟩

/-- The state of a `SessionLinearMap` stands for a map. -/
def linearInv (c : Nat) (t : List (N × S)) (m : Map N S) : Prop := (t.map Prod.fst).Nodup ∧ t.length ≤ c ∧ m = fun n => linearFind n t

theorem linear_step (c : Nat) (t : List (N × S)) (m : Map N S) (op : Op N S) (h : linearInv c t m) :
    ∃ t', linearStep c t op = some (t', (m.boundedStep c op).2) ∧ linearInv c t' (m.boundedStep c op).1 := by
  obtain ⟨hn, hl, rfl⟩ := h
  have hchange : ∀ (n : N) (f : S → S), linearInv c (linearChange n f t) (Map.put (fun n => linearFind n t) n ((linearFind n t).map f)) := by
    intro n f
    have hk := keys_change n f t
    refine ⟨by rw [hk]; exact hn, ?_, ?_⟩
    · have := congrArg List.length hk
      rw [List.length_map, List.length_map] at this
      omega
    · funext k
      rw [find_change, Map.put]
      split
      · rename_i e; rw [e]
      · rfl
  have hinsert : ∀ (n : N) (s : S), linearFind n t = none → t.length < c → linearInv c (t ++ [(n, s)]) (Map.put (fun n => linearFind n t) n (some s)) := by
    intro n s hf hlt
    refine ⟨?_, by simp; omega, ?_⟩
    · rw [List.map_append]
      exact List.Nodup.append hn (by simp) (by
        intro k h1 h2
        have : k = n := by simpa using h2
        subst this
        exact find_none.1 hf h1)
    · funext k
      rw [find_append, Map.put]
      by_cases e : k = n
      · subst e; simp [hf]
      · rw [if_neg e]
        simp only [Ne.symm e, if_false]
        cases linearFind k t <;> rfl
  unfold Map.boundedStep
  rw [full_iff hn]
  cases op with
  | get n => rw [if_neg (by simp [Op.inserts])]; exact ⟨t, rfl, hn, hl, rfl⟩
  | getMut n f => rw [if_neg (by simp [Op.inserts])]; exact ⟨_, rfl, hchange n f⟩
  | remove n =>
    rw [if_neg (by simp [Op.inserts])]
    obtain ⟨h1, h2, h3⟩ := linearRemove_spec n t hn
    exact ⟨_, rfl, h1, by omega, by funext k; rw [h3]; rfl⟩
  | insert n s =>
    simp only [Op.inserts, Op.node, true_and, linearStep, linearInsert]
    cases hf : linearFind n t with
    | some s' =>
      rw [if_neg (show ¬ ((some s' : Option S) = none ∧ c ≤ t.length) by simp)]
      have := hchange n (fun _ => s)
      rw [hf] at this
      exact ⟨_, rfl, this⟩
    | none =>
      by_cases hc : t.length < c
      · rw [if_pos hc, if_neg (by omega)]
        exact ⟨_, rfl, hinsert n s hf hc⟩
      · rw [if_neg hc, if_pos ⟨rfl, by omega⟩]
        exact ⟨_, rfl, hn, hl, rfl⟩
  | getMutOrInsertWith n g f =>
    simp only [Op.inserts, Op.node, true_and, linearStep, linearInsert]
    cases hf : linearFind n t with
    | some s' =>
      rw [if_neg (show ¬ ((some s' : Option S) = none ∧ c ≤ t.length) by simp)]
      have := hchange n f
      rw [hf] at this
      simp only [hf, Map.step, Option.getD_some]
      exact ⟨_, rfl, this⟩
    | none =>
      by_cases hc : t.length < c
      · rw [if_pos hc, if_neg (by omega)]
        have hfind : linearFind n (t ++ [(n, g)]) = some g := by rw [find_append, hf]; simp
        simp only [hfind, Map.step, hf, Option.getD_none]
        refine ⟨_, rfl, ?_⟩
        have hi := hinsert n g hf hc
        have hk := keys_change n f (t ++ [(n, g)])
        refine ⟨by rw [hk]; exact hi.1, ?_, ?_⟩
        · have := congrArg List.length hk
          rw [List.length_map, List.length_map] at this
          have := hi.2.1
          omega
        · funext k
          have hput := congrFun hi.2.2 k
          rw [find_change, Map.put, ← hput, Map.put]
          split
          · rfl
          · rfl
      · rw [if_neg hc, if_pos ⟨rfl, by omega⟩]
        exact ⟨_, rfl, hn, hl, rfl⟩

end

/-! ### `SessionArray` -/

/-- The state of a `SessionArray` of length `c` stands for a map, for the nodes that satisfy `ok`. -/
def arrayInv (index : N → Nat) (c : Nat) (ok : N → Prop) (t : List (Option S)) (m : Map N S) : Prop :=
  t.length = c ∧ ∀ n, ok n → t[index n]? = some (m n)

theorem array_step [DecidableEq N] (index : N → Nat) (c : Nat) (ok : N → Prop) (hok : ∀ n, ok n → index n < c)
    (hinj : ∀ a b, ok a → ok b → index a = index b → a = b) (t : List (Option S)) (m : Map N S) (op : Op N S) (ho : ok op.node)
    (h : arrayInv index c ok t m) : ∃ t', arrayStep index t op = some (t', (m.step op).2) ∧ arrayInv index c ok t' (m.step op).1 := by
  obtain ⟨hl, hi⟩ := h
  have hset : ∀ n, ok n → ∀ s, arrayInv index c ok (t.set (index n) s) (m.put n s) := by
    intro n hn s
    refine ⟨by simpa using hl, fun k hk => ?_⟩
    rw [Map.put]
    by_cases e : k = n
    · subst e
      rw [if_pos rfl, List.getElem?_set_self (by rw [hl]; exact hok k hk)]
    · rw [if_neg e, List.getElem?_set_ne (fun e' => e (hinj k n hk hn e'.symm)), hi k hk]
  cases op with
  | get n =>
    refine ⟨t, ?_, hl, hi⟩
    simp only [arrayStep, hi n ho, Map.step]
  | getMut n f =>
    refine ⟨_, ?_, hset n ho ((m n).map f)⟩
    simp only [arrayStep, hi n ho, Map.step]
  | getMutOrInsertWith n g f =>
    refine ⟨_, ?_, hset n ho (some (f ((m n).getD g)))⟩
    simp only [arrayStep, hi n ho, Map.step]
    cases m n <;> rfl
  | insert n s =>
    refine ⟨_, ?_, hset n ho (some s)⟩
    simp only [arrayStep]
    rw [if_pos (by rw [hl]; exact hok n ho)]
    rfl
  | remove n =>
    refine ⟨_, ?_, hset n ho none⟩
    simp only [arrayStep]
    rw [if_pos (by rw [hl]; exact hok n ho)]
    rfl

/-! ### `SessionDynamicMap` -/

/-- `less` is a strict linear order. -/
structure Less.Linear (less : Less N) : Prop where
  irrefl : ∀ a, less a a = false
  trans : ∀ a b c, less a b = true → less b c = true → less a c = true
  total : ∀ a b, less a b = true ∨ a = b ∨ less b a = true

section
variable [DecidableEq N]

/-- The keys are in order. -/
def Sorted (less : Less N) (t : List (N × S)) : Prop := t.Pairwise fun a b => less a.1 b.1 = true

theorem treeFind_low {less : Less N} {node : N} : ∀ {t : List (N × S)}, (∀ p ∈ t, less node p.1 = true) → treeFind less node t = none
  | [], _ => rfl
  | (n, s) :: rest, h => by rw [treeFind, if_pos (h (n, s) (by simp))]

theorem treeInsert_mem (less : Less N) (node : N) (s : S) : ∀ (t : List (N × S)) (p : N × S), p ∈ treeInsert less node s t → p.1 = node ∨ p ∈ t
  | [], p, h => by
    rw [treeInsert, List.mem_singleton] at h
    exact .inl (by rw [h])
  | (n, s') :: rest, p, h => by
    rw [treeInsert] at h
    split at h
    · rcases List.mem_cons.1 h with e | e
      · exact .inl (by rw [e])
      · exact .inr e
    · split at h
      · rename_i hn
        rcases List.mem_cons.1 h with e | e
        · exact .inl (by rw [e]; exact hn)
        · exact .inr (by simp [e])
      · rcases List.mem_cons.1 h with e | e
        · exact .inr (by simp [e])
        · rcases treeInsert_mem less node s rest p e with e | e
          · exact .inl e
          · exact .inr (by simp [e])

theorem treeRemove_mem (less : Less N) (node : N) : ∀ (t : List (N × S)) (p : N × S), p ∈ treeRemove less node t → p ∈ t
  | [], p, h => h
  | (n, s') :: rest, p, h => by
    rw [treeRemove] at h
    split at h
    · exact h
    · split at h
      · simp [h]
      · rcases List.mem_cons.1 h with e | e
        · simp [e]
        · simp [treeRemove_mem less node rest p e]

theorem treeInsert_spec {less : Less N} (hless : less.Linear) (node : N) (s : S) : ∀ {t : List (N × S)}, Sorted less t →
    Sorted less (treeInsert less node s t) ∧ ∀ n, treeFind less n (treeInsert less node s t) = if n = node then some s else treeFind less n t
  | [], _ => by
    refine ⟨List.pairwise_singleton _ _, fun n => ?_⟩
    by_cases e : n = node
    · subst e; simp [treeInsert, treeFind, hless.irrefl]
    · simp [e, Ne.symm e, treeInsert, treeFind]
  | (k, s') :: rest, h => by
    obtain ⟨h1, h2⟩ := List.pairwise_cons.1 h
    rw [treeInsert]
    by_cases hk : less node k = true
    · rw [if_pos hk]
      refine ⟨List.pairwise_cons.2 ⟨fun p hp => ?_, h⟩, fun n => ?_⟩
      · rcases List.mem_cons.1 hp with e | e
        · rw [e]; exact hk
        · exact hless.trans _ _ _ hk (h1 p e)
      · rw [treeFind]
        by_cases e : n = node
        · subst e; simp [hless.irrefl]
        · rw [if_neg e, if_neg (Ne.symm e)]
          by_cases hl : less n node = true
          · rw [if_pos hl, treeFind, if_pos (hless.trans _ _ _ hl hk)]
          · rw [if_neg hl]
    · rw [if_neg hk]
      by_cases hkn : k = node
      · rw [if_pos hkn]
        refine ⟨List.pairwise_cons.2 ⟨h1, h2⟩, fun n => ?_⟩
        rw [treeFind, treeFind]
        by_cases e : n = node
        · subst e; simp [hless.irrefl, hkn]
        · have : k ≠ n := fun e' => e (e'.symm.trans hkn)
          simp [e, this]
      · rw [if_neg hkn]
        obtain ⟨g1, g2⟩ := treeInsert_spec hless node s h2
        have hlt : less k node = true := by
          rcases hless.total k node with h | h | h
          · exact h
          · exact absurd h hkn
          · exact absurd h hk
        refine ⟨List.pairwise_cons.2 ⟨fun p hp => ?_, g1⟩, fun n => ?_⟩
        · rcases treeInsert_mem less node s rest p hp with e | e
          · show less k p.1 = true
            rw [e]; exact hlt
          · exact h1 p e
        · rw [treeFind, treeFind, g2]
          by_cases e : n = node
          · subst e
            simp [hk, hkn]
          · simp [e]

theorem treeRemove_spec {less : Less N} (hless : less.Linear) (node : N) : ∀ {t : List (N × S)}, Sorted less t →
    Sorted less (treeRemove less node t) ∧ ∀ n, treeFind less n (treeRemove less node t) = if n = node then none else treeFind less n t
  | [], _ => ⟨List.Pairwise.nil, fun n => by simp [treeRemove, treeFind]⟩
  | (k, s') :: rest, h => by
    obtain ⟨h1, h2⟩ := List.pairwise_cons.1 h
    rw [treeRemove]
    by_cases hk : less node k = true
    · rw [if_pos hk]
      refine ⟨h, fun n => ?_⟩
      by_cases e : n = node
      · subst e; rw [if_pos rfl, treeFind, if_pos hk]
      · rw [if_neg e]
    · rw [if_neg hk]
      by_cases hkn : k = node
      · rw [if_pos hkn]
        refine ⟨h2, fun n => ?_⟩
        by_cases e : n = node
        · rw [if_pos e, e]
          exact treeFind_low fun p hp => by rw [← hkn]; exact h1 p hp
        · rw [if_neg e, treeFind]
          have hkn' : k ≠ n := fun e' => e (e'.symm.trans hkn)
          by_cases hl : less n k = true
          · rw [if_pos hl]
            exact treeFind_low fun p hp => hless.trans _ _ _ hl (h1 p hp)
          · rw [if_neg hl, if_neg hkn']
      · rw [if_neg hkn]
        obtain ⟨g1, g2⟩ := treeRemove_spec hless node h2
        refine ⟨List.pairwise_cons.2 ⟨fun p hp => h1 p (treeRemove_mem less node rest p hp), g1⟩, fun n => ?_⟩
        rw [treeFind, treeFind, g2]
        by_cases e : n = node
        · subst e
          simp [hk, hkn]
        · simp [e]

/-- The state of a `SessionDynamicMap` stands for a map. -/
def dynamicInv (less : Less N) (t : List (N × S)) (m : Map N S) : Prop := Sorted less t ∧ m = fun n => treeFind less n t

theorem dynamic_step {less : Less N} (hless : less.Linear) (t : List (N × S)) (m : Map N S) (op : Op N S) (h : dynamicInv less t m) :
    ∃ t', dynamicStep less t op = some (t', (m.step op).2) ∧ dynamicInv less t' (m.step op).1 := by
  obtain ⟨hs, rfl⟩ := h
  have hins : ∀ n s, dynamicInv less (treeInsert less n s t) (Map.put (fun n => treeFind less n t) n (some s)) := by
    intro n s
    obtain ⟨g1, g2⟩ := treeInsert_spec hless n s hs
    exact ⟨g1, by funext k; rw [g2]; rfl⟩
  cases op with
  | get n => exact ⟨t, rfl, hs, rfl⟩
  | getMut n f =>
    simp only [dynamicStep, Map.step]
    cases hf : treeFind less n t with
    | none =>
      refine ⟨t, rfl, hs, ?_⟩
      funext k
      simp only [Map.put, Option.map_none]
      split
      · rename_i e; rw [e, hf]
      · rfl
    | some s => exact ⟨_, rfl, hins n (f s)⟩
  | getMutOrInsertWith n g f =>
    simp only [dynamicStep, Map.step]
    cases hf : treeFind less n t with
    | none => exact ⟨_, rfl, hins n (f g)⟩
    | some s => exact ⟨_, rfl, hins n (f s)⟩
  | insert n s => exact ⟨_, rfl, hins n s⟩
  | remove n =>
    obtain ⟨g1, g2⟩ := treeRemove_spec hless n hs
    exact ⟨_, rfl, g1, by funext k; rw [g2]; rfl⟩

end

end Verif.Ses
