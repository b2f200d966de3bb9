import Verif.Ses.Lemmas

/-!
C61: the session tables are maps from nodes to sessions.
-/

namespace Verif.Ses

variable {N S : Type} [DecidableEq N]

/-- Calls for nodes 5, 3 and 9 with numbers as sessions. -/
def demo : List (Op Nat Nat) :=
  [.get 5, .insert 5 50, .getMutOrInsertWith 3 30 (· + 1), .getMut 5 (· + 2), .getMutOrInsertWith 9 90 (· + 1), .insert 3 33, .remove 5, .insert 9 99, .getMut 4 (· + 1),
   .remove 4, .get 3, .get 5, .get 9]

/-- The order of numbers. -/
def demoLess : Less Nat := fun a b => decide (a < b)

theorem demoLess_linear : demoLess.Linear where
  irrefl a := by simp [demoLess]
  trans a b c := by simp only [demoLess, decide_eq_true_eq]; omega
  total a b := by simp only [demoLess, decide_eq_true_eq]; omega

/-- A `SessionDynamicMap` is a map, for every history of calls: it returns what a map returns, and never runs out of memory. -/
theorem C61_dynamic (less : Less N) (hless : less.Linear) (history : List (Op N S)) :
    replies (dynamicStep less) [] history = some (Map.replies Map.step Map.empty history) :=
  replies_refine _ _ (dynamicInv less) (fun _ => True) (fun t m op _ h => dynamic_step hless t m op h) history [] Map.empty (fun _ _ => trivial)
    ⟨List.Pairwise.nil, rfl⟩

example : replies (dynamicStep demoLess) [] demo =
    some [.session none, .done, .session (some 30), .session (some 50), .session (some 90), .done, .done, .done, .session none, .done, .session (some 33),
      .session none, .session (some 99)] := by decide +kernel

/-- A `SessionLinearMap` is a map for a number of sessions, for every history of calls: it refuses a new session exactly if it holds as many as it can, and
otherwise returns what a map returns. -/
theorem C61_linear (c : Nat) (history : List (Op N S)) :
    replies (linearStep c) [] history = some (Map.replies (Map.boundedStep c) Map.empty history) :=
  replies_refine _ _ (linearInv c) (fun _ => True) (fun t m op _ h => linear_step c t m op h) history [] Map.empty (fun _ _ => trivial)
    ⟨List.nodup_nil, Nat.zero_le _, rfl⟩

-- With space for two sessions, there is none for node 9 until the session of node 5 is removed.
example : replies (linearStep 2) [] demo =
    some [.session none, .done, .session (some 30), .session (some 50), .outOfMemory, .done, .done, .done, .session none, .done, .session (some 33),
      .session none, .session (some 99)] := by decide +kernel

/-- A `SessionArray` with a slot for every node is a map, for every history of calls: it returns what a map returns, and never runs out of memory. -/
theorem C61_array (index : N → Nat) (hinj : ∀ a b, index a = index b → a = b) (c : Nat) (history : List (Op N S)) (hc : ∀ op ∈ history, index op.node < c) :
    replies (arrayStep index) (List.replicate c none) history = some (Map.replies Map.step Map.empty history) :=
  replies_refine _ _ (arrayInv index c fun n => index n < c) (fun op => index op.node < c)
    (fun t m op ho h => array_step index c _ (fun _ h => h) (fun a b _ _ => hinj a b) t m op ho h) history _ Map.empty hc
    ⟨List.length_replicate, fun n hn => by rw [List.getElem?_replicate, if_pos hn]; rfl⟩

example : replies (arrayStep id) (List.replicate 10 none) demo = replies (dynamicStep demoLess) [] demo := by decide +kernel

omit [DecidableEq N] in
/-- A `SessionArray` with too few slots panics. -/
theorem C61_array_panics (index : N → Nat) : ∀ (history : List (Op N S)) (slots : List (Option S)), (∃ op ∈ history, slots.length ≤ index op.node) →
    replies (arrayStep index) slots history = none
  | [], _, h => by obtain ⟨_, h, _⟩ := h; cases h
  | op :: rest, slots, h => by
    rw [replies]
    by_cases hi : slots.length ≤ index op.node
    · have : arrayStep index slots op = none := by
        cases op <;> simp only [Op.node] at hi <;> simp only [arrayStep, List.getElem?_eq_none hi, if_neg (Nat.not_lt.2 hi)]
      rw [this]
    · cases hs : arrayStep index slots op with
      | none => rfl
      | some x =>
        obtain ⟨slots', r⟩ := x
        have hl : slots'.length = slots.length := by
          cases op with
          | insert n s =>
            simp only [arrayStep] at hs
            split at hs
            · cases hs; simp
            · cases hs
          | remove n =>
            simp only [arrayStep] at hs
            split at hs
            · cases hs; simp
            · cases hs
          | _ =>
            simp only [arrayStep] at hs
            split at hs
            · cases hs
            · cases hs; simp
        obtain ⟨o, ho, hlo⟩ := h
        rcases List.mem_cons.1 ho with e | e
        · exact absurd (e ▸ hlo) hi
        · simp only [C61_array_panics index rest slots' ⟨o, e, by rw [hl]; exact hlo⟩, Option.map_none]

example : replies (arrayStep id) (List.replicate 9 none) demo = none := by decide +kernel

/-- The three tables differ only in that a `SessionLinearMap` can be full: if it never refuses a session, all of them return the same. -/
theorem C61_same (less : Less N) (hless : less.Linear) (index : N → Nat) (hinj : ∀ a b, index a = index b → a = b) (c c' : Nat) (history : List (Op N S))
    (hc : ∀ op ∈ history, index op.node < c') (r : List (Reply S)) (hr : replies (linearStep c) [] history = some r) (ho : .outOfMemory ∉ r) :
    replies (dynamicStep less) [] history = some r ∧ replies (arrayStep index) (List.replicate c' none) history = some r := by
  rw [C61_dynamic less hless, C61_array index hinj c' history hc]
  rw [C61_linear] at hr
  injection hr with hr
  have key : ∀ (h : List (Op N S)) (m : Map N S), .outOfMemory ∉ Map.replies (Map.boundedStep c) m h →
      Map.replies (Map.boundedStep c) m h = Map.replies Map.step m h := by
    intro h
    induction h with
    | nil => intro m _; rfl
    | cons op rest ih =>
      intro m hn
      rw [Map.replies, List.mem_cons, not_or] at hn
      have e : m.boundedStep c op = m.step op := by
        unfold Map.boundedStep at hn ⊢
        split
        · rename_i hf
          rw [if_pos hf] at hn
          exact absurd rfl hn.1
        · rfl
      rw [e] at hn
      rw [Map.replies, Map.replies, e, ih _ hn.2]
  have := key history Map.empty (by rw [hr]; exact ho)
  rw [hr] at this
  rw [← this]
  exact ⟨rfl, rfl⟩

example : ∃ r, replies (linearStep 3) [] demo = some r ∧ .outOfMemory ∉ r := by
  exact ⟨_, Option.eq_some_of_isSome (by decide +kernel), by decide +kernel⟩

end Verif.Ses
