import Verif.Can.QueueSpec

/-! Helper lemmas about the frame queues. -/

namespace Verif.Can

/-- The array, starting at the head. -/
def ring (items : List Frame) (head : Nat) : List Frame := items.drop head ++ items.take head

theorem ring_length (items : List Frame) (head : Nat) : (ring items head).length = items.length := by
  unfold ring; simp; omega

theorem ring_getElem? (items : List Frame) (head i : Nat) (hh : head < items.length) (hi : i < items.length) :
    (ring items head)[i]? = items[(head + i) % items.length]? := by
  unfold ring
  rw [List.getElem?_append]
  simp only [List.length_drop]
  split
  · rw [List.getElem?_drop, Nat.mod_eq_of_lt (by omega)]
  · rw [List.getElem?_take_of_lt (by omega)]
    congr 1
    rw [Nat.mod_eq_sub_mod (by omega), Nat.mod_eq_of_lt (by omega)]
    omega

theorem phys_inj {n head i j : Nat} (hh : head < n) (hi : i < n) (hj : j < n) (h : (head + i) % n = (head + j) % n) : i = j := by
  have e : ∀ k, k < n → (head + k) % n = if head + k < n then head + k else head + k - n := by
    intro k hk
    split
    · exact Nat.mod_eq_of_lt (by assumption)
    · rw [Nat.mod_eq_sub_mod (by omega), Nat.mod_eq_of_lt (by omega)]
  rw [e i hi, e j hj] at h
  split at h <;> split at h <;> omega

theorem ring_set (items : List Frame) (head p : Nat) (f : Frame) (hh : head < items.length) (hp : p < items.length) :
    ring (items.set ((head + p) % items.length) f) head = (ring items head).set p f := by
  apply List.ext_getElem?
  intro i
  by_cases hi : i < items.length
  · rw [ring_getElem? _ _ _ (by simpa using hh) (by simpa using hi), List.getElem?_set, List.getElem?_set, List.length_set,
      ring_length, ring_getElem? _ _ _ hh hi]
    by_cases hpi : p = i
    · subst hpi
      simp [hp, Nat.mod_lt _ (Nat.lt_of_le_of_lt (Nat.zero_le _) hh)]
    · rw [if_neg (fun h => hpi (phys_inj hh hp hi h)), if_neg hpi]
  · rw [List.getElem?_eq_none (by rw [ring_length]; simp; omega), List.getElem?_eq_none (by rw [List.length_set, ring_length]; omega)]

/-- The effect of the loop of `push_frame` in terms of positions from the head. -/
def bubbleUp (id : BitVec 32) : Nat → List Frame → List Frame
  | 0, r => r
  | p + 1, r =>
    match r[p]?, r[p + 1]? with
    | some a, some b => if a.id ≤ id then r else bubbleUp id p ((r.set (p + 1) a).set p b)
    | _, _ => r

theorem moveUp_eq (N head : Nat) (id : BitVec 32) (hh : head < N) (p : Nat) :
    ∀ (fuel : Nat) (items : List Frame), items.length = N → p < N → p < fuel →
      ∃ items', moveUp N head id fuel items ((head + p) % N) = some items' ∧ items'.length = N ∧
        ring items' head = bubbleUp id p (ring items head) := by
  induction p with
  | zero =>
    intro fuel items hl hp hf
    obtain ⟨fuel, rfl⟩ : ∃ g, fuel = g + 1 := ⟨fuel - 1, by omega⟩
    refine ⟨items, ?_, hl, rfl⟩
    unfold moveUp
    rw [if_pos (by rw [Nat.add_zero, Nat.mod_eq_of_lt hh])]
  | succ p ih =>
    intro fuel items hl hp hf
    obtain ⟨fuel, rfl⟩ : ∃ g, fuel = g + 1 := ⟨fuel - 1, by omega⟩
    unfold moveUp
    rw [if_neg (by
      intro h
      have := phys_inj (i := p + 1) (j := 0) hh hp (by omega) (by rw [h, Nat.add_zero, Nat.mod_eq_of_lt hh])
      omega)]
    have ha : modOrPanic ((head + (p + 1)) % N + (N - 1)) N = some ((head + p) % N) := by
      unfold modOrPanic
      rw [if_neg (by omega)]
      congr 1
      rw [Nat.add_mod, Nat.mod_mod, ← Nat.add_mod]
      have : head + (p + 1) + (N - 1) = head + p + N := by omega
      rw [this, Nat.add_mod_right]
    rw [ha]
    have e1 : items[(head + p) % N]? = (ring items head)[p]? := by
      rw [ring_getElem? _ _ _ (by omega) (by omega), hl]
    have e2 : items[(head + (p + 1)) % N]? = (ring items head)[p + 1]? := by
      rw [ring_getElem? _ _ _ (by omega) (by omega), hl]
    have g1 : (ring items head)[p]? = some ((ring items head)[p]'(by rw [ring_length]; omega)) := List.getElem?_eq_getElem _
    have g2 : (ring items head)[p + 1]? = some ((ring items head)[p + 1]'(by rw [ring_length]; omega)) :=
      List.getElem?_eq_getElem _
    generalize (ring items head)[p]'(by rw [ring_length]; omega) = a at g1
    generalize (ring items head)[p + 1]'(by rw [ring_length]; omega) = b at g2
    simp only [bubbleUp, e1, g1, g2]
    by_cases hc : a.id ≤ id
    · rw [if_pos hc, if_pos hc]
      exact ⟨items, rfl, hl, rfl⟩
    · rw [if_neg hc, if_neg hc]
      have hsw : swapOrPanic items ((head + (p + 1)) % N) ((head + p) % N) =
          some ((items.set ((head + (p + 1)) % N) a).set ((head + p) % N) b) := by
        unfold swapOrPanic
        rw [e1, e2, g1, g2]
      rw [hsw]
      obtain ⟨items', h1, h2, h3⟩ := ih fuel ((items.set ((head + (p + 1)) % N) a).set ((head + p) % N) b)
        (by simpa using hl) (by omega) (by omega)
      refine ⟨items', h1, h2, ?_⟩
      rw [h3]
      congr 1
      have s1 := ring_set (items.set ((head + (p + 1)) % N) a) head p b (by rw [List.length_set]; omega)
        (by rw [List.length_set]; omega)
      rw [List.length_set, hl] at s1
      have s2 := ring_set items head (p + 1) a (by omega) (by omega)
      rw [hl] at s2
      rw [s1, s2]

/-- The loop moves the frame at position `p` in front of the frames with greater IDs. -/
theorem bubbleUp_eq (f : Frame) (rest : List Frame) (pre : List Frame) (hs : Ordered pre) :
    bubbleUp f.id pre.length (pre ++ f :: rest) = insertBehind f pre ++ rest := by
  generalize hn : pre.length = n
  induction n generalizing pre rest with
  | zero =>
    have : pre = [] := List.eq_nil_of_length_eq_zero hn
    subst this
    simp [bubbleUp, insertBehind]
  | succ n ih =>
    obtain ⟨pre', a, rfl⟩ : ∃ pre' a, pre = pre' ++ [a] := by
      refine ⟨pre.dropLast, pre.getLast (by intro h; rw [h] at hn; simp at hn), ?_⟩
      rw [List.dropLast_concat_getLast]
    have hn' : pre'.length = n := by simpa using hn
    have hs' : Ordered pre' := (List.pairwise_append.mp hs).1
    have hle : ∀ g ∈ pre', g.id ≤ a.id := fun g hg => (List.pairwise_append.mp hs).2.2 g hg a (by simp)
    have e1 : (pre' ++ [a] ++ f :: rest)[n]? = some a := by
      rw [List.append_assoc, List.getElem?_append_right (by omega), hn', Nat.sub_self]; rfl
    have e2 : (pre' ++ [a] ++ f :: rest)[n + 1]? = some f := by
      rw [List.getElem?_append_right (by simp; omega)]; simp [hn']
    simp only [bubbleUp, e1, e2]
    by_cases hc : a.id ≤ f.id
    · rw [if_pos hc]
      have f1 : (pre' ++ [a]).filter (fun g => decide (g.id ≤ f.id)) = pre' ++ [a] := by
        rw [List.filter_eq_self]
        intro g hg
        simp only [decide_eq_true_eq]
        rcases List.mem_append.mp hg with hg | hg
        · exact BitVec.le_trans (hle g hg) hc
        · simp at hg; subst hg; exact hc
      have f2 : (pre' ++ [a]).filter (fun g => decide (f.id < g.id)) = [] := by
        rw [List.filter_eq_nil_iff]
        intro g hg
        simp only [decide_eq_true_eq, BitVec.not_lt]
        rcases List.mem_append.mp hg with hg | hg
        · exact BitVec.le_trans (hle g hg) hc
        · simp at hg; subst hg; exact hc
      unfold insertBehind
      rw [f1, f2]
      simp
    · rw [if_neg hc]
      have hset : ((pre' ++ [a] ++ f :: rest).set (n + 1) a).set n f = pre' ++ f :: (a :: rest) := by
        rw [← hn']
        simp
      rw [hset, ih (a :: rest) pre' hs' hn']
      have hlt : f.id < a.id := BitVec.not_le.mp hc
      unfold insertBehind
      simp [List.filter_append, hc, hlt]

/-- The effect of the loop of `return_frame` in terms of positions from the head: `k` is the number of frames behind. -/
def bubbleDown (id : BitVec 32) : Nat → Nat → List Frame → List Frame
  | 0, _, r => r
  | k + 1, p, r =>
    match r[p]?, r[p + 1]? with
    | some b, some a => if a.id ≥ id then r else bubbleDown id k (p + 1) ((r.set p a).set (p + 1) b)
    | _, _ => r

theorem moveDown_eq (N head : Nat) (id : BitVec 32) (hh : head < N) (k : Nat) :
    ∀ (p fuel : Nat) (items : List Frame), items.length = N → p + k < N → k < fuel →
      ∃ items', moveDown N ((head + (p + k)) % N) id fuel items ((head + p) % N) = some items' ∧ items'.length = N ∧
        ring items' head = bubbleDown id k p (ring items head) := by
  induction k with
  | zero =>
    intro p fuel items hl hp hf
    obtain ⟨fuel, rfl⟩ : ∃ g, fuel = g + 1 := ⟨fuel - 1, by omega⟩
    refine ⟨items, ?_, hl, rfl⟩
    unfold moveDown
    rw [if_pos (by rw [Nat.add_zero])]
  | succ k ih =>
    intro p fuel items hl hp hf
    obtain ⟨fuel, rfl⟩ : ∃ g, fuel = g + 1 := ⟨fuel - 1, by omega⟩
    unfold moveDown
    rw [if_neg (by
      intro h
      have := phys_inj (i := p) (j := p + (k + 1)) hh (by omega) (by omega) h
      omega)]
    have ha : modOrPanic ((head + p) % N + 1) N = some ((head + (p + 1)) % N) := by
      unfold modOrPanic
      rw [if_neg (by omega)]
      congr 1
      rw [Nat.add_mod, Nat.mod_mod, ← Nat.add_mod]
      rfl
    rw [ha]
    have e1 : items[(head + p) % N]? = (ring items head)[p]? := by
      rw [ring_getElem? _ _ _ (by omega) (by omega), hl]
    have e2 : items[(head + (p + 1)) % N]? = (ring items head)[p + 1]? := by
      rw [ring_getElem? _ _ _ (by omega) (by omega), hl]
    have g1 : (ring items head)[p]? = some ((ring items head)[p]'(by rw [ring_length]; omega)) := List.getElem?_eq_getElem _
    have g2 : (ring items head)[p + 1]? = some ((ring items head)[p + 1]'(by rw [ring_length]; omega)) :=
      List.getElem?_eq_getElem _
    generalize (ring items head)[p]'(by rw [ring_length]; omega) = b at g1
    generalize (ring items head)[p + 1]'(by rw [ring_length]; omega) = a at g2
    simp only [bubbleDown, e2, g1, g2]
    by_cases hc : a.id ≥ id
    · rw [if_pos hc, if_pos hc]
      exact ⟨items, rfl, hl, rfl⟩
    · rw [if_neg hc, if_neg hc]
      have hsw : swapOrPanic items ((head + p) % N) ((head + (p + 1)) % N) =
          some ((items.set ((head + p) % N) a).set ((head + (p + 1)) % N) b) := by
        unfold swapOrPanic
        rw [e1, e2, g1, g2]
      rw [hsw]
      obtain ⟨items', h1, h2, h3⟩ := ih (p + 1) fuel ((items.set ((head + p) % N) a).set ((head + (p + 1)) % N) b)
        (by simpa using hl) (by omega) (by omega)
      refine ⟨items', ?_, h2, ?_⟩
      · have : p + (k + 1) = p + 1 + k := by omega
        rw [this]; exact h1
      rw [h3]
      congr 1
      have s1 := ring_set (items.set ((head + p) % N) a) head (p + 1) b (by rw [List.length_set]; omega)
        (by rw [List.length_set]; omega)
      rw [List.length_set, hl] at s1
      have s2 := ring_set items head p a (by omega) (by omega)
      rw [hl] at s2
      rw [s1, s2]

/-- The loop moves the frame behind the frames with lesser IDs. -/
theorem bubbleDown_eq (f : Frame) (l : List Frame) (rest : List Frame) (pre : List Frame) (hs : Ordered l) :
    bubbleDown f.id l.length pre.length (pre ++ f :: (l ++ rest)) = pre ++ (insertBefore f l ++ rest) := by
  induction l generalizing pre with
  | nil => simp [bubbleDown, insertBefore]
  | cons a l ih =>
    have hs' : Ordered l := (List.pairwise_cons.mp hs).2
    have hle : ∀ g ∈ l, a.id ≤ g.id := (List.pairwise_cons.mp hs).1
    have e1 : (pre ++ f :: (a :: l ++ rest))[pre.length]? = some f := by simp
    have e2 : (pre ++ f :: (a :: l ++ rest))[pre.length + 1]? = some a := by simp
    simp only [List.length_cons, bubbleDown, e1, e2]
    by_cases hc : a.id ≥ f.id
    · rw [if_pos hc]
      have f1 : (a :: l).filter (fun g => decide (f.id ≤ g.id)) = a :: l := by
        rw [List.filter_eq_self]
        intro g hg
        simp only [decide_eq_true_eq]
        rcases List.mem_cons.mp hg with hg | hg
        · subst hg; exact hc
        · exact BitVec.le_trans hc (hle g hg)
      have f2 : (a :: l).filter (fun g => decide (g.id < f.id)) = [] := by
        rw [List.filter_eq_nil_iff]
        intro g hg
        simp only [decide_eq_true_eq, BitVec.not_lt]
        rcases List.mem_cons.mp hg with hg | hg
        · subst hg; exact hc
        · exact BitVec.le_trans hc (hle g hg)
      unfold insertBefore
      rw [f1, f2]
      simp
    · rw [if_neg hc]
      have hset : ((pre ++ f :: (a :: l ++ rest)).set pre.length a).set (pre.length + 1) f = (pre ++ [a]) ++ f :: (l ++ rest) := by
        simp
      have := ih (pre ++ [a]) hs'
      rw [List.length_append, List.length_singleton] at this
      rw [hset, this]
      have hlt : a.id < f.id := BitVec.not_le.mp hc
      unfold insertBefore
      simp [hlt, hc]

end Verif.Can
