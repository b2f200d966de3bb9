import Verif.Can.DriverModel
import Verif.Can.QueueProps
import Verif.Can.TxProps

/-! Helper lemmas about drivers with queues. -/

namespace Verif.Can

/-- `impl` behaves as a priority queue: the states with `Inv` stand for the list `toList`. -/
structure QueueImpl.Correct {Q : Type} (impl : QueueImpl Q) (cap : Nat) (Inv : Q → Prop) (toList : Q → List Frame) : Prop where
  ordered : ∀ q, Inv q → Ordered (toList q)
  bound : ∀ q, Inv q → (toList q).length ≤ cap
  push : ∀ q f, Inv q → ∃ q', impl.push q f = some (q', decide ((toList q).length < cap)) ∧ Inv q' ∧
    toList q' = if (toList q).length < cap then insertBehind f (toList q) else toList q
  pushFull : ∀ q f, Inv q → ¬ (toList q).length < cap → impl.push q f = some (q, false)
  pop : ∀ q, Inv q → ∃ q', impl.pop q = some (q', (toList q).head?) ∧ Inv q' ∧ toList q' = (toList q).tail
  return_ : ∀ q f, Inv q → ∃ q', impl.return_ q f = some (q', decide ((toList q).length < cap)) ∧ Inv q' ∧
    toList q' = if (toList q).length < cap then insertBefore f (toList q) else toList q

theorem arrayQueue_correct (N : Nat) : (arrayQueueImpl N).Correct N ArrayQueue.Ok ArrayQueue.toList where
  ordered q h := h.ordered
  bound q h := by rw [toList_length h]; exact h.bound
  push q f h := by
    obtain ⟨q', h1, h2, h3⟩ := arrayQueue_step q h (.push f)
    simp only [ArrayQueue.step, specStep, Option.map_eq_some_iff] at h1
    obtain ⟨p, hp, he⟩ := h1
    obtain ⟨he1, heq⟩ := Prod.mk.inj he
    subst he1
    refine ⟨p.1, ?_, h2, ?_⟩
    · rw [show (arrayQueueImpl N).push q f = q.pushFrame f from rfl, hp]
      by_cases hc : q.toList.length < N
      · simp only [hc, if_true, decide_true] at heq ⊢
        injection heq with heq; rw [← heq]
      · simp only [hc, if_false, decide_false] at heq ⊢
        injection heq with heq; rw [← heq]
    · rw [h3]; simp only [specStep]; split <;> rfl
  pushFull q f h hc := by
    have := toList_length h
    have hb := h.bound
    show q.pushFrame f = _
    unfold ArrayQueue.pushFrame
    rw [if_pos (by omega)]
  pop q h := by
    obtain ⟨q', h1, h2, h3⟩ := arrayQueue_step q h .pop
    simp only [ArrayQueue.step, specStep, Option.map_eq_some_iff] at h1
    obtain ⟨p, hp, he⟩ := h1
    simp only [Prod.mk.injEq, QueueAnswer.frame.injEq] at he
    obtain ⟨rfl, he⟩ := he
    refine ⟨p.1, ?_, h2, h3⟩
    rw [show (arrayQueueImpl N).pop q = q.popFrame from rfl, hp, ← he]
  return_ q f h := by
    obtain ⟨q', h1, h2, h3⟩ := arrayQueue_step q h (.return_ f)
    simp only [ArrayQueue.step, specStep, Option.map_eq_some_iff] at h1
    obtain ⟨p, hp, he⟩ := h1
    obtain ⟨he1, heq⟩ := Prod.mk.inj he
    subst he1
    refine ⟨p.1, ?_, h2, ?_⟩
    · rw [show (arrayQueueImpl N).return_ q f = q.returnFrame f from rfl, hp]
      by_cases hc : q.toList.length < N
      · simp only [hc, if_true, decide_true] at heq ⊢
        injection heq with heq; rw [← heq]
      · simp only [hc, if_false, decide_false] at heq ⊢
        injection heq with heq; rw [← heq]
    · rw [h3]; simp only [specStep]; split <;> rfl

theorem singleFrameQueue_correct : singleFrameQueueImpl.Correct 1 (fun _ => True) SingleFrameQueue.toList where
  ordered q _ := by cases q with | mk f => cases f <;> simp [SingleFrameQueue.toList, Ordered]
  bound q _ := by cases q with | mk f => cases f <;> simp [SingleFrameQueue.toList]
  push q f _ := by
    cases q with | mk g =>
    cases g <;> simp [singleFrameQueueImpl, SingleFrameQueue.pushFrame, SingleFrameQueue.toList, insertBehind]
  pushFull q f _ hc := by
    cases q with | mk g =>
    cases g <;> simp_all [singleFrameQueueImpl, SingleFrameQueue.pushFrame, SingleFrameQueue.toList]
  pop q _ := by
    cases q with | mk g =>
    cases g <;> simp [singleFrameQueueImpl, SingleFrameQueue.popFrame, SingleFrameQueue.toList]
  return_ q f _ := by
    cases q with | mk g =>
    cases g <;> simp [singleFrameQueueImpl, SingleFrameQueue.returnFrame, SingleFrameQueue.toList, insertBefore]

/-- A frame put back in front of a queue in which nothing has a higher priority becomes the first. -/
theorem insertBefore_first (f : Frame) (l : List Frame) (h : ∀ g ∈ l, f.id ≤ g.id) : insertBefore f l = f :: l := by
  unfold insertBefore
  have h1 : l.filter (fun g => decide (g.id < f.id)) = [] := by
    rw [List.filter_eq_nil_iff]
    intro g hg
    simp only [decide_eq_true_eq, BitVec.not_lt]
    exact h g hg
  have h2 : l.filter (fun g => decide (f.id ≤ g.id)) = l := by
    rw [List.filter_eq_self]
    intro g hg
    simpa using h g hg
  rw [h1, h2, List.nil_append]

theorem insertBefore_perm (f : Frame) (l : List Frame) : (insertBefore f l).Perm (f :: l) := by
  unfold insertBefore
  refine List.perm_middle.trans (List.Perm.cons f ?_)
  have : l.filter (fun g => decide (f.id ≤ g.id)) = l.filter (fun g => !decide (g.id < f.id)) := by
    apply List.filter_congr
    intro g _
    simp only [← BitVec.not_lt, decide_not]
  rw [this]
  exact List.filter_append_perm _ l

theorem insertBehind_perm (f : Frame) (l : List Frame) : (insertBehind f l).Perm (f :: l) := by
  unfold insertBehind
  refine List.perm_middle.trans (List.Perm.cons f ?_)
  have : l.filter (fun g => decide (f.id < g.id)) = l.filter (fun g => !decide (g.id ≤ f.id)) := by
    apply List.filter_congr
    intro g _
    simp only [← BitVec.not_le, decide_not]
  rw [this]
  exact List.filter_append_perm _ l

/-- Frames with the same ID pushed one after the other end up next to each other. -/
theorem insertBehind_many (id : BitVec 32) (fs : List Frame) (hfs : ∀ f ∈ fs, f.id = id) (a b : List Frame)
    (ha : ∀ g ∈ a, g.id ≤ id) (hb : ∀ g ∈ b, id < g.id) :
    fs.foldl (fun l f => insertBehind f l) (a ++ b) = a ++ fs ++ b := by
  induction fs generalizing a with
  | nil => simp
  | cons f fs ih =>
    have hf := hfs f (List.mem_cons_self ..)
    have h1 : insertBehind f (a ++ b) = (a ++ [f]) ++ b := by
      unfold insertBehind
      rw [hf, List.filter_append, List.filter_append]
      have e1 : a.filter (fun g => decide (g.id ≤ id)) = a := by
        rw [List.filter_eq_self]; intro g hg; simpa using ha g hg
      have e2 : a.filter (fun g => decide (id < g.id)) = [] := by
        rw [List.filter_eq_nil_iff]; intro g hg; simpa using ha g hg
      have e3 : b.filter (fun g => decide (g.id ≤ id)) = [] := by
        rw [List.filter_eq_nil_iff]; intro g hg; simpa using hb g hg
      have e4 : b.filter (fun g => decide (id < g.id)) = b := by
        rw [List.filter_eq_self]; intro g hg; simpa using hb g hg
      rw [e1, e2, e3, e4]; simp
    rw [List.foldl_cons, h1, ih (fun g hg => hfs g (List.mem_cons_of_mem _ hg)) (a ++ [f]) (by
      intro g hg
      rcases List.mem_append.mp hg with hg | hg
      · exact ha g hg
      · simp at hg; subst hg; rw [hf]; exact BitVec.le_refl _)]
    simp

/-- An ordered queue is its part of equal or higher priority followed by its part of lower priority. -/
theorem ordered_split (id : BitVec 32) (l : List Frame) (hl : Ordered l) :
    l = l.filter (fun g => decide (g.id ≤ id)) ++ l.filter (fun g => decide (id < g.id)) := by
  induction l with
  | nil => rfl
  | cons a l ih =>
    have hl' := List.pairwise_cons.mp hl
    by_cases ha : a.id ≤ id
    · have hn : ¬ id < a.id := by rw [BitVec.not_lt]; exact ha
      rw [List.filter_cons, List.filter_cons, if_pos (by simpa using ha), if_neg (by simpa using hn)]
      rw [List.cons_append, ← ih hl'.2]
    · have hlt : id < a.id := BitVec.not_le.mp ha
      have hall : ∀ g ∈ a :: l, id < g.id := by
        intro g hg
        rcases List.mem_cons.mp hg with rfl | hg
        · exact hlt
        · exact Nat.lt_of_lt_of_le (BitVec.lt_def.mp hlt) (BitVec.le_def.mp (hl'.1 g hg))
      have e1 : (a :: l).filter (fun g => decide (g.id ≤ id)) = [] := by
        rw [List.filter_eq_nil_iff]; intro g hg; simpa using hall g hg
      have e2 : (a :: l).filter (fun g => decide (id < g.id)) = a :: l := by
        rw [List.filter_eq_self]; intro g hg; simpa using hall g hg
      rw [e1, e2]; rfl

/-- Frames with the same ID pushed one after the other into an ordered queue. -/
theorem insertBehind_many_ordered (id : BitVec 32) (fs : List Frame) (hfs : ∀ f ∈ fs, f.id = id) (l : List Frame) (hl : Ordered l) :
    fs.foldl (fun l f => insertBehind f l) l =
      l.filter (fun g => decide (g.id ≤ id)) ++ fs ++ l.filter (fun g => decide (id < g.id)) := by
  have hmany := insertBehind_many id fs hfs (l.filter (fun g => decide (g.id ≤ id)))
    (l.filter (fun g => decide (id < g.id))) (by intro g hg; simpa using (List.mem_filter.mp hg).2)
    (by intro g hg; simpa using (List.mem_filter.mp hg).2)
  rw [← ordered_split id l hl] at hmany
  exact hmany

/-- Handing frames to a queue with enough room. -/
theorem transmitAll_queue {Q : Type} {E : Type} {impl : QueueImpl Q} {cap : Nat} {Inv : Q → Prop} {toList : Q → List Frame}
    (hc : impl.Correct cap Inv toList) (fs : List Frame) (q : Q) (hq : Inv q) (hroom : (toList q).length + fs.length ≤ cap) :
    ∃ q', transmitAll (singleQueueDriver E impl) fs q = some (q', .ok) ∧ Inv q' ∧
      toList q' = fs.foldl (fun l f => insertBehind f l) (toList q) := by
  induction fs generalizing q with
  | nil => exact ⟨q, rfl, hq, rfl⟩
  | cons f fs ih =>
    simp only [List.length_cons] at hroom
    obtain ⟨q1, h1, h2, h3⟩ := hc.push q f hq
    have hlt : (toList q).length < cap := by omega
    rw [if_pos hlt] at h3
    rw [decide_eq_true hlt] at h1
    obtain ⟨q', h4, h5, h6⟩ := ih q1 h2 (by rw [h3, insertBehind_length]; omega)
    refine ⟨q', ?_, h5, by rw [h6, h3]; rfl⟩
    unfold transmitAll
    simp only [singleQueueDriver, h1, Option.map_some]
    exact h4

end Verif.Can
