import Verif.Can.QueueLemmas

/-! Properties of the frame queues: C17 (priority queue) and C18 (reservation). -/

namespace Verif.Can

/-- The invariant of the array queue. -/
structure ArrayQueue.Ok {N : Nat} (q : ArrayQueue N) : Prop where
  size : q.items.length = N
  bound : q.length ≤ N
  head : N ≠ 0 → q.head < N
  ordered : Ordered q.toList

theorem insertBehind_ordered (f : Frame) {l : List Frame} (h : Ordered l) : Ordered (insertBehind f l) := by
  unfold insertBehind Ordered
  rw [List.pairwise_append, List.pairwise_cons]
  refine ⟨h.filter _, ⟨?_, h.filter _⟩, ?_⟩
  · intro g hg
    simp only [List.mem_filter, decide_eq_true_eq] at hg
    exact BitVec.le_of_lt hg.2
  · intro a ha b hb
    simp only [List.mem_filter, decide_eq_true_eq] at ha
    rcases List.mem_cons.mp hb with hb | hb
    · subst hb; exact ha.2
    · simp only [List.mem_filter, decide_eq_true_eq] at hb
      exact BitVec.le_trans ha.2 (BitVec.le_of_lt hb.2)

theorem insertBefore_ordered (f : Frame) {l : List Frame} (h : Ordered l) : Ordered (insertBefore f l) := by
  unfold insertBefore Ordered
  rw [List.pairwise_append, List.pairwise_cons]
  refine ⟨h.filter _, ⟨?_, h.filter _⟩, ?_⟩
  · intro g hg
    simp only [List.mem_filter, decide_eq_true_eq] at hg
    exact hg.2
  · intro a ha b hb
    simp only [List.mem_filter, decide_eq_true_eq] at ha
    rcases List.mem_cons.mp hb with hb | hb
    · subst hb; exact BitVec.le_of_lt ha.2
    · simp only [List.mem_filter, decide_eq_true_eq] at hb
      exact BitVec.le_trans (BitVec.le_of_lt ha.2) hb.2

theorem filter_split_length (l : List Frame) (p q : Frame → Bool) (h : ∀ f, q f = !p f) :
    (l.filter p).length + (l.filter q).length = l.length := by
  induction l with
  | nil => rfl
  | cons a l ih =>
    have := h a
    cases hp : p a <;> rw [hp] at this <;> simp [hp, this] <;> omega

theorem insertBehind_length (f : Frame) (l : List Frame) : (insertBehind f l).length = l.length + 1 := by
  unfold insertBehind
  have := filter_split_length l (fun g => decide (g.id ≤ f.id)) (fun g => decide (f.id < g.id)) (by
    intro g
    simp only [← BitVec.not_le, decide_not])
  rw [List.length_append, List.length_cons]
  omega

theorem insertBefore_length (f : Frame) (l : List Frame) : (insertBefore f l).length = l.length + 1 := by
  unfold insertBefore
  have := filter_split_length l (fun g => decide (g.id < f.id)) (fun g => decide (f.id ≤ g.id)) (by
    intro g
    simp only [← BitVec.not_lt, decide_not])
  rw [List.length_append, List.length_cons]
  omega

theorem toList_length {N : Nat} {q : ArrayQueue N} (h : q.Ok) : q.toList.length = q.length := by
  have h1 := h.size
  have h2 := h.bound
  unfold ArrayQueue.toList
  rw [List.length_take, ← ring.eq_1, ring_length]
  omega

theorem arrayQueue_step {N : Nat} (q : ArrayQueue N) (h : q.Ok) (op : QueueOp) :
    ∃ q', q.step op = some (q', (specStep N q.toList op).2) ∧ q'.Ok ∧ q'.toList = (specStep N q.toList op).1 := by
  have hlen := toList_length h
  have hb := h.bound
  have hsz := h.size
  cases op with
  | tryReserve n =>
    refine ⟨q, ?_, h, rfl⟩
    simp only [ArrayQueue.step, ArrayQueue.tryReserve, if_pos hb, specStep, hlen, Option.map_some]
    have e : decide (N - q.length ≥ n) = decide (q.length + n ≤ N) := by
      simp only [decide_eq_decide]; omega
    rw [e]
  | peek =>
    refine ⟨q, ?_, h, rfl⟩
    simp only [ArrayQueue.step, ArrayQueue.peekFrame, specStep]
    by_cases h0 : q.length = 0
    · rw [if_neg (by omega)]
      have : q.toList = [] := List.eq_nil_of_length_eq_zero (by omega)
      rw [this]; rfl
    · rw [if_pos h0]
      have hh := h.head (by omega)
      have hg : q.items[q.head]? = q.toList.head? := by
        rw [List.head?_eq_getElem?]
        unfold ArrayQueue.toList
        rw [List.getElem?_take_of_lt (by omega), ← ring.eq_1, ring_getElem? _ _ _ (by omega) (by omega), Nat.add_zero, hsz,
          Nat.mod_eq_of_lt hh]
      rw [hg]
      cases hl : q.toList with
      | nil => rw [hl] at hlen; simp at hlen; omega
      | cons a l => rfl
  | pop =>
    simp only [ArrayQueue.step, ArrayQueue.popFrame, specStep]
    by_cases h0 : q.length = 0
    · rw [if_neg (by omega)]
      have : q.toList = [] := List.eq_nil_of_length_eq_zero (by omega)
      rw [this]
      exact ⟨q, rfl, h, by rw [this]; rfl⟩
    · rw [if_pos h0]
      have hN : N ≠ 0 := by omega
      have hh := h.head hN
      have hg : q.items[q.head]? = q.toList.head? := by
        rw [List.head?_eq_getElem?]
        unfold ArrayQueue.toList
        rw [List.getElem?_take_of_lt (by omega), ← ring.eq_1, ring_getElem? _ _ _ (by omega) (by omega), Nat.add_zero, hsz,
          Nat.mod_eq_of_lt hh]
      rw [hg]
      cases hl : q.toList with
      | nil => rw [hl] at hlen; simp at hlen; omega
      | cons a l =>
        simp only [List.head?_cons, Option.map_some, List.tail_cons, ArrayQueue.incrementHead, if_pos hN]
        have hlist : (ring (q.items.set q.head Frame.default) ((q.head + 1) % N)).take (q.length - 1) = l := by
          have htl : l = q.toList.tail := by rw [hl]; rfl
          rw [htl]
          apply List.ext_getElem?
          intro i
          rw [List.getElem?_tail]
          unfold ArrayQueue.toList
          by_cases hi : i < q.length - 1
          · have hm := Nat.mod_lt (q.head + 1) (Nat.pos_of_ne_zero hN)
            rw [List.getElem?_take_of_lt hi, List.getElem?_take_of_lt (by omega), ← ring.eq_1,
              ring_getElem? _ _ _ (by rw [List.length_set]; omega) (by rw [List.length_set]; omega),
              ring_getElem? _ _ _ (by omega) (by omega), List.length_set, hsz, List.getElem?_set]
            have e : ((q.head + 1) % N + i) % N = (q.head + (i + 1)) % N := by
              rw [Nat.add_mod, Nat.mod_mod, ← Nat.add_mod]; congr 1; omega
            rw [e, if_neg]
            intro hc
            have := phys_inj (i := 0) (j := i + 1) hh (by omega) (by omega) (by rw [← hc, Nat.add_zero, Nat.mod_eq_of_lt hh])
            omega
          · rw [List.getElem?_eq_none (by simp; omega), List.getElem?_eq_none (by simp; omega)]
        refine ⟨_, rfl, ⟨by simpa using hsz, by simp; omega, fun _ => Nat.mod_lt _ (Nat.pos_of_ne_zero hN), ?_⟩, ?_⟩
        · unfold ArrayQueue.toList
          rw [← ring.eq_1]
          simp only [hlist]
          have := h.ordered
          rw [hl] at this
          exact (List.pairwise_cons.mp this).2
        · unfold ArrayQueue.toList
          rw [← ring.eq_1]
          exact hlist
  | push f =>
    simp only [ArrayQueue.step, ArrayQueue.pushFrame, specStep, hlen]
    by_cases h0 : q.length = N
    · rw [if_pos h0, if_neg (by omega)]
      exact ⟨q, rfl, h, rfl⟩
    · rw [if_neg h0, if_pos (by omega)]
      have hN : N ≠ 0 := by omega
      have hh := h.head hN
      have hm := Nat.mod_lt (q.head + q.length) (Nat.pos_of_ne_zero hN)
      simp only [modOrPanic, if_neg hN, setOrPanic, hsz, hm, if_true]
      obtain ⟨items', h1, h2, h3⟩ := moveUp_eq N q.head f.id hh q.length (N + 1)
        (q.items.set ((q.head + q.length) % N) f) (by simpa using hsz) (by omega) (by omega)
      rw [h1]
      have hring : ring (q.items.set ((q.head + q.length) % N) f) q.head =
          q.toList ++ f :: (ring q.items q.head).drop (q.length + 1) := by
        have s := ring_set q.items q.head q.length f (by omega) (by omega)
        rw [hsz] at s
        rw [s, List.set_eq_take_append_cons_drop, if_pos (by rw [ring_length]; omega)]
        rfl
      rw [hring, ← hlen, bubbleUp_eq f _ _ h.ordered] at h3
      have hlist : (ring items' q.head).take (q.length + 1) = insertBehind f q.toList := by
        rw [h3, List.take_left' (by rw [insertBehind_length, hlen])]
      refine ⟨_, rfl, ⟨h2, by simp; omega, fun _ => hh, ?_⟩, ?_⟩
      · unfold ArrayQueue.toList
        rw [← ring.eq_1]
        simp only [hlist]
        exact insertBehind_ordered f h.ordered
      · unfold ArrayQueue.toList
        rw [← ring.eq_1]
        exact hlist
  | return_ f =>
    simp only [ArrayQueue.step, ArrayQueue.returnFrame, specStep, hlen]
    by_cases h0 : q.length = N
    · rw [if_pos h0, if_neg (by omega)]
      exact ⟨q, rfl, h, rfl⟩
    · rw [if_neg h0, if_pos (by omega)]
      have hN : N ≠ 0 := by omega
      have hh := h.head hN
      have hm := Nat.mod_lt (q.head + (N - 1)) (Nat.pos_of_ne_zero hN)
      simp only [modOrPanic, if_neg hN, setOrPanic, hsz, ArrayQueue.decrementHead, if_pos hN, hm, if_true, Nat.add_sub_cancel]
      generalize hh' : (q.head + (N - 1)) % N = head' at hm
      obtain ⟨items', h1, h2, h3⟩ := moveDown_eq N head' f.id hm q.length 0 (N + 1)
        (q.items.set head' f) (by simpa using hsz) (by omega) (by omega)
      rw [Nat.zero_add, Nat.add_zero head', Nat.mod_eq_of_lt hm] at h1
      rw [h1]
      have hshift : ∀ i, i + 1 < N → (ring q.items head')[i + 1]? = (ring q.items q.head)[i]? := by
        intro i hi
        rw [ring_getElem? _ _ _ (by omega) (by omega), ring_getElem? _ _ _ (by omega) (by omega), hsz]
        congr 1
        rw [← hh', Nat.add_mod, Nat.mod_mod, ← Nat.add_mod]
        have : q.head + (N - 1) + (i + 1) = q.head + i + N := by omega
        rw [this, Nat.add_mod_right]
      have hring : ring (q.items.set head' f) head' =
          [] ++ f :: (q.toList ++ (ring q.items head').drop (q.length + 1)) := by
        have s := ring_set q.items head' 0 f (by omega) (by omega)
        rw [hsz, Nat.add_zero, Nat.mod_eq_of_lt hm] at s
        rw [s]
        apply List.ext_getElem?
        intro i
        cases i with
        | zero => rw [List.getElem?_set, if_pos rfl, if_pos (by rw [ring_length]; omega)]; rfl
        | succ i =>
          rw [List.getElem?_set, if_neg (by omega)]
          simp only [List.nil_append, List.getElem?_cons_succ]
          rw [List.getElem?_append]
          split
          · rw [hshift i (by omega)]
            unfold ArrayQueue.toList
            rw [List.getElem?_take_of_lt (by omega)]
            rfl
          · rw [List.getElem?_drop, hlen]
            congr 1
            omega
      have hb2 := bubbleDown_eq f q.toList ((ring q.items head').drop (q.length + 1)) [] h.ordered
      rw [List.length_nil, hlen] at hb2
      rw [hring, hb2, List.nil_append] at h3
      have hlist : (ring items' head').take (q.length + 1) = insertBefore f q.toList := by
        rw [h3, List.take_left' (by rw [insertBefore_length, hlen])]
      refine ⟨_, rfl, ⟨h2, by simp; omega, fun _ => hm, ?_⟩, ?_⟩
      · unfold ArrayQueue.toList
        rw [← ring.eq_1]
        simp only [hlist]
        exact insertBefore_ordered f h.ordered
      · unfold ArrayQueue.toList
        rw [← ring.eq_1]
        exact hlist

theorem arrayQueue_run {N : Nat} (ops : List QueueOp) (q : ArrayQueue N) (h : q.Ok) :
    ∃ q', q.run ops = some (q', (specRun N q.toList ops).2) ∧ q'.Ok ∧ q'.toList = (specRun N q.toList ops).1 := by
  induction ops generalizing q with
  | nil => exact ⟨q, rfl, h, rfl⟩
  | cons op ops ih =>
    obtain ⟨q1, h1, h2, h3⟩ := arrayQueue_step q h op
    obtain ⟨q2, h4, h5, h6⟩ := ih q1 h2
    refine ⟨q2, ?_, h5, ?_⟩
    · unfold ArrayQueue.run specRun
      rw [h1]
      simp only [h4, Option.map_some, ← h3]
    · unfold specRun
      simp only [← h3]
      exact h6

theorem arrayQueue_new_ok (N : Nat) : (ArrayQueue.new N).Ok := by
  refine ⟨by simp [ArrayQueue.new], by simp [ArrayQueue.new], fun h => by simp [ArrayQueue.new]; omega, ?_⟩
  simp [ArrayQueue.toList, ArrayQueue.new, Ordered]

/-- **C17.** Any sequence of calls on a new array queue of any capacity (including zero) runs without a panic, and gives
exactly the answers of a plain list of frames in which a push goes behind all frames of equal or higher priority, a returned
frame goes in front of all frames of equal or lower priority, a pop takes the first frame, and only a full queue refuses a
frame. -/
theorem C17_array_queue_is_priority_queue (N : Nat) (ops : List QueueOp) :
    ∃ q, (ArrayQueue.new N).run ops = some (q, (specRun N [] ops).2) ∧ q.toList = (specRun N [] ops).1 := by
  obtain ⟨q, h1, -, h3⟩ := arrayQueue_run ops (ArrayQueue.new N) (arrayQueue_new_ok N)
  have : (ArrayQueue.new N).toList = [] := by simp [ArrayQueue.toList, ArrayQueue.new]
  rw [this] at h1 h3
  exact ⟨q, h1, h3⟩

/-- **C17.** At any time the frames in the queue are in order of priority, there are never more of them than the capacity,
and popping until the queue is empty returns them in that order. -/
theorem C17_pops_in_priority_order (N : Nat) (ops : List QueueOp) :
    ∃ q, ((ArrayQueue.new N).run ops).map (fun p => p.1) = some q ∧ Ordered q.toList ∧ q.toList.length ≤ N ∧
      ∃ q', q.run (List.replicate q.toList.length .pop) = some (q', q.toList.map (fun f => .frame (some f))) ∧
        q'.toList = [] := by
  obtain ⟨q, h1, h2, h3⟩ := arrayQueue_run ops (ArrayQueue.new N) (arrayQueue_new_ok N)
  refine ⟨q, by rw [h1]; rfl, h2.ordered, by rw [toList_length h2]; exact h2.bound, ?_⟩
  obtain ⟨q', h4, -, h6⟩ := arrayQueue_run (List.replicate q.toList.length .pop) q h2
  have hpop : ∀ l : List Frame, specRun N l (List.replicate l.length .pop) = ([], l.map (fun f => .frame (some f))) := by
    intro l
    induction l with
    | nil => rfl
    | cons a l ih => simp [List.replicate_succ, specRun, specStep, ih]
  rw [hpop] at h4 h6
  exact ⟨q', h4, h6⟩

/-- Frames for examples. -/
def qFrame (id : BitVec 32) (b : Byte) : Frame := { timestamp := 0#32, id, loopback := false, data := [b] }

/-- A run that wraps around the end of the array, with a refused push. -/
example : ((ArrayQueue.new 3).run [.push (qFrame 5#32 1#8), .push (qFrame 7#32 2#8), .push (qFrame 5#32 3#8), .push (qFrame 1#32 4#8),
    .pop, .push (qFrame 6#32 5#8), .pop, .return_ (qFrame 6#32 6#8), .pop, .pop, .pop, .pop]).map (fun p => p.2) =
    some [.done true, .done true, .done true, .done false, .frame (some (qFrame 5#32 1#8)), .done true,
      .frame (some (qFrame 5#32 3#8)), .done true, .frame (some (qFrame 6#32 6#8)), .frame (some (qFrame 6#32 5#8)),
      .frame (some (qFrame 7#32 2#8)), .frame none] := by decide +kernel

/-! ### Reservation -/

/-- The answers of the next pushes. -/
theorem specRun_pushes (N : Nat) (fs : List Frame) (l : List Frame) (h : l.length + fs.length ≤ N) :
    (specRun N l (fs.map .push)).2 = fs.map (fun _ => .done true) := by
  induction fs generalizing l with
  | nil => rfl
  | cons f fs ih =>
    simp only [List.length_cons] at h
    simp only [List.map_cons, specRun, specStep]
    rw [if_pos (by omega)]
    simp only
    rw [ih _ (by rw [insertBehind_length]; omega)]

/-- **C18.** In every reachable state of an array queue, `try_reserve(n)` succeeds exactly if `n` places are free, it does
not change the queue, and after it succeeded the next `n` pushes succeed. -/
theorem C18_array_queue_reservation (N : Nat) (ops : List QueueOp) (n : Nat) :
    ∃ q ok, ((ArrayQueue.new N).run ops).map (fun p => p.1) = some q ∧ q.step (.tryReserve n) = some (q, .done ok) ∧
      (ok = true ↔ q.toList.length + n ≤ N) ∧
      (ok = true → ∀ fs : List Frame, fs.length = n →
        (q.run (fs.map .push)).map (fun p => p.2) = some (fs.map (fun _ => .done true))) := by
  obtain ⟨q, h1, h2, h3⟩ := arrayQueue_run ops (ArrayQueue.new N) (arrayQueue_new_ok N)
  refine ⟨q, decide (q.toList.length + n ≤ N), by rw [h1]; rfl, ?_, by simp, ?_⟩
  · have hb := h2.bound
    simp only [ArrayQueue.step, ArrayQueue.tryReserve, if_pos hb, toList_length h2, Option.map_some]
    have e : decide (N - q.length ≥ n) = decide (q.length + n ≤ N) := by
      simp only [decide_eq_decide]; omega
    rw [e]
  · intro hok fs hfs
    obtain ⟨q', h4, -⟩ := arrayQueue_run (fs.map .push) q h2
    rw [h4, Option.map_some, specRun_pushes N fs q.toList (by rw [hfs]; simpa using hok)]

example : ((ArrayQueue.new 3).run [.push (qFrame 5#32 1#8), .tryReserve 2, .tryReserve 3, .push (qFrame 5#32 2#8),
    .push (qFrame 5#32 3#8)]).map (fun p => p.2) =
    some [.done true, .done true, .done false, .done true, .done true] := by decide +kernel

/-- **C18.** The single-frame queue: a successful `try_reserve(n)` means that the next `n` pushes succeed (it only ever
succeeds for `n = 1` on an empty queue), and it does not change the queue. -/
theorem C18_single_frame_queue_reservation (q : SingleFrameQueue) (n : Nat)
    (h : q.step (.tryReserve n) = (q, .done true)) (fs : List Frame) (hfs : fs.length = n) :
    (q.run (fs.map .push)).2 = fs.map (fun _ => .done true) := by
  simp only [SingleFrameQueue.step, SingleFrameQueue.tryReserve, Prod.mk.injEq, QueueAnswer.done.injEq, true_and,
    Bool.and_eq_true, decide_eq_true_eq] at h
  obtain ⟨h1, rfl⟩ := h
  match fs, hfs with
  | [f], _ => simp [SingleFrameQueue.run, SingleFrameQueue.step, SingleFrameQueue.pushFrame, h1]

example : SingleFrameQueue.new.step (.tryReserve 1) = (SingleFrameQueue.new, .done true) := by decide

/-- The frame in a single-frame queue as a list. -/
def SingleFrameQueue.toList (q : SingleFrameQueue) : List Frame := q.frame.toList

/-- A call other than `try_reserve`. -/
def QueueOp.NotReserve : QueueOp → Prop
  | .tryReserve _ => False
  | _ => True

/-- **C17.** The single-frame queue is the same priority queue with capacity one, except for `try_reserve`. -/
theorem C17_single_frame_queue (ops : List QueueOp) (hops : ∀ op ∈ ops, op.NotReserve) (q : SingleFrameQueue) :
    (q.run ops).2 = (specRun 1 q.toList ops).2 ∧ (q.run ops).1.toList = (specRun 1 q.toList ops).1 := by
  induction ops generalizing q with
  | nil => exact ⟨rfl, rfl⟩
  | cons op ops ih =>
    have step : (q.step op).2 = (specStep 1 q.toList op).2 ∧ (q.step op).1.toList = (specStep 1 q.toList op).1 := by
      have hop := hops op (List.mem_cons_self ..)
      cases op with
      | tryReserve n => exact hop.elim
      | push f =>
        cases hq : q.frame <;>
          simp [SingleFrameQueue.step, SingleFrameQueue.pushFrame, SingleFrameQueue.toList, specStep, hq, insertBehind]
      | peek =>
        cases hq : q.frame <;>
          simp [SingleFrameQueue.step, SingleFrameQueue.peekFrame, SingleFrameQueue.toList, specStep, hq]
      | pop =>
        cases hq : q.frame <;>
          simp [SingleFrameQueue.step, SingleFrameQueue.popFrame, SingleFrameQueue.toList, specStep, hq]
      | return_ f =>
        cases hq : q.frame <;>
          simp [SingleFrameQueue.step, SingleFrameQueue.returnFrame, SingleFrameQueue.toList, specStep, hq, insertBefore]
    obtain ⟨i1, i2⟩ := ih (fun o ho => hops o (List.mem_cons_of_mem _ ho)) (q.step op).1
    unfold SingleFrameQueue.run specRun
    simp only
    rw [← step.2, ← step.1]
    exact ⟨by rw [i1], i2⟩

example : (SingleFrameQueue.new.run [.push (qFrame 5#32 1#8), .push (qFrame 4#32 2#8), .pop, .return_ (qFrame 4#32 2#8), .peek]).2 =
    [.done true, .done false, .frame (some (qFrame 5#32 1#8)), .done true, .frame (some (qFrame 4#32 2#8))] := by decide

end Verif.Can
