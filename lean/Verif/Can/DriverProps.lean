import Verif.Can.DriverSpec
import Verif.Can.DriverLemmas

/-! Properties of the transmitter with queues: C07 (push is all or nothing) and C19 (flushing). -/

namespace Verif.Can

theorem reachable_ok {N : Nat} {q : ArrayQueue N} (h : q.Reachable) : q.Ok := by
  obtain ⟨ops, a, hr⟩ := h
  obtain ⟨q', h1, h2, -⟩ := arrayQueue_run ops (ArrayQueue.new N) (arrayQueue_new_ok N)
  rw [h1] at hr
  cases hr
  exact h2

/-! ### C07 -/

/-- **C07.** Pushing a transfer into any reachable array queue of any capacity: there is a correct sequence of frames `fs` for
the transfer such that, if the queue has room for all of them, the push succeeds and the queue then holds `fs` without gaps,
behind every frame of equal or higher priority and in front of every frame of lower priority; otherwise the push fails and
the queue is as before. -/
theorem C07_push_all_or_nothing (E : Type) (N cap mtu : Nat) (transfer : CanTransfer) (hm : 1 < mtu) (hl : LegalLength mtu)
    (hcap : mtu ≤ cap) (q : ArrayQueue N) (hq : q.Reachable) :
    ∃ id padding fs, Segmentation mtu transfer id padding fs ∧
      (q.toList.length + fs.length ≤ N →
        ∃ q', pushInner (singleQueueDriver E (arrayQueueImpl N)) cap mtu transfer q = some (q', .ok) ∧
          q'.toList = q.toList.filter (fun g => decide (g.id ≤ id)) ++ fs ++ q.toList.filter (fun g => decide (id < g.id))) ∧
      (¬ q.toList.length + fs.length ≤ N →
        pushInner (singleQueueDriver E (arrayQueueImpl N)) cap mtu transfer q = some (q, .memory)) := by
  obtain ⟨id, padding, fs, -, hseg, hpush⟩ := C05_segmentation cap mtu transfer hm hl hcap
  have hok := reachable_ok hq
  have hlen := toList_length hok
  have hb := hok.bound
  have hres : (singleQueueDriver E (arrayQueueImpl N)).tryReserve q fs.length =
      some (q, decide (q.toList.length + fs.length ≤ N)) := by
    show (q.tryReserve fs.length).map (fun b => (q, b)) = _
    unfold ArrayQueue.tryReserve
    rw [if_pos hb, Option.map_some, hlen]
    congr 3
    exact propext ⟨by omega, by omega⟩
  refine ⟨id, padding, fs, hseg, ?_, ?_⟩
  · intro hroom
    obtain ⟨q', h1, -, h3⟩ := transmitAll_queue (E := E) (arrayQueue_correct N) fs q hok hroom
    refine ⟨q', ?_, ?_⟩
    · rw [hpush]; unfold reserveAndTransmit; rw [hres, decide_eq_true hroom]; exact h1
    · rw [h3]
      exact insertBehind_many_ordered id fs (fun f hf => (hseg.fields f hf).1) _ hok.ordered
  · intro hroom
    rw [hpush]; unfold reserveAndTransmit; rw [hres, decide_eq_false hroom]

/-- **C07.** Pushing into a single-frame queue: either the transfer takes one frame and the queue was empty, and the push
succeeds; or the push fails and the queue is as before. -/
theorem C07_push_single_frame_queue (E : Type) (cap mtu : Nat) (transfer : CanTransfer) (hm : 1 < mtu) (hl : LegalLength mtu)
    (hcap : mtu ≤ cap) (q : SingleFrameQueue) :
    ∃ id padding fs, Segmentation mtu transfer id padding fs ∧
      (q.toList.length + fs.length ≤ 1 →
        ∃ q', pushInner (singleQueueDriver E singleFrameQueueImpl) cap mtu transfer q = some (q', .ok) ∧ q'.toList = fs) ∧
      (¬ q.toList.length + fs.length ≤ 1 →
        pushInner (singleQueueDriver E singleFrameQueueImpl) cap mtu transfer q = some (q, .memory)) := by
  obtain ⟨id, padding, fs, -, hseg, hpush⟩ := C05_segmentation cap mtu transfer hm hl hcap
  refine ⟨id, padding, fs, hseg, ?_⟩
  rw [hpush]
  have hne := hseg.nonempty
  cases q with | mk g =>
  match fs, hne with
  | f :: fs, _ =>
    cases g <;> cases fs <;> simp [SingleFrameQueue.toList, reserveAndTransmit, transmitAll, singleQueueDriver, singleFrameQueueImpl,
      SingleFrameQueue.tryReserve, SingleFrameQueue.pushFrame]

/-- A queue with room for two frames takes the two-frame transfer, and refuses it when it already holds a frame. -/
example : ((pushInner (singleQueueDriver Empty (arrayQueueImpl 2)) 8 8 (demoTransfer 8) (ArrayQueue.new 2)).map
    (fun p => (p.1.toList.map (fun f => f.data.length), decide (p.2 = .ok)))) = some ([8, 4], true) := by decide +kernel
example : (((ArrayQueue.new 2).run [.push (qFrame 5#32 1#8)]).bind (fun p =>
    (pushInner (singleQueueDriver Empty (arrayQueueImpl 2)) 8 8 (demoTransfer 8) p.1).map
      (fun p => (p.1.toList, decide (p.2 = .memory))))) = some ([qFrame 5#32 1#8], true) := by decide +kernel

/-! ### C19 -/

variable {Q σ E : Type}

/-- A flush seen as events on the plain list. -/
structure FlushOutcome (t : FlushTarget σ E) (l l' : List Frame) (r : FlushResult E) (ev : List FlushEvent) : Prop where
  events : onList l ev = some l'
  ordered : Ordered l'
  ok : r = .ok → l' = [] ∧ ∀ e ∈ ev, e.accepted?.isSome ∨ e.expired?.isSome ∨ e.displaced?.isSome ∨ ∃ f now, e = .displacedExpired f now
  wouldBlock : r = .wouldBlock → ∃ f, ev.getLast? = some (.refused f) ∧ l'.head? = some f
  other : ∀ e, r = .other e → ∃ f, ev.getLast? = some (.failed f)
  failed : ∀ f, .failed f ∈ ev → ∃ e, r = .other e

theorem ordered_cons {f : Frame} {l : List Frame} (h : Ordered (f :: l)) : (∀ g ∈ l, f.id ≤ g.id) ∧ Ordered l :=
  List.pairwise_cons.mp h

/-- Put further events in front. -/
theorem FlushOutcome.cons {t : FlushTarget σ E} {l l1 l' : List Frame} {r : FlushResult E} {ev es : List FlushEvent}
    (h : FlushOutcome t l1 l' r ev) (hes : ∀ tail, onList l (es ++ tail) = onList l1 tail)
    (hok : ∀ e ∈ es, e.accepted?.isSome ∨ e.expired?.isSome ∨ e.displaced?.isSome ∨ ∃ f now, e = .displacedExpired f now) :
    FlushOutcome t l l' r (es ++ ev) where
  events := by rw [hes]; exact h.events
  ordered := h.ordered
  ok hr := by
    refine ⟨(h.ok hr).1, ?_⟩
    intro e he
    rcases List.mem_append.mp he with he | he
    · exact hok e he
    · exact (h.ok hr).2 e he
  wouldBlock hr := by
    obtain ⟨f, h1, h2⟩ := h.wouldBlock hr
    exact ⟨f, by rw [List.getLast?_append, h1]; rfl, h2⟩
  other e hr := by
    obtain ⟨f, h1⟩ := h.other e hr
    exact ⟨f, by rw [List.getLast?_append, h1]; rfl⟩
  failed f hf := by
    rcases List.mem_append.mp hf with hf | hf
    · rcases hok _ hf with h | h | h | ⟨g, now, h⟩
      · cases h
      · cases h
      · cases h
      · cases h
    · exact h.failed f hf

theorem flush_outcome {impl : QueueImpl Q} {cap : Nat} {Inv : Q → Prop} {toList : Q → List Frame}
    (hc : impl.Correct cap Inv toList) (t : FlushTarget σ E) (fuel : Nat) (q : Q) (s : σ) (hq : Inv q) :
    ∃ q' s' r ev, flushSingleQueue impl t fuel q s = some (q', s', r, ev) ∧ Inv q' ∧
      FlushOutcome t (toList q) (toList q') r ev := by
  induction fuel generalizing q s with
  | zero =>
    exact ⟨q, s, .running, [], rfl, hq, ⟨rfl, hc.ordered q hq, by simp, by simp, by simp, by simp⟩⟩
  | succ fuel ih =>
    obtain ⟨q1, hpop, hq1, ht1⟩ := hc.pop q hq
    unfold flushSingleQueue
    rw [hpop]
    cases hl : toList q with
    | nil =>
      rw [hl] at ht1
      refine ⟨q1, s, .ok, [], rfl, hq1, ⟨by rw [ht1]; rfl, hc.ordered q1 hq1, ?_, by simp, by simp, by simp⟩⟩
      intro _; exact ⟨ht1, by simp⟩
    | cons frame rest =>
      rw [hl] at ht1
      simp only [List.tail_cons] at ht1
      have hord := hc.ordered q hq
      rw [hl] at hord
      have hbound := hc.bound q hq
      rw [hl] at hbound
      simp only [List.length_cons] at hbound
      have hlt : (toList q1).length < cap := by rw [ht1]; omega
      simp only [List.head?_cons]
      by_cases he : frameIsExpired frame (t.now s).2 = true
      · rw [if_pos he]
        obtain ⟨q', s', r, ev, h1, h2, h3⟩ := ih q1 (t.now s).1 hq1
        rw [h1, ht1] at *
        refine ⟨q', s', r, _, rfl, h2, FlushOutcome.cons (es := [.expired frame (t.now s).2]) h3 ?_ (by simp [FlushEvent.expired?])⟩
        intro tail
        have he' : (t.now s).2.after frame.timestamp = true := he
        simp [onList, FlushEvent.onList, he']
      · rw [if_neg he]
        cases htr : t.transmit (t.now s).1 frame with | mk s2 res =>
        cases res with
        | ok d =>
          cases d with
          | none =>
            obtain ⟨q', s', r, ev, h1, h2, h3⟩ := ih q1 s2 hq1
            simp only
            rw [h1]
            rw [ht1] at h3
            refine ⟨q', s', r, _, rfl, h2, FlushOutcome.cons (es := [.accepted frame]) h3 ?_ (by simp [FlushEvent.accepted?])⟩
            intro tail
            simp [onList, FlushEvent.onList]
          | some removed =>
            simp only
            by_cases hr : frameIsExpired removed (t.now s).2 = true
            · rw [if_neg (by simp [hr])]
              obtain ⟨q', s', r, ev, h1, h2, h3⟩ := ih q1 s2 hq1
              rw [h1]
              rw [ht1] at h3
              refine ⟨q', s', r, _, rfl, h2,
                FlushOutcome.cons (es := [.accepted frame, .displacedExpired removed (t.now s).2]) h3 ?_ ?_⟩
              · intro tail
                have : (t.now s).2.after removed.timestamp = true := hr
                simp [onList, FlushEvent.onList, this]
              · intro e he
                simp only [List.mem_cons, List.not_mem_nil, or_false] at he
                rcases he with rfl | rfl
                · exact .inl rfl
                · exact .inr (.inr (.inr ⟨_, _, rfl⟩))
            · rw [if_pos (by simp [hr])]
              obtain ⟨q2, hret, hq2, ht2⟩ := hc.return_ q1 removed hq1
              rw [if_pos hlt] at ht2
              rw [hret, decide_eq_true hlt]
              simp only
              obtain ⟨q', s', r, ev, h1, h2, h3⟩ := ih q2 s2 hq2
              rw [h1]
              rw [ht2, ht1] at h3
              refine ⟨q', s', r, _, rfl, h2, FlushOutcome.cons (es := [.accepted frame, .displaced removed]) h3 ?_ ?_⟩
              · intro tail
                simp [onList, FlushEvent.onList]
              · intro e he
                simp only [List.mem_cons, List.not_mem_nil, or_false] at he
                rcases he with rfl | rfl
                · exact .inl rfl
                · exact .inr (.inr (.inl rfl))
        | wouldBlock =>
          obtain ⟨q2, hret, hq2, ht2⟩ := hc.return_ q1 frame hq1
          rw [if_pos hlt, ht1, insertBefore_first frame rest (ordered_cons hord).1] at ht2
          simp only
          rw [hret, decide_eq_true hlt]
          refine ⟨q2, s2, .wouldBlock, [.refused frame], rfl, hq2, ⟨?_, by rw [ht2]; exact hord, by simp, ?_, by simp, by simp⟩⟩
          · rw [ht2]; simp [onList, FlushEvent.onList]
          · intro _; exact ⟨frame, rfl, by rw [ht2]; rfl⟩
        | other e =>
          refine ⟨q1, s2, .other e, [.failed frame], rfl, hq1, ⟨?_, by rw [ht1]; exact (ordered_cons hord).2, by simp, by simp, ?_, ?_⟩⟩
          · rw [ht1]; simp [onList, FlushEvent.onList]
          · intro _ _; exact ⟨frame, rfl⟩
          · intro _ _; exact ⟨e, rfl⟩

/-- What the events mean in terms of frames lost and found. -/
theorem onList_conserves (ev : List FlushEvent) (l l' : List Frame) (h : onList l ev = some l') :
    (l ++ ev.filterMap FlushEvent.displaced?).Perm
      (l' ++ ev.filterMap FlushEvent.accepted? ++ ev.filterMap FlushEvent.expired? ++ ev.filterMap FlushEvent.failed?) := by
  induction ev generalizing l with
  | nil => cases h; simp
  | cons e ev ih =>
    simp only [onList, Option.bind_eq_some_iff] at h
    obtain ⟨l1, h1, h2⟩ := h
    have := ih l1 h2
    cases e with
    | expired f now =>
      simp only [FlushEvent.onList] at h1
      split at h1
      · rename_i hh
        cases h1
        obtain ⟨hh, -⟩ := hh
        match l, hh with
        | _ :: rest, rfl =>
          simp only [List.filterMap_cons, FlushEvent.displaced?, FlushEvent.accepted?, FlushEvent.expired?, FlushEvent.failed?,
            List.cons_append]
          refine (List.Perm.cons f this).trans ?_
          rw [List.append_assoc, List.append_assoc _ (f :: _)]
          exact List.perm_middle.symm
      · cases h1
    | accepted f =>
      simp only [FlushEvent.onList] at h1
      split at h1
      · rename_i hh
        cases h1
        match l, hh with
        | _ :: rest, rfl =>
          simp only [List.filterMap_cons, FlushEvent.displaced?, FlushEvent.accepted?, FlushEvent.expired?, FlushEvent.failed?,
            List.cons_append]
          refine (List.Perm.cons f this).trans ?_
          simp only [List.append_assoc]
          exact List.perm_middle.symm
      · cases h1
    | displaced f =>
      simp only [FlushEvent.onList, Option.some.injEq] at h1
      subst h1
      simp only [List.filterMap_cons, FlushEvent.displaced?, FlushEvent.accepted?, FlushEvent.expired?, FlushEvent.failed?]
      refine List.Perm.trans ?_ this
      refine List.perm_middle.trans ?_
      exact List.Perm.append_right _ (insertBefore_perm f l).symm
    | displacedExpired f now =>
      simp only [FlushEvent.onList] at h1
      split at h1
      · cases h1
        simpa only [List.filterMap_cons, FlushEvent.displaced?, FlushEvent.accepted?, FlushEvent.expired?, FlushEvent.failed?] using this
      · cases h1
    | refused f =>
      simp only [FlushEvent.onList] at h1
      split at h1
      · cases h1
        simpa only [List.filterMap_cons, FlushEvent.displaced?, FlushEvent.accepted?, FlushEvent.expired?, FlushEvent.failed?] using this
      · cases h1
    | failed f =>
      simp only [FlushEvent.onList] at h1
      split at h1
      · rename_i hh
        cases h1
        match l, hh with
        | _ :: rest, rfl =>
          simp only [List.filterMap_cons, FlushEvent.displaced?, FlushEvent.accepted?, FlushEvent.expired?, FlushEvent.failed?,
            List.cons_append]
          refine (List.Perm.cons f this).trans ?_
          exact List.perm_middle.symm
      · cases h1

/-- Events that remove only the first frame and put nothing back keep the order. -/
theorem onList_order (ev : List FlushEvent) (l l' : List Frame) (h : onList l ev = some l')
    (hd : ∀ e ∈ ev, e.displaced? = none) (hf : ∀ e ∈ ev, e.failed? = none) :
    l = ev.filterMap (fun e => e.accepted?.or e.expired?) ++ l' := by
  induction ev generalizing l with
  | nil => cases h; rfl
  | cons e ev ih =>
    simp only [onList, Option.bind_eq_some_iff] at h
    obtain ⟨l1, h1, h2⟩ := h
    have := ih l1 h2 (fun e he => hd e (List.mem_cons_of_mem _ he)) (fun e he => hf e (List.mem_cons_of_mem _ he))
    have hd0 := hd e (List.mem_cons_self ..)
    have hf0 := hf e (List.mem_cons_self ..)
    cases e with
    | expired f now =>
      simp only [FlushEvent.onList] at h1
      split at h1
      · rename_i hh
        cases h1
        obtain ⟨hh, -⟩ := hh
        match l, hh with
        | _ :: rest, rfl =>
          simp only [List.filterMap_cons, FlushEvent.accepted?, FlushEvent.expired?, Option.none_or, List.cons_append]
          rw [show rest = _ from this]
          rfl
      · cases h1
    | accepted f =>
      simp only [FlushEvent.onList] at h1
      split at h1
      · rename_i hh
        cases h1
        match l, hh with
        | _ :: rest, rfl =>
          simp only [List.filterMap_cons, FlushEvent.accepted?, FlushEvent.expired?, Option.some_or, List.cons_append]
          rw [show rest = _ from this]
          rfl
      · cases h1
    | displaced f => cases hd0
    | displacedExpired f now =>
      simp only [FlushEvent.onList] at h1
      split at h1
      · cases h1; simpa only [List.filterMap_cons, FlushEvent.accepted?, FlushEvent.expired?, Option.none_or] using this
      · cases h1
    | refused f =>
      simp only [FlushEvent.onList] at h1
      split at h1
      · cases h1; simpa only [List.filterMap_cons, FlushEvent.accepted?, FlushEvent.expired?, Option.none_or] using this
      · cases h1
    | failed f => cases hf0

/-- A driver that never displaces frames leads to no such events, and the flush ends. -/
theorem flush_no_displacement {impl : QueueImpl Q} {cap : Nat} {Inv : Q → Prop} {toList : Q → List Frame}
    (hc : impl.Correct cap Inv toList) (t : FlushTarget σ E) (hn : t.NeverDisplaces) (fuel : Nat) (q : Q) (s : σ) (hq : Inv q)
    (q' : Q) (s' : σ) (r : FlushResult E) (ev : List FlushEvent)
    (h : flushSingleQueue impl t fuel q s = some (q', s', r, ev)) :
    (∀ e ∈ ev, e.displaced? = none) ∧ ((toList q).length < fuel → r ≠ .running) := by
  induction fuel generalizing q s ev with
  | zero => simp only [flushSingleQueue, Option.some.injEq, Prod.mk.injEq] at h; obtain ⟨-, -, -, rfl⟩ := h; simp
  | succ fuel ih =>
    obtain ⟨q1, hpop, hq1, ht1⟩ := hc.pop q hq
    unfold flushSingleQueue at h
    rw [hpop] at h
    cases hl : toList q with
    | nil =>
      rw [hl] at h
      simp only [List.head?_nil, Option.some.injEq, Prod.mk.injEq] at h
      obtain ⟨-, -, rfl, rfl⟩ := h
      simp
    | cons frame rest =>
      rw [hl] at h ht1
      simp only [List.tail_cons] at ht1
      have hord := hc.ordered q hq
      have hbound := hc.bound q hq
      rw [hl] at hbound
      simp only [List.length_cons] at hbound
      have hlt : (toList q1).length < cap := by rw [ht1]; omega
      simp only [List.head?_cons] at h
      split at h
      · simp only [Option.map_eq_some_iff] at h
        obtain ⟨⟨q2, s2, r2, ev2⟩, h1, h2⟩ := h
        simp only [Prod.mk.injEq] at h2
        obtain ⟨rfl, rfl, rfl, rfl⟩ := h2
        obtain ⟨h3, h4⟩ := ih q1 _ hq1 ev2 h1
        rw [ht1] at h4
        refine ⟨?_, fun hf => h4 (by simpa using hf)⟩
        intro e he
        rcases List.mem_cons.mp he with rfl | he
        · rfl
        · exact h3 e he
      · have hnd := hn (t.now s).1 frame
        cases htr : t.transmit (t.now s).1 frame with | mk s2 res =>
        rw [htr] at h hnd
        cases res with
        | ok d =>
          cases d with
          | none =>
            simp only [Option.map_eq_some_iff] at h
            obtain ⟨⟨q2, s2, r2, ev2⟩, h1, h2⟩ := h
            simp only [Prod.mk.injEq] at h2
            obtain ⟨rfl, rfl, rfl, rfl⟩ := h2
            obtain ⟨h3, h4⟩ := ih q1 _ hq1 ev2 h1
            rw [ht1] at h4
            refine ⟨?_, fun hf => h4 (by simpa using hf)⟩
            intro e he
            rcases List.mem_cons.mp he with rfl | he
            · rfl
            · exact h3 e he
          | some removed => exact absurd rfl (hnd removed)
        | wouldBlock =>
          obtain ⟨q2, hret, hq2, ht2⟩ := hc.return_ q1 frame hq1
          simp only at h
          rw [hret, decide_eq_true hlt] at h
          simp only [Option.some.injEq, Prod.mk.injEq] at h
          obtain ⟨-, -, rfl, rfl⟩ := h
          simp [FlushEvent.displaced?]
        | other e =>
          simp only [Option.some.injEq, Prod.mk.injEq] at h
          obtain ⟨-, -, rfl, rfl⟩ := h
          simp [FlushEvent.displaced?]

/-- The recording driver writes down exactly the offers among the events. -/
theorem flush_recording (impl : QueueImpl Q) (t : FlushTarget σ E) (fuel : Nat) (q : Q) (s : σ) (log : List (Frame × Bool)) :
    flushSingleQueue impl t.recording fuel q (s, log) =
      (flushSingleQueue impl t fuel q s).map
        (fun r => (r.1, (r.2.1, log ++ r.2.2.2.filterMap FlushEvent.offered?), r.2.2.1, r.2.2.2)) := by
  induction fuel generalizing q s log with
  | zero => simp [flushSingleQueue]
  | succ fuel ih =>
    unfold flushSingleQueue
    cases hp : impl.pop q with
    | none => rfl
    | some p =>
      obtain ⟨q1, of⟩ := p
      cases of with
      | none => simp
      | some frame =>
        have hnow : t.recording.now (s, log) = (((t.now s).1, log), (t.now s).2) := rfl
        have htrans : ∀ s2 log2, t.recording.transmit (s2, log2) frame =
          (((t.transmit s2 frame).1, log2 ++ [(frame, (t.transmit s2 frame).2.taken)]), (t.transmit s2 frame).2) := fun _ _ => rfl
        simp only [hnow, htrans]
        by_cases he : frameIsExpired frame (t.now s).2 = true
        · rw [if_pos he, if_pos he, ih, Option.map_map, Option.map_map]
          congr 1
        · rw [if_neg he, if_neg he]
          cases htr : t.transmit (t.now s).1 frame with | mk s2 res =>
          cases res with
          | ok d =>
            cases d with
            | none =>
              simp only [TransmitResult.taken]
              rw [ih, Option.map_map, Option.map_map]
              congr 1
              funext r
              simp [FlushEvent.offered?, Function.comp]
            | some removed =>
              simp only [TransmitResult.taken]
              by_cases hr : (!frameIsExpired removed (t.now s).2) = true
              · rw [if_pos hr, if_pos hr]
                cases impl.return_ q1 removed with
                | none => rfl
                | some p =>
                  obtain ⟨q2, b⟩ := p
                  cases b with
                  | false => rfl
                  | true =>
                    simp only
                    rw [ih, Option.map_map, Option.map_map]
                    congr 1
                    funext r
                    simp [FlushEvent.offered?, Function.comp, List.filterMap_cons]
              · rw [if_neg hr, if_neg hr, ih, Option.map_map, Option.map_map]
                congr 1
                funext r
                simp [FlushEvent.offered?, Function.comp, List.filterMap_cons]
          | wouldBlock =>
            simp only [TransmitResult.taken]
            cases impl.return_ q1 frame with
            | none => rfl
            | some p =>
              obtain ⟨q2, b⟩ := p
              cases b with
              | false => rfl
              | true => simp [FlushEvent.offered?]
          | other e => simp [TransmitResult.taken, FlushEvent.offered?]

/-- **C19.** Flushing a reachable array queue into any driver, for any number of loop iterations:
* there is no panic;
* step by step only the first frame of the queue (in priority order) leaves it, it is dropped only if its deadline has passed,
  and a refused frame stays first (`FlushOutcome`, `onList`);
* the events are what the driver really saw: a driver that writes down its calls writes down the offers among the events;
* nothing is lost or duplicated: the frames in the queue at the start and those given back by the driver are those in the queue
  at the end, those accepted, those expired and those on which the driver failed. -/
theorem C19_flush {N : Nat} (q : ArrayQueue N) (hq : q.Reachable) (t : FlushTarget σ E) (s : σ) (fuel : Nat) :
    ∃ q' s' r ev, flushSingleQueue (arrayQueueImpl N) t.recording fuel q (s, []) = some (q', (s', ev.filterMap FlushEvent.offered?), r, ev) ∧
      flushSingleQueue (arrayQueueImpl N) t fuel q s = some (q', s', r, ev) ∧
      FlushOutcome t q.toList q'.toList r ev ∧
      (q.toList ++ ev.filterMap FlushEvent.displaced?).Perm (q'.toList ++ ev.filterMap FlushEvent.accepted? ++
        ev.filterMap FlushEvent.expired? ++ ev.filterMap FlushEvent.failed?) := by
  obtain ⟨q', s', r, ev, h1, -, h3⟩ := flush_outcome (arrayQueue_correct N) t fuel q s (reachable_ok hq)
  refine ⟨q', s', r, ev, ?_, h1, h3, onList_conserves ev _ _ h3.events⟩
  rw [flush_recording, h1]
  rfl

/-- **C19**, the part of "every frame that leaves the queue was accepted or had expired" that holds: it does unless the flush
ends with a driver error other than `WouldBlock`. Missing: the frame on which such an error happened is lost, see
`C19_error_loses_frame_counterexample`. -/
theorem C19_no_frame_lost_partial {N : Nat} (q : ArrayQueue N) (hq : q.Reachable) (t : FlushTarget σ E) (s : σ) (fuel : Nat)
    (q' : ArrayQueue N) (s' : σ) (r : FlushResult E) (ev : List FlushEvent)
    (h : flushSingleQueue (arrayQueueImpl N) t fuel q s = some (q', s', r, ev)) (hr : ∀ e, r ≠ .other e) :
    (q.toList ++ ev.filterMap FlushEvent.displaced?).Perm (q'.toList ++ ev.filterMap FlushEvent.accepted? ++
        ev.filterMap FlushEvent.expired?) := by
  obtain ⟨q1, s1, r1, ev1, -, h2, h3, h4⟩ := C19_flush q hq t s fuel
  rw [h2] at h
  simp only [Option.some.injEq, Prod.mk.injEq] at h
  obtain ⟨rfl, rfl, rfl, rfl⟩ := h
  have : ev1.filterMap FlushEvent.failed? = [] := by
    rw [List.filterMap_eq_nil_iff]
    intro e he
    cases e with
    | failed f => obtain ⟨e, hre⟩ := h3.failed f he; exact absurd hre (hr e)
    | _ => rfl
  rw [this, List.append_nil] at h4
  exact h4

/-- **C19.** With a driver that never gives frames back, a flush ends after at most one iteration more than there are frames,
and unless it ends with an error other than `WouldBlock`, the frames that were accepted or had expired, followed by the frames
that remain, are the frames of the queue in their order. -/
theorem C19_flush_keeps_order {N : Nat} (q : ArrayQueue N) (hq : q.Reachable) (t : FlushTarget σ E) (ht : t.NeverDisplaces)
    (s : σ) :
    ∃ q' s' r ev, flushSingleQueue (arrayQueueImpl N) t (q.toList.length + 1) q s = some (q', s', r, ev) ∧ r ≠ .running ∧
      ((∀ e, r ≠ .other e) → q.toList = ev.filterMap (fun e => e.accepted?.or e.expired?) ++ q'.toList) := by
  obtain ⟨q', s', r, ev, -, h2, h3, -⟩ := C19_flush q hq t s (q.toList.length + 1)
  obtain ⟨h4, h5⟩ := flush_no_displacement (arrayQueue_correct N) t ht _ q s (reachable_ok hq) q' s' r ev h2
  refine ⟨q', s', r, ev, h2, h5 (by omega), ?_⟩
  intro hr
  refine onList_order ev _ _ h3.events h4 ?_
  intro e he
  cases e with
  | failed f => obtain ⟨e, hre⟩ := h3.failed f he; exact absurd hre (hr e)
  | _ => rfl

/-- A driver for examples: the clock always shows 10; it takes `s` frames and refuses further ones. -/
def demoTarget : FlushTarget Nat Bool where
  now s := (s, 10#32)
  transmit s _ := if s = 0 then (0, .wouldBlock) else (s - 1, .ok none)

theorem demoTarget_neverDisplaces : demoTarget.NeverDisplaces := by
  intro s f removed
  unfold demoTarget
  by_cases h : s = 0 <;> simp [h]

/-- A driver for examples that always fails. -/
def brokenTarget : FlushTarget Nat Bool where
  now s := (s, 10#32)
  transmit s _ := (s, .other true)

/-- The frames of the examples: one with deadline 5 and two with deadline 20. -/
def flushDemo : Option (ArrayQueue 3) :=
  ((ArrayQueue.new 3).run [.push { qFrame 5#32 1#8 with timestamp := 20#32 }, .push { qFrame 6#32 2#8 with timestamp := 5#32 },
    .push { qFrame 5#32 3#8 with timestamp := 20#32 }]).map (fun p => p.1)

/-- The driver takes one frame and refuses the next, which stays first. -/
example : (flushDemo.bind (fun q => (flushSingleQueue (arrayQueueImpl 3) demoTarget 4 q 1).map
    (fun r => (r.1.toList.map Frame.data, r.2.2.1)))) = some ([[3#8], [2#8]], .wouldBlock) := by decide +kernel

/-- The driver takes everything; the expired frame is dropped. -/
example : (flushDemo.bind (fun q => (flushSingleQueue (arrayQueueImpl 3) demoTarget 4 q 9).map
    (fun r => (r.1.toList.map Frame.data, r.2.2.1, r.2.2.2.filterMap FlushEvent.accepted? |>.map Frame.data)))) =
    some ([], .ok, [[1#8], [3#8]]) := by decide +kernel

/-- A frame for the counterexample, with deadline 20. -/
def lateFrame : Frame := { qFrame 5#32 1#8 with timestamp := 20#32 }

/-- **C19**, negation: the frame on which the driver fails is neither in the queue afterwards nor was it accepted or expired. -/
theorem C19_error_loses_frame_counterexample :
    ∃ (q : ArrayQueue 3) (f : Frame) (q' : ArrayQueue 3) (s' : Nat) (ev : List FlushEvent),
      q.Reachable ∧ f ∈ q.toList ∧
      flushSingleQueue (arrayQueueImpl 3) brokenTarget 4 q 0 = some (q', s', .other true, ev) ∧
      f ∉ q'.toList ∧ f ∉ ev.filterMap FlushEvent.accepted? ∧ f ∉ ev.filterMap FlushEvent.expired? := by
  refine ⟨{ items := [lateFrame, Frame.default, Frame.default], head := 0, length := 1 }, lateFrame,
    { items := [Frame.default, Frame.default, Frame.default], head := 1, length := 0 }, 0, [.failed lateFrame],
    ⟨[.push lateFrame], [.done true], ?_⟩, by decide +kernel, ?_, by decide +kernel, by decide +kernel, by decide +kernel⟩
  · decide +kernel
  · decide +kernel

end Verif.Can
