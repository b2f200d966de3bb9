import Verif.Drv.OrderProps
import Verif.Drv.Props

/-!
C116: no frame is lost between the queue and the bus, unless its deadline has passed.
-/

namespace Verif.Drv

open Verif.Can

/-! ### Vocabulary -/

/-- The times that the clock shows during the operations. (When the times given for a flush have all been used, the clock shows 0.) -/
def clockTimes (ops : List SysOp) : List Instant := ops.flatMap fun op =>
  match op with
  | .flush _ times turns => 0#32 :: times ++ turns.map (·.now)
  | _ => []

/-- A frame that was dropped at a time at which its deadline had passed. -/
def Missed (times : List Instant) (p : Frame × Instant) : Prop := p.2 ∈ times ∧ Instant.before p.1.timestamp p.2 = true

/-! ### The invariant -/

/-- Each of the frames `p` was sent, was dropped because it was late, or is in a mailbox or in `l`. -/
def Kept (times : List Instant) (p : List Frame) (es : List BusEvent) (d : BxCan) (l : List Frame) : Prop :=
  Inv d ∧ ∃ late : List (Frame × Instant), (∀ q ∈ late, Missed times q) ∧
    ∀ x, (p.map core).count x = ((sentFrames es).map core).count x + ((late.map Prod.fst).map core).count x + load x d + (l.map core).count x

theorem before_of_after {now t : Instant} (h : Instant.after now t = true) : Instant.before t now = true := by
  cases hb : Instant.before t now with
  | true => rfl
  | false => rw [not_after_of_not_before hb] at h; cases h

/-- The events are frames that were sent and late frames. -/
theorem events_split {times : List Instant} {now : Instant} (hn : now ∈ times) : ∀ {es : List BusEvent},
    (∀ e ∈ es, (∃ f, (e = .sent f now ∨ e = .aborted f now) ∧ Instant.after now f.timestamp = true)) →
    ∃ late : List (Frame × Instant), (∀ q ∈ late, Missed times q) ∧ ∀ x, (es.map fun e => core e.frame).count x = ((sentFrames es).map core).count x + ((late.map Prod.fst).map core).count x
  | [], _ => ⟨[], by simp, fun x => by simp [sentFrames]⟩
  | e :: es, h => by
    obtain ⟨late, h1, h2⟩ := events_split hn (fun e he => h e (List.mem_cons_of_mem _ he))
    obtain ⟨f, rfl | rfl, ha⟩ := h e List.mem_cons_self
    · refine ⟨late, h1, fun x => ?_⟩
      have := h2 x
      simp only [List.map_cons, List.count_cons, sentFrames, List.filterMap_cons, BusEvent.frame] at this ⊢
      omega
    · refine ⟨(f, now) :: late, ?_, fun x => ?_⟩
      · intro q hq
        rcases List.mem_cons.1 hq with rfl | hq
        · exact ⟨hn, before_of_after ha⟩
        · exact h1 q hq
      · have := h2 x
        simp only [List.map_cons, List.count_cons, sentFrames, List.filterMap_cons, BusEvent.frame] at this ⊢
        omega

theorem Kept.sendBox {times : List Instant} {p : List Frame} {es : List BusEvent} {d : BxCan} {l : List Frame} (h : Kept times p es d l) (i : Fin 3) (now : Instant) :
    Kept times p (es ++ (d.sendBox i now).2) (d.sendBox i now).1 l := by
  obtain ⟨hi, late, h1, h2⟩ := h
  unfold BxCan.sendBox
  cases hb : d.boxes i with
  | none => exact ⟨hi, late, h1, by simpa using h2⟩
  | some b =>
    refine ⟨⟨fun j c hj => ?_⟩, late, h1, fun x => ?_⟩
    · dsimp only at hj ⊢
      by_cases he : j = i
      · subst he; simp at hj
      · rw [Function.update_of_ne he] at hj
        exact hi.box j c hj
    · have h3 := load_update x d i none
      have h4 := h2 x
      rw [hb] at h3
      have h5 : slot x (some b) = [core b.given].count x := by
        unfold slot
        by_cases he : core b.given = x <;> simp [he]
      have h6 : slot x none = 0 := by simp [slot]
      rw [sentFrames_append, List.map_append, List.count_append]
      have h7 : (sentFrames [BusEvent.sent b.given now]).map core = [core b.given] := rfl
      dsimp only at h3 ⊢
      rw [h7]
      omega

theorem Kept.sendBoxes {times : List Instant} {p : List Frame} {l : List Frame} : ∀ {ps : List (Fin 3 × Instant)} {es : List BusEvent} {d : BxCan}, Kept times p es d l →
    Kept times p (es ++ (d.sendBoxes ps).2) (d.sendBoxes ps).1 l
  | [], es, d, h => by simpa [BxCan.sendBoxes] using h
  | q :: ps, es, d, h => by
    unfold BxCan.sendBoxes
    dsimp only
    rw [← List.append_assoc]
    exact (h.sendBox q.1 q.2).sendBoxes

theorem Kept.drop {times : List Instant} {p : List Frame} {es : List BusEvent} {d : BxCan} {f : Frame} {l : List Frame} (h : Kept times p es d (f :: l)) {now : Instant} (hm : Missed times (f, now)) :
    Kept times p es d l := by
  obtain ⟨hi, late, h1, h2⟩ := h
  refine ⟨hi, (f, now) :: late, ?_, fun x => ?_⟩
  · intro q hq
    rcases List.mem_cons.1 hq with rfl | hq
    · exact hm
    · exact h1 q hq
  · have := h2 x
    simp only [List.map_cons, List.count_cons] at this ⊢
    omega

theorem Kept.perm {times : List Instant} {p : List Frame} {es : List BusEvent} {d : BxCan} {l l' : List Frame} (h : Kept times p es d l) (hp : (l'.map core).Perm (l.map core)) :
    Kept times p es d l' := by
  obtain ⟨hi, late, h1, h2⟩ := h
  exact ⟨hi, late, h1, fun x => by rw [h2 x, hp.count_eq]⟩

theorem insertBefore_perm (f : Frame) (l : List Frame) : (insertBefore f l).Perm (f :: l) := by
  unfold insertBefore
  refine List.perm_middle.trans (List.Perm.cons f ?_)
  have e : (fun g : Frame => decide (f.id ≤ g.id)) = fun g => !decide (g.id < f.id) := by
    funext g
    rw [← decide_not]
    exact decide_eq_decide.2 (BitVec.not_lt.symm)
  rw [e]
  exact List.filter_append_perm _ l

theorem insertBehind_perm (f : Frame) (l : List Frame) : (insertBehind f l).Perm (f :: l) := by
  unfold insertBehind
  refine List.perm_middle.trans (List.Perm.cons f ?_)
  have e : (fun g : Frame => decide (f.id < g.id)) = fun g => !decide (g.id ≤ f.id) := by
    funext g
    rw [← decide_not]
    exact decide_eq_decide.2 (BitVec.not_le.symm)
  rw [e]
  exact List.filter_append_perm _ l

/-- The times that a target will use. -/
def Uses (times : List Instant) (s : Target) : Prop := 0#32 ∈ times ∧ (∀ t ∈ s.times, t ∈ times) ∧ ∀ t ∈ s.turns, t.now ∈ times

theorem bxTarget_now (choose : Chooser) {times : List Instant} {s : Target} (hu : Uses times s) :
    ((bxTarget choose).now s).2 ∈ times ∧ Uses times ((bxTarget choose).now s).1 ∧ ((bxTarget choose).now s).1.events = s.events ∧ ((bxTarget choose).now s).1.d = s.d ∧
      ((bxTarget choose).now s).1.panicked = s.panicked := by
  obtain ⟨h1, h2, h3⟩ := hu
  simp only [bxTarget]
  split
  · exact ⟨h1, ⟨h1, h2, h3⟩, rfl, rfl, rfl⟩
  · rename_i t ts he
    rw [he] at h2
    exact ⟨h2 t List.mem_cons_self, ⟨h1, fun x hx => h2 x (List.mem_cons_of_mem _ hx), h3⟩, rfl, rfl, rfl⟩

theorem bxTarget_keeps (choose : Chooser) {times : List Instant} {p : List Frame} {s : Target} {f : Frame} {l : List Frame} (hu : Uses times s) (h : Kept times p s.events s.d (f :: l))
    (hv : Valid f) : ((bxTarget choose).transmit s f).1.panicked = s.panicked ∧ Uses times ((bxTarget choose).transmit s f).1 ∧
      match ((bxTarget choose).transmit s f).2 with
      | .ok none => Kept times p ((bxTarget choose).transmit s f).1.events ((bxTarget choose).transmit s f).1.d l
      | .ok (some g) => Kept times p ((bxTarget choose).transmit s f).1.events ((bxTarget choose).transmit s f).1.d (g :: l) ∧ Valid g
      | .wouldBlock => Kept times p ((bxTarget choose).transmit s f).1.events ((bxTarget choose).transmit s f).1.d (f :: l)
      | .other _ => True := by
  have h1 := h.sendBoxes (ps := (s.turns.head?.getD ⟨[], 0#32, fun _ => false⟩).before)
  have hnow : (s.turns.head?.getD ⟨[], 0#32, fun _ => false⟩).now ∈ times := by
    cases hs : s.turns with
    | nil => exact hu.1
    | cons t ts => exact hu.2.2 t (by rw [hs]; exact List.mem_cons_self)
  have htail : ∀ t ∈ s.turns.tail, t.now ∈ times := fun t ht => hu.2.2 t (List.mem_of_mem_tail ht)
  generalize hd : s.d.sendBoxes (s.turns.head?.getD ⟨[], 0#32, fun _ => false⟩).before = ds at h1
  obtain ⟨d, sent⟩ := ds
  dsimp only at h1
  generalize ht : s.turns.head?.getD ⟨[], 0#32, fun _ => false⟩ = turn at hd hnow
  obtain ⟨d', r, es, k1, k2⟩ := transmit_does (env := ⟨turn.now, choose.mailbox d turn.now turn.late f, turn.late⟩) h1.1 hv
  obtain ⟨d'', r', k1', -, k3⟩ := transmit_shape (env := ⟨turn.now, choose.mailbox d turn.now turn.late f, turn.late⟩) h1.1 hv
  have hres : (bxTarget choose).transmit s f = ({ s with d := d', turns := s.turns.tail, events := s.events ++ sent ++ es }, r) := by
    simp only [bxTarget, ht, hd, k1]
  rw [hres]
  refine ⟨rfl, ⟨hu.1, hu.2.1, htail⟩, ?_⟩
  obtain ⟨hi, late, l1, l2⟩ := h1
  obtain ⟨late', m1, m2⟩ := events_split hnow k2.events
  have hmissed : ∀ q ∈ late ++ late', Missed times q := fun q hq => (List.mem_append.1 hq).elim (l1 q) (m1 q)
  rcases k2.result with ⟨hb, rfl, -, hx⟩ | ⟨hb, rfl, -, hx⟩ | ⟨hb, o, rfl, -, hx⟩
  · refine ⟨k2.inv, (f, turn.now) :: (late ++ late'), ?_, fun x => ?_⟩
    · intro q hq
      rcases List.mem_cons.1 hq with rfl | hq
      · exact ⟨hnow, hb⟩
      · exact hmissed q hq
    · have a1 := l2 x
      have a2 := m2 x
      have a3 := hx x
      rw [sentFrames_append]
      simp only [List.map_cons, List.map_append, List.count_cons, List.count_append] at a1 a2 a3 ⊢
      omega
  · refine ⟨k2.inv, late ++ late', hmissed, fun x => ?_⟩
    have a1 := l2 x
    have a2 := m2 x
    have a3 := hx x
    rw [sentFrames_append]
    simp only [List.map_cons, List.map_append, List.count_cons, List.count_append] at a1 a2 a3 ⊢
    omega
  · cases o with
    | none =>
      refine ⟨k2.inv, late ++ late', hmissed, fun x => ?_⟩
      have a1 := l2 x
      have a2 := m2 x
      have a3 := hx x
      rw [sentFrames_append]
      simp only [List.map_cons, List.map_append, List.map_nil, List.count_cons, List.count_append, List.count_nil, Option.toList] at a1 a2 a3 ⊢
      omega
    | some g =>
      refine ⟨⟨k2.inv, late ++ late', hmissed, fun x => ?_⟩, ?_⟩
      · have a1 := l2 x
        have a2 := m2 x
        have a3 := hx x
        have e : core { g with loopback := false } = core g := rfl
        rw [sentFrames_append]
        simp only [List.map_cons, List.map_append, List.map_nil, List.count_cons, List.count_append, List.count_nil, Option.toList, e] at a1 a2 a3 ⊢
        omega
      · rw [k1] at k1'
        simp only [Option.some.injEq, Prod.mk.injEq, Option.map_some] at k1'
        rcases k3 with ⟨hr, -⟩ | ⟨hr, -⟩ | ⟨i, x, -, -, -, ⟨hr, -⟩ | ⟨b, hbox, hr⟩⟩
        · rw [← k1'.2.1] at hr; cases hr
        · rw [← k1'.2.1] at hr; cases hr
        · rw [← k1'.2.1] at hr; cases hr
        · rw [← k1'.2.1] at hr
          have hg : ({ g with loopback := false } : Frame) = { b.given with loopback := false } := by simpa using hr
          have hval : Valid b.given := by
            have := ((clean_cleaned (env := ⟨turn.now, choose.mailbox d turn.now turn.late f, turn.late⟩) hi).1.inv hi).box i b hbox |>.1
            unfold toBx at this
            split at this
            · assumption
            · cases this
          show Valid ({ g with loopback := false } : Frame)
          rw [hg]
          exact hval

/-- The loop of a flush. -/
theorem flush_kept (choose : Chooser) {N : Nat} {times : List Instant} {p : List Frame} : ∀ (fuel : Nat) (q : ArrayQueue N) (s : Target), Uses times s → q.Ok → (∀ f ∈ q.toList, Valid f) →
    Kept times p s.events s.d q.toList → ∃ q' s' r ev, flushSingleQueue (arrayQueueImpl N) (bxTarget choose) fuel q s = some (q', s', r, ev) ∧ q'.Ok ∧ (∀ f ∈ q'.toList, Valid f) ∧
      Kept times p s'.events s'.d q'.toList ∧ s'.panicked = s.panicked
  | 0, q, s, _, ho, hv, hg => ⟨q, s, _, _, rfl, ho, hv, hg, rfl⟩
  | fuel + 1, q, s, hu, ho, hv, hg => by
    have hc := arrayQueue_correct N
    obtain ⟨q1, hpop, hq1, ht1⟩ := hc.pop q ho
    unfold flushSingleQueue
    rw [hpop]
    cases hl : q.toList with
    | nil =>
      rw [hl] at ht1 hg
      exact ⟨q1, s, _, _, rfl, hq1, by rw [ht1]; simp, by rw [ht1]; exact hg, rfl⟩
    | cons f rest =>
      rw [hl] at ht1 hg hv
      simp only [List.tail_cons] at ht1
      have hbound := hc.bound q ho
      rw [hl, List.length_cons] at hbound
      have hlt : q1.toList.length < N := by rw [ht1]; omega
      have hvr : ∀ f ∈ q1.toList, Valid f := fun g hg => hv g (by rw [ht1] at hg; exact List.mem_cons_of_mem _ hg)
      simp only [List.head?_cons]
      obtain ⟨n0, nu, n1, n2, n3⟩ := bxTarget_now choose hu
      rw [← n1, ← n2] at hg
      by_cases he : frameIsExpired f ((bxTarget choose).now s).2 = true
      · rw [if_pos he]
        obtain ⟨q', s', r, ev, k1, k2, k3, k4, k5⟩ := flush_kept choose fuel q1 ((bxTarget choose).now s).1 nu hq1 hvr (by rw [ht1]; exact hg.drop ⟨n0, before_of_after he⟩)
        rw [k1]
        exact ⟨q', s', r, _, rfl, k2, k3, k4, k5.trans n3⟩
      · rw [if_neg he]
        have htr := bxTarget_keeps choose nu hg (hv f List.mem_cons_self)
        cases htx : (bxTarget choose).transmit ((bxTarget choose).now s).1 f with | mk s2 res =>
        rw [htx] at htr
        obtain ⟨p1, pu, p2⟩ := htr
        dsimp only at p1 p2 pu
        have hback : ∀ g, Valid g → ∃ q2, (arrayQueueImpl N).return_ q1 g = some (q2, true) ∧ q2.Ok ∧ q2.toList = insertBefore g rest ∧ ∀ f ∈ q2.toList, Valid f := by
          intro g hg
          obtain ⟨q2, r1, r2, r3⟩ := hc.return_ q1 g hq1
          rw [if_pos hlt, ht1] at r3
          rw [decide_eq_true hlt] at r1
          refine ⟨q2, r1, r2, r3, ?_⟩
          rw [r3]
          intro x hx
          rcases List.mem_cons.1 ((insertBefore_perm g rest).subset hx) with rfl | hx
          · exact hg
          · exact hv x (List.mem_cons_of_mem _ hx)
        cases res with
        | ok o =>
          cases o with
          | none =>
            dsimp only
            obtain ⟨q', s', r, ev, k1, k2, k3, k4, k5⟩ := flush_kept choose fuel q1 s2 pu hq1 hvr (by rw [ht1]; exact p2)
            rw [k1]
            exact ⟨q', s', r, _, rfl, k2, k3, k4, k5.trans (p1.trans n3)⟩
          | some g =>
            dsimp only
            by_cases hx : frameIsExpired g ((bxTarget choose).now s).2 = true
            · rw [if_neg (by simp [hx])]
              obtain ⟨q', s', r, ev, k1, k2, k3, k4, k5⟩ := flush_kept choose fuel q1 s2 pu hq1 hvr (by rw [ht1]; exact p2.1.drop ⟨n0, before_of_after hx⟩)
              rw [k1]
              exact ⟨q', s', r, _, rfl, k2, k3, k4, k5.trans (p1.trans n3)⟩
            · rw [if_pos (by simp [hx])]
              obtain ⟨q2, r1, r2, r3, r4⟩ := hback g p2.2
              rw [r1]
              dsimp only
              obtain ⟨q', s', r, ev, k1, k2, k3, k4, k5⟩ := flush_kept choose fuel q2 s2 pu r2 r4 (by rw [r3]; exact p2.1.perm ((insertBefore_perm g rest).map core))
              rw [k1]
              exact ⟨q', s', r, _, rfl, k2, k3, k4, k5.trans (p1.trans n3)⟩
        | wouldBlock =>
          dsimp only
          obtain ⟨q2, r1, r2, r3, r4⟩ := hback f (hv f List.mem_cons_self)
          rw [r1]
          exact ⟨q2, s2, _, _, rfl, r2, r4, by rw [r3]; exact p2.perm ((insertBefore_perm f rest).map core), p1.trans n3⟩
        | other e => exact e.elim

/-- What holds of the whole system. -/
structure SysKept (times : List Instant) {N : Nat} (s : Sys N) : Prop where
  ok : s.q.Ok
  valid : ∀ f ∈ s.q.toList, Valid f
  kept : Kept times s.accepted s.events s.d s.q.toList

theorem sys_step_kept (choose : Chooser) {N : Nat} {times : List Instant} {s : Sys N} (h : SysKept times s) {op : SysOp} (hv : ∀ f, op = .push f → Valid f) (ht : ∀ t ∈ clockTimes [op], t ∈ times) :
    ∃ s', s.step choose op = some s' ∧ SysKept times s' := by
  cases op with
  | push f =>
    obtain ⟨q', k1, k2, k3⟩ := (arrayQueue_correct N).push s.q f h.ok
    simp only [Sys.step, singleQueueDriver, k1, Option.map_some]
    by_cases hlt : s.q.toList.length < N
    · rw [if_pos hlt] at k3
      simp only [decide_eq_true hlt, if_true]
      obtain ⟨hi, late, l1, l2⟩ := h.kept
      have hp := insertBehind_perm f s.q.toList
      refine ⟨_, rfl, k2, ?_, ⟨hi, late, l1, fun x => ?_⟩⟩
      · dsimp only
        rw [k3]
        intro x hx
        rcases List.mem_cons.1 (hp.subset hx) with rfl | hx
        · exact hv _ rfl
        · exact h.valid x hx
      · dsimp only
        rw [k3, (hp.map core).count_eq, List.map_append, List.count_append, l2 x]
        simp only [List.map_cons, List.map_nil, List.count_cons, List.count_nil]
        omega
    · rw [if_neg hlt] at k3
      simp only [decide_eq_false hlt, Bool.false_eq_true, if_false]
      exact ⟨_, rfl, k2, by dsimp only; rw [k3]; exact h.valid, by dsimp only; rw [k3]; exact h.kept⟩
  | flush fuel tms turns =>
    have hu : Uses times (⟨s.d, tms, turns, s.events, false⟩ : Target) := by
      refine ⟨ht _ (by simp [clockTimes]), fun t h => ht _ (by simp [clockTimes, h]), fun t h => ht _ ?_⟩
      simp only [clockTimes, List.flatMap_cons, List.flatMap_nil, List.append_nil]
      exact List.mem_append_right _ (List.mem_map_of_mem h)
    obtain ⟨q', s', r, ev, k1, k2, k3, k4, k5⟩ := flush_kept choose fuel s.q ⟨s.d, tms, turns, s.events, false⟩ hu h.ok h.valid h.kept
    simp only [Sys.step, k1, k5]
    exact ⟨_, rfl, k2, k3, k4⟩
  | bus i now => exact ⟨_, rfl, h.ok, h.valid, h.kept.sendBox i now⟩
  | arrive x => exact ⟨_, rfl, h.ok, h.valid, ⟨⟨h.kept.1.box⟩, h.kept.2⟩⟩
  | receive now =>
    obtain ⟨hb, hd⟩ := receive_same s.d now
    obtain ⟨late, l1, l2⟩ := h.kept.2
    refine ⟨_, rfl, h.ok, h.valid, ⟨⟨fun i b hi => ?_⟩, late, l1, fun x => ?_⟩⟩
    · dsimp only at hi ⊢
      rw [hb] at hi
      rw [hd]
      exact h.kept.1.box i b hi
    · rw [l2 x]
      dsimp only
      rw [load_congr x hb]

theorem sys_run_kept (choose : Chooser) {N : Nat} {times : List Instant} : ∀ {ops : List SysOp} {s : Sys N}, SysKept times s → PushesValid ops → (∀ t ∈ clockTimes ops, t ∈ times) →
    ∃ s', s.run choose ops = some s' ∧ SysKept times s'
  | [], s, h, _, _ => ⟨s, rfl, h⟩
  | op :: ops, s, h, hv, ht => by
    have he : clockTimes (op :: ops) = clockTimes [op] ++ clockTimes ops := by simp [clockTimes]
    obtain ⟨s1, h1, h2⟩ := sys_step_kept choose h (op := op) (fun f he => hv f (he ▸ List.mem_cons_self)) (fun t h => ht t (by rw [he]; exact List.mem_append_left _ h))
    obtain ⟨s2, h3, h4⟩ := sys_run_kept choose h2 (fun f he => hv f (List.mem_cons_of_mem _ he)) (fun t h => ht t (by rw [he]; exact List.mem_append_right _ h))
    exact ⟨s2, by simp [Sys.run, h1, h3], h4⟩

/-! ### C116 -/

/-- **C116.** A queue in front of a bxCAN controller, whatever happens and however the controller chooses its mailboxes: nothing panics, and each frame that the queue took is in exactly one place. It was sent, it waits in the queue
or in a mailbox, or it was dropped (in the queue, by the driver or by an abort), at a time that the clock showed and at which its deadline had passed. -/
theorem C116_nothing_lost (choose : Chooser) (N : Nat) {ops : List SysOp} (hv : PushesValid ops) :
    ∃ s, ∃ late : List (Frame × Instant), (Sys.new N).run choose ops = some s ∧ (∀ p ∈ late, p.2 ∈ clockTimes ops ∧ Instant.before p.1.timestamp p.2 = true) ∧
      (s.accepted.map core).Perm ((sentFrames s.events ++ late.map Prod.fst ++ s.d.waiting ++ s.q.toList).map core) := by
  have hnew : SysKept (clockTimes ops) (Sys.new N) := by
    have hl : (Sys.new N).q.toList = [] := by simp [Sys.new, ArrayQueue.toList, ArrayQueue.new]
    refine ⟨arrayQueue_new_ok N, by rw [hl]; simp, ⟨inv_new, [], by simp, fun x => ?_⟩⟩
    rw [hl]
    rfl
  obtain ⟨s, h1, h2⟩ := sys_run_kept choose hnew hv (fun _ h => h)
  obtain ⟨-, late, l1, l2⟩ := h2.kept
  refine ⟨s, late, h1, l1, List.perm_iff_count.2 fun x => ?_⟩
  rw [l2 x, List.map_append, List.map_append, List.map_append, List.count_append, List.count_append, List.count_append, count_waiting]

theorem step_accepted {choose : Chooser} {N : Nat} {s s' : Sys N} {op : SysOp} (h : s.step choose op = some s') : ∀ f ∈ s'.accepted, f ∈ s.accepted ∨ op = .push f := by
  intro f hf
  cases op with
  | push g =>
    unfold Sys.step at h
    dsimp only at h
    split at h
    · cases h
    · cases h
      rcases List.mem_append.1 hf with hf | hf
      · exact .inl hf
      · exact .inr (by rw [List.mem_singleton.1 hf])
    · cases h
      exact .inl hf
  | flush fuel times turns =>
    unfold Sys.step at h
    dsimp only at h
    split at h
    · cases h
    · split at h
      · cases h
      · cases h
        exact .inl hf
  | bus i now => cases h; exact .inl hf
  | arrive x => cases h; exact .inl hf
  | receive now => cases h; exact .inl hf

theorem run_accepted {choose : Chooser} {N : Nat} : ∀ {ops : List SysOp} {s s' : Sys N}, s.run choose ops = some s' → ∀ f ∈ s'.accepted, f ∈ s.accepted ∨ .push f ∈ ops
  | [], s, s', h, f, hf => by cases h; exact .inl hf
  | op :: ops, s, s', h, f, hf => by
    obtain ⟨s1, h1, h2⟩ := Option.bind_eq_some_iff.1 h
    rcases run_accepted h2 f hf with h3 | h3
    · rcases step_accepted h1 f h3 with h4 | h4
      · exact .inl h4
      · exact .inr (by rw [h4]; exact List.mem_cons_self)
    · exact .inr (List.mem_cons_of_mem _ h3)

theorem withId_eq (id : BitVec 32) (l : List Frame) : withId id l = (l.map core).filter fun x => x.1 == id := by
  unfold withId
  rw [List.filter_map]
  rfl

/-- **C116.** If no deadline has passed whenever the clock is read, and in the end nothing waits, then all frames that the queue took have been sent, and those with the same CAN ID in the order in which they were pushed. (For a controller
that takes no frame while another one with the same ID waits in a mailbox, see C109.) -/
theorem C116_all_sent {choose : Chooser} (hch : choose.OneOfEachId) (N : Nat) {ops : List SysOp} (hv : PushesValid ops)
    (htime : ∀ f, .push f ∈ ops → ∀ t ∈ clockTimes ops, Instant.before f.timestamp t = false) {s : Sys N} (hrun : (Sys.new N).run choose ops = some s) (hbox : s.d.waiting = []) (hq : s.q.toList = []) (id : BitVec 32) :
    withId id (sentFrames s.events) = withId id s.accepted := by
  obtain ⟨s1, h1, h2⟩ := C109_order hch N hv
  obtain ⟨s2, late, k1, k2, k3⟩ := C116_nothing_lost choose N hv
  rw [hrun] at h1 k1
  cases h1
  cases k1
  rw [hbox, hq, List.append_nil, List.append_nil] at k3
  have hlate : late = [] := by
    cases late with
    | nil => rfl
    | cons p late =>
      obtain ⟨a, ha, he⟩ := List.mem_map.1 (k3.symm.subset (List.mem_map_of_mem (List.mem_append_right _ (List.mem_map_of_mem List.mem_cons_self)) : core p.1 ∈ _))
      rcases run_accepted hrun a ha with h | h
      · cases h
      · obtain ⟨k4, k5⟩ := k2 p List.mem_cons_self
        have ht : a.timestamp = p.1.timestamp := by
          have := congrArg (fun x => x.2.2) he
          exact this
        rw [← ht, htime a h p.2 k4] at k5
        cases k5
  rw [hlate, List.map_nil, List.append_nil] at k3
  refine (h2 id).eq_of_length ?_
  rw [withId_eq, withId_eq]
  exact (k3.filter _).length_eq.symm

/-! ### Cases -/

/-- The case of C109, where a frame is displaced and comes back: all five frames are sent. -/
example : (∀ f, .push f ∈ someSys → ∀ t ∈ clockTimes someSys, Instant.before f.timestamp t = false) ∧
    ((Sys.new 4).run urgentOnly someSys).map (fun s => (s.accepted.length, s.d.waiting, s.q.toList, (withId 0x300#32 (sentFrames s.events)).map fun x => x.2.1)) =
      some (5, [], [], [[1#8, 0xe0#8], [2#8, 0xe0#8]]) := by
  refine ⟨fun f h => ?_, by decide +kernel⟩
  have ht : f.timestamp = 1000#32 := by
    simp only [someSys, flushAt, List.mem_cons, SysOp.push.injEq, reduceCtorEq, List.not_mem_nil, or_false, false_or] at h
    obtain rfl | rfl | rfl | rfl | rfl := h <;> rfl
  rw [ht]
  have h2 : (clockTimes someSys).all (fun t => Instant.before 1000#32 t == false) = true := by decide +kernel
  exact fun t h3 => by simpa using List.all_eq_true.mp h2 t h3

/-- One frame is sent, one is late in a mailbox, one in the queue, one waits in a mailbox and one in the queue. -/
def someLate : List SysOp :=
  [.push (frameOf 0x400#32 1#8), flushAt 1#32, .bus 0 2#32, .push (frameOf 0x300#32 2#8), flushAt 3#32, .push (frameOf 0x500#32 3#8), .push { frameOf 0x250#32 4#8 with timestamp := 3000#32 },
   .push { frameOf 0x600#32 5#8 with timestamp := 4000#32 }, flushAt 2000#32]

example : PushesValid someLate := by
  intro f h
  simp only [someLate, flushAt, List.mem_cons, SysOp.push.injEq, reduceCtorEq, List.not_mem_nil, or_false, false_or] at h
  obtain rfl | rfl | rfl | rfl | rfl := h <;> exact ⟨by decide, by decide⟩

example : ((Sys.new 4).run urgentOnly someLate).map (fun s => (s.accepted.map (·.id), (sentFrames s.events).map (·.id), s.d.waiting.map (·.id), s.q.toList.map (·.id))) =
    some ([0x400#32, 0x300#32, 0x500#32, 0x250#32, 0x600#32], [0x400#32], [0x250#32], [0x600#32]) := by decide +kernel

end Verif.Drv
