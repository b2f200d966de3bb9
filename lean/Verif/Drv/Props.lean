import Verif.Drv.Lemmas

/-!
Properties of the bxCAN driver: C104 (what becomes of the frames), C105 (loopback), C106 (reception).
-/

namespace Verif.Drv

open Verif.Can

/-! ### Cases for the examples -/

/-- A frame with the given ID, deadline and loopback flag. -/
def aFrame (id : BitVec 32) (deadline : Instant) (loopback : Bool) : Frame := { timestamp := deadline, id, loopback, data := [1#8, 0xe0#8] }

/-- At the time `now`, the controller picks the mailbox `i`, and aborts succeed. -/
def picks (i : Option (Fin 3)) (now : Instant) : TxEnv := ⟨now, i, fun _ => false⟩

/-- Four frames are to be sent; the second frame expires, the fourth one displaces the third one, and the first one is sent. -/
def someOps : List BxOp :=
  [.transmit (picks (some 0) 5#32) (aFrame 9#32 100#32 true), .transmit (picks (some 1) 5#32) (aFrame 8#32 20#32 false), .bus 0 10#32,
   .transmit (picks (some 0) 30#32) (aFrame 7#32 100#32 true), .receive 31#32, .transmit (picks (some 0) 32#32) (aFrame 6#32 100#32 true),
   .transmit (picks (some 2) 33#32) (aFrame 5#32 32#32 true), .transmit (picks none 33#32) (aFrame 6#32 90#32 true)]

/-! ### C104 -/

/-- `receive` does not touch the mailboxes. -/
theorem receive_same (d : BxCan) (now : Instant) : (d.receive now).1.boxes = d.boxes ∧ (d.receive now).1.deadlines = d.deadlines := by
  unfold BxCan.receive
  split
  · split <;> exact ⟨rfl, rfl⟩
  · exact ⟨rfl, rfl⟩

/-- One step keeps count. -/
theorem step_counts {d : BxCan} (hi : Inv d) {op : BxOp} (hv : ∀ env f, op = .transmit env f → Valid f) :
    ∃ d' a es, d.step op = some (d', a, es) ∧ Inv d' ∧ ∀ x,
      ((taken [op] [a]).map core).count x + load x d =
        ((tooLate [op]).map core).count x + ((givenBack [a]).map core).count x + (es.map fun e => core e.frame).count x + load x d' := by
  cases op with
  | transmit env f =>
    obtain ⟨d', r, es, h1, h2⟩ := transmit_does (env := env) hi (hv env f rfl)
    refine ⟨d', .transmitted r, es, by simp [BxCan.step, h1], h2.inv, fun x => ?_⟩
    rcases h2.result with ⟨g1, rfl, -, g2⟩ | ⟨g1, rfl, -, g2⟩ | ⟨g1, o, rfl, -, g2⟩
    · have := g2 x
      simp only [taken, tooLate, g1, givenBack, if_true, List.map_cons, List.map_nil, List.count_nil]
      omega
    · have := g2 x
      simp only [taken, tooLate, g1, givenBack, Bool.false_eq_true, if_false, List.map_nil, List.count_nil]
      omega
    · have := g2 x
      cases o with
      | none =>
        simp only [taken, tooLate, g1, givenBack, Bool.false_eq_true, if_false, List.map_cons, List.map_nil, List.count_nil, Option.map_none, Option.toList_none] at this ⊢
        omega
      | some g =>
        have hc : core { g with loopback := false } = core g := rfl
        simp only [taken, tooLate, g1, givenBack, Bool.false_eq_true, if_false, List.map_cons, List.map_nil, List.count_nil, Option.map_some, Option.toList_some, hc] at this ⊢
        omega
  | receive now =>
    refine ⟨_, _, _, rfl, ?_, fun x => ?_⟩
    · refine ⟨fun i b h => ?_⟩
      rw [(receive_same d now).1] at h
      rw [(receive_same d now).2]
      exact hi.box i b h
    · rw [load_congr x (receive_same d now).1]
      simp [taken, tooLate, givenBack]
  | bus i now =>
    cases hb : d.boxes i with
    | none => exact ⟨d, .nothing, [], by simp [BxCan.step, hb], hi, fun x => by simp [taken, tooLate, givenBack]⟩
    | some b =>
      refine ⟨_, .nothing, [.sent b.given now], by simp [BxCan.step, hb]; rfl, ⟨fun j b' h => ?_⟩, fun x => ?_⟩
      · by_cases hj : j = i
        · subst hj; simp at h
        · dsimp only at h
          rw [Function.update_of_ne hj] at h
          exact hi.box j b' h
      · have h1 := load_update x d i none
        rw [hb] at h1
        have h2 : slot x (some b) = ([core b.given]).count x := by simp [slot, List.count_cons]
        have h3 : slot x none = 0 := rfl
        simp only [taken, tooLate, givenBack, List.map_cons, List.map_nil, List.count_nil, BusEvent.frame]
        omega
  | arrive y => exact ⟨_, _, _, rfl, ⟨hi.box⟩, fun x => by simp [taken, tooLate, givenBack, load]⟩

theorem taken_cons (op : BxOp) (a : BxAnswer) (ops : List BxOp) (as : List BxAnswer) : taken (op :: ops) (a :: as) = taken [op] [a] ++ taken ops as := by
  cases op with
  | transmit env f =>
    cases a with
    | transmitted r => cases r <;> rfl
    | received r => rfl
    | nothing => rfl
  | receive now => rfl
  | bus i now => rfl
  | arrive x => rfl

theorem tooLate_cons (op : BxOp) (ops : List BxOp) : tooLate (op :: ops) = tooLate [op] ++ tooLate ops := by
  cases op with
  | transmit env f => simp only [tooLate]; split <;> rfl
  | receive now => rfl
  | bus i now => rfl
  | arrive x => rfl

theorem givenBack_cons (a : BxAnswer) (as : List BxAnswer) : givenBack (a :: as) = givenBack [a] ++ givenBack as := by
  cases a with
  | transmitted r =>
    cases r with
    | ok o => cases o <;> rfl
    | wouldBlock => rfl
    | other e => exact e.elim
  | received r => rfl
  | nothing => rfl

theorem run_counts : ∀ {ops : List BxOp} {d : BxCan}, Inv d → AllValid ops → ∃ d' as es, d.run ops = some (d', as, es) ∧ Inv d' ∧ ∀ x,
      ((taken ops as).map core).count x + load x d =
        ((tooLate ops).map core).count x + ((givenBack as).map core).count x + (es.map fun e => core e.frame).count x + load x d'
  | [], d, hi, _ => ⟨d, [], [], rfl, hi, fun x => by simp [taken, tooLate, givenBack]⟩
  | op :: ops, d, hi, hv => by
    obtain ⟨d1, a, e1, h1, i1, c1⟩ := step_counts hi (op := op) (fun env f h => hv env f (h ▸ List.mem_cons_self))
    obtain ⟨d2, as, e2, h2, i2, c2⟩ := run_counts i1 (fun env f h => hv env f (List.mem_cons_of_mem _ h))
    refine ⟨d2, a :: as, e1 ++ e2, by simp [BxCan.run, h1, h2], i2, fun x => ?_⟩
    have h3 := c1 x
    have h4 := c2 x
    rw [taken_cons, tooLate_cons, givenBack_cons, List.map_append, List.map_append, List.map_append, List.map_append, List.count_append, List.count_append, List.count_append,
      List.count_append]
    omega

/-- **C104.** Whatever is done with a driver, and whatever the controller does, there is no panic as long as the frames have 29-bit IDs and at most eight bytes. Every frame that `transmit` took is
in exactly one place: it was dropped since its deadline had passed before the call, it was given back with its own ID, data and deadline, it was sent or aborted, or it waits in a mailbox. -/
theorem C104_nothing_lost {ops : List BxOp} (hv : AllValid ops) : ∃ d as es, BxCan.new.run ops = some (d, as, es) ∧
    ((taken ops as).map core).Perm ((tooLate ops ++ givenBack as ++ es.map BusEvent.frame ++ d.waiting).map core) := by
  obtain ⟨d, as, es, h1, -, h2⟩ := run_counts inv_new hv
  refine ⟨d, as, es, h1, List.perm_iff_count.2 fun x => ?_⟩
  have h3 := h2 x
  have h4 : load x BxCan.new = 0 := rfl
  have h5 : (es.map BusEvent.frame).map core = es.map fun e => core e.frame := by rw [List.map_map]; rfl
  rw [List.map_append, List.map_append, List.map_append, List.count_append, List.count_append, List.count_append, count_waiting, h5]
  omega

theorem run_events : ∀ {ops : List BxOp} {d d' : BxCan} {as : List BxAnswer} {es : List BusEvent}, Inv d → AllValid ops → d.run ops = some (d', as, es) →
    ∀ f now, .aborted f now ∈ es → Instant.after now f.timestamp = true
  | [], d, d', as, es, _, _, h => by
    cases h
    intro f now h
    cases h
  | op :: ops, d, d', as, es, hi, hv, h => by
    intro f now hf
    obtain ⟨d1, a, e1, h1, i1, -⟩ := step_counts hi (op := op) (fun env f h => hv env f (h ▸ List.mem_cons_self))
    simp only [BxCan.run, h1] at h
    obtain ⟨⟨d2, as2, e2⟩, h2, h3⟩ := Option.map_eq_some_iff.1 h
    simp only [Prod.mk.injEq] at h3
    rw [← h3.2.2] at hf
    rcases List.mem_append.1 hf with hf | hf
    · cases op with
      | transmit env g =>
        obtain ⟨d', r, es, g1, g2⟩ := transmit_does (env := env) hi (hv env g List.mem_cons_self)
        simp only [BxCan.step, g1, Option.map_some, Option.some.injEq, Prod.mk.injEq] at h1
        rw [← h1.2.2] at hf
        obtain ⟨f', h4 | h4, h5⟩ := g2.events _ hf
        · cases h4
        · cases h4
          exact h5
      | receive now => cases h1; cases hf
      | bus i now =>
        simp only [BxCan.step] at h1
        split at h1 <;> cases h1 <;> simp at hf
      | arrive x => cases h1; cases hf
    · exact run_events i1 (fun env f h => hv env f (List.mem_cons_of_mem _ h)) h2 f now hf

/-- **C104.** Only frames whose own deadlines have passed are aborted. -/
theorem C104_aborts_are_late {ops : List BxOp} {d : BxCan} {as : List BxAnswer} {es : List BusEvent} (hv : AllValid ops) (h : BxCan.new.run ops = some (d, as, es)) :
    ∀ f now, .aborted f now ∈ es → Instant.after now f.timestamp = true := run_events inv_new hv h

/-- **C104.** After a call of `transmit`, no frame waits whose deadline has passed. -/
theorem C104_none_late_after_transmit {ops : List BxOp} {d d' : BxCan} {as : List BxAnswer} {es es' : List BusEvent} {env : TxEnv} {f : Frame} {r : TransmitResult Empty} (hv : AllValid ops)
    (h : BxCan.new.run ops = some (d, as, es)) (hf : Valid f) (ht : d.transmit env f = some (d', r, es')) : ∀ g ∈ d'.waiting, Instant.after env.now g.timestamp = false := by
  obtain ⟨d1, as1, es1, h1, hi, -⟩ := run_counts inv_new hv
  rw [h] at h1
  cases h1
  obtain ⟨d2, r2, es2, h2, h3⟩ := transmit_does (env := env) hi hf
  rw [ht] at h2
  cases h2
  intro g hg
  simp only [BxCan.waiting, List.mem_map, List.mem_append, Option.mem_toList] at hg
  obtain ⟨b, (hb | hb) | hb, rfl⟩ := hg <;> exact h3.waiting _ b hb

example : AllValid someOps := by
  intro env f h
  simp only [someOps, List.mem_cons, BxOp.transmit.injEq, reduceCtorEq, List.not_mem_nil, or_false, false_or] at h
  obtain ⟨-, rfl⟩ | ⟨-, rfl⟩ | ⟨-, rfl⟩ | ⟨-, rfl⟩ | ⟨-, rfl⟩ | ⟨-, rfl⟩ := h <;> exact ⟨by decide, by decide⟩

example : (BxCan.new.run someOps).map (fun p => ((taken someOps p.2.1).map (·.id), (tooLate someOps).map (·.id), p.1.waiting.map (·.id))) =
    some ([9#32, 8#32, 7#32, 6#32, 5#32], [5#32], [6#32]) := by decide +kernel

example : (BxCan.new.run someOps).map (fun p => ((givenBack p.2.1).map (fun f => (f.id, f.timestamp, f.loopback)), p.2.2)) =
    some ([(7#32, 100#32, false)], [.sent (aFrame 9#32 100#32 true) 10#32, .aborted (aFrame 8#32 20#32 false) 30#32]) := by decide +kernel

/-- **C104.** That no frame is sent after its deadline is false: deadlines are only looked at when another frame is to be transmitted. -/
theorem C104_late_frame_counterexample :
    ¬ ∀ (ops : List BxOp) (d : BxCan) (as : List BxAnswer) (es : List BusEvent), AllValid ops → BxCan.new.run ops = some (d, as, es) →
      ∀ f now, .sent f now ∈ es → Instant.after now f.timestamp = false := by
  intro h
  have hv : AllValid [.transmit (picks (some 0) 5#32) (aFrame 9#32 20#32 false), .bus 0 5000#32] := by
    intro env f h
    simp only [List.mem_cons, BxOp.transmit.injEq, reduceCtorEq, List.not_mem_nil, or_false] at h
    obtain ⟨-, rfl⟩ := h
    exact ⟨by decide, by decide⟩
  have := h _ _ _ _ hv rfl (aFrame 9#32 20#32 false) 5000#32 (by decide)
  revert this
  decide

/-- **C104.** With more than eight bytes, `transmit` panics, if the deadline has not passed. -/
theorem C104_long_frame_panics {d : BxCan} {env : TxEnv} {f : Frame} (h : 8 < f.data.length) : d.transmit env f = none ↔ Instant.before f.timestamp env.now = false := by
  unfold BxCan.transmit
  have : toBx f = none := by unfold toBx; rw [if_neg (by omega)]
  cases hb : Instant.before f.timestamp env.now with
  | true => simp
  | false => simp [BxCan.transmitInner, this]

example : 8 < ({ timestamp := 9#32, id := 5#32, loopback := false, data := List.replicate 9 0#8 } : Frame).data.length := by decide

/-! ### C105 -/

theorem copies_cons (op : BxOp) (a : BxAnswer) (ops : List BxOp) (as : List BxAnswer) : copies (op :: ops) (a :: as) = copies [op] [a] ++ copies ops as := by
  cases op with
  | transmit env f =>
    cases a with
    | transmitted r =>
      cases r with
      | ok o => simp only [copies]; split <;> rfl
      | wouldBlock => rfl
      | other e => exact e.elim
    | received r => rfl
    | nothing => rfl
  | receive now => rfl
  | bus i now => rfl
  | arrive x => rfl

theorem receivedCopies_cons (a : BxAnswer) (as : List BxAnswer) : receivedCopies (a :: as) = receivedCopies [a] ++ receivedCopies as := by
  cases a with
  | transmitted r => rfl
  | received r =>
    cases r with
    | frame f => simp only [receivedCopies]; split <;> rfl
    | wouldBlock => rfl
    | overrun => rfl
  | nothing => rfl

theorem fromBx_loopback {b : BxFrame} {now : Instant} {f : Frame} (h : fromBx b now = some f) : f.loopback = false ∧ f.timestamp = now := by
  unfold fromBx at h
  split at h
  · cases h
  · obtain ⟨d, -, rfl⟩ := Option.map_eq_some_iff.1 h
    exact ⟨rfl, rfl⟩

theorem receiveFromBus_loopback {now : Instant} : ∀ {xs rest : List RxItem} {f : Frame}, receiveFromBus now xs = (rest, .frame f) → f.loopback = false ∧ f.timestamp = now
  | [], rest, f, h => by cases h
  | .overrun :: xs, rest, f, h => by cases h
  | .frame b :: xs, rest, f, h => by
    unfold receiveFromBus at h
    split at h
    · cases h
      exact fromBx_loopback ‹_›
    · exact receiveFromBus_loopback h

theorem clean_loopback (d : BxCan) (env : TxEnv) : (d.clean env).1.loopback = d.loopback ∧ (d.clean env).1.received = d.received := by
  have h1 : ∀ (d : BxCan) i, (d.cleanOne env i).1.loopback = d.loopback ∧ (d.cleanOne env i).1.received = d.received := by
    intro d i
    unfold BxCan.cleanOne
    split
    · exact ⟨rfl, rfl⟩
    · split
      · split <;> exact ⟨rfl, rfl⟩
      · exact ⟨rfl, rfl⟩
  unfold BxCan.clean
  exact ⟨by simp only [h1], by simp only [h1]⟩

theorem transmitInner_loopback {d d' : BxCan} {env : TxEnv} {f : Frame} {r : TransmitResult Empty} (h : d.transmitInner env f = some (d', r)) :
    d'.loopback = d.loopback ∧ d'.received = d.received := by
  unfold BxCan.transmitInner at h
  split at h
  · cases h
  · split at h
    · cases h
      exact ⟨rfl, rfl⟩
    · split at h
      · cases h
        exact ⟨rfl, rfl⟩
      all_goals cases h; exact ⟨rfl, rfl⟩

/-- One step, for the copies. -/
theorem step_copies {d d' : BxCan} {op : BxOp} {a : BxAnswer} {es : List BusEvent} (hl : ∀ f ∈ d.loopback, f.loopback = true) (h : d.step op = some (d', a, es)) :
    (∀ f ∈ d'.loopback, f.loopback = true) ∧ ∃ c, receivedCopies [a] ++ d'.loopback = d.loopback ++ c ∧ c.Sublist (copies [op] [a]) ∧
      (d.loopback.length + (copies [op] [a]).length ≤ (receivedCopies [a]).length + 2 → c = copies [op] [a]) := by
  cases op with
  | transmit env f =>
    simp only [BxCan.step] at h
    obtain ⟨⟨d1, r, es1⟩, h1, h2⟩ := Option.map_eq_some_iff.1 h
    cases h2
    have hc := (clean_loopback d env).1
    unfold BxCan.transmit at h1
    dsimp only at h1
    split at h1
    · rename_i hb
      split at h1
      · cases h1
      · rename_i d2 displaced h3
        cases h1
        have h4 : d2.loopback = d.loopback := (transmitInner_loopback h3).1.trans hc
        unfold BxCan.storeCopy
        cases hf : f.loopback with
        | false =>
          simp only [Bool.false_and, Bool.false_eq_true, if_false, copies, hf]
          exact ⟨h4 ▸ hl, [], by simp [receivedCopies, h4], List.Sublist.refl _, fun _ => rfl⟩
        | true =>
          by_cases hlen : d2.loopback.length < loopbackCapacity
          · simp only [hlen, decide_true, Bool.and_self, if_true, copies, hf, hb]
            refine ⟨?_, [{ f with timestamp := env.now }], by simp [receivedCopies, h4, hf], by simp [hf], fun _ => by simp [hf]⟩
            intro g hg
            rcases List.mem_append.1 hg with hg | hg
            · exact hl g (h4 ▸ hg)
            · rw [List.mem_singleton.1 hg]
          · simp only [hlen, decide_false, Bool.and_false, Bool.false_eq_true, if_false, copies, hf, hb, Bool.and_self, if_true]
            refine ⟨h4 ▸ hl, [], by simp [receivedCopies, h4], List.nil_sublist _, fun h => ?_⟩
            rw [h4] at hlen
            simp only [loopbackCapacity] at hlen
            simp [receivedCopies] at h
            omega
      · rename_i d2 status hn h3
        cases h1
        have h4 : d1.loopback = d.loopback := (transmitInner_loopback h3).1.trans hc
        have h5 : copies [.transmit env f] [.transmitted r] = [] := by
          cases r with
          | ok o => exact (hn o rfl).elim
          | wouldBlock => rfl
          | other e => exact e.elim
        rw [h5]
        exact ⟨h4 ▸ hl, [], by simp [receivedCopies, h4], List.Sublist.refl _, fun _ => rfl⟩
    · rename_i hb
      cases h1
      have h5 : copies [.transmit env f] [.transmitted (.ok none)] = [] := by
        simp only [copies]
        rw [if_neg]
        simp only [Bool.and_eq_true, not_and]
        exact fun _ => hb
      rw [h5]
      exact ⟨hc ▸ hl, [], by simp [receivedCopies, hc], List.Sublist.refl _, fun _ => rfl⟩
  | receive now =>
    cases h
    have hk : copies [.receive now] [.received (d.receive now).2] = [] := rfl
    rw [hk]
    unfold BxCan.receive
    split
    · cases hd : d.loopback with
      | nil => exact ⟨by simp, [], by simp [receivedCopies], List.Sublist.refl _, fun _ => rfl⟩
      | cons f fs =>
        have hf := hl f (hd ▸ List.mem_cons_self)
        refine ⟨fun g hg => hl g (hd ▸ List.mem_cons_of_mem _ hg), [], by simp [receivedCopies, hf], List.Sublist.refl _, fun _ => rfl⟩
    · rename_i rest r hn hr
      have : receivedCopies [.received r] = [] := by
        cases r with
        | frame f => simp [receivedCopies, (receiveFromBus_loopback hr).1]
        | wouldBlock => rfl
        | overrun => rfl
      dsimp only
      exact ⟨hl, [], by simp [this], List.Sublist.refl _, fun _ => rfl⟩
  | bus i now =>
    simp only [BxCan.step] at h
    split at h <;> cases h <;> exact ⟨hl, [], by simp [receivedCopies], List.Sublist.refl _, fun _ => rfl⟩
  | arrive x =>
    cases h
    exact ⟨hl, [], by simp [receivedCopies], List.Sublist.refl _, fun _ => rfl⟩

theorem run_cons {d d' : BxCan} {op : BxOp} {ops : List BxOp} {as : List BxAnswer} {es : List BusEvent} (h : d.run (op :: ops) = some (d', as, es)) :
    ∃ d1 a e1 as2 e2, d.step op = some (d1, a, e1) ∧ d1.run ops = some (d', as2, e2) ∧ as = a :: as2 ∧ es = e1 ++ e2 := by
  simp only [BxCan.run] at h
  cases h1 : d.step op with
  | none => simp [h1] at h
  | some p =>
    obtain ⟨d1, a, e1⟩ := p
    simp only [h1] at h
    obtain ⟨⟨d2, as2, e2⟩, h2, h3⟩ := Option.map_eq_some_iff.1 h
    cases h3
    exact ⟨d1, a, e1, as2, e2, rfl, h2, rfl, rfl⟩

theorem run_copies : ∀ {ops : List BxOp} {d d' : BxCan} {as : List BxAnswer} {es : List BusEvent}, (∀ f ∈ d.loopback, f.loopback = true) → d.run ops = some (d', as, es) →
    (∀ f ∈ d'.loopback, f.loopback = true) ∧ ∃ c, receivedCopies as ++ d'.loopback = d.loopback ++ c ∧ c.Sublist (copies ops as) ∧
      ((∀ n, d.loopback.length + (copies (ops.take n) (as.take n)).length ≤ (receivedCopies (as.take n)).length + 2) → c = copies ops as)
  | [], d, d', as, es, hl, h => by
    cases h
    exact ⟨hl, [], by simp [receivedCopies], List.Sublist.refl _, fun _ => rfl⟩
  | op :: ops, d, d', as, es, hl, h => by
    obtain ⟨d1, a, e1, as2, e2, h1, h2, rfl, rfl⟩ := run_cons h
    obtain ⟨hl1, c1, k1, k2, k3⟩ := step_copies hl h1
    obtain ⟨hl2, c2, k4, k5, k6⟩ := run_copies hl1 h2
    refine ⟨hl2, c1 ++ c2, ?_, ?_, fun hn => ?_⟩
    · rw [receivedCopies_cons, List.append_assoc, k4, ← List.append_assoc, k1, List.append_assoc]
    · rw [copies_cons]
      exact k2.append k5
    · have h3 := k3 (hn 1)
      rw [copies_cons, h3]
      congr 1
      apply k6
      intro n
      have h4 := hn (n + 1)
      simp only [List.take_succ_cons] at h4
      rw [copies_cons, receivedCopies_cons, List.length_append, List.length_append] at h4
      have h5 := congrArg List.length k1
      rw [List.length_append, List.length_append, h3] at h5
      omega

/-- **C105.** The copies that `receive` returned, and those that are still to be returned, are some of the frames that were accepted with the loopback flag: in the order of the calls, with their own
IDs and data and the times of the calls, and none twice. -/
theorem C105_loopback_partial {ops : List BxOp} {d : BxCan} {as : List BxAnswer} {es : List BusEvent} (h : BxCan.new.run ops = some (d, as, es)) :
    (receivedCopies as ++ d.loopback).Sublist (copies ops as) := by
  obtain ⟨-, c, h1, h2, -⟩ := run_copies (by intro f h; cases h) h
  rw [h1]
  exact h2

/-- **C105.** They are all of these frames, if there are never more than two whose copies were not received yet. -/
theorem C105_loopback_all {ops : List BxOp} {d : BxCan} {as : List BxAnswer} {es : List BusEvent} (h : BxCan.new.run ops = some (d, as, es))
    (hn : ∀ n, (copies (ops.take n) (as.take n)).length ≤ (receivedCopies (as.take n)).length + 2) : receivedCopies as ++ d.loopback = copies ops as := by
  obtain ⟨-, c, h1, -, h2⟩ := run_copies (d := BxCan.new) (by intro f h; cases h) h
  rw [h1, h2 (by simpa [BxCan.new] using hn)]
  rfl

example : (BxCan.new.run someOps).map (fun p => ((copies someOps p.2.1).map fun f => (f.id, f.timestamp), (receivedCopies p.2.1).map (·.id), p.1.loopback.map (·.id),
      (List.range 9).all fun n => (copies (someOps.take n) (p.2.1.take n)).length ≤ (receivedCopies (p.2.1.take n)).length + 2)) =
    some ([(9#32, 5#32), (7#32, 30#32), (6#32, 32#32)], [9#32], [7#32, 6#32], true) := by decide +kernel

/-- Three loopback frames, one after the other, and then four calls of `receive`. -/
def threeCopies : List BxOp :=
  [.transmit (picks (some 0) 5#32) (aFrame 9#32 100#32 true), .transmit (picks (some 1) 5#32) (aFrame 8#32 100#32 true), .transmit (picks (some 2) 5#32) (aFrame 7#32 100#32 true),
   .bus 2 6#32, .bus 1 7#32, .bus 0 8#32, .receive 9#32, .receive 9#32, .receive 9#32, .receive 9#32]

/-- **C105.** That every frame with the loopback flag that is sent comes back is false: of a third one, there is no copy. -/
theorem C105_third_copy_counterexample :
    ¬ ∀ (ops : List BxOp) (d : BxCan) (as : List BxAnswer) (es : List BusEvent), BxCan.new.run ops = some (d, as, es) →
      ∀ f now, .sent f now ∈ es → f.loopback = true → f.id ∈ (receivedCopies as ++ d.loopback).map (·.id) := by
  intro h
  have := h threeCopies _ _ _ rfl (aFrame 7#32 100#32 true) 6#32 (by decide) rfl
  revert this
  decide

/-- **C105.** That a copy only comes back of a frame that was sent is false: there is one of a frame that is aborted later. -/
theorem C105_not_sent_counterexample :
    ¬ ∀ (ops : List BxOp) (d : BxCan) (as : List BxAnswer) (es : List BusEvent), BxCan.new.run ops = some (d, as, es) →
      ∀ f ∈ receivedCopies as, ∃ g now, .sent g now ∈ es ∧ g.id = f.id := by
  intro h
  have := h [.transmit (picks (some 0) 5#32) (aFrame 9#32 20#32 true), .receive 6#32, .transmit (picks (some 1) 30#32) (aFrame 8#32 100#32 false), .bus 1 40#32] _ _ _ rfl
    { aFrame 9#32 20#32 true with timestamp := 5#32 } (by decide)
  obtain ⟨g, now, h1, h2⟩ := this
  have h3 : ∀ e ∈ ([.aborted (aFrame 9#32 20#32 true) 30#32, .sent (aFrame 8#32 100#32 false) 40#32] : List BusEvent), e = .sent g now → g.id ≠ 9#32 := by
    intro e he h4
    simp only [List.mem_cons, List.not_mem_nil, or_false] at he
    rcases he with rfl | rfl
    · cases h4
    · cases h4
      decide
  exact h3 _ h1 rfl h2

/-! ### C106 -/

theorem arrivals_cons (op : BxOp) (ops : List BxOp) : arrivals (op :: ops) = arrivals [op] ++ arrivals ops := by
  cases op <;> rfl

theorem receivedWorth_cons (a : BxAnswer) (as : List BxAnswer) : receivedWorth (a :: as) = receivedWorth [a] ++ receivedWorth as := by
  cases a with
  | transmitted r => rfl
  | received r =>
    cases r with
    | frame f => simp only [receivedWorth]; split <;> rfl
    | wouldBlock => rfl
    | overrun => rfl
  | nothing => rfl

theorem receiveFromBus_does (now : Instant) : ∀ xs : List RxItem, match receiveFromBus now xs with
    | (rest, .wouldBlock) => xs.filterMap RxItem.worth = [] ∧ rest = []
    | (rest, .frame f) => xs.filterMap RxItem.worth = .frame f.id f.data :: rest.filterMap RxItem.worth
    | (rest, .overrun) => xs.filterMap RxItem.worth = .overrun :: rest.filterMap RxItem.worth
  | [] => ⟨rfl, rfl⟩
  | .overrun :: xs => rfl
  | .frame b :: xs => by
    unfold receiveFromBus
    cases hb : fromBx b now with
    | some f =>
      dsimp only
      obtain ⟨id, data⟩ := b
      cases id with
      | standard id => cases hb
      | extended id =>
        cases data with
        | none => cases hb
        | some data =>
          cases hb
          rfl
    | none =>
      have h1 := receiveFromBus_does now xs
      have h2 : (RxItem.frame b).worth = none := by
        obtain ⟨id, data⟩ := b
        cases id with
        | standard id => rfl
        | extended id =>
          cases data with
          | none => rfl
          | some data => cases hb
      rw [List.filterMap_cons_none h2]
      exact h1

/-- One step, for what is received. -/
theorem step_worth {d d' : BxCan} {op : BxOp} {a : BxAnswer} {es : List BusEvent} (hl : ∀ f ∈ d.loopback, f.loopback = true) (h : d.step op = some (d', a, es)) :
    receivedWorth [a] ++ d'.received.filterMap RxItem.worth = d.received.filterMap RxItem.worth ++ (arrivals [op]).filterMap RxItem.worth := by
  cases op with
  | transmit env f =>
    simp only [BxCan.step] at h
    obtain ⟨⟨d1, r, es1⟩, h1, h2⟩ := Option.map_eq_some_iff.1 h
    cases h2
    have hc := (clean_loopback d env).2
    have : d1.received = d.received := by
      unfold BxCan.transmit at h1
      dsimp only at h1
      split at h1
      · split at h1
        · cases h1
        · rename_i d2 displaced h3
          cases h1
          unfold BxCan.storeCopy
          split <;> exact (transmitInner_loopback h3).2.trans hc
        · rename_i d2 status hn h3
          cases h1
          exact (transmitInner_loopback h3).2.trans hc
      · cases h1
        exact hc
    simp [receivedWorth, arrivals, this]
  | receive now =>
    cases h
    have h1 := receiveFromBus_does now d.received
    unfold BxCan.receive
    split
    · rename_i rest hr
      rw [hr] at h1
      obtain ⟨h2, rfl⟩ := h1
      cases hd : d.loopback with
      | nil => simp [receivedWorth, arrivals, h2]
      | cons f fs =>
        have hf := hl f (hd ▸ List.mem_cons_self)
        simp [receivedWorth, arrivals, h2, hf]
    · rename_i rest r hn hr
      rw [hr] at h1
      cases r with
      | frame f => simp [receivedWorth, arrivals, (receiveFromBus_loopback hr).1] at h1 ⊢; exact h1.symm
      | wouldBlock => exact (hn rfl).elim
      | overrun => simp [receivedWorth, arrivals] at h1 ⊢; exact h1.symm
  | bus i now =>
    simp only [BxCan.step] at h
    split at h <;> cases h <;> simp [receivedWorth, arrivals]
  | arrive x =>
    cases h
    simp [receivedWorth, arrivals]

theorem run_worth : ∀ {ops : List BxOp} {d d' : BxCan} {as : List BxAnswer} {es : List BusEvent}, (∀ f ∈ d.loopback, f.loopback = true) → d.run ops = some (d', as, es) →
    receivedWorth as ++ d'.received.filterMap RxItem.worth = d.received.filterMap RxItem.worth ++ (arrivals ops).filterMap RxItem.worth
  | [], d, d', as, es, hl, h => by
    cases h
    simp [receivedWorth, arrivals]
  | op :: ops, d, d', as, es, hl, h => by
    obtain ⟨d1, a, e1, as2, e2, h1, h2, rfl, rfl⟩ := run_cons h
    have k1 := step_worth hl h1
    have k2 := run_worth (step_copies hl h1).1 h2
    rw [receivedWorth_cons, arrivals_cons, List.append_assoc, k2, ← List.append_assoc, k1, List.filterMap_append, List.append_assoc]

/-- **C106.** The frames and overruns that `receive` returned from the bus, followed by those that wait, are all extended data frames and overruns that the controller reported, in their order, with
their IDs and data. -/
theorem C106_all_received {ops : List BxOp} {d : BxCan} {as : List BxAnswer} {es : List BusEvent} (h : BxCan.new.run ops = some (d, as, es)) :
    receivedWorth as ++ d.received.filterMap RxItem.worth = (arrivals ops).filterMap RxItem.worth :=
  run_worth (d := BxCan.new) (by intro f h; cases h) h

/-- **C106.** One call: a frame from the bus carries the current time; a copy of an own frame, or nothing, is only returned if nothing from the bus waits. -/
theorem C106_receive {ops : List BxOp} {d : BxCan} {as : List BxAnswer} {es : List BusEvent} (h : BxCan.new.run ops = some (d, as, es)) (now : Instant) :
    match (d.receive now).2 with
    | .frame f =>
      if f.loopback then d.received.filterMap RxItem.worth = [] ∧ d.loopback.head? = some f
      else f.timestamp = now ∧ (d.received.filterMap RxItem.worth).head? = some (.frame f.id f.data)
    | .overrun => (d.received.filterMap RxItem.worth).head? = some .overrun
    | .wouldBlock => d.received.filterMap RxItem.worth = [] ∧ d.loopback = [] := by
  have hl := (run_copies (d := BxCan.new) (by intro f h; cases h) h).1
  have h1 := receiveFromBus_does now d.received
  cases hr : receiveFromBus now d.received with
  | mk rest r =>
    rw [hr] at h1
    cases r with
    | frame f =>
      have h2 : (d.receive now).2 = .frame f := by simp [BxCan.receive, hr]
      have h3 := receiveFromBus_loopback hr
      rw [h2]
      dsimp only at h1 ⊢
      rw [h3.1]
      exact ⟨h3.2, by rw [h1]; rfl⟩
    | overrun =>
      have h2 : (d.receive now).2 = .overrun := by simp [BxCan.receive, hr]
      rw [h2]
      dsimp only at h1 ⊢
      rw [h1]
      rfl
    | wouldBlock =>
      cases hd : d.loopback with
      | nil =>
        have h2 : (d.receive now).2 = .wouldBlock := by simp [BxCan.receive, hr, hd]
        rw [h2]
        exact ⟨h1.1, rfl⟩
      | cons f fs =>
        have h2 : (d.receive now).2 = .frame f := by simp [BxCan.receive, hr, hd]
        rw [h2]
        dsimp only
        rw [if_pos (hl f (hd ▸ List.mem_cons_self))]
        exact ⟨h1.1, rfl⟩

/-- A standard frame, a remote frame, a data frame, an overrun; an own frame comes after them. -/
def someArrivals : List BxOp :=
  [.transmit (picks (some 0) 5#32) (aFrame 9#32 100#32 true), .arrive (.frame ⟨.standard 5#11, some [1#8]⟩), .arrive (.frame ⟨.extended 7#29, none⟩),
   .arrive (.frame ⟨.extended 8#29, some [2#8, 0xe1#8]⟩), .arrive .overrun, .receive 20#32, .receive 21#32, .receive 22#32, .receive 23#32]

example : (BxCan.new.run someArrivals).map (fun p => (receivedWorth p.2.1, (receivedCopies p.2.1).map (·.id), p.1.received)) =
    some ([.frame 8#32 [2#8, 0xe1#8], .overrun], [9#32], []) := by decide +kernel

end Verif.Drv
