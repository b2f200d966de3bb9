import Verif.Can.DriverProps

/-! Properties of redundancy and of the queue-only driver: C22 (deduplicator), C23 (redundant drivers), C24 (stored filters). -/

namespace Verif.Can

/-! ### C22 -/

/-- Ask the deduplicator about frames one after the other, each with the number of the transport that received it. -/
def Deduplicator.run {N : Nat} : Deduplicator N → List (Frame × Nat) → Option (Deduplicator N × List Bool)
  | d, [] => some (d, [])
  | d, (f, i) :: rest =>
    match d.accept f i with
    | none => none
    | some (d, b) => (d.run rest).map (fun p => (p.1, b :: p.2))

/-- The latest frame that was accepted, in a list of frames with answers. -/
def lastTaken : List ((Frame × Nat) × Bool) → Option (Frame × Nat)
  | [] => none
  | (x, b) :: rest => (lastTaken rest).or (if b then some x else none)

/-- Whether a frame should be accepted, given the latest frame accepted before: if there was none, if it came from the same
transport, or if the timeout has passed since. -/
def mayTake (timeout : Duration) (last : Option (Frame × Nat)) (f : Frame) (i : Nat) : Bool :=
  match last with
  | none => true
  | some (g, j) => i == j || Instant.after f.timestamp (Instant.plus g.timestamp timeout)

/-- What the state of the deduplicator says about the latest accepted frame. -/
def Deduplicator.Knows {N : Nat} (d : Deduplicator N) (timeout : Duration) (last : Option (Frame × Nat)) : Prop :=
  d.states.length = N ∧ d.timeout = timeout ∧ d.activeIndex < N ∧
    match last with
    | none => d.states = List.replicate N none
    | some (g, j) => d.activeIndex = j ∧ d.states[j]? = some (some g.timestamp)

theorem dedup_accept {N : Nat} (d : Deduplicator N) (timeout : Duration) (last : Option (Frame × Nat)) (h : d.Knows timeout last)
    (f : Frame) (i : Nat) (hi : i < N) :
    ∃ d', d.accept f i = some (d', mayTake timeout last f i) ∧
      d'.Knows timeout (if mayTake timeout last f i then some (f, i) else last) := by
  obtain ⟨hlen, ht, ha, hlast⟩ := h
  have hset : (d.states.set i (some f.timestamp))[i]? = some (some f.timestamp) := by simp [hlen, hi]
  unfold Deduplicator.accept
  rw [if_pos (by omega)]
  simp only [Deduplicator.activeTimedOut]
  by_cases hai : d.activeIndex = i
  · rw [hai, hset]
    simp only
    have hm : mayTake timeout last f i = true := by
      cases last with
      | none => rfl
      | some p => obtain ⟨g, j⟩ := p; simp only at hlast; simp [mayTake, ← hai, hlast.1]
    rw [hm]
    split
    · exact ⟨{ states := d.states.set i (some f.timestamp), activeIndex := i, timeout := d.timeout }, by simp, by simp [hlen], ht, hi, rfl, hset⟩
    · exact ⟨{ states := d.states.set i (some f.timestamp), activeIndex := d.activeIndex, timeout := d.timeout }, by simp [hai],
        by simp [hlen], ht, ha, hai, hset⟩
  · have hne : (d.states.set i (some f.timestamp))[d.activeIndex]? = d.states[d.activeIndex]? := by
      rw [List.getElem?_set_ne]; exact fun h => hai h.symm
    rw [hne]
    cases last with
    | none =>
      simp only at hlast
      have : d.states[d.activeIndex]? = some none := by rw [hlast]; simp [ha]
      rw [this]
      exact ⟨{ states := d.states.set i (some f.timestamp), activeIndex := i, timeout := d.timeout }, by simp [mayTake],
        by simp [hlen], ht, hi, rfl, hset⟩
    | some p =>
      obtain ⟨g, j⟩ := p
      simp only at hlast
      obtain ⟨hj, hg⟩ := hlast
      rw [hj, hg]
      have hij : (i == j) = false := by simp; omega
      simp only [mayTake, hij, Bool.false_or, ht]
      cases hto : Instant.after f.timestamp (Instant.plus g.timestamp timeout) with
      | true =>
        exact ⟨{ states := d.states.set i (some f.timestamp), activeIndex := i, timeout := d.timeout }, by simp [ht],
          by simp [hlen], ht, hi, rfl, hset⟩
      | false =>
        refine ⟨{ states := d.states.set i (some f.timestamp), activeIndex := d.activeIndex, timeout := d.timeout }, by simp [hj, hij, ht],
          by simp [hlen], ht, ha, ?_⟩
        refine ⟨hj, ?_⟩
        rw [← hg, ← hj]; exact hne

theorem dedup_run {N : Nat} (timeout : Duration) (frames : List (Frame × Nat)) (hi : ∀ x ∈ frames, x.2 < N)
    (d : Deduplicator N) (last : Option (Frame × Nat)) (h : d.Knows timeout last) :
    ∃ d' answers, d.run frames = some (d', answers) ∧ answers.length = frames.length ∧
      ∀ k f i, frames[k]? = some (f, i) →
        answers[k]? = some (mayTake timeout ((lastTaken ((frames.zip answers).take k)).or last) f i) := by
  induction frames generalizing d last with
  | nil => exact ⟨d, [], rfl, rfl, by simp⟩
  | cons x rest ih =>
    obtain ⟨f0, i0⟩ := x
    obtain ⟨d1, h1, h2⟩ := dedup_accept d timeout last h f0 i0 (hi (f0, i0) (List.mem_cons_self ..))
    obtain ⟨d', answers, h3, h4, h5⟩ := ih (fun x hx => hi x (List.mem_cons_of_mem _ hx)) d1 _ h2
    refine ⟨d', mayTake timeout last f0 i0 :: answers, by simp [Deduplicator.run, h1, h3], by simp [h4], ?_⟩
    intro k f i hk
    cases k with
    | zero =>
      simp only [List.getElem?_cons_zero, Option.some.injEq, Prod.mk.injEq] at hk
      obtain ⟨rfl, rfl⟩ := hk
      simp [lastTaken]
    | succ k =>
      simp only [List.getElem?_cons_succ] at hk ⊢
      rw [h5 k f i hk]
      simp only [List.zip_cons_cons, List.take_succ_cons, lastTaken]
      congr 2
      rw [Option.or_assoc]
      congr 1
      cases mayTake timeout last f0 i0 <;> simp

/-- **C22.** A deduplicator for any positive number of transports that is asked about any sequence of frames from these
transports never panics, and accepts a frame exactly if no frame was accepted before, or the latest frame accepted before came
from the same transport, or more than the timeout has passed since that frame. -/
theorem C22_deduplicator (N : Nat) (hN : N ≠ 0) (timeout : Duration) (frames : List (Frame × Nat)) (hi : ∀ x ∈ frames, x.2 < N) :
    ∃ d d' answers, Deduplicator.new N timeout = some d ∧ d.run frames = some (d', answers) ∧ answers.length = frames.length ∧
      ∀ k f i, frames[k]? = some (f, i) → answers[k]? = some (mayTake timeout (lastTaken ((frames.zip answers).take k)) f i) := by
  have hk : Deduplicator.Knows (N := N) { states := List.replicate N none, activeIndex := 0, timeout } timeout none :=
    ⟨by simp, rfl, Nat.pos_of_ne_zero hN, rfl⟩
  obtain ⟨d', answers, h1, h2, h3⟩ := dedup_run timeout frames hi _ none hk
  refine ⟨_, d', answers, by simp [Deduplicator.new, hN], h1, h2, ?_⟩
  intro k f i h
  rw [h3 k f i h]
  simp

/-- **C22.** What "the timeout has passed" means: for a frame that arrived `elapsed` microseconds after the other, with
both `elapsed` and the timeout below half of the range of the clock, it means that `elapsed` exceeds the timeout. -/
theorem C22_timeout_passed (t : Instant) (elapsed timeout : Nat) (he : elapsed < 2 ^ 31) (ht : timeout < 2 ^ 31) :
    Instant.after (t + BitVec.ofNat 32 elapsed) (Instant.plus t (BitVec.ofNat 32 timeout)) = true ↔ timeout < elapsed := by
  unfold Instant.after Instant.before Instant.plus
  have hd : t + BitVec.ofNat 32 elapsed - (t + BitVec.ofNat 32 timeout) = BitVec.ofNat 32 elapsed - BitVec.ofNat 32 timeout := by
    apply BitVec.eq_of_toNat_eq
    simp only [BitVec.toNat_sub, BitVec.toNat_add, BitVec.toNat_ofNat]
    have := t.isLt
    omega
  have hne : (t + BitVec.ofNat 32 elapsed ≠ t + BitVec.ofNat 32 timeout) ↔ elapsed ≠ timeout := by
    rw [Ne, Ne, not_congr]
    constructor
    · intro h
      have := congrArg BitVec.toNat h
      simp only [BitVec.toNat_add, BitVec.toNat_ofNat] at this
      have := t.isLt
      omega
    · rintro rfl; rfl
  simp only [Bool.and_eq_true, bne_iff_ne, hne, Bool.not_eq_true', decide_eq_false_iff_not, hd]
  simp only [BitVec.toNat_sub, BitVec.toNat_ofNat]
  omega

/-- Three transports, timeout 100: transport 1 is active, 0 is ignored, and 2 takes over after 101 µs without frames. -/
example : ((Deduplicator.new 3 100#32).bind (fun d => d.run [({ qFrame 1#32 0#8 with timestamp := 5#32 }, 1),
    ({ qFrame 1#32 0#8 with timestamp := 6#32 }, 0), ({ qFrame 1#32 0#8 with timestamp := 105#32 }, 2),
    ({ qFrame 1#32 0#8 with timestamp := 106#32 }, 2), ({ qFrame 1#32 0#8 with timestamp := 107#32 }, 1)])).map (fun p => p.2) =
    some [true, false, false, true, false] := by decide +kernel

/-! ### C23 -/

variable {σ σ0 σ1 E E0 E1 : Type}

/-- Offer all frames to a driver, whether it takes them or not: the driver afterwards, and for each frame whether it was
taken. -/
def offerAll (d : TxDriver σ E) : List Frame → σ → Option (σ × List Bool)
  | [], s => some (s, [])
  | f :: fs, s =>
    match d.transmit s f with
    | none => none
    | some (s, r) => (offerAll d fs s).map (fun p => (p.1, r.taken :: p.2))

/-- Offer all frames to a driver if it could reserve space for them, and none otherwise. -/
def offerIf (status : Bool) (d : TxDriver σ E) (fs : List Frame) (s : σ) : Option (σ × List Bool) :=
  if status then offerAll d fs s else some (s, fs.map (fun _ => false))

theorem combineTransmit_taken (r0 : TransmitResult E0) (r1 : TransmitResult E1) :
    (combineTransmit r0 r1).taken = (r0.taken || r1.taken) := by
  cases r0 <;> cases r1 <;> rfl

/-- **C23.** A reservation asks both drivers for the full number of frames and succeeds exactly if at least one succeeds. -/
theorem C23_reserve (d0 : TxDriver σ0 E0) (d1 : TxDriver σ1 E1) (s : RedundantDriver σ0 σ1) (n : Nat) (s0 : σ0) (s1 : σ1)
    (ok0 ok1 : Bool) (h0 : d0.tryReserve s.driver0 n = some (s0, ok0)) (h1 : d1.tryReserve s.driver1 n = some (s1, ok1)) :
    ∃ s', (redundantDriver d0 d1).tryReserve s n = some (s', ok0 || ok1) ∧ s'.driver0 = s0 ∧ s'.driver1 = s1 ∧
      s'.status0 = ok0 ∧ s'.status1 = ok1 := by
  simp only [redundantDriver, h0, h1]
  exact ⟨_, rfl, rfl, rfl, rfl, rfl⟩

/-- **C23.** Sending frames through a redundant driver succeeds exactly if each frame was taken by at least one of the drivers
that have room for them all, and in this case every such driver was offered all frames in order, whatever the other one did;
a driver without room is left alone. -/
theorem C23_frames_offered_to_both (d0 : TxDriver σ0 E0) (d1 : TxDriver σ1 E1) (fs : List Frame) (s : RedundantDriver σ0 σ1)
    (s0 : σ0) (s1 : σ1) (taken0 taken1 : List Bool) (h0 : offerIf s.status0 d0 fs s.driver0 = some (s0, taken0))
    (h1 : offerIf s.status1 d1 fs s.driver1 = some (s1, taken1)) :
    ∃ s' r, transmitAll (redundantDriver d0 d1) fs s = some (s', r) ∧
      (r = .ok ↔ ∀ k, k < fs.length → taken0[k]? = some true ∨ taken1[k]? = some true) ∧
      (r = .ok → s' = { s with driver0 := s0, driver1 := s1 }) := by
  induction fs generalizing s taken0 taken1 with
  | nil =>
    refine ⟨s, .ok, rfl, by simp, fun _ => ?_⟩
    have e0 : s0 = s.driver0 := by
      unfold offerIf at h0; split at h0 <;> simp [offerAll] at h0 <;> exact h0.1.symm
    have e1 : s1 = s.driver1 := by
      unfold offerIf at h1; split at h1 <;> simp [offerAll] at h1 <;> exact h1.1.symm
    rw [e0, e1]
  | cons f fs ih =>
    -- one frame for each driver
    have step : ∀ {σ E : Type} (d : TxDriver σ E) (st : Bool) (s sEnd : σ) (taken : List Bool),
        offerIf st d (f :: fs) s = some (sEnd, taken) →
        ∃ smid r rest, (if st then d.transmit s f else some (s, .wouldBlock)) = some (smid, r) ∧ taken = r.taken :: rest ∧
          offerIf st d fs smid = some (sEnd, rest) := by
      intro σ E d st s sEnd taken h
      unfold offerIf at h ⊢
      cases st with
      | true =>
        simp only [if_true, offerAll] at h ⊢
        cases ht : d.transmit s f with
        | none => rw [ht] at h; cases h
        | some p =>
          obtain ⟨smid, r⟩ := p
          rw [ht] at h
          simp only [Option.map_eq_some_iff] at h
          obtain ⟨⟨x, y⟩, h2, h3⟩ := h
          cases h3
          exact ⟨smid, r, y, rfl, rfl, h2⟩
      | false =>
        simp only [Bool.false_eq_true, if_false, Option.some.injEq, Prod.mk.injEq, List.map_cons] at h ⊢
        obtain ⟨rfl, rfl⟩ := h
        exact ⟨s, .wouldBlock, _, ⟨rfl, rfl⟩, rfl, rfl, rfl⟩
    obtain ⟨m0, r0, rest0, ht0, rfl, hr0⟩ := step d0 s.status0 s.driver0 s0 taken0 h0
    obtain ⟨m1, r1, rest1, ht1, rfl, hr1⟩ := step d1 s.status1 s.driver1 s1 taken1 h1
    have htr : (redundantDriver d0 d1).transmit s f =
        some ({ s with driver0 := m0, driver1 := m1 }, combineTransmit r0 r1) := by
      simp only [redundantDriver, ht0, ht1]
    obtain ⟨s', r, h2, h3, h4⟩ := ih { s with driver0 := m0, driver1 := m1 } rest0 rest1 hr0 hr1
    have htk := combineTransmit_taken r0 r1
    cases hc : combineTransmit r0 r1 with
    | ok d =>
      rw [hc] at htr htk
      refine ⟨s', r, by simp only [transmitAll, htr]; exact h2, ?_, h4⟩
      rw [h3]
      constructor
      · intro h k hk
        cases k with
        | zero =>
          have : (r0.taken || r1.taken) = true := htk.symm
          simpa using this
        | succ k => simpa using h k (by simpa using hk)
      · intro h k hk
        simpa using h (k + 1) (by simpa using hk)
    | wouldBlock =>
      rw [hc] at htr htk
      refine ⟨_, .wouldBlock, by simp only [transmitAll, htr]; rfl, ?_, by simp⟩
      have : (r0.taken || r1.taken) = false := htk.symm
      simp only [Bool.or_eq_false_iff] at this
      constructor
      · intro h; cases h
      · intro h; have := h 0 (by simp); simp_all
    | other e =>
      rw [hc] at htr htk
      refine ⟨_, .driver e, by simp only [transmitAll, htr]; rfl, ?_, by simp⟩
      have : (r0.taken || r1.taken) = false := htk.symm
      simp only [Bool.or_eq_false_iff] at this
      constructor
      · intro h; cases h
      · intro h; have := h 0 (by simp); simp_all

/-- **C23.** Success and failure do not depend on the order of the two drivers. -/
theorem C23_symmetric (r0 : TransmitResult E0) (r1 : TransmitResult E1) :
    (combineTransmit r0 r1).taken = (combineTransmit r1 r0).taken ∧
    ((combineTransmit r0 r1).taken = true ↔ (r0.taken = true ∨ r1.taken = true)) ∧
    (combineTransmit r0 r1 = .wouldBlock ↔ combineTransmit r1 r0 = .wouldBlock) := by
  cases r0 <;> cases r1 <;> simp [combineTransmit, TransmitResult.taken]

/-- **C23.** A flush succeeds exactly if it succeeds for at least one driver; it asks to be retried exactly if both do. -/
theorem C23_flush (r0 : FlushStatus E0) (r1 : FlushStatus E1) :
    (combineFlush r0 r1 = .ok ↔ r0 = .ok ∨ r1 = .ok) ∧
    (combineFlush r0 r1 = .wouldBlock ↔ r0 = .wouldBlock ∧ r1 = .wouldBlock) := by
  cases r0 <;> cases r1 <;> simp [combineFlush]

/-- **C23.** A transfer pushed through two array queues: there is a correct sequence of frames for it such that each of the
queues that has room for all of them receives all of them, a queue that has not is left as it was, and the push fails exactly
if neither has. -/
theorem C23_push_two_queues (N0 N1 cap mtu : Nat) (transfer : CanTransfer) (hm : 1 < mtu) (hl : LegalLength mtu) (hcap : mtu ≤ cap)
    (s : RedundantDriver (ArrayQueue N0) (ArrayQueue N1)) (hq0 : s.driver0.Reachable) (hq1 : s.driver1.Reachable) :
    ∃ id padding fs s' r, Segmentation mtu transfer id padding fs ∧
      pushInner (redundantDriver (singleQueueDriver E0 (arrayQueueImpl N0)) (singleQueueDriver E1 (arrayQueueImpl N1))) cap mtu
        transfer s = some (s', r) ∧
      (s.driver0.toList.length + fs.length ≤ N0 →
        s'.driver0.toList = s.driver0.toList.filter (fun g => decide (g.id ≤ id)) ++ fs ++
          s.driver0.toList.filter (fun g => decide (id < g.id))) ∧
      (¬ s.driver0.toList.length + fs.length ≤ N0 → s'.driver0 = s.driver0) ∧
      (s.driver1.toList.length + fs.length ≤ N1 →
        s'.driver1.toList = s.driver1.toList.filter (fun g => decide (g.id ≤ id)) ++ fs ++
          s.driver1.toList.filter (fun g => decide (id < g.id))) ∧
      (¬ s.driver1.toList.length + fs.length ≤ N1 → s'.driver1 = s.driver1) ∧
      (r = .ok ↔ s.driver0.toList.length + fs.length ≤ N0 ∨ s.driver1.toList.length + fs.length ≤ N1) ∧
      (r ≠ .ok → r = .memory) := by
  obtain ⟨id, padding, fs, -, hseg, hpush⟩ := C05_segmentation cap mtu transfer hm hl hcap
  have hres : ∀ {E : Type} {N : Nat} (q : ArrayQueue N), q.Reachable →
      (singleQueueDriver E (arrayQueueImpl N)).tryReserve q fs.length = some (q, decide (q.toList.length + fs.length ≤ N)) := by
    intro E N q hq
    have hok := reachable_ok hq
    have hlen := toList_length hok
    have hb := hok.bound
    show (q.tryReserve fs.length).map (fun b => (q, b)) = _
    unfold ArrayQueue.tryReserve
    rw [if_pos hb, Option.map_some, hlen]
    congr 3
    exact propext ⟨by omega, by omega⟩
  have hoff : ∀ {E : Type} {N : Nat} (q : ArrayQueue N), q.Reachable →
      ∃ q' taken, offerIf (decide (q.toList.length + fs.length ≤ N)) (singleQueueDriver E (arrayQueueImpl N)) fs q = some (q', taken) ∧
        taken = fs.map (fun _ => decide (q.toList.length + fs.length ≤ N)) ∧
        (q.toList.length + fs.length ≤ N → q'.toList = fs.foldl (fun l f => insertBehind f l) q.toList) ∧
        (¬ q.toList.length + fs.length ≤ N → q' = q) := by
    intro E N q hq
    have hok := reachable_ok hq
    by_cases hroom : q.toList.length + fs.length ≤ N
    · have gen : ∀ (fs : List Frame) (q : ArrayQueue N), q.Ok → q.toList.length + fs.length ≤ N →
          ∃ q', offerAll (singleQueueDriver E (arrayQueueImpl N)) fs q = some (q', fs.map (fun _ => true)) ∧
            q'.toList = fs.foldl (fun l f => insertBehind f l) q.toList := by
        intro fs
        induction fs with
        | nil => intro q _ _; exact ⟨q, rfl, rfl⟩
        | cons f fs ih =>
          intro q hq hr
          simp only [List.length_cons] at hr
          have hlt : q.toList.length < N := by omega
          obtain ⟨q1, h1, h2, h3⟩ := (arrayQueue_correct N).push q f hq
          rw [if_pos hlt] at h3
          rw [decide_eq_true hlt] at h1
          obtain ⟨q', h4, h5⟩ := ih q1 h2 (by rw [h3, insertBehind_length]; omega)
          refine ⟨q', ?_, by rw [h5, h3]; rfl⟩
          simp only [offerAll, singleQueueDriver, h1, Option.map_some] at h4 ⊢
          rw [h4]
          rfl
      obtain ⟨q', h1, h2⟩ := gen fs q hok hroom
      exact ⟨q', _, by unfold offerIf; rw [if_pos (decide_eq_true hroom)]; exact h1, by simp [hroom], fun _ => h2, fun h => absurd hroom h⟩
    · exact ⟨q, _, by unfold offerIf; rw [if_neg (by simp [hroom])], by simp [hroom], fun h => absurd h hroom, fun _ => rfl⟩
  obtain ⟨q0, taken0, ho0, ht0, ha0, hb0⟩ := hoff (E := E0) s.driver0 hq0
  obtain ⟨q1, taken1, ho1, ht1, ha1, hb1⟩ := hoff (E := E1) s.driver1 hq1
  have hr := C23_reserve (singleQueueDriver E0 (arrayQueueImpl N0)) (singleQueueDriver E1 (arrayQueueImpl N1)) s fs.length
    s.driver0 s.driver1 _ _ (hres s.driver0 hq0) (hres s.driver1 hq1)
  obtain ⟨s1, hr1, hr2, hr3, hr4, hr5⟩ := hr
  by_cases hany : s.driver0.toList.length + fs.length ≤ N0 ∨ s.driver1.toList.length + fs.length ≤ N1
  · rw [← hr4, ← hr2] at ho0
    rw [← hr5, ← hr3] at ho1
    obtain ⟨s', r, h1, h2, h3⟩ := C23_frames_offered_to_both _ _ fs s1 q0 q1 taken0 taken1 ho0 ho1
    have hok : r = .ok := by
      rw [h2]
      intro k hk
      rw [ht0, ht1]
      rcases hany with h | h
      · left; simp [hk, h]
      · right; simp [hk, h]
    have hs := h3 hok
    have hids : ∀ f ∈ fs, f.id = id := fun f hf => (hseg.fields f hf).1
    refine ⟨id, padding, fs, s', r, hseg, ?_, by rw [hs, ← insertBehind_many_ordered id fs hids _ (reachable_ok hq0).ordered]; exact ha0, by rw [hs]; exact hb0, by rw [hs, ← insertBehind_many_ordered id fs hids _ (reachable_ok hq1).ordered]; exact ha1, by rw [hs]; exact hb1,
      ⟨fun _ => hany, fun _ => hok⟩, fun h => absurd hok h⟩
    rw [hpush]
    unfold reserveAndTransmit
    rw [hr1]
    have : (decide (s.driver0.toList.length + fs.length ≤ N0) || decide (s.driver1.toList.length + fs.length ≤ N1)) = true := by
      simpa using hany
    rw [this]
    exact h1
  · have hn := not_or.mp hany
    refine ⟨id, padding, fs, s1, .memory, hseg, ?_, fun h => absurd h hn.1, fun _ => hr2, fun h => absurd h hn.2, fun _ => hr3,
      ⟨by simp, fun h => absurd h hany⟩, fun _ => rfl⟩
    rw [hpush]
    unfold reserveAndTransmit
    rw [hr1]
    have : (decide (s.driver0.toList.length + fs.length ≤ N0) || decide (s.driver1.toList.length + fs.length ≤ N1)) = false := by
      simpa using hn
    rw [this]

/-- Two queues, of which one has room for only one frame: the two-frame transfer goes to the other one. -/
example : (pushInner (redundantDriver (singleQueueDriver Empty (arrayQueueImpl 1)) (singleQueueDriver Empty (arrayQueueImpl 2))) 8 8
    (demoTransfer 8) (RedundantDriver.new (ArrayQueue.new 1) (ArrayQueue.new 2))).map
    (fun p => (p.1.driver0.toList.length, p.1.driver1.toList.map (fun f => f.data.length))) = some (0, [8, 4]) := by decide +kernel

/-! ### C24 -/

variable {TC RC : Nat} {S : Type}

theorem pushSubscriptions_spec (news : List S) (answers : List Bool) (acc : List S) :
    ((pushSubscriptions news answers acc).2 = false → (pushSubscriptions news answers acc).1 = acc ++ news) ∧
    ((pushSubscriptions news answers acc).2 = true ↔ false ∈ answers.take news.length) := by
  induction news generalizing answers acc with
  | nil => simp [pushSubscriptions]
  | cons x rest ih =>
    match answers with
    | [] =>
      obtain ⟨h1, h2⟩ := ih [] (acc ++ [x])
      simp only [pushSubscriptions]
      exact ⟨fun h => by rw [h1 h]; simp, by simpa using h2⟩
    | true :: as =>
      obtain ⟨h1, h2⟩ := ih as (acc ++ [x])
      simp only [pushSubscriptions]
      exact ⟨fun h => by rw [h1 h]; simp, by rw [h2]; simp⟩
    | false :: as => simp [pushSubscriptions]

/-- **C24**, the part that holds: if filters had been stored before, or if memory does not run out, then the stored list is
afterwards complete, or absent, and it is absent exactly if memory ran out. Missing: the first application after there was no
list, when memory runs out; see `C24_partial_list_counterexample`. -/
theorem C24_complete_or_absent_partial (d : QueueOnlyDriver TC RC S) (news : List S) (answers : List Bool)
    (h : d.subscriptions.isSome ∨ false ∉ answers.take news.length) :
    (d.applyFilters news answers).subscriptions = if false ∈ answers.take news.length then none else some news := by
  obtain ⟨h1, h2⟩ := pushSubscriptions_spec news answers ([] : List S)
  unfold QueueOnlyDriver.applyFilters
  by_cases hf : false ∈ answers.take news.length
  · rw [if_pos hf]
    have hsome : d.subscriptions.isSome := by
      rcases h with h | h
      · exact h
      · exact absurd hf h
    have ht := h2.mpr hf
    cases hs : d.subscriptions with
    | none => rw [hs] at hsome; cases hsome
    | some l =>
      cases hp : pushSubscriptions news answers ([] : List S) with | mk a b =>
      rw [hp] at ht
      cases ht
      simp only
  · rw [if_neg hf]
    have hb : (pushSubscriptions news answers ([] : List S)).2 = false := by
      cases hb : (pushSubscriptions news answers ([] : List S)).2 with
      | false => rfl
      | true => exact absurd (h2.mp hb) hf
    have hl := h1 hb
    cases hp : pushSubscriptions news answers ([] : List S) with | mk a b =>
    rw [hp] at hb hl
    cases hb
    simp only [List.nil_append] at hl
    subst hl
    cases d.subscriptions <;> rfl

/-- The hypothesis is met, with memory running out at the second of three filters. -/
example : (({ QueueOnlyDriver.new 4 4 Nat with subscriptions := some [7] } : QueueOnlyDriver 4 4 Nat).applyFilters [1, 2, 3]
    [true, false]).subscriptions = none := by decide

/-- **C24**, negation: memory runs out at the second of three filters of the first application; only the first is stored. -/
theorem C24_partial_list_counterexample :
    ((QueueOnlyDriver.new 4 4 Nat).applyFilters [1, 2, 3] [true, false]).subscriptions = some [1] := by decide

end Verif.Can
