import Verif.Can.RxTableLemmas

/-!
Properties of the sessions of the CAN receiver: C10 (independence), C09 (duplicates) and C14 (transfer-ID timeout).
-/

namespace Verif.Can

/-- The transfers of one session among those delivered. -/
def transfersOf (key : Key) (ts : List CanTransfer) : List CanTransfer :=
  ts.filter (fun t => decide (key.Matches t.header))

/-- **C10.** Dropping every call that has nothing to do with a session (frames of other kinds, ports or sources, malformed
frames, and subscription changes of other ports) from a run leaves exactly the same transfers of that session, in the same
order, and the same session state. -/
theorem C10_session_independence {checks : Bool} (key : Key) {ops : List Op} {r r' : Receiver} {ts : List CanTransfer}
    (hv : ∀ op ∈ ops, op.Valid) (he : r.exec checks ops = some (r', ts)) :
    ∃ r'', r.exec checks (ops.filter key.relevant) = some (r'', transfersOf key ts) ∧ r''.view key = r'.view key := by
  obtain ⟨r'', h1, -, h3⟩ := exec_relevant checks key ops r r r' ts hv rfl rfl he
  exact ⟨r'', h1, h3.symm⟩

/-- **C10.** Two runs that agree on the calls that concern a session deliver the same transfers for it: inserting,
removing or reordering anything else makes no difference. -/
theorem C10_sessions_do_not_interfere {checks : Bool} (key : Key) {ops1 ops2 : List Op} {r r1 r2 : Receiver}
    {ts1 ts2 : List CanTransfer} (hv1 : ∀ op ∈ ops1, op.Valid) (hv2 : ∀ op ∈ ops2, op.Valid)
    (hsame : ops1.filter key.relevant = ops2.filter key.relevant)
    (he1 : r.exec checks ops1 = some (r1, ts1)) (he2 : r.exec checks ops2 = some (r2, ts2)) :
    transfersOf key ts1 = transfersOf key ts2 := by
  obtain ⟨s1, h1, -⟩ := C10_session_independence key hv1 he1
  obtain ⟨s2, h2, -⟩ := C10_session_independence key hv2 he2
  rw [hsame, h2] at h1
  simp only [Option.some.injEq, Prod.mk.injEq] at h1
  exact h1.2.symm

/-- A message frame on subject 100 from the node in the last 7 bits of `src`. -/
def demoFrame (ts : Instant) (src : BitVec 32) (data : List Byte) : Frame :=
  { timestamp := ts, id := 0x10606400#32 ||| src, loopback := false, data }

/-- Two senders interleaved; the second one sends a two-frame transfer (`01 02 .. 08` with CRC 4792). -/
def demoInterleaved : List Op :=
  [.subscribeMessage false 100#13 64 1000#32,
   .frame (demoFrame 5#32 9#32 [1#8, 2#8, 3#8, 4#8, 5#8, 6#8, 7#8, 0xa3#8]) false,
   .frame (demoFrame 6#32 8#32 [0xaa#8, 0xe0#8]) false,
   .frame (demoFrame 7#32 9#32 [8#8, 0x47#8, 0x92#8, 0x43#8]) false,
   .frame (demoFrame 8#32 8#32 [0xbb#8, 0xe1#8]) false]

example : ((Receiver.new none).exec true demoInterleaved).map (fun p => p.2.map (fun t => (t.header.source, t.payload))) =
    some [(some 8#7, [0xaa#8]), (some 9#7, [1#8, 2#8, 3#8, 4#8, 5#8, 6#8, 7#8, 8#8]), (some 8#7, [0xbb#8])] := by
  decide +kernel

example : (demoInterleaved.filter (Key.relevant { kind := .message, port := 100, source := 9#7 })).length = 3 := by decide

/-! ### Duplicates -/

/-- `t` is at or after `t0`, by at most `timeout`, on the wrapping 32-bit clock. -/
def WithinTimeout (t0 t : Instant) (timeout : Duration) : Prop :=
  (t - t0).toNat < 2 ^ 31 ∧ (t - t0).toNat ≤ timeout.toNat

theorem timedOut_iff (s : SessionState) (timeout : Duration) (t0 t : Instant) (h : s.lastTransferTime = some t0) :
    s.timedOut timeout t = false ↔ WithinTimeout t0 t timeout := by
  unfold SessionState.timedOut WithinTimeout
  rw [h]
  simp only
  unfold Instant.checkedDurationSince Instant.before
  by_cases h1 : (t - t0).toNat > 2147483647
  · rw [decide_eq_true h1]
    simp only [if_true]
    constructor
    · intro h; cases h
    · rintro ⟨h2, -⟩; omega
  · rw [decide_eq_false h1]
    simp only [Bool.false_eq_true, if_false, decide_eq_false_iff_not]
    omega

theorem tid_increment_ne (t : Tid) : t.increment ≠ t := by
  revert t; decide

/-- The state right after a delivery. -/
theorem deliver_state {checks oom : Bool} {e : Nat} {to : Duration} {s s' : SessionState} {f : Frame}
    {h : CanHeader} {t : TailByte} {tr : CanTransfer} (hts : h.timestamp = f.timestamp) (htid : h.transferId = t.transferId)
    (ha : s.checkedAccept checks oom e to f h t = some (s', .ok (some tr))) :
    s' = { expectedTid := tr.header.transferId.increment, lastTransferTime := some tr.header.timestamp, session := none } := by
  have key : ∀ s s' : SessionState, s.expectedTid = t.transferId →
      s.acceptNonAnonymous checks oom e f h t = some (s', .ok (some tr)) →
      s' = { expectedTid := tr.header.transferId.increment, lastTransferTime := some tr.header.timestamp, session := none } := by
    intro s s' hexp ha
    unfold SessionState.acceptNonAnonymous at ha
    split at ha
    · cases ha
    split at ha
    · split at ha
      · cases ha
      · simp only at ha
        split at ha
        · cases ha
        · cases ha
          simp [SessionState.flagSuccessful, hexp, htid, hts]
    · unfold SessionState.acceptWithSession at ha
      split at ha
      · cases ha
      simp only at ha
      split at ha
      · cases ha
      · split at ha
        · cases ha
        · rename_i hs
          cases ha
          unfold Session.accept at hs
          split at hs
          · cases hs
          · split at hs
            · cases hs
            · cases hs
            · cases hs
            · cases hs
              simp [SessionState.flagSuccessful, hexp, htid]
        · cases ha
        · cases ha
  unfold SessionState.checkedAccept at ha
  split at ha
  · rename_i heq
    exact key _ _ heq.symm ha
  split at ha
  · cases ha
  · exact key _ _ rfl ha

/-- The view right after a delivery. -/
theorem deliver_view {checks oom : Bool} {r r' : Receiver} {f : Frame} {tr : CanTransfer} {key : Key}
    (hv : f.id.toNat < 2 ^ 29) (ha : r.acceptFrame checks oom f = some (r', .transfer tr)) (hk : key.Matches tr.header) :
    ∃ v, r.view key = some v ∧ r'.view key = some { v with state :=
      { expectedTid := tr.header.transferId.increment, lastTransferTime := some tr.header.timestamp, session := none } } := by
  obtain ⟨h, t, sub, hr, ⟨ts, hts⟩, -⟩ := acceptFrame_transfer hv ha
  rw [hts, matches_setTimestamp] at hk
  have hview := frame_view checks oom r f key h t hr hk hv
  cases hw : viewFrame checks oom r.id (r.view key) f h t with
  | none => rw [hw] at hview; simp only at hview; rw [hview] at ha; cases ha
  | some q =>
    obtain ⟨v', a⟩ := q
    rw [hw] at hview
    obtain ⟨r2, h1, h2, h3⟩ := hview
    rw [ha] at h1
    cases h1
    unfold viewFrame at hw
    cases hrv : r.view key with
    | none => rw [hrv] at hw; cases hw
    | some v =>
      rw [hrv] at hw
      simp only at hw
      split at hw
      · cases hc : v.state.checkedAccept checks oom v.extent v.timeout f h t with
        | none => rw [hc] at hw; cases hw
        | some q =>
          obtain ⟨st, res⟩ := q
          rw [hc] at hw
          simp only [Option.some.injEq, Prod.mk.injEq] at hw
          obtain ⟨rfl, hout⟩ := hw
          have hres : res = .ok (some tr) := by
            cases res with
            | ok o =>
              cases o with
              | none => cases hout
              | some x => cases hout; rfl
            | error e => cases e <;> cases hout
          subst hres
          have := deliver_state (readFrame_fields hr).1 (readFrame_fields hr).2 hc
          exact ⟨v, rfl, by rw [h3, this]⟩
      · cases hw

/-- **C09.** After a transfer was delivered, every later frame of the same session with the same transfer ID whose
timestamp is within the transfer-ID timeout of the delivered transfer is dropped: whatever else happens in between in
other sessions, nothing more is delivered for this session and its state does not change. -/
theorem C09_duplicates_suppressed {checks oom : Bool} {r r1 r2 : Receiver} {f : Frame} {tr : CanTransfer} {key : Key}
    {v : View} {ops : List Op} {ts : List CanTransfer} (hv : f.id.toNat < 2 ^ 29)
    (hd : r.acceptFrame checks oom f = some (r1, .transfer tr)) (hk : key.Matches tr.header) (hview : r1.view key = some v)
    (hval : ∀ op ∈ ops, op.Valid)
    (hdup : ∀ op ∈ ops, key.relevant op = true → ∃ g o h t, op = .frame g o ∧ readFrame g = some (h, t) ∧
      t.transferId = tr.header.transferId ∧ WithinTimeout tr.header.timestamp g.timestamp v.timeout)
    (he : r1.exec checks ops = some (r2, ts)) :
    transfersOf key ts = [] ∧ r2.view key = some v := by
  obtain ⟨v0, -, hv1⟩ := deliver_view hv hd hk
  rw [hview] at hv1
  have hstate : v.state =
      { expectedTid := tr.header.transferId.increment, lastTransferTime := some tr.header.timestamp, session := none } := by
    cases hv1; rfl
  clear hd hv hv1
  induction ops generalizing r1 ts with
  | nil => cases he; exact ⟨rfl, hview⟩
  | cons op ops ih =>
    unfold Receiver.exec at he
    cases hs : r1.step checks op with
    | none => rw [hs] at he; cases he
    | some q =>
      obtain ⟨s1, a⟩ := q
      rw [hs] at he
      simp only at he
      cases he2 : s1.exec checks ops with
      | none => rw [he2] at he; cases he
      | some q =>
        obtain ⟨r2', ts'⟩ := q
        rw [he2] at he
        simp only [Option.some.injEq, Prod.mk.injEq] at he
        obtain ⟨rfl, rfl⟩ := he
        have hop := hval op (List.mem_cons_self ..)
        have step : s1.view key = some v ∧ ∀ t, a = .transfer t → ¬ key.Matches t.header := by
          cases hrel : key.relevant op with
          | false =>
            obtain ⟨-, h1, h2⟩ := step_irrelevant hop hrel hs
            exact ⟨h1.trans hview, h2⟩
          | true =>
            obtain ⟨g, o, h, t, rfl, hr, htid, hin⟩ := hdup op (List.mem_cons_self ..) hrel
            have hm : key.Matches h := by simpa [Key.relevant, hr] using hrel
            have hfv := frame_view checks o r1 g key h t hr hm hop
            have hvf : ∃ v', viewFrame checks o r1.id (r1.view key) g h t = some (v', .nothing) ∧ v' = some v := by
              rw [hview]
              unfold viewFrame
              simp only
              split
              · have hc : v.state.checkedAccept checks o v.extent v.timeout g h t = some (v.state, .ok none) := by
                  unfold SessionState.checkedAccept
                  have hto : v.state.timedOut v.timeout g.timestamp = false := by
                    rw [timedOut_iff (t0 := tr.header.timestamp)]
                    · exact hin
                    · rw [hstate]
                  rw [if_neg, if_pos]
                  · rw [hto, htid, hstate]; simp
                  · rw [htid, hstate]; exact fun e => tid_increment_ne _ e.symm
                rw [hc]
                exact ⟨_, rfl, rfl⟩
              · exact ⟨_, rfl, rfl⟩
            obtain ⟨v', hvf, rfl⟩ := hvf
            rw [hvf] at hfv
            obtain ⟨s2, h1, -, h3⟩ := hfv
            rw [show r1.step checks (.frame g o) = r1.acceptFrame checks o g from rfl, h1] at hs
            cases hs
            exact ⟨h3, by simp⟩
        obtain ⟨i1, i2⟩ := ih step.1 (fun o ho => hval o (List.mem_cons_of_mem _ ho))
          (fun o ho => hdup o (List.mem_cons_of_mem _ ho)) he2
        refine ⟨?_, i2⟩
        cases a with
        | nothing => exact i1
        | outOfMemory => exact i1
        | transfer t =>
          unfold transfersOf at i1 ⊢
          rw [List.filter_cons, if_neg (by simpa using step.2 t rfl)]
          exact i1

/-- The same single-frame transfer three times, the last one after the timeout. -/
example : ((Receiver.new none).exec true
    [.subscribeMessage false 100#13 64 1000#32, .frame (demoFrame 4294967290#32 8#32 [0xaa#8, 0xe0#8]) false,
     .frame (demoFrame 994#32 8#32 [0xaa#8, 0xe0#8]) false,
     .frame (demoFrame 995#32 8#32 [0xaa#8, 0xe0#8]) false]).map (fun p => p.2.map (fun t => t.header.timestamp)) =
    some [4294967290#32, 995#32] := by decide

/-! ### Transfer-ID timeout -/

/-- The frame with this transfer ID counts as a repetition of the last transfer of the session: it has the transfer ID
before the expected one, and the timeout has not elapsed since the last delivered transfer. -/
def Duplicate (v : View) (tid : Tid) (now : Instant) : Prop :=
  tid.increment = v.state.expectedTid ∧ ∃ t0, v.state.lastTransferTime = some t0 ∧ WithinTimeout t0 now v.timeout

theorem duplicate_iff (v : View) (tid : Tid) (now : Instant) :
    (tid.increment = v.state.expectedTid && !v.state.timedOut v.timeout now) = true ↔ Duplicate v tid now := by
  unfold Duplicate
  simp only [Bool.and_eq_true, decide_eq_true_eq, Bool.not_eq_true']
  refine and_congr_right (fun _ => ?_)
  cases hl : v.state.lastTransferTime with
  | none => simp [SessionState.timedOut, hl]
  | some t0 => rw [timedOut_iff _ _ t0 _ hl]; simp

/-- **C14.** A frame that is a whole transfer is delivered exactly if it is not a repetition of the last delivered transfer
within the timeout. In particular, once the timeout has elapsed it is delivered whatever transfer ID it carries and whatever
the session was doing. -/
theorem C14_single_frame_delivered_iff {checks : Bool} {r : Receiver} {f : Frame} {key : Key} {v : View} {h : CanHeader}
    {t : TailByte} (hv : f.id.toNat < 2 ^ 29) (hr : readFrame f = some (h, t)) (hk : key.Matches h)
    (hpass : ∀ d, h.destination = some d → f.loopback = false → r.id = some d)
    (hview : r.view key = some v) (hse : t.start = true ∧ t.end_ = true) :
    ∃ r' a, r.acceptFrame checks false f = some (r', a) ∧
      (Duplicate v t.transferId f.timestamp → a = .nothing ∧ r'.view key = some v) ∧
      (¬ Duplicate v t.transferId f.timestamp → a = .transfer
        { header := h, loopback := f.loopback, payload := (f.data.take (f.data.length - 1)).take v.extent }) := by
  have hp : passes r.id f.loopback h = true := by
    unfold passes
    cases hd : h.destination with
    | none => rfl
    | some d =>
      cases hl : f.loopback with
      | true => rfl
      | false => simp [hpass d hd hl]
  obtain ⟨_, _, _, hne, _⟩ := readFrame_data hr
  have hna : ∀ s : SessionState, s.expectedTid = t.transferId →
      s.acceptNonAnonymous checks false v.extent f h t = some (s.flagSuccessful f.timestamp,
        .ok (some { header := h, loopback := f.loopback, payload := (f.data.take (f.data.length - 1)).take v.extent })) := by
    intro s hs
    unfold SessionState.acceptNonAnonymous
    simp [hs, hse.1, hse.2, hne, List.take_take]
  have hfv := frame_view checks false r f key h t hr hk hv
  rw [hview] at hfv
  unfold viewFrame at hfv
  simp only [hp, if_true] at hfv
  unfold SessionState.checkedAccept at hfv
  by_cases h1 : t.transferId = v.state.expectedTid
  · rw [if_pos h1, hna _ h1.symm] at hfv
    obtain ⟨r', e1, -, e3⟩ := hfv
    refine ⟨r', _, e1, ?_, fun _ => rfl⟩
    rintro ⟨hd, -⟩
    rw [h1] at hd
    exact absurd hd (tid_increment_ne _)
  · rw [if_neg h1] at hfv
    by_cases h2 : (t.transferId.increment = v.state.expectedTid && !v.state.timedOut v.timeout f.timestamp) = true
    · rw [if_pos h2] at hfv
      obtain ⟨r', e1, -, e3⟩ := hfv
      refine ⟨r', _, e1, fun _ => ⟨rfl, e3⟩, fun hn => absurd ((duplicate_iff ..).mp h2) hn⟩
    · rw [if_neg h2, hna _ rfl] at hfv
      obtain ⟨r', e1, -, e3⟩ := hfv
      exact ⟨r', _, e1, fun hd => absurd ((duplicate_iff ..).mpr hd) h2, fun _ => rfl⟩

/-- **C14, partial.** The first frame of a multi-frame transfer starts a new session exactly if it is not a repetition of the
last delivered transfer within the timeout, provided that no half-received transfer with the very same transfer ID is
pending. Missing from the full statement: with such a pending session the start frame is ignored however much time has
passed (`C14_stale_session_counterexample`). -/
theorem C14_start_frame_opens_session_partial {checks : Bool} {r : Receiver} {f : Frame} {key : Key} {v : View}
    {h : CanHeader} {t : TailByte} (hv : f.id.toNat < 2 ^ 29) (hr : readFrame f = some (h, t)) (hk : key.Matches h)
    (hpass : ∀ d, h.destination = some d → f.loopback = false → r.id = some d)
    (hview : r.view key = some v) (hs : t.start = true) (hend : t.end_ = false) (htog : t.toggle = true)
    (hstale : v.state.session = none ∨ v.state.expectedTid ≠ t.transferId) :
    ∃ r', r.acceptFrame checks false f = some (r', .nothing) ∧
      (Duplicate v t.transferId f.timestamp → r'.view key = some v) ∧
      (¬ Duplicate v t.transferId f.timestamp → ∃ v' s, r'.view key = some v' ∧ v'.state.expectedTid = t.transferId ∧
        v'.state.session = some s ∧ s.transferTimestamp = f.timestamp ∧
        s.buildup.payloadSize = f.data.length - 1 ∧
        s.buildup.transfer = (f.data.take (f.data.length - 1)).take v.extent) := by
  have hp : passes r.id f.loopback h = true := by
    unfold passes
    cases hd : h.destination with
    | none => rfl
    | some d =>
      cases hl : f.loopback with
      | true => rfl
      | false => simp [hpass d hd hl]
  obtain ⟨last, hlast, htp, hne, _⟩ := readFrame_data hr
  have hna : ∀ s : SessionState, s.expectedTid = t.transferId → s.session = none →
      ∃ s' ss, s.acceptNonAnonymous checks false v.extent f h t = some (s', .ok none) ∧ s'.expectedTid = t.transferId ∧
        s'.session = some ss ∧ ss.transferTimestamp = f.timestamp ∧ ss.buildup.payloadSize = f.data.length - 1 ∧
        ss.buildup.transfer = (f.data.take (f.data.length - 1)).take v.extent := by
    intro s he hses
    unfold SessionState.acceptNonAnonymous
    rw [if_neg (by simp [he]), if_neg (by simp [hend])]
    unfold SessionState.acceptWithSession
    rw [if_neg (by simp [he]), hses]
    have h1 : (TailByte.parse last).start = true := by rw [← htp]; exact hs
    have h2 : (TailByte.parse last).end_ = false := by rw [← htp]; exact hend
    have h3 : (TailByte.parse last).toggle = true := by rw [← htp]; exact htog
    simp only [hs, Session.accept, Session.new, Buildup.add, Buildup.new, hlast, h1, h2, h3]
    simp only [Bool.not_true, Bool.false_eq_true, if_false, ne_eq, not_true_eq_false]
    refine ⟨_, _, rfl, he, rfl, (readFrame_fields hr).1, ?_, ?_⟩
    · simp
    · simp [List.take_take]
  have hfv := frame_view checks false r f key h t hr hk hv
  rw [hview] at hfv
  unfold viewFrame at hfv
  simp only [hp, if_true] at hfv
  unfold SessionState.checkedAccept at hfv
  by_cases h1 : t.transferId = v.state.expectedTid
  · have hses : v.state.session = none := hstale.resolve_right (fun h => h h1.symm)
    obtain ⟨s', ss, e0, e4, e5, e6, e7, e8⟩ := hna _ h1.symm hses
    rw [if_pos h1, e0] at hfv
    obtain ⟨r', e1, -, e3⟩ := hfv
    refine ⟨r', e1, ?_, fun _ => ⟨_, ss, e3, e4, e5, e6, e7, e8⟩⟩
    rintro ⟨hd, -⟩
    rw [h1] at hd
    exact absurd hd (tid_increment_ne _)
  · rw [if_neg h1] at hfv
    by_cases h2 : (t.transferId.increment = v.state.expectedTid && !v.state.timedOut v.timeout f.timestamp) = true
    · rw [if_pos h2] at hfv
      obtain ⟨r', e1, -, e3⟩ := hfv
      exact ⟨r', e1, fun _ => e3, fun hn => absurd ((duplicate_iff ..).mp h2) hn⟩
    · obtain ⟨s', ss, e0, e4, e5, e6, e7, e8⟩ :=
        hna { v.state with session := none, expectedTid := t.transferId } rfl rfl
      rw [if_neg h2, e0] at hfv
      obtain ⟨r', e1, -, e3⟩ := hfv
      exact ⟨r', e1, fun hd => absurd ((duplicate_iff ..).mpr hd) h2, fun _ => ⟨_, ss, e3, e4, e5, e6, e7, e8⟩⟩

/-- A frame of the demo session is read as expected. -/
example : (readFrame (demoFrame 995#32 8#32 [0xaa#8, 0xa0#8])).map (fun p => (p.1.source, p.2)) =
    some (some 8#7, { start := true, end_ := false, toggle := true, transferId := 0#5 }) := by decide

/-- **C14, counterexample.** The sender starts a transfer with ID 3, restarts a thousand seconds later (timeout: one second)
and sends a complete, valid two-frame transfer with ID 3. It is not delivered, because the half-received transfer is never
dropped on timeout. -/
theorem C14_stale_session_counterexample :
    ((Receiver.new none).exec true
      [.subscribeMessage false 100#13 64 1000000#32,
       .frame (demoFrame 5#32 9#32 [9#8, 9#8, 9#8, 9#8, 9#8, 9#8, 9#8, 0xa3#8]) false,
       .frame (demoFrame 1000000005#32 9#32 [1#8, 2#8, 3#8, 4#8, 5#8, 6#8, 7#8, 0xa3#8]) false,
       .frame (demoFrame 1000000006#32 9#32 [8#8, 0x47#8, 0x92#8, 0x43#8]) false]).map (fun p => p.2) = some [] ∧
    ((Receiver.new none).exec true
      [.subscribeMessage false 100#13 64 1000000#32,
       .frame (demoFrame 1000000005#32 9#32 [1#8, 2#8, 3#8, 4#8, 5#8, 6#8, 7#8, 0xa3#8]) false,
       .frame (demoFrame 1000000006#32 9#32 [8#8, 0x47#8, 0x92#8, 0x43#8]) false]).map
        (fun p => p.2.map (fun t => t.payload)) = some [[1#8, 2#8, 3#8, 4#8, 5#8, 6#8, 7#8, 8#8]] := by
  decide +kernel

end Verif.Can
