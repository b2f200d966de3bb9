import Verif.Can.RxReassembly
import Verif.Can.RxSessionProps

/-!
Properties of what the CAN receiver puts together: C13 (multi-frame integrity), C12 (extent) and C08 (no panic).
-/

namespace Verif.Can

open Verif.Crc (crc16 be16)

theorem framesOf_append (a b : List Op) : framesOf (a ++ b) = framesOf a ++ framesOf b := by
  simp [framesOf]

theorem framesOf_frame (f : Frame) (oom : Bool) : framesOf [.frame f oom] = [f] := rfl

/-- The invariant of open sessions holds throughout every history. -/
theorem history_session_inv {checks : Bool} {id : Option NodeId} {ops : List Op} {r : Receiver}
    (h : History checks id ops r) : ∀ key v, r.view key = some v → SessionInv (framesOf ops) key v := by
  induction h with
  | new =>
    intro key v hv
    exfalso
    unfold Receiver.view Receiver.find Receiver.new Receiver.subs at hv
    cases hk : key.kind <;> rw [hk] at hv <;> cases hv
  | call hist hop hs ih =>
    rename_i ops r op r' a
    intro key v hv
    rw [framesOf_append]
    have init : ∀ to e, SessionInv (framesOf ops ++ framesOf [op]) key { timeout := to, extent := e, state := .init } := by
      intro to e s hs'; cases hs'
    have sub : ∀ oom k p e to, (r.subscribe oom k p e to).1.view key = some v →
        SessionInv (framesOf ops ++ framesOf [op]) key v := by
      intro oom k p e to hview
      rw [subscribe_view] at hview
      split at hview
      · split at hview
        · cases hview; exact init _ _
        · cases hview
      · exact (ih key v hview).mono _
    have unsub : ∀ k p, (r.unsubscribe k p).view key = some v → SessionInv (framesOf ops ++ framesOf [op]) key v := by
      intro k p hview
      rw [unsubscribe_view] at hview
      split at hview
      · cases hview
      · exact (ih key v hview).mono _
    cases op with
    | frame f oom =>
      rw [framesOf_frame]
      cases hrel : key.relevant (.frame f oom) with
      | false =>
        obtain ⟨-, h1, -⟩ := step_irrelevant hop hrel hs
        exact (ih key v (h1 ▸ hv)).mono _
      | true =>
        cases hr : readFrame f with
        | none => simp [Key.relevant, hr] at hrel
        | some p =>
          obtain ⟨h, t⟩ := p
          have hk : key.Matches h := by simpa [Key.relevant, hr] using hrel
          have hfv := frame_view checks oom r f key h t hr hk hop
          cases hrv : r.view key with
          | none =>
            rw [hrv] at hfv
            obtain ⟨r2, h1, -, h3⟩ := hfv
            rw [show r.step checks (.frame f oom) = r.acceptFrame checks oom f from rfl, h1] at hs
            cases hs
            rw [h3] at hv
            cases hv
          | some w =>
            have hok := session_step (checks := checks) (oom := oom) (ih key w hrv) hr hk
            rw [hrv] at hfv
            unfold viewFrame at hfv
            simp only at hfv
            by_cases hp : passes r.id f.loopback h = true
            · rw [if_pos hp] at hfv
              cases hc : w.state.checkedAccept checks oom w.extent w.timeout f h t with
              | none =>
                rw [hc] at hfv
                simp only at hfv
                rw [show r.step checks (.frame f oom) = r.acceptFrame checks oom f from rfl, hfv] at hs
                cases hs
              | some q =>
                obtain ⟨st, res⟩ := q
                rw [hc] at hfv hok
                obtain ⟨r2, h1, -, h3⟩ := hfv
                rw [show r.step checks (.frame f oom) = r.acceptFrame checks oom f from rfl, h1] at hs
                cases hs
                rw [h3] at hv
                cases hv
                exact hok.1
            · rw [if_neg hp] at hfv
              obtain ⟨r2, h1, -, h3⟩ := hfv
              rw [show r.step checks (.frame f oom) = r.acceptFrame checks oom f from rfl, h1] at hs
              cases hs
              rw [h3] at hv
              cases hv
              exact (ih key _ hrv).mono _
    | subscribeMessage oom s e to =>
      cases hs
      rw [subscribeMessage_fst] at hv
      exact sub _ _ _ _ _ hv
    | subscribeRequest oom s e to =>
      cases hs
      rw [subscribeService_fst] at hv
      split at hv
      · exact sub _ _ _ _ _ hv
      · exact (ih key v hv).mono _
    | subscribeResponse oom s e to =>
      cases hs
      rw [subscribeService_fst] at hv
      split at hv
      · exact sub _ _ _ _ _ hv
      · exact (ih key v hv).mono _
    | unsubscribeMessage s => cases hs; exact unsub _ _ hv
    | unsubscribeRequest s => cases hs; exact unsub _ _ hv
    | unsubscribeResponse s => cases hs; exact unsub _ _ hv
    | setId i =>
      cases hs
      rw [setId_view] at hv
      exact (ih key v hv).mono _

/-- Handling one frame in any history: either a debug-build underflow, or a well-formed result. -/
theorem history_frame {checks oom : Bool} {id : Option NodeId} {ops : List Op} {r : Receiver} {f : Frame}
    (hist : History checks id ops r) (hv : f.id.toNat < 2 ^ 29) :
    match r.acceptFrame checks oom f with
    | none => checks = true ∧ ∃ key tid, Underflows key (framesOf ops) f tid
    | some (_, a) => ∀ tr src, a = .transfer tr → tr.header.source = some src → ∃ e to,
        (Config.after id ops).table tr.header.kind tr.header.port = some (e, to) ∧
        ((∃ h t, readFrame f = some (h, t) ∧ t.start = true ∧ t.end_ = true ∧ tr.header = h ∧ tr.loopback = f.loopback ∧
            tr.payload = f.body.take e) ∨
          Reassembled { kind := tr.header.kind, port := tr.header.port, source := src } (framesOf ops) f e tr) := by
  have hag := history_agrees hist
  cases hr : readFrame f with
  | none =>
    rw [acceptFrame_eq, sanityCheck_eq f hv, hr]
    simp
  | some p =>
    obtain ⟨h, t⟩ := p
    cases hsrc : h.source with
    | none =>
      -- anonymous: never panics, and the transfer has no source
      rw [acceptFrame_eq, sanityCheck_eq f hv, hr]
      obtain ⟨_, _, _, hne, _⟩ := readFrame_data hr
      simp only
      by_cases hp : passes r.id f.loopback h = true
      · rw [if_pos hp]
        unfold Receiver.acceptSaneFrame
        have hspec := acceptFirst_spec checks oom f h t (r.subs h.kind)
        cases hf : (r.subs h.kind).find? (fun s => s.port == h.port) with
        | none => rw [hf] at hspec; simp only at hspec; rw [hspec]; simp
        | some sub =>
          rw [hf] at hspec
          simp only at hspec
          have hacc : ∃ res, sub.accept checks oom f h t = some (sub, res) ∧
              ∀ tr, res = .ok (some tr) → tr.header.source = none := by
            unfold Subscription.accept acceptAnonymous
            rw [hsrc]
            simp only [hne, if_false]
            cases oom
            · exact ⟨_, rfl, by intro tr h; cases h; exact hsrc⟩
            · exact ⟨_, rfl, by intro tr h; cases h⟩
          obtain ⟨res, hacc, hres⟩ := hacc
          rw [hacc] at hspec
          simp only at hspec
          obtain ⟨l', h1, -⟩ := hspec
          rw [h1]
          simp only
          cases res with
          | ok o =>
            cases o with
            | none => simp
            | some tr0 =>
              simp only
              intro tr src htr hs
              cases htr
              rw [hres _ rfl] at hs
              cases hs
          | error e => cases e <;> simp
      · rw [if_neg hp]; simp
    | some source =>
      let key : Key := { kind := h.kind, port := h.port, source }
      have hk : key.Matches h := ⟨rfl, rfl, hsrc⟩
      have hfv := frame_view checks oom r f key h t hr hk hv
      cases hrv : r.view key with
      | none =>
        rw [hrv] at hfv
        obtain ⟨r2, h1, -, h3⟩ := hfv
        rw [h1]
        simp
      | some w =>
        have hok := session_step (checks := checks) (oom := oom) (history_session_inv hist key w hrv) hr hk
        have htab : (Config.after id ops).table h.kind h.port = some (w.extent, w.timeout) := by
          rw [← hag.find]
          unfold Receiver.view at hrv
          cases hfind : r.find key.kind key.port with
          | none => rw [hfind] at hrv; cases hrv
          | some sub =>
            rw [hfind] at hrv
            cases hrv
            rfl
        rw [hrv] at hfv
        unfold viewFrame at hfv
        simp only at hfv
        by_cases hp : passes r.id f.loopback h = true
        · rw [if_pos hp] at hfv
          cases hc : w.state.checkedAccept checks oom w.extent w.timeout f h t with
          | none =>
            rw [hc] at hfv hok
            simp only at hfv
            rw [hfv]
            exact ⟨hok.1, key, _, hok.2⟩
          | some q =>
            obtain ⟨st, res⟩ := q
            rw [hc] at hfv hok
            obtain ⟨r2, h1, -, h3⟩ := hfv
            rw [h1]
            simp only
            intro tr src htr hs
            have hres : res = .ok (some tr) := by
              cases res with
              | ok o =>
                cases o with
                | none => cases htr
                | some x => cases htr; rfl
              | error e => cases e <;> cases htr
            rcases hok.2 tr hres with ⟨h4, h5, rfl⟩ | ⟨h4, h5, h6⟩
            · exact ⟨w.extent, w.timeout, htab, Or.inl ⟨h, t, rfl, h4, h5, rfl, rfl, rfl⟩⟩
            · rw [hres] at hc
              obtain ⟨⟨ts, hts⟩, -⟩ := checkedAccept_transfer hc
              have hkk : tr.header.kind = h.kind := by rw [hts]; simp
              have hpp : tr.header.port = h.port := by rw [hts]; simp
              have hss : tr.header.source = h.source := by rw [hts]; simp
              rw [hsrc, hs] at hss
              cases hss
              refine ⟨w.extent, w.timeout, ?_, Or.inr ?_⟩
              · rw [hkk, hpp]; exact htab
              · rw [hkk, hpp]; exact h6
        · rw [if_neg hp] at hfv
          obtain ⟨r2, h1, -, h3⟩ := hfv
          rw [h1]
          simp

/-- **C13.** Every transfer returned for a non-anonymous source is either the content of the one frame that completed it, or
is put together from frames `fs ++ [f]` that all arrived, in that order, for the same kind, port, source node and transfer
ID and with the same loopback flag: the first is the only start frame, `f` is the last and the only end frame, and the toggle
bits alternate. The bytes of these frames are a message followed by its CRC, and the payload is that message cut to the
extent of the subscription. The timestamp is that of some start frame of the transfer. -/
theorem C13_multi_frame_integrity {checks oom : Bool} {id : Option NodeId} {ops : List Op} {r r' : Receiver} {f : Frame}
    {tr : CanTransfer} {src : NodeId} (hist : History checks id ops r) (hv : f.id.toNat < 2 ^ 29)
    (hs : r.step checks (.frame f oom) = some (r', .transfer tr)) (hsrc : tr.header.source = some src) :
    ∃ extent timeout, (Config.after id ops).table tr.header.kind tr.header.port = some (extent, timeout) ∧
    ((∃ h t, readFrame f = some (h, t) ∧ t.start = true ∧ t.end_ = true ∧ tr.header = h ∧ tr.loopback = f.loopback ∧
        tr.payload = f.body.take extent) ∨
      ((∃ fs body, fs ≠ [] ∧ fs.Sublist (framesOf ops) ∧
        TransferFrames { kind := tr.header.kind, port := tr.header.port, source := src } tr.header.transferId tr.loopback true
          (fs ++ [f]) ∧
        (fs ++ [f]).flatMap Frame.body = body ++ be16 (crc16 body) ∧ tr.payload = body.take extent) ∧
      ∃ g ∈ framesOf ops ++ [f], g.timestamp = tr.header.timestamp ∧ ∃ e tog,
        g.IsPart { kind := tr.header.kind, port := tr.header.port, source := src } tr.header.transferId tr.loopback true e
          tog)) := by
  have h := history_frame (oom := oom) hist hv
  rw [show r.acceptFrame checks oom f = some (r', .transfer tr) from hs] at h
  obtain ⟨e, to, h1, h2⟩ := h tr src rfl hsrc
  refine ⟨e, to, h1, ?_⟩
  rcases h2 with h2 | h2
  · exact Or.inl h2
  · exact Or.inr ⟨h2.parts, h2.time⟩

/-- A lost middle frame: three frames of 7+7+3 bytes, the second one missing; nothing is returned. With all three frames the
transfer is returned. -/
def demoThree : List Frame :=
  [demoFrame 5#32 9#32 [1#8, 2#8, 3#8, 4#8, 5#8, 6#8, 7#8, 0xa3#8],
   demoFrame 6#32 9#32 [8#8, 9#8, 10#8, 11#8, 12#8, 13#8, 14#8, 0x03#8],
   demoFrame 7#32 9#32 [15#8, 0x1f#8, 0xfe#8, 0x63#8]]

example : ((Receiver.new none).exec true (.subscribeMessage false 100#13 10 1000#32 ::
    demoThree.map (fun f => .frame f false))).map (fun p => p.2.map (fun t => (t.header.timestamp, t.payload))) =
    some [(5#32, [1#8, 2#8, 3#8, 4#8, 5#8, 6#8, 7#8, 8#8, 9#8, 10#8])] := by decide +kernel

example : ((Receiver.new none).exec true (.subscribeMessage false 100#13 10 1000#32 ::
    (demoThree.eraseIdx 1).map (fun f => .frame f false))).map (fun p => p.2) = some [] := by decide +kernel

/-- **C12, partial.** The payload of a transfer returned for a non-anonymous source is never longer than the extent of the
subscription. Missing: for anonymous sources the payload is not cut (`C12_anonymous_counterexample`); the code returns the
whole frame. -/
theorem C12_extent_respected_partial {checks oom : Bool} {id : Option NodeId} {ops : List Op} {r r' : Receiver} {f : Frame}
    {tr : CanTransfer} (hist : History checks id ops r) (hv : f.id.toNat < 2 ^ 29)
    (hs : r.step checks (.frame f oom) = some (r', .transfer tr)) (hsrc : tr.header.source ≠ none) :
    ∃ extent timeout, (Config.after id ops).table tr.header.kind tr.header.port = some (extent, timeout) ∧
      tr.payload.length ≤ extent := by
  cases hsome : tr.header.source with
  | none => exact absurd hsome hsrc
  | some src =>
    obtain ⟨e, to, h1, h2⟩ := C13_multi_frame_integrity hist hv hs hsome
    refine ⟨e, to, h1, ?_⟩
    rcases h2 with ⟨_, _, _, _, _, _, _, hp⟩ | ⟨⟨_, body, _, _, _, _, hp⟩, _⟩
    · rw [hp, List.length_take]; omega
    · rw [hp, List.length_take]; omega

/-- **C12, counterexample.** A subscription with extent 2 receives an anonymous message of 5 bytes and returns all of it. -/
theorem C12_anonymous_counterexample :
    ((Receiver.new none).exec true
      [.subscribeMessage false 100#13 2 1000#32,
       .frame { timestamp := 1#32, id := 0x11606409#32, loopback := false, data := [1#8, 2#8, 3#8, 4#8, 5#8, 0xe0#8] } false]).map
        (fun p => p.2.map (fun t => (t.header.source, t.payload))) = some [(none, [1#8, 2#8, 3#8, 4#8, 5#8])] := by
  decide +kernel

/-- **C12.** For anonymous sources the payload is all of the frame except for the tail byte. -/
theorem C12_anonymous_whole_frame {checks oom : Bool} {r r' : Receiver} {f : Frame} {tr : CanTransfer}
    (hv : f.id.toNat < 2 ^ 29) (hs : r.step checks (.frame f oom) = some (r', .transfer tr))
    (hsrc : tr.header.source = none) : tr.payload = f.body := by
  obtain ⟨h, t, sub, hr, ⟨ts, hts⟩, -, -, hf, -⟩ := acceptFrame_transfer hv hs
  have hns : h.source = none := by rw [hts] at hsrc; simpa using hsrc
  rw [show r.step checks (.frame f oom) = r.acceptFrame checks oom f from rfl, acceptFrame_eq, sanityCheck_eq f hv, hr] at hs
  simp only at hs
  split at hs
  · unfold Receiver.acceptSaneFrame at hs
    have hspec := acceptFirst_spec checks oom f h t (r.subs h.kind)
    rw [show (r.subs h.kind).find? (fun s => s.port == h.port) = some sub from hf] at hspec
    simp only at hspec
    cases hacc : sub.accept checks oom f h t with
    | none => rw [hacc] at hspec; simp only at hspec; rw [hspec] at hs; cases hs
    | some q =>
      obtain ⟨sub', res⟩ := q
      rw [hacc] at hspec
      simp only at hspec
      obtain ⟨l', h1, -⟩ := hspec
      rw [h1] at hs
      simp only at hs
      unfold Subscription.accept acceptAnonymous at hacc
      rw [hns] at hacc
      simp only at hacc
      split at hacc
      · cases hacc
      · rename_i hres
        cases hacc
        split at hres
        · cases hres
        · cases oom with
          | true => simp at hres; subst hres; cases hs
          | false => simp at hres; subst hres; cases hs; rfl
  · cases hs

/-! ### No panic -/

theorem subTwo_release (n : Nat) : ∃ m, subTwo false n = some m := by
  unfold subTwo; split <;> simp

theorem add_release (b : Buildup) (data : List Byte) (h : data ≠ []) : b.add false data ≠ none := by
  unfold Buildup.add
  cases hl : data.getLast? with
  | none => rw [List.getLast?_eq_none_iff] at hl; exact absurd hl h
  | some last =>
    simp only
    split
    · simp
    split
    · simp
    split
    · rename_i hnone
      split at hnone
      · obtain ⟨m, hm⟩ := subTwo_release (b.payloadSize + (data.take (data.length - 1)).length)
        rw [hm] at hnone; cases hnone
      · cases hnone
    · split
      · split <;> simp
      · simp

/-- **C08.** In a build without overflow checks (the release profile), no frame whatsoever makes the receiver panic, in
whatever state it is. -/
theorem C08_release_never_panics {oom : Bool} (r : Receiver) (f : Frame) (hv : f.id.toNat < 2 ^ 29) :
    r.acceptFrame false oom f ≠ none := by
  rw [acceptFrame_eq, sanityCheck_eq f hv]
  cases hr : readFrame f with
  | none => simp
  | some p =>
    obtain ⟨h, t⟩ := p
    obtain ⟨_, _, _, hne, _⟩ := readFrame_data hr
    simp only
    split
    · unfold Receiver.acceptSaneFrame
      have hspec := acceptFirst_spec false oom f h t (r.subs h.kind)
      have hacc : ∀ sub : Subscription, sub.accept false oom f h t ≠ none := by
        intro sub
        have hses : ∀ s : Session, s.accept false f h ≠ none := by
          intro s
          unfold Session.accept
          split
          · simp
          · have := add_release s.buildup f.data hne
            cases hadd : s.buildup.add false f.data with
            | none => exact absurd hadd this
            | some q =>
              obtain ⟨b, res⟩ := q
              cases res with
              | error e => simp
              | ok o => cases o <;> simp
        have hna : ∀ (s : SessionState) e, s.acceptNonAnonymous false oom e f h t ≠ none := by
          intro s e
          unfold SessionState.acceptNonAnonymous
          simp only [Bool.false_and, Bool.false_eq_true, if_false, hne]
          split
          · split <;> simp
          · unfold SessionState.acceptWithSession
            simp only [Bool.false_and, Bool.false_eq_true, if_false]
            split
            · simp
            · rename_i session _
              cases hs : session.accept false f h with
              | none => exact absurd hs (hses session)
              | some q =>
                obtain ⟨b, res⟩ := q
                cases res with
                | error e => simp
                | ok o => cases o <;> simp
        unfold Subscription.accept
        split
        · rename_i source _
          have : (sub.states source).checkedAccept false oom sub.payloadSizeMax sub.timeout f h t ≠ none := by
            unfold SessionState.checkedAccept
            split
            · exact hna _ _
            · split
              · simp
              · exact hna _ _
          cases hc : (sub.states source).checkedAccept false oom sub.payloadSizeMax sub.timeout f h t with
          | none => exact absurd hc this
          | some q => simp
        · unfold acceptAnonymous
          simp only [hne, if_false]
          cases oom <;> simp
      cases hf : (r.subs h.kind).find? (fun s => s.port == h.port) with
      | none => rw [hf] at hspec; simp only at hspec; rw [hspec]; simp
      | some sub =>
        rw [hf] at hspec
        simp only at hspec
        cases hc : sub.accept false oom f h t with
        | none => exact absurd hc (hacc sub)
        | some q =>
          obtain ⟨sub', res⟩ := q
          rw [hc] at hspec
          simp only at hspec
          obtain ⟨l', h1, -⟩ := hspec
          rw [h1]
          cases res with
          | ok o => cases o <;> simp
          | error e => cases e <;> simp
    · simp

/-- **C08.** The same for the whole `receive` call: whatever sequence of frames, errors and empty answers the driver gives,
`receive` returns in a release build. -/
theorem C08_release_receive_never_panics (answers : List DriverRx) :
    ∀ r : Receiver, (∀ f oom, DriverRx.frame f oom ∈ answers → f.id.toNat < 2 ^ 29) → r.receive false answers ≠ none := by
  induction answers with
  | nil => intro r _; simp [Receiver.receive]
  | cons a rest ih =>
    intro r hv
    cases a with
    | wouldBlock => simp [Receiver.receive]
    | error => simp [Receiver.receive]
    | frame f oom =>
      unfold Receiver.receive
      have hne := C08_release_never_panics (oom := oom) r f (hv f oom (List.mem_cons_self ..))
      cases ha : r.acceptFrame false oom f with
      | none => exact absurd ha hne
      | some q =>
        obtain ⟨r', x⟩ := q
        cases x with
        | transfer t => simp
        | outOfMemory => simp
        | nothing => exact ih r' (fun g o hg => hv g o (List.mem_cons_of_mem _ hg))

/-- **C08, partial.** In a build with overflow checks, the receiver does not panic in any history in which every frame that
starts a multi-frame transfer carries at least two bytes of payload (every frame of a conforming sender carries at least
seven). Missing: without that hypothesis a checked build does panic (`C08_debug_panic_counterexample`). -/
theorem C08_debug_no_panic_partial {oom : Bool} {id : Option NodeId} {ops : List Op} {r : Receiver} {f : Frame}
    (hist : History true id ops r) (hv : f.id.toNat < 2 ^ 29)
    (hlong : ∀ g ∈ framesOf ops, ∀ h t, readFrame g = some (h, t) → t.start = true → t.end_ = false → 2 ≤ g.body.length) :
    r.step true (.frame f oom) ≠ none := by
  intro hnone
  have h := history_frame (oom := oom) hist hv
  rw [show r.acceptFrame true oom f = none from hnone] at h
  obtain ⟨-, key, tid, fs, hfs, hsub, htf, hlen⟩ := h
  cases fs with
  | nil => exact hfs rfl
  | cons g rest =>
    obtain ⟨-, h0, hr0, -⟩ := htf 0 (by simp)
    simp only [List.cons_append, List.getElem_cons_zero] at hr0
    have := hlong g (hsub.subset (List.mem_cons_self ..)) h0 _ hr0 rfl (by simp)
    simp only [List.cons_append, List.flatMap_cons, List.length_append] at hlen
    omega

/-- **C08, counterexample.** A checked build panics on the second of two frames with only one byte of payload in total. -/
theorem C08_debug_panic_counterexample :
    ((Receiver.new none).exec true
      [.subscribeMessage false 100#13 64 1000#32, .frame (demoFrame 5#32 9#32 [1#8, 0xa3#8]) false,
       .frame (demoFrame 6#32 9#32 [0x43#8]) false]).isNone = true := by
  decide +kernel

/-- The hypothesis of the partial theorem is met by ordinary traffic. -/
example : ∃ r, History true none (.subscribeMessage false 100#13 10 1000#32 :: demoThree.map (fun f => .frame f false)) r ∧
    demoThree.all (fun g => decide (2 ≤ g.body.length)) = true := by
  have h : ((Receiver.new none).exec true
      (.subscribeMessage false 100#13 10 1000#32 :: demoThree.map (fun f => .frame f false))).isSome = true := by
    decide +kernel
  obtain ⟨p, hp⟩ := Option.isSome_iff_exists.mp h
  exact ⟨p.1, .ofExec hp (by decide), by decide⟩

end Verif.Can
