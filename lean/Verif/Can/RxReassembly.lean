import Verif.Can.RxTableLemmas
import Verif.Crc.Props

/-! Helper lemmas: what an open session of the CAN receiver has collected. -/

namespace Verif.Can

open Verif.Crc (crc16 digestBytes16 crc16Init be16)

theorem crc16_append (a b : List Byte) : crc16 (a ++ b) = digestBytes16 (crc16 a) b := by
  simp [crc16, digestBytes16]

theorem crc16_short_ne_zero (m : List Byte) (h : m.length < 2) : crc16 m ≠ 0#16 := by
  match m, h with
  | [], _ => decide
  | [b], _ =>
    have : ∀ b : Byte, crc16 [b] ≠ 0#16 := by decide +kernel
    exact this b

/-- A message with residue zero ends with its own CRC. -/
theorem crc16_zero_split (m : List Byte) (h : crc16 m = 0#16) :
    ∃ body, m = body ++ be16 (crc16 body) := by
  have hlen : ¬ m.length < 2 := fun hl => crc16_short_ne_zero m hl h
  have hd : ∃ hi lo, m.drop (m.length - 2) = [hi, lo] := by
    have hl : (m.drop (m.length - 2)).length = 2 := by rw [List.length_drop]; omega
    match m.drop (m.length - 2), hl with
    | [a, b], _ => exact ⟨a, b, rfl⟩
  obtain ⟨hi, lo, hd⟩ := hd
  have hm : m = m.take (m.length - 2) ++ [hi, lo] := by rw [← hd, List.take_append_drop]
  refine ⟨m.take (m.length - 2), ?_⟩
  have h2 : crc16 (m.take (m.length - 2) ++ [hi, lo]) = 0#16 := by rw [← hm]; exact h
  rw [← (Verif.Crc.C01_crc16_residue_zero_iff _ _ _).mp h2]
  exact hm

/-- What the buildup holds after the frames `fs`. -/
structure Tracks (extent : Nat) (fs : List Frame) (b : Buildup) : Prop where
  transfer : b.transfer = (fs.flatMap Frame.body).take extent
  capacity : b.capacity = extent
  crc : b.crc = crc16 (fs.flatMap Frame.body)
  size : b.payloadSize = (fs.flatMap Frame.body).length
  start : b.expectStart = decide (fs.length = 0)
  toggle : b.expectToggle = decide (fs.length % 2 = 0)

theorem tracks_new (extent : Nat) : Tracks extent [] (Buildup.new extent) := by
  constructor <;> first | rfl | simp [Buildup.new]

/-- The ways `Buildup.add` can go. -/
inductive AddOutcome (checks : Bool) (extent : Nat) (fs : List Frame) (b : Buildup) (f : Frame) (t : TailByte) : Prop
  | ignored (b') (hne : t.start ≠ decide (fs.length = 0) ∨ t.toggle ≠ decide (fs.length % 2 = 0))
      (h : b.add checks f.data = some (b', .ok none)) (ht : Tracks extent fs b')
  | more (b') (hs : t.start = decide (fs.length = 0)) (htog : t.toggle = decide (fs.length % 2 = 0)) (he : t.end_ = false)
      (h : b.add checks f.data = some (b', .ok none)) (ht : Tracks extent (fs ++ [f]) b')
  | panic (hs : t.start = false) (htog : t.toggle = decide (fs.length % 2 = 0)) (hfs : fs ≠ []) (he : t.end_ = true)
      (hc : checks = true) (hlen : ((fs ++ [f]).flatMap Frame.body).length < 2) (h : b.add checks f.data = none)
  | bad (b') (hs : t.start = false) (htog : t.toggle = decide (fs.length % 2 = 0)) (hfs : fs ≠ []) (he : t.end_ = true)
      (hcrc : crc16 ((fs ++ [f]).flatMap Frame.body) ≠ 0#16) (h : b.add checks f.data = some (b', .error ()))
  | done (b' body) (hs : t.start = false) (htog : t.toggle = decide (fs.length % 2 = 0)) (hfs : fs ≠ []) (he : t.end_ = true)
      (hbody : (fs ++ [f]).flatMap Frame.body = body ++ be16 (crc16 body))
      (h : b.add checks f.data = some (b', .ok (some (body.take extent))))

theorem be16_length (v : BitVec 16) : (be16 v).length = 2 := rfl

theorem buildup_add_outcome (checks : Bool) (extent : Nat) (fs : List Frame) (b : Buildup) (f : Frame) (t : TailByte)
    (last : Byte) (hl : f.data.getLast? = some last) (ht : t = TailByte.parse last) (hmulti : ¬ (t.start = true ∧ t.end_ = true))
    (hb : Tracks extent fs b) : AddOutcome checks extent fs b f t := by
  have hfm : (fs ++ [f]).flatMap Frame.body = fs.flatMap Frame.body ++ f.body := by simp
  by_cases h1 : t.start ≠ b.expectStart
  · refine .ignored { b with frames := b.frames + 1 } (Or.inl (hb.start ▸ h1)) ?_ ?_
    · unfold Buildup.add
      simp only [hl, ← ht]
      rw [if_pos h1]
    · exact ⟨hb.transfer, hb.capacity, hb.crc, hb.size, hb.start, hb.toggle⟩
  by_cases h2 : t.toggle ≠ b.expectToggle
  · refine .ignored { b with frames := b.frames + 1 } (Or.inr (hb.toggle ▸ h2)) ?_ ?_
    · unfold Buildup.add
      simp only [hl, ← ht]
      rw [if_neg h1, if_pos h2]
    · exact ⟨hb.transfer, hb.capacity, hb.crc, hb.size, hb.start, hb.toggle⟩
  have hs : t.start = decide (fs.length = 0) := by rw [← hb.start]; exact Decidable.byContradiction h1
  have htog : t.toggle = decide (fs.length % 2 = 0) := by rw [← hb.toggle]; exact Decidable.byContradiction h2
  have htr : b.transfer ++ f.body.take (min (b.capacity - b.transfer.length) f.body.length) =
      ((fs ++ [f]).flatMap Frame.body).take extent := by
    rw [hfm, hb.transfer, hb.capacity, List.take_append]
    congr 1
    rw [List.length_take, ← List.take_take, List.take_length]
    by_cases hle : extent ≤ (fs.flatMap Frame.body).length
    · rw [Nat.min_eq_left hle]
      have : extent - (fs.flatMap Frame.body).length = 0 := by omega
      rw [this]; simp
    · rw [Nat.min_eq_right (by omega)]
  have hcrc : digestBytes16 b.crc f.body = crc16 ((fs ++ [f]).flatMap Frame.body) := by
    rw [hfm, crc16_append, hb.crc]
  have hsize : b.payloadSize + f.body.length = ((fs ++ [f]).flatMap Frame.body).length := by
    rw [hfm, List.length_append, hb.size]
  -- One unfolding for the matching case.
  have hadd : b.add checks f.data =
      match (if t.end_ && !t.start then subTwo checks ((fs ++ [f]).flatMap Frame.body).length
        else some ((fs ++ [f]).flatMap Frame.body).length) with
      | none => none
      | some size =>
        let b' : Buildup := { b with
          frames := b.frames + 1, expectStart := false, expectToggle := !b.expectToggle
          transfer := ((fs ++ [f]).flatMap Frame.body).take extent
          crc := crc16 ((fs ++ [f]).flatMap Frame.body), payloadSize := size }
        if t.end_ then
          if (t.start && t.end_) || crc16 ((fs ++ [f]).flatMap Frame.body) == 0#16 then
            some ({ b' with transfer := [], capacity := 0 },
              .ok (some ((((fs ++ [f]).flatMap Frame.body).take extent).take size)))
          else some (b', .error ())
        else some (b', .ok none) := by
    unfold Buildup.add
    simp only [hl, ← ht]
    rw [if_neg h1, if_neg h2]
    have e1 : f.data.take (f.data.length - 1) = f.body := rfl
    simp only [e1, htr, hcrc, hsize]
    rfl
  cases he : t.end_ with
  | false =>
    rw [he] at hadd
    simp only [Bool.false_and, Bool.false_eq_true, if_false] at hadd
    refine .more _ hs htog he hadd ⟨rfl, hb.capacity, rfl, rfl, ?_, ?_⟩
    · simp
    · simp only [hb.toggle, List.length_append, List.length_cons, List.length_nil]
      by_cases hp : fs.length % 2 = 0
      · simp [hp]; omega
      · simp [hp]; omega
  | true =>
    have hst : t.start = false := by
      cases hts : t.start with
      | false => rfl
      | true => exact absurd ⟨hts, he⟩ hmulti
    have hfs : fs ≠ [] := by
      intro hc
      rw [hst, hc] at hs
      simp at hs
    rw [he, hst] at hadd
    simp only [Bool.not_false, Bool.and_true, if_true, Bool.false_or] at hadd
    unfold subTwo at hadd
    by_cases h3 : 2 ≤ ((fs ++ [f]).flatMap Frame.body).length
    · rw [if_pos h3] at hadd
      simp only at hadd
      by_cases h4 : crc16 ((fs ++ [f]).flatMap Frame.body) = 0#16
      · obtain ⟨body, hbody⟩ := crc16_zero_split _ h4
        rw [h4] at hadd
        simp only [beq_self_eq_true, if_true] at hadd
        have hpay : (((fs ++ [f]).flatMap Frame.body).take extent).take (((fs ++ [f]).flatMap Frame.body).length - 2) =
            body.take extent := by
          rw [List.take_take, Nat.min_comm, ← List.take_take, hbody, List.length_append, be16_length]
          simp
        rw [hpay] at hadd
        exact .done _ body hst htog hfs he hbody hadd
      · have : (crc16 ((fs ++ [f]).flatMap Frame.body) == 0#16) = false := by simpa using h4
        rw [this] at hadd
        simp only [Bool.false_eq_true, if_false] at hadd
        exact .bad _ hst htog hfs he h4 hadd
    · rw [if_neg h3] at hadd
      have h4 := crc16_short_ne_zero _ (Nat.lt_of_not_le h3)
      have h5 : (crc16 ((fs ++ [f]).flatMap Frame.body) == 0#16) = false := by simpa using h4
      cases hc : checks with
      | true =>
        rw [hc] at hadd
        subst hc
        exact .panic hst htog hfs he rfl (by omega) hadd
      | false =>
        rw [hc] at hadd
        subst hc
        simp only [Bool.false_eq_true, if_false, h5] at hadd
        exact .bad _ hst htog hfs he h4 hadd

/-- What is known about the open session of a view, given the frames so far. -/
def SessionInv (frames : List Frame) (key : Key) (v : View) : Prop :=
  ∀ s, v.state.session = some s → ∃ fs, fs.Sublist frames ∧
    TransferFrames key v.state.expectedTid s.loopback false fs ∧ Tracks v.extent fs s.buildup ∧
    ∃ g ∈ frames, g.timestamp = s.transferTimestamp ∧
      ∃ e tog, g.IsPart key v.state.expectedTid s.loopback true e tog

theorem SessionInv.mono {frames : List Frame} {key : Key} {v : View} (h : SessionInv frames key v) (more : List Frame) :
    SessionInv (frames ++ more) key v := by
  intro s hs
  obtain ⟨fs, h1, h2, h3, g, hg, h4⟩ := h s hs
  exact ⟨fs, h1.trans (List.sublist_append_left ..), h2, h3, g, List.mem_append_left _ hg, h4⟩

theorem transferFrames_snoc {key : Key} {tid : Tid} {lb : Bool} {fs : List Frame} {f : Frame} {h : CanHeader} {t : TailByte}
    (hfs : TransferFrames key tid lb false fs) (hr : readFrame f = some (h, t)) (hk : key.Matches h)
    (htid : t.transferId = tid) (hlb : f.loopback = lb) (hs : t.start = decide (fs.length = 0))
    (htog : t.toggle = decide (fs.length % 2 = 0)) : TransferFrames key tid lb t.end_ (fs ++ [f]) := by
  intro i hi
  by_cases h1 : i < fs.length
  · have := hfs i h1
    rw [List.getElem_append_left h1]
    have hne : ¬ i + 1 = (fs ++ [f]).length := by simp; omega
    simp only [hne, decide_false, Bool.and_false]
    simpa using this
  · have hi2 : i = fs.length := by simp at hi; omega
    subst hi2
    rw [List.getElem_append_right (Nat.le_refl _)]
    simp only [Nat.sub_self, List.getElem_singleton, List.length_append, List.length_cons, List.length_nil, decide_true,
      Bool.and_true, Nat.zero_add]
    refine ⟨hlb, h, ?_, hk⟩
    rw [hr]
    cases t
    simp at hs htog htid ⊢
    exact ⟨hs, htog, htid⟩

/-- A multi-frame transfer was reassembled from `fs ++ [f]`. -/
structure Reassembled (key : Key) (frames : List Frame) (f : Frame) (extent : Nat) (tr : CanTransfer) : Prop where
  parts : ∃ fs body, fs ≠ [] ∧ fs.Sublist frames ∧
    TransferFrames key tr.header.transferId tr.loopback true (fs ++ [f]) ∧
    (fs ++ [f]).flatMap Frame.body = body ++ be16 (crc16 body) ∧ tr.payload = body.take extent
  time : ∃ g ∈ frames ++ [f], g.timestamp = tr.header.timestamp ∧
    ∃ e tog, g.IsPart key tr.header.transferId tr.loopback true e tog

/-- The condition under which a debug build panics: the frame ends a multi-frame transfer of fewer than two bytes. -/
def Underflows (key : Key) (frames : List Frame) (f : Frame) (tid : Tid) : Prop :=
  ∃ fs, fs ≠ [] ∧ fs.Sublist frames ∧ TransferFrames key tid f.loopback true (fs ++ [f]) ∧
    ((fs ++ [f]).flatMap Frame.body).length < 2

/-- What `accept_with_session` makes of the answer of the session. -/
def afterAccept (s : SessionState) (r : Option (Session × Except Unit (Option CanTransfer))) :
    Option (SessionState × Except SubscriptionError (Option CanTransfer)) :=
  match r with
  | none => none
  | some (session, .ok (some transfer)) =>
    some ({ s with session := some session }.flagSuccessful session.transferTimestamp, .ok (some transfer))
  | some (session, .ok none) => some ({ s with session := some session }, .ok none)
  | some (_, .error _) => some ({ s with session := none }, .error .session)

theorem acceptWithSession_eq (checks oom : Bool) (e : Nat) (s : SessionState) (f : Frame) (h : CanHeader) (t : TailByte)
    (he : s.expectedTid = t.transferId) :
    s.acceptWithSession checks oom e f h t =
      match s.session with
      | some session => afterAccept s (session.accept checks f h)
      | none =>
        if t.start = false then some (s, .error .notStart)
        else if oom = true then some (s, .error .memory)
        else afterAccept s ((Session.new h.timestamp e f.loopback).accept checks f h) := by
  unfold SessionState.acceptWithSession
  rw [if_neg (by simp [he])]
  cases s.session with
  | some session => rfl
  | none =>
    cases t.start with
    | false => rfl
    | true => cases oom <;> rfl

/-- What one frame of a session may do: panic only on underflow, keep the invariant, and deliver only well-formed
transfers. -/
def StepOk (checks : Bool) (frames : List Frame) (key : Key) (v : View) (f : Frame) (h : CanHeader) (t : TailByte) :
    Option (SessionState × Except SubscriptionError (Option CanTransfer)) → Prop
  | none => checks = true ∧ Underflows key frames f t.transferId
  | some (st, res) => SessionInv (frames ++ [f]) key { v with state := st } ∧
    ∀ tr, res = .ok (some tr) →
      (t.start = true ∧ t.end_ = true ∧ tr = { header := h, loopback := f.loopback, payload := f.body.take v.extent }) ∨
      (t.start = false ∧ t.end_ = true ∧ Reassembled key frames f v.extent tr)

theorem session_step {checks oom : Bool} {frames : List Frame} {key : Key} {v : View} {f : Frame} {h : CanHeader}
    {t : TailByte} (hinv : SessionInv frames key v) (hr : readFrame f = some (h, t)) (hk : key.Matches h) :
    StepOk checks frames key v f h t (v.state.checkedAccept checks oom v.extent v.timeout f h t) := by
  obtain ⟨last, hlast, htp, hne, _⟩ := readFrame_data hr
  have hfields := readFrame_fields hr
  have key1 : ∀ s : SessionState, s.expectedTid = t.transferId → SessionInv frames key { v with state := s } →
      StepOk checks frames key v f h t (s.acceptNonAnonymous checks oom v.extent f h t) := by
    intro s he hinv
    unfold SessionState.acceptNonAnonymous
    rw [if_neg (by simp [he])]
    by_cases hse : (t.start && t.end_) = true
    · rw [if_pos hse, if_neg hne]
      simp only
      cases oom with
      | true => exact ⟨hinv.mono [f], by simp⟩
      | false =>
        simp only [Bool.false_eq_true, if_false]
        refine ⟨(by intro s hs; cases hs), ?_⟩
        intro tr htr
        cases htr
        left
        simp only [Bool.and_eq_true] at hse
        refine ⟨hse.1, hse.2, ?_⟩
        simp [Frame.body, List.take_take]
    · rw [if_neg hse]
      have hmulti : ¬ (t.start = true ∧ t.end_ = true) := by simpa using hse
      rw [acceptWithSession_eq _ _ _ _ _ _ _ he]
      -- The session that gets the frame.
      have opened : ∀ session : Session, (∃ fs, fs.Sublist frames ∧
          TransferFrames key t.transferId session.loopback false fs ∧ Tracks v.extent fs session.buildup ∧
          ∃ g ∈ frames ++ [f], g.timestamp = session.transferTimestamp ∧
            ∃ e tog, g.IsPart key t.transferId session.loopback true e tog) →
          StepOk checks frames key v f h t (afterAccept s (session.accept checks f h)) := by
        rintro session ⟨fs, hsub, htf, htr, g, hg, hgt, hgp⟩
        have stays : ∀ b', Tracks v.extent fs b' →
            SessionInv (frames ++ [f]) key { v with state := { s with session := some { session with buildup := b' } } } := by
          intro b' hb' s' hs'
          cases hs'
          refine ⟨fs, hsub.trans (List.sublist_append_left ..), ?_, hb', g, hg, hgt, ?_⟩
          · simpa [he] using htf
          · simpa [he] using hgp
        unfold Session.accept
        by_cases hlb : f.loopback ≠ session.loopback
        · rw [if_pos hlb]
          exact ⟨stays session.buildup htr, by simp⟩
        · rw [if_neg hlb]
          have hlb : f.loopback = session.loopback := Decidable.byContradiction hlb
          cases buildup_add_outcome checks v.extent fs session.buildup f t last hlast htp hmulti htr with
          | ignored b' hne h ht =>
            rw [h]
            exact ⟨stays b' ht, by simp⟩
          | more b' hs htog hend h ht =>
            rw [h]
            refine ⟨?_, by simp⟩
            intro s' hs'
            cases hs'
            refine ⟨fs ++ [f], List.Sublist.append hsub (List.Sublist.refl _), ?_, ht, g, hg, hgt, ?_⟩
            · have := transferFrames_snoc htf hr hk rfl hlb hs htog
              rw [hend] at this
              simpa [he] using this
            · simpa [he] using hgp
          | panic hs htog hfs hend hc hlen h =>
            rw [h]
            refine ⟨hc, fs, hfs, hsub, ?_, hlen⟩
            have hs' : t.start = decide (fs.length = 0) := by
              rw [hs]; simp [hfs]
            have := transferFrames_snoc htf hr hk rfl hlb hs' htog
            rw [hend] at this
            rw [hlb]
            exact this
          | bad b' hs htog hfs hend hcrc h =>
            rw [h]
            exact ⟨(by intro s hs; cases hs), by simp⟩
          | done b' body hs htog hfs hend hbody h =>
            rw [h]
            refine ⟨(by intro s hs; cases hs), ?_⟩
            intro tr htr'
            cases htr'
            right
            have hs' : t.start = decide (fs.length = 0) := by
              rw [hs]; simp [hfs]
            have hall := transferFrames_snoc htf hr hk rfl hlb hs' htog
            rw [hend] at hall
            refine ⟨hs, hend, ⟨fs, body, hfs, hsub, ?_, hbody, rfl⟩, g, hg, ?_, ?_⟩
            · simpa [hfields.2] using hall
            · simpa using hgt
            · simpa [hfields.2] using hgp
      cases hses : s.session with
      | some session =>
        simp only
        apply opened session
        obtain ⟨fs, h1, h2, h3, g, hg, h4⟩ := hinv session hses
        simp only [he] at h2 h4
        exact ⟨fs, h1, h2, h3, g, List.mem_append_left _ hg, h4⟩
      | none =>
        simp only
        cases hst : t.start with
        | false =>
          exact ⟨hinv.mono [f], by simp⟩
        | true =>
          cases oom with
          | true => exact ⟨hinv.mono [f], by simp⟩
          | false =>
            have := opened (Session.new h.timestamp v.extent f.loopback) ⟨[], List.nil_sublist _,
              by intro i hi; exact absurd hi (by simp), tracks_new _, f, by simp, hfields.1.symm, t.end_, t.toggle, rfl, h, by
                rw [hr, ← hst], hk⟩
            exact this
  unfold SessionState.checkedAccept
  by_cases h1 : t.transferId = v.state.expectedTid
  · rw [if_pos h1]
    exact key1 _ h1.symm hinv
  · rw [if_neg h1]
    split
    · exact ⟨hinv.mono [f], by simp⟩
    · exact key1 { v.state with session := none, expectedTid := t.transferId } rfl (by intro s hs; cases hs)

end Verif.Can
