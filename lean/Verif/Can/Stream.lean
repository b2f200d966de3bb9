import Verif.Can.StreamSpec

/-!
Lemmas for a stream of transfers of one session, some of whose frames are lost.
-/

namespace Verif.Can

open Verif.Crc (crc16 be16)

theorem increment_eq (t : Tid) : t.increment = t + 1#5 := by
  unfold Tid.increment
  split
  · rename_i h
    apply BitVec.eq_of_toNat_eq
    simp [h]
  · rfl

/-! ### What a frame does to the state of a session -/

/-- The state after frames with this transfer ID: the transfer is not complete, or it is complete and the next one is expected. -/
def After (tid : Tid) (st : SessionState) : Prop := st.expectedTid = tid ∨ (st.expectedTid = tid.increment ∧ st.session = none)

theorem add_end {checks : Bool} {b b' : Buildup} {data out : List Byte} (h : b.add checks data = some (b', .ok (some out))) :
    ∃ last, data.getLast? = some last ∧ (TailByte.parse last).end_ = true := by
  unfold Buildup.add at h
  cases hl : data.getLast? with
  | none => rw [hl] at h; cases h
  | some last =>
    refine ⟨last, rfl, ?_⟩
    rw [hl] at h
    dsimp only at h
    split at h
    · cases h
    · split at h
      · cases h
      · split at h
        · cases h
        · split at h
          · assumption
          · cases h

theorem accept_end {checks : Bool} {s s' : Session} {f : Frame} {h : CanHeader} {t : CanTransfer} (ha : s.accept checks f h = some (s', .ok (some t))) :
    (∃ last, f.data.getLast? = some last ∧ (TailByte.parse last).end_ = true) ∧ ∃ now, t.header = h.setTimestamp now := by
  unfold Session.accept at ha
  split at ha
  · cases ha
  · cases hb : s.buildup.add checks f.data with
    | none => rw [hb] at ha; cases ha
    | some p =>
      obtain ⟨b, res⟩ := p
      rw [hb] at ha
      cases res with
      | error e => cases ha
      | ok o =>
        cases o with
        | none => cases ha
        | some data =>
          cases ha
          exact ⟨add_end hb, _, rfl⟩

/-- What is delivered for a frame: nothing, or one transfer for a frame at the end, with the header of the frame. -/
def Delivers (h : CanHeader) (t : TailByte) (res : Except SubscriptionError (Option CanTransfer)) : Prop :=
  ∀ tr, res = .ok (some tr) → t.end_ = true ∧ ∃ now, tr.header = h.setTimestamp now

theorem acceptNonAnonymous_after {checks oom : Bool} {e : Nat} {s st : SessionState} {f : Frame} {h : CanHeader} {t : TailByte} {last : Byte}
    {res : Except SubscriptionError (Option CanTransfer)} (hl : f.data.getLast? = some last) (ht : t = TailByte.parse last) (hs : s.expectedTid = t.transferId)
    (ha : s.acceptNonAnonymous checks oom e f h t = some (st, res)) : After t.transferId st ∧ Delivers h t res := by
  unfold SessionState.acceptNonAnonymous at ha
  split at ha
  · cases ha
  · split at ha
    · rename_i hse
      simp only [Bool.and_eq_true] at hse
      split at ha
      · cases ha
      · dsimp only at ha
        split at ha
        · cases ha
          exact ⟨.inl hs, fun _ h => by cases h⟩
        · cases ha
          refine ⟨.inr ⟨by simp [SessionState.flagSuccessful, hs], rfl⟩, fun tr htr => ?_⟩
          cases htr
          exact ⟨hse.2, h.timestamp, by simp⟩
    · rw [acceptWithSession_eq _ _ _ _ _ _ _ hs] at ha
      have key : ∀ session : Session, afterAccept s (session.accept checks f h) = some (st, res) → After t.transferId st ∧ Delivers h t res := by
        intro session ha
        unfold afterAccept at ha
        split at ha
        · cases ha
        · rename_i session' transfer hacc
          cases ha
          obtain ⟨⟨last', h1, h2⟩, h3⟩ := accept_end hacc
          refine ⟨.inr ⟨by simp [SessionState.flagSuccessful, hs], rfl⟩, fun tr htr => ?_⟩
          cases htr
          rw [hl] at h1
          cases h1
          exact ⟨by rw [ht]; exact h2, h3⟩
        · cases ha
          exact ⟨.inl hs, fun _ h => by cases h⟩
        · cases ha
          exact ⟨.inl hs, fun _ h => by cases h⟩
      split at ha
      · exact key _ ha
      · split at ha
        · cases ha
          exact ⟨.inl hs, fun _ h => by cases h⟩
        · split at ha
          · cases ha
            exact ⟨.inl hs, fun _ h => by cases h⟩
          · exact key _ ha

theorem checkedAccept_after {checks oom : Bool} {v : View} {st : SessionState} {f : Frame} {h : CanHeader} {t : TailByte} {last : Byte}
    {res : Except SubscriptionError (Option CanTransfer)} (hl : f.data.getLast? = some last) (ht : t = TailByte.parse last)
    (hs : After t.transferId v.state ∨ ¬ Duplicate v t.transferId f.timestamp)
    (ha : v.state.checkedAccept checks oom v.extent v.timeout f h t = some (st, res)) : After t.transferId st ∧ Delivers h t res := by
  unfold SessionState.checkedAccept at ha
  split at ha
  · rename_i he
    exact acceptNonAnonymous_after hl ht he.symm ha
  · split at ha
    · rename_i hd
      cases ha
      rw [duplicate_iff] at hd
      exact ⟨hs.resolve_right fun h => h hd, fun _ h => by cases h⟩
    · exact acceptNonAnonymous_after hl ht rfl ha

/-! ### Frames of one transfer, not all of them -/

/-- The frames belong to the transfer with this header. -/
def BelongTo (h : CanHeader) (lb : Bool) (gs : List Frame) : Prop :=
  ∀ g ∈ gs, ∃ last, g.data.getLast? = some last ∧ g.id.toNat < 2 ^ 29 ∧ g.loopback = lb ∧
    readFrame g = some (h.setTimestamp g.timestamp, TailByte.parse last) ∧ (TailByte.parse last).transferId = h.transferId

/-- The frame says that it is the last one. -/
def Frame.isEnd (g : Frame) : Bool := (g.data.getLast?.map fun last => (TailByte.parse last).end_).getD false

theorem passes_of {id : Option NodeId} {lb : Bool} {h : CanHeader} (hp : ∀ d, h.destination = some d → lb = false → id = some d) : passes id lb h = true := by
  unfold passes
  cases hd : h.destination with
  | none => rfl
  | some d =>
    cases hl : lb with
    | true => rfl
    | false => simp [hp d hd hl]

theorem receive_some {checks : Bool} {key : Key} {h : CanHeader} {lb : Bool} (hk : key.Matches h) : ∀ {gs : List Frame} {r r' : Receiver} {v : View} {ts : List CanTransfer},
    BelongTo h lb gs → (∀ d, h.destination = some d → lb = false → r.id = some d) → r.view key = some v →
    (After h.transferId v.state ∨ ∀ g ∈ gs, ¬ Duplicate v h.transferId g.timestamp) → r.exec checks (gs.map (fun g => .frame g false)) = some (r', ts) →
    r'.id = r.id ∧ (∃ st, r'.view key = some { v with state := st } ∧ (After h.transferId v.state ∨ gs ≠ [] → After h.transferId st) ∧ (gs = [] → st = v.state)) ∧
      ts.length ≤ (gs.filter Frame.isEnd).length ∧ ∀ t ∈ ts, ∃ now, t.header = h.setTimestamp now
  | [], r, r', v, ts, _, _, hview, _, he => by
    cases he
    exact ⟨rfl, ⟨v.state, hview, fun h => h.resolve_right fun h => h rfl, fun _ => rfl⟩, by simp, by simp⟩
  | g :: gs, r, r', v, ts, hb, hd, hview, hdup, he => by
    obtain ⟨last, hl, h29, hlb, hrf, htid⟩ := hb g List.mem_cons_self
    have hk' : key.Matches (h.setTimestamp g.timestamp) := (matches_setTimestamp _ _ _).mpr hk
    have hp : passes r.id g.loopback (h.setTimestamp g.timestamp) = true := by rw [hlb]; exact passes_of (by simpa using hd)
    have hdup' : After (TailByte.parse last).transferId v.state ∨ ¬ Duplicate v (TailByte.parse last).transferId g.timestamp := by
      rw [htid]; exact hdup.imp_right fun h => h g List.mem_cons_self
    rw [List.map_cons] at he
    have hfv := frame_view checks false r g key _ _ hrf hk' h29
    unfold viewFrame at hfv
    rw [hview] at hfv
    simp only [hp, if_true] at hfv
    cases hca : v.state.checkedAccept checks false v.extent v.timeout g (h.setTimestamp g.timestamp) (TailByte.parse last) with
    | none =>
      rw [hca] at hfv
      rw [Receiver.exec] at he
      simp only [Receiver.step, hfv] at he
      cases he
    | some p =>
      obtain ⟨st, res⟩ := p
      rw [hca] at hfv
      obtain ⟨r1, h1, h2, h3⟩ := hfv
      obtain ⟨hafter, hdel⟩ := checkedAccept_after hl rfl hdup' hca
      rw [htid] at hafter
      rw [Receiver.exec] at he
      simp only [Receiver.step, h1] at he
      cases hx : r1.exec checks (gs.map (fun g => .frame g false)) with
      | none => rw [hx] at he; cases he
      | some q =>
        obtain ⟨r2, ts2⟩ := q
        rw [hx] at he
        obtain ⟨i1, ⟨st2, i2, i3, -⟩, i4, i5⟩ := receive_some hk (fun g hg => hb g (List.mem_cons_of_mem _ hg)) (h2 ▸ hd) h3 (.inl hafter) hx
        simp only [Option.some.injEq, Prod.mk.injEq] at he
        obtain ⟨rfl, rfl⟩ := he
        refine ⟨i1.trans h2, ⟨st2, i2, fun _ => i3 (.inl hafter), fun h => by cases h⟩, ?_⟩
        have hnot : ∀ tr, res = .ok (some tr) → g.isEnd = true ∧ ∃ now, tr.header = h.setTimestamp now := by
          intro tr htr
          obtain ⟨e1, now, e2⟩ := hdel tr htr
          exact ⟨by simp [Frame.isEnd, hl, e1], now, by simpa using e2⟩
        cases res with
        | error e =>
          have : outcome (.error e) = .nothing ∨ outcome (.error e) = .outOfMemory := by cases e <;> simp [outcome]
          have hlen : (gs.filter Frame.isEnd).length ≤ ((g :: gs).filter Frame.isEnd).length := by rw [List.filter_cons]; split <;> simp
          rcases this with e | e <;> rw [e] <;> exact ⟨by dsimp only; omega, i5⟩
        | ok o =>
          cases o with
          | none =>
            have hlen : (gs.filter Frame.isEnd).length ≤ ((g :: gs).filter Frame.isEnd).length := by rw [List.filter_cons]; split <;> simp
            exact ⟨by simp only [outcome]; omega, i5⟩
          | some tr =>
            obtain ⟨e1, e2⟩ := hnot tr rfl
            refine ⟨by simp only [outcome, List.filter_cons, e1, if_true, List.length_cons]; omega, ?_⟩
            intro t ht
            rcases List.mem_cons.1 ht with rfl | ht
            · exact e2
            · exact i5 t ht

/-! ### Frames that arrive -/

theorem frame_facts {mtu padding : Nat} {transfer : CanTransfer} {id : BitVec 32} {fs : List Frame} (hseg : Segmentation mtu transfer id padding fs) {f : Frame} (hf : f ∈ fs) :
    ∃ last, f.data.getLast? = some last ∧ f.id = id ∧ (TailByte.parse last).transferId = transfer.header.transferId := by
  obtain ⟨i, hi, rfl⟩ := List.mem_iff_getElem.1 hf
  obtain ⟨last, h1, h2⟩ := hseg.tails i hi
  exact ⟨last, h1, (hseg.fields _ hf).1, by rw [h2]⟩

theorem arrived_belong {lb : Bool} {fs fs' gs : List Frame} {mtu padding : Nat} {transfer : CanTransfer} {id : BitVec 32}
    (hid : makeCanId transfer.header transfer.payload = some id) (hseg : Segmentation mtu transfer id padding fs) (hsrc : transfer.header.source ≠ none)
    (hsub : fs'.Sublist fs) (harr : Arrives lb fs' gs) : BelongTo transfer.header lb gs := by
  intro g hg
  have hm : (g.id, g.data) ∈ fs'.map (fun f => (f.id, f.data)) := by rw [← harr.1]; exact List.mem_map.2 ⟨g, hg, rfl⟩
  obtain ⟨f, hf, e⟩ := List.mem_map.1 hm
  simp only [Prod.mk.injEq] at e
  obtain ⟨last, h1, h2, h3⟩ := frame_facts hseg (hsub.subset hf)
  obtain ⟨h4, h5⟩ := readFrame_sent transfer.header transfer.payload g last (TailByte.parse last) (by rw [hid, ← e.1, h2]) (by rw [← e.2, h1]) rfl h3
    (fun h => absurd h hsrc)
  exact ⟨last, by rw [← e.2, h1], h5, harr.2 g hg, h4, h3⟩

theorem one_end {mtu padding : Nat} {transfer : CanTransfer} {id : BitVec 32} {fs : List Frame} (hseg : Segmentation mtu transfer id padding fs) :
    (fs.filter Frame.isEnd).length ≤ 1 := by
  have hsplit := List.dropLast_concat_getLast hseg.nonempty
  have hnone : fs.dropLast.filter Frame.isEnd = [] := by
    rw [List.filter_eq_nil_iff]
    intro f hf
    obtain ⟨i, hi, rfl⟩ := List.mem_iff_getElem.1 hf
    rw [List.length_dropLast] at hi
    obtain ⟨last, h1, h2⟩ := hseg.tails i (by omega)
    rw [List.getElem_dropLast]
    simp only [Frame.isEnd, h1, Option.map_some, Option.getD_some, h2]
    simp; omega
  rw [← hsplit, List.filter_append, hnone, List.nil_append]
  exact Nat.le_trans (List.length_filter_le _ _) (by simp)

theorem arrived_ends {lb : Bool} {fs fs' gs : List Frame} {mtu padding : Nat} {transfer : CanTransfer} {id : BitVec 32} (hseg : Segmentation mtu transfer id padding fs)
    (hsub : fs'.Sublist fs) (harr : Arrives lb fs' gs) : (gs.filter Frame.isEnd).length ≤ 1 := by
  have aux : ∀ l : List Frame, (l.filter Frame.isEnd).length =
      ((l.map (fun g => (g.id, g.data))).filter fun p => (p.2.getLast?.map fun last => (TailByte.parse last).end_).getD false).length := by
    intro l
    rw [List.filter_map, List.length_map]
    rfl
  rw [aux, harr.1, ← aux]
  exact Nat.le_trans (hsub.filter _).length_le (one_end hseg)

end Verif.Can
