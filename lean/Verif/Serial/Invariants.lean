import Verif.Serial.Lemmas

/-! Invariants of the serial receiver. -/

namespace Verif.Serial

open Verif.Cobs (Unescaper)
open Verif.Crc (Tracker)
open Verif.Hdr (NodeId16 Tid64 RawHeader TransportHeader)

/-- One subscription per port, and an incomplete header in the header state. -/
structure Inv (r : Receiver) : Prop where
  distinct : r.subscriptions.Distinct
  header : ∀ u h, r.state = .header u h → h.length < 24

theorem inv_new (id : Option NodeId16) : Inv (Receiver.new id) :=
  ⟨SubManager.distinct_empty, by intro u h hs; cases hs⟩

/-- The payload after the tracker gave these bytes. -/
def pushOut (p : List Byte) (cap : Nat) : List Byte → List Byte
  | x :: _ => if p.length < cap then p ++ [x] else p
  | [] => p

/-- The subscriptions after a transfer with this header. -/
def recorded (oom : Bool) (subs : SubManager Subscription) (h : SerialHeader) : SubManager Subscription :=
  match h.source with
  | some source => if oom then subs else subs.update h.kind h.port (Subscription.record source h)
  | none => subs

/-- What a byte does, as cases. -/
inductive ByteStep (r : Receiver) (b : Byte) (now : Instant) (oom : Bool) : Receiver → Output → Prop where
  | skip (hs : r.state = .idle) (hb : b ≠ 0#8) : ByteStep r b now oom r .nothing
  | between (hs : r.state = .idle ∨ r.state = .betweenTransfers) (hb : b = 0#8) :
      ByteStep r b now oom { r with state := .betweenTransfers } .nothing
  | start (o : Option Byte) (u : Unescaper) (hs : r.state = .betweenTransfers) (ha : Unescaper.new.accept b = some (o, u)) :
      ByteStep r b now oom { r with state := .header u o.toList } .nothing
  | header (o : Option Byte) (u u' : Unescaper) (h : HeaderCollector) (hs : r.state = .header u h)
      (ha : u.accept b = some (o, u')) (hl : (h ++ o.toList).length < 24) :
      ByteStep r b now oom { r with state := .header u' (h ++ o.toList) } .nothing
  | reject (out : Output) (u : Unescaper) (h : HeaderCollector) (hs : r.state = .header u h) (ho : out.transfers = []) :
      ByteStep r b now oom { r with state := .idle } out
  | accept (x : Byte) (u u' : Unescaper) (h : HeaderCollector) (th : TransportHeader) (sub : Subscription) (hs : r.state = .header u h)
      (ha : u.accept b = some (some x, u')) (hl : (h ++ [x]).length = 24) (hd : Verif.Hdr.decode (h ++ [x]) = some th)
      (hi : r.isInterested (th.asCoreHeader now) = some sub) :
      ByteStep r b now oom { r with state := .payload u' (th.asCoreHeader now) Tracker.new [] sub.payloadSizeMax } .nothing
  | payload (o : Option Byte) (u u' : Unescaper) (h : SerialHeader) (crc : Tracker) (p : List Byte) (cap : Nat)
      (hs : r.state = .payload u h crc p cap) (ha : u.accept b = some (o, u')) :
      ByteStep r b now oom
        { r with state := .payload u' h (crc.digestAll o.toList).2 (pushOut p cap (crc.digestAll o.toList).1) cap } .nothing
  | drop (u : Unescaper) (h : SerialHeader) (crc : Tracker) (p : List Byte) (cap : Nat)
      (hs : r.state = .payload u h crc p cap) (hb : b = 0#8) :
      ByteStep r b now oom { r with state := .betweenTransfers } .nothing
  | deliver (u : Unescaper) (h : SerialHeader) (crc : Tracker) (p : List Byte) (cap : Nat) (sub : Subscription)
      (hs : r.state = .payload u h crc p cap) (hb : b = 0#8) (hc : crc.correct = true)
      (hf : r.subscriptions.find h.kind h.port = some sub) (hd : ∀ d, h.destination = some d → r.nodeId = some d) :
      ByteStep r b now oom
        { r with state := .betweenTransfers, subscriptions := recorded oom r.subscriptions h }
        (.transfer { header := h, loopback := false, payload := p })

theorem byteStep {r : Receiver} (hinv : Inv r) (b : Byte) (now : Instant) (oom : Bool) :
    ∃ r' o, r.handleByte oom b now = some (r', o) ∧ ByteStep r b now oom r' o := by
  cases hs : r.state with
  | idle =>
    unfold Receiver.handleByte
    rw [hs]
    simp only
    by_cases hb : b = 0#8
    · rw [if_pos hb]; exact ⟨_, _, rfl, .between (Or.inl hs) hb⟩
    · rw [if_neg hb, ← hs]; exact ⟨r, _, rfl, .skip hs hb⟩
  | betweenTransfers =>
    unfold Receiver.handleByte
    rw [hs]
    simp only
    by_cases hb : b = 0#8
    · rw [if_neg (by simpa using hb)]; exact ⟨_, _, rfl, .between (Or.inr hs) hb⟩
    · rw [if_pos hb]
      obtain ⟨o, u, ha⟩ := accept_nonzero Unescaper.new b hb
      refine ⟨{ r with state := .header u o.toList }, .nothing, ?_, .start o u hs ha⟩
      unfold Receiver.startFrame
      rw [ha]
      cases o <;> rfl
  | header u h =>
    have hl := hinv.header u h hs
    by_cases hb : b = 0#8
    · subst hb
      refine ⟨{ r with state := .idle }, .nothing, ?_, .reject _ u h hs rfl⟩
      unfold Receiver.handleByte
      rw [hs]
      simp [Receiver.headerByte, accept_zero]
    · obtain ⟨o, u', ha⟩ := accept_nonzero u b hb
      by_cases hl2 : (h ++ o.toList).length < 24
      · exact ⟨_, _, step_header hs ha hl2 now oom, .header o u u' h hs ha hl2⟩
      · cases o with
        | none => simp only [Option.toList_none, List.append_nil] at hl2; omega
        | some x =>
          simp only [Option.toList_some, List.length_append, List.length_cons, List.length_nil] at hl2
          have h24 : (h ++ [x]).length = 24 := by simp; omega
          rw [step_header_last hs ha (by omega) now oom, headerDone_eq oom r u' h24 now]
          cases hd : Verif.Hdr.decode (h ++ [x]) with
          | none => exact ⟨_, _, rfl, .reject _ u h hs rfl⟩
          | some th =>
            simp only [Option.bind_some]
            cases hi : r.isInterested (th.asCoreHeader now) with
            | none => exact ⟨_, _, rfl, .reject _ u h hs rfl⟩
            | some sub =>
              simp only [Option.map_some]
              cases oom with
              | true => exact ⟨_, _, rfl, .reject _ u h hs rfl⟩
              | false => exact ⟨_, _, rfl, .accept x u u' h th sub hs ha h24 hd hi⟩
  | payload u h crc p cap =>
    by_cases hb : b = 0#8
    · unfold Receiver.handleByte
      rw [hs]
      subst hb
      simp only [Receiver.payloadByte, accept_zero, Receiver.completeTransfer]
      cases hc : crc.correct with
      | false => exact ⟨_, _, rfl, .drop u h crc p cap hs rfl⟩
      | true =>
        simp only [Bool.not_true, Bool.false_eq_true, if_false]
        cases hf : ({ r with state := .betweenTransfers } : Receiver).findSubscriptionMut h with
        | none => exact ⟨_, _, rfl, .drop u h crc p cap hs rfl⟩
        | some sub =>
          obtain ⟨h1, h2⟩ := findSubscriptionMut_some.mp hf
          refine ⟨_, _, rfl, ?_⟩
          have := ByteStep.deliver (now := now) (oom := oom) u h crc p cap sub hs rfl hc h1 h2
          cases hsrc : h.source with
          | none => simpa only [recorded, hsrc] using this
          | some s =>
            cases oom
            · simpa only [recorded, hsrc, Bool.false_eq_true, if_false] using this
            · simpa only [recorded, hsrc, if_true] using this
    · obtain ⟨o, u', ha⟩ := accept_nonzero u b hb
      refine ⟨_, _, ?_, .payload o u u' h crc p cap hs ha⟩
      unfold Receiver.handleByte
      rw [hs]
      simp only [Receiver.payloadByte, ha]
      cases o with
      | none => rfl
      | some x =>
        simp only [Option.toList_some, digestAll_cons, Tracker.digestAll, List.append_nil]
        cases (crc.digest x).1 <;> rfl

theorem ByteStep.inv {r r' : Receiver} {b : Byte} {now : Instant} {oom : Bool} {o : Output} (h : ByteStep r b now oom r' o)
    (hi : Inv r) : Inv r' := by
  cases h with
  | skip => exact hi
  | between => exact ⟨hi.distinct, by intro u h hs; cases hs⟩
  | start o u hs ha =>
    refine ⟨hi.distinct, ?_⟩
    intro u h hs
    cases hs
    cases o <;> simp
  | header o u u' h hs ha hl => exact ⟨hi.distinct, by intro u h hs; cases hs; exact hl⟩
  | reject => exact ⟨hi.distinct, by intro u h hs; cases hs⟩
  | accept => exact ⟨hi.distinct, by intro u h hs; cases hs⟩
  | payload => exact ⟨hi.distinct, by intro u h hs; cases hs⟩
  | drop => exact ⟨hi.distinct, by intro u h hs; cases hs⟩
  | deliver u h crc p cap sub =>
    refine ⟨?_, by intro u h hs; cases hs⟩
    dsimp only [recorded]
    split
    · split
      · exact hi.distinct
      · exact SubManager.distinct_update hi.distinct _ _ _
    · exact hi.distinct

theorem step_total {r : Receiver} (hi : Inv r) (op : Op) : ∃ r' ts, r.step op = some (r', ts) ∧ Inv r' := by
  cases op with
  | clean now => exact ⟨_, _, rfl, SubManager.distinct_mapAll hi.distinct _, hi.header⟩
  | byte b now oom =>
    obtain ⟨r', o, h1, h2⟩ := byteStep hi b now oom
    exact ⟨r', o.transfers, by simp [Receiver.step, h1], h2.inv hi⟩
  | subscribe oom k port extent timeout =>
    refine ⟨_, _, rfl, ?_⟩
    unfold Receiver.subscribe
    split
    · exact hi
    · exact ⟨SubManager.distinct_subscribe hi.distinct _ _ _ _, hi.header⟩
  | unsubscribe k port => exact ⟨_, _, rfl, SubManager.distinct_unsubscribe hi.distinct _ _, hi.header⟩
  | setId id => exact ⟨_, _, rfl, hi.distinct, hi.header⟩

theorem exec_total {r : Receiver} (hi : Inv r) (ops : List Op) : ∃ r' ts, r.exec ops = some (r', ts) ∧ Inv r' := by
  induction ops generalizing r with
  | nil => exact ⟨r, [], rfl, hi⟩
  | cons op ops ih =>
    obtain ⟨r1, ts1, h1, i1⟩ := step_total hi op
    obtain ⟨r2, ts2, h2, i2⟩ := ih i1
    exact ⟨r2, ts1 ++ ts2, by simp [Receiver.exec, h1, h2], i2⟩

theorem exec_inv {r r' : Receiver} {ops : List Op} {ts : List SerialTransfer} (hi : Inv r) (h : r.exec ops = some (r', ts)) :
    Inv r' := by
  obtain ⟨r2, ts2, h2, i2⟩ := exec_total hi ops
  rw [h] at h2; cases h2; exact i2

/-! ### The state as a function of the bytes received -/

/-- What the state says about the bytes received so far. `since` tells of the subscriptions which some earlier moment had. -/
def Tracks (bytes : List Byte) (extentOk : SerialHeader → Nat → Prop) : State → Prop
  | .idle => True
  | .betweenTransfers => ∃ pre, bytes = pre ++ [0#8]
  | .header u h => ∃ pre e, bytes = pre ++ 0#8 :: e ∧ Unescaper.new.run e = some (h, u)
  | .payload u hd crc p cap => ∃ pre e hb body th now, bytes = pre ++ 0#8 :: e ∧ Unescaper.new.run e = some (hb ++ body, u) ∧
      hb.length = 24 ∧ Verif.Hdr.decode hb = some th ∧ hd = th.asCoreHeader now ∧ crc = (Tracker.new.digestAll body).2 ∧
      p = (Tracker.new.digestAll body).1.take cap ∧ extentOk hd cap

theorem Tracks.mono {bytes : List Byte} {P Q : SerialHeader → Nat → Prop} (h : ∀ a b, P a b → Q a b) {s : State}
    (ht : Tracks bytes P s) : Tracks bytes Q s := by
  cases s with
  | idle => trivial
  | betweenTransfers => exact ht
  | header => exact ht
  | payload =>
    obtain ⟨pre, e, hb, body, th, now, h1, h2, h3, h4, h5, h6, h7, h8⟩ := ht
    exact ⟨pre, e, hb, body, th, now, h1, h2, h3, h4, h5, h6, h7, h _ _ h8⟩

theorem digestAll_append (t : Tracker) (a b : List Byte) : t.digestAll (a ++ b) =
    ((t.digestAll a).1 ++ ((t.digestAll a).2.digestAll b).1, ((t.digestAll a).2.digestAll b).2) :=
  Verif.Crc.digestAll_append t a b

theorem take_push_end (l : List Byte) (cap : Nat) (x : Byte) :
    (if (l.take cap).length < cap then l.take cap ++ [x] else l.take cap) = (l ++ [x]).take cap := by
  have := take_push (l.take cap) [] cap x (by simp; omega)
  simp only [List.append_nil] at this
  rw [List.take_of_length_le] at this
  · rw [this]
    by_cases h : l.length ≤ cap
    · rw [List.take_of_length_le h]
    · rw [List.take_append_of_le_length (by simp; omega), List.take_append_of_le_length (by omega), List.take_take]
      simp
  · split
    · simp only [List.length_append, List.length_cons, List.length_nil]; omega
    · simp; omega

theorem ByteStep.tracks {r r' : Receiver} {b : Byte} {now : Instant} {oom : Bool} {o : Output} (h : ByteStep r b now oom r' o)
    {bytes : List Byte} {P : SerialHeader → Nat → Prop} (ht : Tracks bytes P r.state)
    (hP : ∀ hd sub, r.subscriptions.find hd.kind hd.port = some sub → P hd sub.payloadSizeMax) :
    Tracks (bytes ++ [b]) P r'.state := by
  cases h with
  | skip hs hb => rw [hs]; trivial
  | between hs hb => exact ⟨bytes, by rw [hb]⟩
  | start o u hs ha =>
    rw [hs] at ht
    obtain ⟨pre, rfl⟩ := ht
    refine ⟨pre, [b], by simp, ?_⟩
    have := run_snoc (u := Unescaper.new) (a := []) rfl ha
    simpa using this
  | header o u u' h hs ha hl =>
    rw [hs] at ht
    obtain ⟨pre, e, rfl, hr⟩ := ht
    exact ⟨pre, e ++ [b], by simp, run_snoc hr ha⟩
  | reject => trivial
  | accept x u u' h th sub hs ha hl hd hi =>
    rw [hs] at ht
    obtain ⟨pre, e, rfl, hr⟩ := ht
    refine ⟨pre, e ++ [b], h ++ [x], [], th, now, by simp, ?_, hl, hd, rfl, rfl, by simp [Tracker.digestAll], ?_⟩
    · have := run_snoc hr ha
      simpa using this
    · exact hP _ _ (isInterested_some.mp hi).1
  | payload o u u' h crc p cap hs ha =>
    rw [hs] at ht
    obtain ⟨pre, e, hb, body, th, now', rfl, hr, hl, hd, he, hcrc, hp, hx⟩ := ht
    refine ⟨pre, e ++ [b], hb, body ++ o.toList, th, now', by simp, ?_, hl, hd, he, ?_, ?_, hx⟩
    · have := run_snoc hr ha
      rw [this, List.append_assoc]
    · rw [digestAll_append, ← hcrc]
    · rw [digestAll_append, ← hcrc]
      cases o with
      | none => simp [Tracker.digestAll, hp, pushOut]
      | some y =>
        simp only [Option.toList_some, digestAll_cons, Tracker.digestAll, List.append_nil]
        cases hd2 : (crc.digest y).1 with
        | none => simp [hp, pushOut]
        | some z =>
          simp only [Option.toList_some, pushOut]
          rw [hp]
          exact take_push_end _ _ _
  | drop u h crc p cap hs hb => exact ⟨bytes, by rw [hb]⟩
  | deliver u h crc p cap sub hs hb => exact ⟨bytes, by rw [hb]⟩

/-! ### Sessions -/

/-- The header belongs to this session. -/
def InSession (k : Kind) (port : Nat) (source : NodeId16) (h : SerialHeader) : Prop :=
  h.kind = k ∧ h.port = port ∧ h.source = some source

instance (k : Kind) (port : Nat) (source : NodeId16) (h : SerialHeader) : Decidable (InSession k port source h) := by
  unfold InSession; infer_instance

/-- The subscription exists, and the last transfer of the session is recorded. -/
structure Keeps (k : Kind) (port : Nat) (source : NodeId16) (timeout : Duration) (last : Option SerialHeader) (r : Receiver) : Prop where
  sub : ∃ sub, r.subscriptions.find k port = some sub ∧ sub.timeout = timeout ∧
    ∀ a, last = some a → sub.sessions source = some ⟨Instant.plus a.timestamp timeout, a.transferId⟩
  newer : ∀ a, last = some a → ∀ u hd crc p cap, r.state = .payload u hd crc p cap → InSession k port source hd →
    a.transferId < hd.transferId

/-- The transfers of a session. -/
def ofSession (k : Kind) (port : Nat) (source : NodeId16) (ts : List SerialTransfer) : List SerialTransfer :=
  ts.filter (fun t => decide (InSession k port source t.header))

theorem ByteStep.keeps {r r' : Receiver} {b : Byte} {now : Instant} {o : Output} (h : ByteStep r b now false r' o)
    {k : Kind} {port : Nat} {source : NodeId16} {timeout : Duration} {last : Option SerialHeader}
    (hk : Keeps k port source timeout last r) :
    (ofSession k port source o.transfers = [] ∧ Keeps k port source timeout last r') ∨
    (∃ t, ofSession k port source o.transfers = [t] ∧ Keeps k port source timeout (some t.header) r' ∧
      ∀ a, last = some a → a.transferId < t.header.transferId) := by
  cases h with
  | skip hs hb => exact Or.inl ⟨rfl, hk⟩
  | between hs hb => exact Or.inl ⟨rfl, hk.sub, by intro a _ u hd crc p cap hs; cases hs⟩
  | start o u hs ha => exact Or.inl ⟨rfl, hk.sub, by intro a _ u hd crc p cap hs; cases hs⟩
  | header o u u' h hs ha hl => exact Or.inl ⟨rfl, hk.sub, by intro a _ u hd crc p cap hs; cases hs⟩
  | reject out u h hs ho => rw [ho]; exact Or.inl ⟨rfl, hk.sub, by intro a _ u hd crc p cap hs; cases hs⟩
  | drop u h crc p cap hs hb => exact Or.inl ⟨rfl, hk.sub, by intro a _ u hd crc p cap hs; cases hs⟩
  | payload o u u' h crc p cap hs ha =>
    refine Or.inl ⟨rfl, hk.sub, ?_⟩
    intro a ha' u2 hd crc2 p2 cap2 hs2 hin
    cases hs2
    exact hk.newer a ha' _ _ _ _ _ hs hin
  | accept x u u' h th sub hs ha hl hd hi =>
    refine Or.inl ⟨rfl, hk.sub, ?_⟩
    intro a ha' u2 hd crc2 p2 cap2 hs2 hin
    cases hs2
    obtain ⟨i1, i2⟩ := isInterested_some.mp hi
    obtain ⟨sub', f1, f2, f3⟩ := hk.sub
    rw [hin.1, hin.2.1, f1] at i1
    cases i1
    exact i2 source _ hin.2.2 (f3 a ha')
  | deliver u h crc p cap sub hs hb hc hf hd =>
    obtain ⟨sub', f1, f2, f3⟩ := hk.sub
    by_cases hin : InSession k port source h
    · refine Or.inr ⟨{ header := h, loopback := false, payload := p }, ?_, ⟨?_, ?_⟩, ?_⟩
      · simp [ofSession, Output.transfers, hin]
      · refine ⟨sub'.record source h, ?_, f2, ?_⟩
        · simp [recorded, hin.2.2, SubManager.find_update, hin.1, hin.2.1, f1]
        · rintro a ⟨⟩
          simp [Subscription.record, f2]
      · intro a _ u hd crc p cap hs; cases hs
      · intro a ha'
        exact hk.newer a ha' _ _ _ _ _ hs hin
    · refine Or.inl ⟨by simp [ofSession, Output.transfers, hin], ?_, ?_⟩
      · cases hsrc : h.source with
        | none => exact ⟨sub', by simp only [recorded, hsrc]; exact f1, f2, f3⟩
        | some s =>
          by_cases hkp : k = h.kind ∧ port = h.port
          · have hne : source ≠ s := fun he => hin ⟨hkp.1.symm, hkp.2.symm, by rw [hsrc, he]⟩
            refine ⟨sub'.record s h, ?_, f2, ?_⟩
            · simp only [recorded, hsrc, Bool.false_eq_true, if_false, SubManager.find_update, if_pos hkp, f1, Option.map_some]
            · intro a ha'
              simp only [Subscription.record, if_neg hne]
              exact f3 a ha'
          · refine ⟨sub', ?_, f2, f3⟩
            simp only [recorded, hsrc, Bool.false_eq_true, if_false, SubManager.find_update, if_neg hkp, f1]
      · intro a _ u hd crc p cap hs; cases hs

end Verif.Serial
