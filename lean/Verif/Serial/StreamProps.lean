import Verif.Serial.StreamSpec
import Mathlib.Data.List.Forall2

/-!
C102: a stream of transfers over a serial link.
-/

namespace Verif.Serial

open Verif.Cobs (Unescaper ZeroAfterFullRun)
open Verif.Crc (Tracker le32 crc32c)
open Verif.Hdr (NodeId16 Tid64 RawHeader TransportHeader)

/-! ### Lemmas -/

theorem run_nonzero {e : List Byte} : ∀ {u u' : Unescaper} {out : List Byte}, u.run e = some (out, u') → ∀ b ∈ e, b ≠ 0#8 := by
  induction e with
  | nil => intro u u' out _ b hb; cases hb
  | cons x e ih =>
    intro u u' out h b hb
    obtain ⟨o, u1, out1, h1, h2, -⟩ := run_cons h
    rcases List.mem_cons.1 hb with rfl | hb
    · rintro rfl
      rw [accept_zero] at h1
      cases h1
    · exact ih h2 b hb

/-- In the state `Idle`, everything but a delimiter is skipped. -/
theorem feed_idle {ops : List Op} {r : Receiver} (hq : Quiet ops) (hs : r.state = .idle) (hb : ∀ b ∈ bytesOf ops, b ≠ 0#8) :
    ∃ r', r.exec ops = some (r', []) ∧ r'.state = .idle ∧ Later r r' := by
  induction ops generalizing r with
  | nil => exact ⟨r, rfl, hs, .of_eq rfl rfl⟩
  | cons op ops ih =>
    rcases hq.cases with ⟨now, rfl⟩ | ⟨b, now, rfl⟩
    · obtain ⟨r', h1, h2, h3⟩ := ih (r := r.cleanExpired now) hq.tail hs hb
      exact ⟨r', by rw [exec_cons_clean, h1], h2, (Later.clean r now).trans h3⟩
    · have hstep : r.handleByte false b now = some (r, .nothing) := by
        unfold Receiver.handleByte
        rw [hs]
        dsimp only
        rw [if_neg (hb b (by simp [bytesOf])), ← hs]
      obtain ⟨r', h1, h2, h3⟩ := ih (r := r) hq.tail hs (fun x hx => hb x (by simp [bytesOf, hx]))
      exact ⟨r', by rw [exec_cons_byte hstep, h1]; rfl, h2, h3⟩

/-- `r'` has the same node ID and subscriptions as `r`, with at most fewer sessions and the transfer `h` recorded. -/
structure Progress (h : SerialHeader) (r r' : Receiver) : Prop where
  nodeId : r'.nodeId = r.nodeId
  find : ∀ k p sub, r.subscriptions.find k p = some sub → ∃ sub', r'.subscriptions.find k p = some sub' ∧ sub'.payloadSizeMax = sub.payloadSizeMax ∧
    ∀ n s, sub'.sessions n = some s → sub.sessions n = some s ∨ (h.kind = k ∧ h.port = p ∧ h.source = some n ∧ s.lastTransferId = h.transferId)
  none : ∀ k p, r.subscriptions.find k p = none → r'.subscriptions.find k p = none

theorem Later.progress {r r' : Receiver} (l : Later r r') (h : SerialHeader) : Progress h r r' := by
  refine ⟨l.nodeId, fun k p sub hf => ?_, l.none⟩
  obtain ⟨sub', h1, h2, h3⟩ := l.find k p sub hf
  exact ⟨sub', h1, h2, fun n s hs => .inl (h3 n s hs)⟩

theorem Progress.before {h : SerialHeader} {a b c : Receiver} (l : Later a b) (p : Progress h b c) : Progress h a c := by
  refine ⟨p.nodeId.trans l.nodeId, fun k q sub hf => ?_, fun k q hf => p.none k q (l.none k q hf)⟩
  obtain ⟨s1, f1, e1, g1⟩ := l.find k q sub hf
  obtain ⟨s2, f2, e2, g2⟩ := p.find k q s1 f1
  exact ⟨s2, f2, e2.trans e1, fun n s hs => (g2 n s hs).imp_left (g1 n s)⟩

theorem Progress.after {h : SerialHeader} {a b c : Receiver} (p : Progress h a b) (l : Later b c) : Progress h a c := by
  refine ⟨l.nodeId.trans p.nodeId, fun k q sub hf => ?_, fun k q hf => l.none k q (p.none k q hf)⟩
  obtain ⟨s1, f1, e1, g1⟩ := p.find k q sub hf
  obtain ⟨s2, f2, e2, g2⟩ := l.find k q s1 f1
  exact ⟨s2, f2, e2.trans e1, fun n s hs => g1 n s (g2 n s hs)⟩

theorem Progress.accepts {h : SerialHeader} {r r' : Receiver} (p : Progress h r r') (h' : SerialHeader) : r'.accepts h' = r.accepts h' := by
  unfold Receiver.accepts
  cases hf : r.subscriptions.find h'.kind h'.port with
  | none => rw [p.none _ _ hf]
  | some sub =>
    obtain ⟨sub', h1, h2, -⟩ := p.find _ _ _ hf
    simp only [h1, h2, p.nodeId]

theorem Later.fresh {t' : SerialTransfer} {r r' : Receiver} (p : Later r r') (hf : Fresh r t') : Fresh r' t' := by
  intro sub s session h1 h2 h3
  cases hfind : r.subscriptions.find t'.header.kind t'.header.port with
  | none => rw [p.none _ _ hfind] at h1; cases h1
  | some sub0 =>
    obtain ⟨sub1, f1, -, f3⟩ := p.find _ _ _ hfind
    rw [f1] at h1
    cases h1
    exact hf sub0 s session hfind h2 (f3 s session h3)

/-- What comes of a transfer: nothing, if it is not accepted or has an old ID, or the transfer. -/
def Outcome (r : Receiver) (t : SerialTransfer) (r' : Receiver) (out : List SerialTransfer) : Prop :=
  (out = [] ∧ Later r r' ∧ (r.accepts t.header = none ∨ ¬ Fresh r t)) ∨ ∃ extent x, r.accepts t.header = some extent ∧ IsReceived t extent x ∧ out = [x]

/-- A frame after a delimiter. -/
theorem frame_any {ops : List Op} {r : Receiver} {t : SerialTransfer} {e : List Byte}
    (hs : r.state = .betweenTransfers) (hq : Quiet ops) (hb : bytesOf ops = e ++ [0#8])
    (hdec : Verif.Cobs.decoded e = some (frameData t)) :
    ∃ r' out, r.exec ops = some (r', out) ∧ r'.state = .betweenTransfers ∧ Progress t.header r r' ∧ Outcome r t r' out := by
  simp only [Verif.Cobs.decoded] at hdec
  cases hrun : Unescaper.new.run e with
  | none => rw [hrun] at hdec; cases hdec
  | some p =>
    obtain ⟨out, uEnd⟩ := p
    rw [hrun] at hdec
    simp only [Option.map_some, Option.some.injEq] at hdec
    subst hdec
    have hel : (Verif.Hdr.encode (TransportHeader.ofCore t.header)).length = 24 := (Verif.Hdr.C25_checksum_valid _).1
    -- the end of the frame
    obtain ⟨opsA, nowE, opsB, rfl, hA, hB, qA, qB⟩ := quiet_split hq hb
    -- the end of the header
    obtain ⟨e1, b, e2, out1, u1, x, u2, out2, q1, q2, q3, q4, q5, q6⟩ := run_split (n := 23) hrun (by
      simp only [frameData, List.length_append, hel]; omega)
    rw [q1] at hA
    obtain ⟨ops1, now, ops2, rfl, h1, h2, qq1, qq2⟩ := quiet_split qA hA
    -- header bytes
    obtain ⟨r1, k1, k2, k3⟩ : ∃ r1, r.exec ops1 = some (r1, []) ∧
        (r1.state = .header u1 out1) ∧ Later r r1 := by
      cases e1 with
      | nil =>
        simp only [Unescaper.run, Option.some.injEq, Prod.mk.injEq] at q2
        rw [← q2.1] at q6; simp at q6
      | cons y e1 =>
        obtain ⟨opsC, nowC, opsD, rfl, hC, hD, qC, qD⟩ := quiet_split (e1 := []) qq1 (by rw [h1]; rfl)
        obtain ⟨rc, c1, c2, c3⟩ := feed_nothing (r := r) qC hC
        have hy : y ≠ 0#8 := run_nonzero q2 y List.mem_cons_self
        have hstart := start_as_header (r := rc) (by rw [c2, hs]) hy nowC
        obtain ⟨rd, d1, d2, d3⟩ := feed_header (ops := .byte y nowC false :: opsD)
          (r := { rc with state := .header Unescaper.new [] }) (by
            intro op hop
            rcases List.mem_cons.mp hop with rfl | hop
            · exact Or.inr ⟨_, _, rfl⟩
            · exact qD op hop) rfl (by rw [bytesOf, hD]; exact q2) (by simp [q6])
        refine ⟨rd, ?_, by simpa using d2, .trans c3 (.state d3)⟩
        rw [exec_append, c1]
        have : rc.exec (.byte y nowC false :: opsD) = ({ rc with state := .header Unescaper.new [] } : Receiver).exec (.byte y nowC false :: opsD) := by
          simp only [Receiver.exec, Receiver.step, hstart]
        simp [this, d1]
    -- the last byte of the header
    have hsplit : out1 ++ [x] = Verif.Hdr.encode (TransportHeader.ofCore t.header) ∧
        out2 = t.payload ++ Verif.Crc.le32 (Verif.Crc.crc32c t.payload) := by
      have : frameData t = (out1 ++ [x]) ++ out2 := by rw [q5]; simp
      rw [frameData, List.append_assoc] at this
      have := List.append_inj this (by simp [hel, q6])
      exact ⟨this.1.symm, this.2.symm⟩
    have hdone := headerDone_eq false r1 u2 (h := out1 ++ [x]) (by simp [q6]) now
    rw [hsplit.1, Verif.Hdr.C25_header_roundtrip _ (by cases t.header <;> exact Nat.zero_lt_succ _)] at hdone
    simp only [Option.bind_some, Verif.Hdr.C25_core_roundtrip] at hdone
    rw [← hsplit.1] at hdone
    have hlast := step_header_last k2 q3 q6 now false
    -- a header that is not interesting
    have notInteresting : r1.isInterested (t.header.setTimestamp now) = none → r.accepts t.header = none ∨ ¬ Fresh r t →
        ∃ r' out, r.exec ((ops1 ++ .byte b now false :: ops2) ++ .byte 0#8 nowE false :: opsB) = some (r', out) ∧ r'.state = .betweenTransfers ∧ Progress t.header r r' ∧
          Outcome r t r' out := by
      intro hint hacc
      simp only [hint, Option.map_none] at hdone
      obtain ⟨r2, p1, p2, p3⟩ := feed_idle (r := { r1 with state := .idle }) qq2 rfl (by rw [h2]; exact run_nonzero q4)
      have hend := step_zero_between (r := r2) (Or.inl p2) nowE false
      obtain ⟨r4, e4, s4, l4⟩ := feed_nothing (r := { r2 with state := .betweenTransfers }) qB hB
      have hl : Later r r4 := (k3.trans (.state p3)).trans (.state l4)
      refine ⟨r4, [], ?_, s4, hl.progress _, .inl ⟨rfl, hl, hacc⟩⟩
      rw [exec_append, exec_append, k1]
      simp only [Option.bind_some, exec_cons_byte (hlast.trans hdone), p1, Option.map_some, exec_cons_byte hend, e4, Output.transfers,
        List.nil_append]
    -- an interesting header and the payload
    have interesting : ∀ sub1, r1.isInterested (t.header.setTimestamp now) = some sub1 →
        ∃ r2, r.exec (ops1 ++ .byte b now false :: ops2) = some (r2, []) ∧ Later r r2 ∧
          r2.state = .payload uEnd (t.header.setTimestamp now) (Tracker.new.digestAll out2).2 (([] ++ (Tracker.new.digestAll out2).1).take sub1.payloadSizeMax) sub1.payloadSizeMax := by
      intro sub1 hint
      simp only [hint, Option.map_some, Bool.false_eq_true, if_false, Verif.Hdr.C25_core_roundtrip] at hdone
      have hstep : r1.handleByte false b now =
          some ({ r1 with state := .payload u2 (t.header.setTimestamp now) Tracker.new [] sub1.payloadSizeMax }, .nothing) := hlast.trans hdone
      obtain ⟨r2, p1, p2, p3⟩ := feed_payload (r := { r1 with state := .payload u2 (t.header.setTimestamp now) Tracker.new [] sub1.payloadSizeMax })
        qq2 rfl (by simp) (h2 ▸ q4)
      refine ⟨r2, ?_, k3.trans (.state p3), p2⟩
      rw [exec_append, k1]
      simp only [Option.bind_some, exec_cons_byte hstep, p1, Option.map_some, Output.transfers, List.nil_append]
    obtain ⟨c1, c2⟩ := Verif.Crc.C02_tracker_correct_iff out2
    have hbody : out2.take (out2.length - 4) = t.payload := by
      rw [hsplit.2]
      simp [Verif.Crc.le32]
    cases hf : r.subscriptions.find t.header.kind t.header.port with
    | none =>
      refine notInteresting ?_ (.inl (by simp [Receiver.accepts, hf]))
      cases hi : r1.isInterested (t.header.setTimestamp now) with
      | none => rfl
      | some sub =>
        have := (isInterested_some.mp hi).1
        simp only [Header.setTimestamp_kind, Header.setTimestamp_port] at this
        rw [k3.none _ _ hf] at this
        cases this
    | some sub =>
      by_cases hd : ∀ d, t.header.destination = some d → r.nodeId = some d
      · have hacc : r.accepts t.header = some sub.payloadSizeMax := by
          unfold Receiver.accepts
          rw [hf]
          cases hdst : t.header.destination with
          | none => rfl
          | some d => simp [hd d hdst]
        obtain ⟨sub1, f1, fe1, fs1⟩ := k3.find _ _ _ hf
        cases hint : r1.isInterested (t.header.setTimestamp now) with
        | none =>
          refine notInteresting hint (.inr fun hfresh => ?_)
          have : r1.isInterested (t.header.setTimestamp now) = some sub1 := by
            apply isInterested_some.mpr
            simp only [Header.setTimestamp_kind, Header.setTimestamp_port, Header.setTimestamp_source, Header.setTimestamp_transferId]
            exact ⟨f1, fun s session hsrc hses => hfresh sub s session hf hsrc (fs1 s session hses)⟩
          rw [hint] at this
          cases this
        | some sub1' =>
          obtain rfl : sub1 = sub1' := by
            have := (isInterested_some.mp hint).1
            simp only [Header.setTimestamp_kind, Header.setTimestamp_port] at this
            exact Option.some.inj (f1.symm.trans this)
          obtain ⟨r2, x2, hl2, p2⟩ := interesting sub1 hint
          obtain ⟨sub2, f2, fe2, fs2⟩ := hl2.find _ _ _ hf
          have hfind : ({ r2 with state := .betweenTransfers } : Receiver).findSubscriptionMut (t.header.setTimestamp now) = some sub2 := by
            apply findSubscriptionMut_some.mpr
            simp only [Header.setTimestamp_kind, Header.setTimestamp_port, Header.setTimestamp_destination]
            exact ⟨f2, fun d h => hl2.nodeId.trans (hd d h)⟩
          have hend : ∃ r3 : Receiver, r2.handleByte false 0#8 nowE = some (r3, .transfer { header := t.header.setTimestamp now, loopback := false, payload := t.payload.take sub.payloadSizeMax }) ∧
              r3.state = .betweenTransfers ∧ Progress t.header r2 r3 := by
            unfold Receiver.handleByte
            rw [p2]
            simp only [Receiver.payloadByte, accept_zero, Receiver.completeTransfer, c1.mpr ⟨_, hsplit.2⟩, Bool.not_true,
              Bool.false_eq_true, if_false, hfind, List.nil_append, c2, hbody, fe1]
            refine ⟨_, rfl, ?_, ?_⟩
            · split <;> rfl
            · simp only [Header.setTimestamp_source, Header.setTimestamp_kind, Header.setTimestamp_port]
              cases hsrc : t.header.source with
              | none => exact Later.progress (r := r2) (r' := { r2 with state := .betweenTransfers }) (.of_eq rfl rfl) _
              | some source =>
                refine ⟨rfl, fun k p sb hsb => ?_, fun k p hn => ?_⟩
                · simp only [SubManager.find_update]
                  by_cases hkp : k = t.header.kind ∧ p = t.header.port
                  · rw [if_pos hkp, hsb]
                    refine ⟨_, rfl, rfl, fun n s hn => ?_⟩
                    simp only [Subscription.record] at hn
                    split at hn
                    · rename_i heq
                      cases hn
                      exact .inr ⟨hkp.1.symm, hkp.2.symm, by rw [hsrc, heq], by simp⟩
                    · exact .inl hn
                  · rw [if_neg hkp]
                    exact ⟨sb, hsb, rfl, fun n s hn => .inl hn⟩
                · simp only [SubManager.find_update]
                  split
                  · rw [hn]; rfl
                  · exact hn
          obtain ⟨r3, e3, s3, l3⟩ := hend
          obtain ⟨r4, e4, s4, l4⟩ := feed_nothing (r := r3) qB hB
          refine ⟨r4, [{ header := t.header.setTimestamp now, loopback := false, payload := t.payload.take sub.payloadSizeMax }], ?_, s4.trans s3, (l3.before hl2).after l4,  .inr ⟨_, _, hacc, ⟨now, rfl⟩, rfl⟩⟩
          rw [exec_append, x2]
          simp only [Option.bind_some, Option.map_some, exec_cons_byte e3, e4, Output.transfers, List.nil_append, List.append_nil]
      · have hacc : r.accepts t.header = none := by
          unfold Receiver.accepts
          rw [hf]
          cases hdst : t.header.destination with
          | none => exact absurd (fun d h => by rw [hdst] at h; cases h) hd
          | some d =>
            have : ¬ r.nodeId = some d := fun h => hd fun d' h' => by rw [hdst] at h'; cases h'; exact h
            simp [this]
        cases hint : r1.isInterested (t.header.setTimestamp now) with
        | none => exact notInteresting hint (.inl hacc)
        | some sub1 =>
          obtain ⟨r2, x2, hl2, p2⟩ := interesting sub1 hint
          have hfind : ({ r2 with state := .betweenTransfers } : Receiver).findSubscriptionMut (t.header.setTimestamp now) = none := by
            cases hi : ({ r2 with state := .betweenTransfers } : Receiver).findSubscriptionMut (t.header.setTimestamp now) with
            | none => rfl
            | some sb =>
              have := (findSubscriptionMut_some.mp hi).2
              simp only [Header.setTimestamp_destination] at this
              exact absurd (fun d h => hl2.nodeId.symm.trans (this d h)) hd
          have hend : r2.handleByte false 0#8 nowE = some ({ r2 with state := .betweenTransfers }, .nothing) := by
            unfold Receiver.handleByte
            rw [p2]
            simp only [Receiver.payloadByte, accept_zero, Receiver.completeTransfer, c1.mpr ⟨_, hsplit.2⟩, Bool.not_true,
              Bool.false_eq_true, if_false, hfind]
          obtain ⟨r4, e4, s4, l4⟩ := feed_nothing (r := { r2 with state := .betweenTransfers }) qB hB
          have hl : Later r r4 := hl2.trans (.state l4)
          refine ⟨r4, [], ?_, s4, hl.progress _, .inl ⟨rfl, hl, .inl hacc⟩⟩
          rw [exec_append, x2]
          simp only [Option.bind_some, Option.map_some, exec_cons_byte hend, e4, Output.transfers, List.nil_append]

/-- The bytes of a transfer, when the receiver is between frames. -/
theorem wire_any {ops : List Op} {r : Receiver} {t : SerialTransfer} (hs : r.Between) (hq : Quiet ops) (hb : bytesOf ops = wire t)
    (hz : ¬ ZeroAfterFullRun (frameData t)) :
    ∃ r' out, r.exec ops = some (r', out) ∧ r'.Between ∧ Progress t.header r r' ∧ Outcome r t r' out := by
  rw [wire_eq] at hb
  obtain ⟨ops1, now1, ops2, rfl, h1, h2, q1, q2⟩ := quiet_split (e1 := []) hq hb
  obtain ⟨r1, k1, k2, k3⟩ := feed_nothing (r := r) q1 h1
  have hs1 : r1.Between := by unfold Receiver.Between; rw [k2]; exact hs
  have hstep := step_zero_between hs1 now1 false
  have hacc : ({ r1 with state := .betweenTransfers } : Receiver).accepts t.header = r.accepts t.header := (k3.progress t.header).accepts t.header
  obtain ⟨r2, out, m1, m2, m3, m4⟩ := frame_any (r := { r1 with state := .betweenTransfers }) rfl q2 h2 (decoded_wire hz)
  have hl : Later r { r1 with state := .betweenTransfers } := ⟨k3.nodeId, k3.find, k3.none⟩
  refine ⟨r2, out, ?_, Or.inr m2, m3.before hl, ?_⟩
  rotate_left
  · rcases m4 with ⟨h3, h4, h5⟩ | ⟨extent, x, h3, h4⟩
    · exact .inl ⟨h3, hl.trans h4, h5.imp (fun h => hacc ▸ h) fun h hf => h (hl.fresh hf)⟩
    · exact .inr ⟨extent, x, hacc ▸ h3, h4⟩
  rw [exec_append, k1]
  simp [exec_cons_byte hstep, m1, Output.transfers]

theorem Progress.fresh {t t' : SerialTransfer} {r r' : Receiver} (p : Progress t.header r r') (hf : Fresh r t')
    (hinc : sessionOf t = sessionOf t' → t.header.source ≠ Option.none → t.header.transferId < t'.header.transferId) : Fresh r' t' := by
  intro sub s session h1 h2 h3
  cases hfind : r.subscriptions.find t'.header.kind t'.header.port with
  | none => rw [p.none _ _ hfind] at h1; cases h1
  | some sub0 =>
    obtain ⟨sub1, f1, -, f3⟩ := p.find _ _ _ hfind
    rw [f1] at h1
    cases h1
    rcases f3 s session h3 with h | ⟨g1, g2, g3, g4⟩
    · exact hf sub0 s session hfind h2 h
    · rw [g4]
      exact hinc (by rw [sessionOf, sessionOf, g1, g2, g3, h2]) (by rw [g3]; simp)

/-- Events can be split where their bytes can. -/
theorem quiet_append {a b : List Byte} : ∀ {ops : List Op}, Quiet ops → bytesOf ops = a ++ b →
    ∃ ops1 ops2, ops = ops1 ++ ops2 ∧ bytesOf ops1 = a ∧ bytesOf ops2 = b ∧ Quiet ops1 ∧ Quiet ops2 := by
  intro ops hq hb
  cases b with
  | nil => exact ⟨ops, [], by simp, by simpa using hb, rfl, hq, by intro o ho; cases ho⟩
  | cons x b =>
    obtain ⟨ops1, now, ops2, rfl, h1, h2, q1, q2⟩ := quiet_split hq hb
    refine ⟨ops1, .byte x now false :: ops2, rfl, h1, by rw [bytesOf, h2], q1, ?_⟩
    exact (Quiet.append.1 hq).2

theorem IsReceived.session {t x : SerialTransfer} {extent : Nat} (h : IsReceived t extent x) : sessionOf x = sessionOf t := by
  obtain ⟨now, rfl⟩ := h
  simp [sessionOf]

/-! ### C102 -/

/-- **C102 (partial).** Any number of transfers, of any sessions, go over a serial link one after the other. Look at some sessions (`keep`; all sessions, one session, ...). If in
these sessions the transfer IDs increase, then however the bytes are divided among calls of `receive`, and whenever these are, a receiver that is between frames returns from these sessions exactly
the transfers that it accepts (that it is subscribed to and that are messages or addressed to it), each once and in order, with the headers but for the time and the payloads cut to the extents.

Missing from the full claim: frame data with a zero after a full run of non-zero bytes (see C28 and C29), and lost or damaged bytes (C31). -/
theorem C102_serial_stream_partial (keep : SessionKey → Bool) : ∀ {ts : List SerialTransfer} {ops : List Op} {r : Receiver}, r.Between → Quiet ops → bytesOf ops = ts.flatMap wire →
    (∀ t ∈ ts, ¬ ZeroAfterFullRun (frameData t)) → r.Increasing (ofSessions keep ts) → (∀ t ∈ ofSessions keep ts, r.accepts t.header ≠ none → Fresh r t) →
    ∃ r' outs, r'.Between ∧ r.exec ops = some (r', outs) ∧ List.Forall₂ (fun p out => IsReceived p.1 p.2 out) (r.accepted (ofSessions keep ts)) (ofSessions keep outs)
  | [], ops, r, hs, hq, hb, _, _, _ => by
    obtain ⟨r', h1, h2, -⟩ := feed_nothing (r := r) hq hb
    exact ⟨r', [], by unfold Receiver.Between; rw [h2]; exact hs, h1, .nil⟩
  | t :: ts, ops, r, hs, hq, hb, hz, hinc, hf => by
    rw [List.flatMap_cons] at hb
    obtain ⟨ops1, ops2, rfl, b1, b2, q1, q2⟩ := quiet_append hq hb
    obtain ⟨r1, out, e1, s1, p1, o1⟩ := wire_any hs q1 b1 (hz t List.mem_cons_self)
    have hacc : ∀ l, r1.accepted l = r.accepted l := by
      intro l
      unfold Receiver.accepted
      congr 1
      funext x
      rw [p1.accepts]
    have hinc' : ∀ l, r.Increasing l → r1.Increasing l := fun l h => h.imp fun {a b} h h1 h2 => h (by rwa [← p1.accepts]) (by rwa [← p1.accepts])
    cases hk : keep (sessionOf t) with
    | false =>
      have hnot : ofSessions keep (t :: ts) = ofSessions keep ts := by simp [ofSessions, hk]
      rw [hnot] at hinc hf ⊢
      have hf1 : ∀ x ∈ ofSessions keep ts, r1.accepts x.header ≠ none → Fresh r1 x := by
        intro x hx ha
        rw [p1.accepts] at ha
        refine p1.fresh (hf x hx ha) fun he _ => ?_
        have := (List.mem_filter.1 hx).2
        rw [← he, hk] at this
        cases this
      obtain ⟨r2, outs, s2, e2, o2⟩ := C102_serial_stream_partial keep s1 q2 b2 (fun x hx => hz x (List.mem_cons_of_mem _ hx)) (hinc' _ hinc) hf1
      refine ⟨r2, out ++ outs, s2, by rw [exec_append, e1]; simp [e2], ?_⟩
      rw [hacc] at o2
      rcases o1 with ⟨rfl, -⟩ | ⟨extent, x, -, hx, rfl⟩
      · exact o2
      · have : ofSessions keep ([x] ++ outs) = ofSessions keep outs := by simp [ofSessions, hx.session, hk]
        rw [this]
        exact o2
    | true =>
      have hyes : ofSessions keep (t :: ts) = t :: ofSessions keep ts := by simp [ofSessions, hk]
      rw [hyes] at hinc hf ⊢
      have hinc1 := List.pairwise_cons.1 hinc
      have hf1 : ∀ x ∈ ofSessions keep ts, r1.accepts x.header ≠ none → Fresh r1 x := by
        intro x hx ha
        rw [p1.accepts] at ha
        have hfx := hf x (List.mem_cons_of_mem _ hx) ha
        rcases o1 with ⟨-, hl, -⟩ | ⟨extent, y, hat, -⟩
        · exact hl.fresh hfx
        · exact p1.fresh hfx (hinc1.1 x hx (by rw [hat]; simp) ha)
      obtain ⟨r2, outs, s2, e2, o2⟩ := C102_serial_stream_partial keep s1 q2 b2 (fun x hx => hz x (List.mem_cons_of_mem _ hx)) (hinc' _ hinc1.2) hf1
      refine ⟨r2, out ++ outs, s2, by rw [exec_append, e1]; simp [e2], ?_⟩
      rw [hacc] at o2
      rcases o1 with ⟨rfl, -, hn⟩ | ⟨extent, x, ha, hx, rfl⟩
      · have hn' : r.accepts t.header = none := by
          cases ha : r.accepts t.header with
          | none => rfl
          | some e => exact absurd (hf t List.mem_cons_self (by rw [ha]; simp)) (hn.resolve_left (by rw [ha]; simp))
        simpa [Receiver.accepted, hn'] using o2
      · have h1 : r.accepted (t :: ofSessions keep ts) = (t, extent) :: r.accepted (ofSessions keep ts) := by simp [Receiver.accepted, ha]
        have h2 : ofSessions keep ([x] ++ outs) = x :: ofSessions keep outs := by simp [ofSessions, hx.session, hk]
        rw [h1, h2]
        exact .cons hx o2

theorem fine_of_short {t : SerialTransfer} (h : t.payload.length ≤ 226) : ¬ ZeroAfterFullRun (frameData t) := by
  rw [← Verif.Cobs.C28_cobs_roundtrip_iff_partial]
  apply Verif.Cobs.C28_cobs_roundtrip_short_partial
  simp only [frameData, List.length_append, (Verif.Hdr.C25_checksum_valid _).1, le32, List.length_cons, List.length_nil]
  omega

/-- **C102.** No condition on the content when the payloads have at most 226 bytes. -/
theorem C102_serial_stream_short (keep : SessionKey → Bool) {ts : List SerialTransfer} {ops : List Op} {r : Receiver} (hs : r.Between) (hq : Quiet ops) (hb : bytesOf ops = ts.flatMap wire)
    (hz : ∀ t ∈ ts, t.payload.length ≤ 226) (hinc : r.Increasing (ofSessions keep ts)) (hf : ∀ t ∈ ofSessions keep ts, r.accepts t.header ≠ none → Fresh r t) :
    ∃ r' outs, r'.Between ∧ r.exec ops = some (r', outs) ∧ List.Forall₂ (fun p out => IsReceived p.1 p.2 out) (r.accepted (ofSessions keep ts)) (ofSessions keep outs) :=
  C102_serial_stream_partial keep hs hq hb (fun t ht => fine_of_short (hz t ht)) hinc hf

/-- **C102 (partial).** While the link has not yet carried everything, the returned transfers are the first ones of these. -/
theorem C102_serial_prefix_partial (keep : SessionKey → Bool) {ts : List SerialTransfer} {ops : List Op} {rest : List Byte} {r : Receiver} (hs : r.Between) (hq : Quiet ops)
    (hb : bytesOf ops ++ rest = ts.flatMap wire) (hz : ∀ t ∈ ts, ¬ ZeroAfterFullRun (frameData t)) (hinc : r.Increasing (ofSessions keep ts)) (hf : ∀ t ∈ ofSessions keep ts, r.accepts t.header ≠ none → Fresh r t) :
    ∃ r' outs k, r.exec ops = some (r', outs) ∧ List.Forall₂ (fun p out => IsReceived p.1 p.2 out) ((r.accepted (ofSessions keep ts)).take k) (ofSessions keep outs) := by
  have hbytes : ∀ l : List Byte, bytesOf (l.map fun b => Op.byte b 0#32 false) = l := by
    intro l
    induction l with
    | nil => rfl
    | cons b l ih => simp [bytesOf, ih]
  have hq2 : Quiet (ops ++ rest.map fun b => .byte b 0#32 false) := by
    refine Quiet.append.2 ⟨hq, fun op hop => ?_⟩
    obtain ⟨b, -, rfl⟩ := List.mem_map.1 hop
    exact Or.inr ⟨_, _, rfl⟩
  obtain ⟨r', outs, -, he, ho⟩ := C102_serial_stream_partial keep hs hq2 (by rw [bytesOf_append, hbytes, hb]) hz hinc hf
  rw [exec_append] at he
  cases h1 : r.exec ops with
  | none => rw [h1] at he; cases he
  | some p =>
    rw [h1, Option.bind_some] at he
    obtain ⟨q, hq', he⟩ := Option.map_eq_some_iff.1 he
    simp only [Prod.mk.injEq] at he
    refine ⟨p.1, p.2, (ofSessions keep p.2).length, rfl, ?_⟩
    have happ : ofSessions keep outs = ofSessions keep p.2 ++ ofSessions keep q.2 := by rw [← he.2]; exact List.filter_append _ _
    rw [happ] at ho
    have := List.forall₂_take (ofSessions keep p.2).length ho
    rwa [List.take_left] at this

/-! ### A case: four transfers, of which the receiver wants three -/

/-- Messages on subject 7509 and requests: the third one is for another node. -/
def streamTransfers : List SerialTransfer :=
  [{ header := .message { timestamp := 0#32, transferId := 3#64, priority := 4#3, subject := 7509#13, source := some (node 9#16) }, loopback := false, payload := [1#8, 0#8, 2#8] },
   demoTransfer,
   { header := .request { timestamp := 77#32, transferId := 12#64, priority := 4#3, service := 430#9, source := node 9#16, destination := node 41#16 }
     loopback := true, payload := [1#8] },
   { header := .message { timestamp := 0#32, transferId := 4#64, priority := 4#3, subject := 7509#13, source := some (node 9#16) }, loopback := false, payload := [] }]

example : demoReceiver.Between ∧ Quiet (arriving (streamTransfers.flatMap wire)) ∧ bytesOf (arriving (streamTransfers.flatMap wire)) = streamTransfers.flatMap wire :=
  ⟨Or.inl rfl, arriving_quiet _, arriving_bytes _⟩

example : ∀ t ∈ streamTransfers, ¬ ZeroAfterFullRun (frameData t) := by
  intro t ht
  apply fine_of_short
  simp only [streamTransfers, List.mem_cons, List.not_mem_nil, or_false] at ht
  obtain rfl | rfl | rfl | rfl := ht <;> decide +kernel

example : demoReceiver.Increasing (ofSessions (fun _ => true) streamTransfers) := by
  simp only [Receiver.Increasing, streamTransfers, ofSessions, List.filter_cons, List.filter_nil, if_true, List.pairwise_cons, List.mem_cons, List.not_mem_nil, or_false, forall_eq_or_imp, forall_eq,
    List.Pairwise.nil, and_true, false_imp_iff, implies_true]
  refine ⟨⟨?_, ?_, ?_⟩, ⟨?_, ?_⟩, ?_⟩ <;> rintro h1 h2 h3 - <;> first | decide | exact absurd (congrArg Prod.fst h3) (by decide) | exact absurd rfl h2

example : ∀ t ∈ ofSessions (fun _ => true) streamTransfers, demoReceiver.accepts t.header ≠ none → Fresh demoReceiver t := by
  intro t ht _ sub s session hf _ hs
  replace ht := (List.mem_filter.1 ht).1
  simp only [streamTransfers, List.mem_cons, List.not_mem_nil, or_false] at ht
  obtain rfl | rfl | rfl | rfl := ht <;> cases hf <;> cases hs

example : (demoReceiver.accepted streamTransfers).map (fun p => (p.1.payload, p.2)) = [([1#8, 0#8, 2#8], 64), (demoTransfer.payload, 3), ([], 64)] := by decide +kernel

example : (demoReceiver.exec (arriving (streamTransfers.flatMap wire))).map (fun p => p.2.map (·.payload)) = some [[1#8, 0#8, 2#8], [5#8, 0#8, 0#8], []] := by decide +kernel

-- with a request sent again at the end, only the session of the messages is of interest
example : demoReceiver.Increasing (ofSessions (fun k => k == (.message, 7509, some (node 9#16))) (streamTransfers ++ [demoTransfer])) ∧
    ¬ demoReceiver.Increasing (ofSessions (fun _ => true) (streamTransfers ++ [demoTransfer])) ∧
    (demoReceiver.exec (arriving ((streamTransfers ++ [demoTransfer]).flatMap wire))).map (fun p => p.2.map (·.payload)) = some [[1#8, 0#8, 2#8], [5#8, 0#8, 0#8], []] := by
  refine ⟨?_, ?_, by decide +kernel⟩
  · have : ofSessions (fun k => k == (.message, 7509, some (node 9#16))) (streamTransfers ++ [demoTransfer]) =
        [streamTransfers[0]'(by decide), streamTransfers[3]'(by decide)] := by rfl
    rw [this]
    refine .cons (fun x hx => ?_) (.cons (fun x hx => nomatch hx) .nil)
    rw [List.mem_singleton.1 hx]
    exact fun _ _ _ _ => by decide
  · intro h
    have : ofSessions (fun _ => true) (streamTransfers ++ [demoTransfer]) = streamTransfers ++ [demoTransfer] := List.filter_true _
    rw [this] at h
    have := (List.pairwise_append.1 h).2.2 demoTransfer (by simp [streamTransfers]) demoTransfer (by simp) (by decide) (by decide) rfl (by decide)
    exact absurd this (by decide)

end Verif.Serial
