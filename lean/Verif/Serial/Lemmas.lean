import Verif.Serial.Spec

/-! Lemmas about the serial receiver and transmitter. -/

namespace Verif.Serial

open Verif.Cobs (Unescaper)
open Verif.Crc (Tracker)
open Verif.Hdr (NodeId16 Tid64 RawHeader TransportHeader)

/-! ### The unescaper -/

theorem accept_zero (u : Unescaper) : u.accept 0#8 = none := by simp [Unescaper.accept]

theorem accept_nonzero (u : Unescaper) (b : Byte) (h : b ≠ 0#8) : ∃ o u', u.accept b = some (o, u') := by
  unfold Unescaper.accept
  rw [if_neg h]
  split <;> exact ⟨_, _, rfl⟩

theorem accept_none {u : Unescaper} {b : Byte} : u.accept b = none ↔ b = 0#8 := by
  constructor
  · intro h
    by_cases hb : b = 0#8
    · exact hb
    · obtain ⟨o, u', h'⟩ := accept_nonzero u b hb
      rw [h] at h'; cases h'
  · rintro rfl; exact accept_zero u

theorem run_append (a b : List Byte) (u : Unescaper) :
    u.run (a ++ b) = (u.run a).bind (fun p => (p.2.run b).map (fun q => (p.1 ++ q.1, q.2))) := by
  induction a generalizing u with
  | nil => cases h : u.run b <;> simp [Unescaper.run, h]
  | cons x a ih =>
    simp only [List.cons_append, Unescaper.run, Option.bind_eq_bind]
    cases hx : u.accept x with
    | none => rfl
    | some p =>
      obtain ⟨o, u1⟩ := p
      simp only [Option.bind_some, ih]
      cases ha : u1.run a with
      | none => rfl
      | some q =>
        simp only [Option.bind_some]
        cases hb : q.2.run b <;> simp

theorem run_snoc {u u1 u2 : Unescaper} {a out : List Byte} {b : Byte} {o : Option Byte} (h : u.run a = some (out, u1))
    (hb : u1.accept b = some (o, u2)) : u.run (a ++ [b]) = some (out ++ o.toList, u2) := by
  rw [run_append, h]
  simp [Unescaper.run, hb]

theorem run_cons {u u' : Unescaper} {b : Byte} {bs out : List Byte} (h : u.run (b :: bs) = some (out, u')) :
    ∃ o u1 out1, u.accept b = some (o, u1) ∧ u1.run bs = some (out1, u') ∧ out = o.toList ++ out1 := by
  simp only [Unescaper.run, Option.bind_eq_bind] at h
  cases hx : u.accept b with
  | none => rw [hx] at h; cases h
  | some p =>
    obtain ⟨o, u1⟩ := p
    rw [hx] at h
    simp only [Option.bind_some] at h
    cases hr : u1.run bs with
    | none => rw [hr] at h; cases h
    | some q =>
      rw [hr] at h
      cases h
      exact ⟨o, u1, q.1, rfl, hr, rfl⟩

theorem run_split {u u' : Unescaper} {e out : List Byte} {n : Nat} (h : u.run e = some (out, u')) (hn : n < out.length) :
    ∃ e1 b e2 out1 u1 x u2 out2, e = e1 ++ b :: e2 ∧ u.run e1 = some (out1, u1) ∧ u1.accept b = some (some x, u2) ∧
      u2.run e2 = some (out2, u') ∧ out = out1 ++ x :: out2 ∧ out1.length = n := by
  induction e generalizing u out n with
  | nil =>
    simp only [Unescaper.run, Option.some.injEq, Prod.mk.injEq] at h
    rw [← h.1] at hn
    simp at hn
  | cons b e ih =>
    obtain ⟨o, u1, out1, h1, h2, h3⟩ := run_cons h
    cases o with
    | none =>
      simp only [Option.toList_none, List.nil_append] at h3
      subst h3
      obtain ⟨e1, b', e2, o1, v1, x, v2, o2, q1, q2, q3, q4, q5, q6⟩ := ih h2 hn
      refine ⟨b :: e1, b', e2, o1, v1, x, v2, o2, by rw [q1]; rfl, ?_, q3, q4, q5, q6⟩
      simp [Unescaper.run, h1, q2]
    | some y =>
      simp only [Option.toList_some, List.cons_append, List.nil_append] at h3
      subst h3
      cases n with
      | zero => exact ⟨[], b, e, [], u, y, u1, out1, rfl, rfl, h1, h2, rfl, rfl⟩
      | succ n =>
        obtain ⟨e1, b', e2, o1, v1, x, v2, o2, q1, q2, q3, q4, q5, q6⟩ := ih h2 (by simpa using hn)
        refine ⟨b :: e1, b', e2, y :: o1, v1, x, v2, o2, by rw [q1]; rfl, ?_, q3, q4, by rw [q5]; rfl, by simp [q6]⟩
        simp [Unescaper.run, h1, q2]

/-! ### Executions -/

theorem exec_append (a b : List Op) (r : Receiver) :
    r.exec (a ++ b) = (r.exec a).bind (fun p => (p.1.exec b).map (fun q => (q.1, p.2 ++ q.2))) := by
  induction a generalizing r with
  | nil => cases h : r.exec b <;> simp [Receiver.exec, h]
  | cons op a ih =>
    simp only [List.cons_append, Receiver.exec]
    cases hs : r.step op with
    | none => rfl
    | some p =>
      simp only [Option.bind_some, ih]
      cases ha : p.1.exec a with
      | none => rfl
      | some q =>
        simp only [Option.bind_some, Option.map_some]
        cases hb : q.1.exec b with
        | none => rfl
        | some x => simp [List.append_assoc]

theorem exec_snoc {a : List Op} {r r' : Receiver} {op : Op} {ts : List SerialTransfer} (h : r.exec (a ++ [op]) = some (r', ts)) :
    ∃ r1 ts1 ts2, r.exec a = some (r1, ts1) ∧ r1.step op = some (r', ts2) ∧ ts = ts1 ++ ts2 := by
  rw [exec_append] at h
  cases ha : r.exec a with
  | none => rw [ha] at h; cases h
  | some p =>
    rw [ha] at h
    simp only [Option.bind_some, Receiver.exec] at h
    cases hs : p.1.step op with
    | none => rw [hs] at h; cases h
    | some q =>
      rw [hs] at h
      simp only [Option.bind_some, Option.map_some, List.append_nil, Option.some.injEq, Prod.mk.injEq] at h
      refine ⟨p.1, p.2, q.2, rfl, ?_, h.2.symm⟩
      rw [hs, ← h.1]

theorem exec_cons_byte {r r1 : Receiver} {b : Byte} {now : Instant} {oom : Bool} {o : Output}
    (h : r.handleByte oom b now = some (r1, o)) (ops : List Op) :
    r.exec (.byte b now oom :: ops) = (r1.exec ops).map (fun q => (q.1, o.transfers ++ q.2)) := by
  simp [Receiver.exec, Receiver.step, h]

theorem step_header {r : Receiver} {u u' : Unescaper} {h : HeaderCollector} {b : Byte} {o : Option Byte}
    (hs : r.state = .header u h) (hb : u.accept b = some (o, u')) (hlen : (h ++ o.toList).length < 24) (now : Instant) (oom : Bool) :
    r.handleByte oom b now = some ({ r with state := .header u' (h ++ o.toList) }, .nothing) := by
  unfold Receiver.handleByte
  rw [hs]
  simp only [Receiver.headerByte, hb]
  cases o with
  | none => simp
  | some x =>
    simp only [Option.toList_some, List.length_append, List.length_cons, List.length_nil] at hlen
    have h1 : HeaderCollector.push h x = some (h ++ [x]) := by
      unfold HeaderCollector.push Verif.Hdr.size; rw [if_pos (by omega)]
    have h2 : HeaderCollector.isDone (h ++ [x]) = false := by
      unfold HeaderCollector.isDone Verif.Hdr.size
      simp only [List.length_append, List.length_cons, List.length_nil, beq_eq_false_iff_ne, ne_eq]
      omega
    simp [h1, h2]

/-- `r'` has the same node ID and subscriptions as `r`, with at most fewer sessions. -/
structure Later (r r' : Receiver) : Prop where
  nodeId : r'.nodeId = r.nodeId
  find : ∀ k p sub, r.subscriptions.find k p = some sub → ∃ sub', r'.subscriptions.find k p = some sub' ∧
    sub'.payloadSizeMax = sub.payloadSizeMax ∧ ∀ n s, sub'.sessions n = some s → sub.sessions n = some s
  none : ∀ k p, r.subscriptions.find k p = none → r'.subscriptions.find k p = none

theorem Later.of_eq {r r' : Receiver} (h1 : r'.nodeId = r.nodeId) (h2 : r'.subscriptions = r.subscriptions) : Later r r' :=
  ⟨h1, fun _ _ sub h => ⟨sub, by rw [h2]; exact h, rfl, fun _ _ h => h⟩, fun _ _ h => by rw [h2]; exact h⟩

theorem Later.trans {a b c : Receiver} (h1 : Later a b) (h2 : Later b c) : Later a c := by
  refine ⟨h2.nodeId.trans h1.nodeId, fun k p sub h => ?_, fun k p h => h2.none k p (h1.none k p h)⟩
  obtain ⟨s1, f1, e1, g1⟩ := h1.find k p sub h
  obtain ⟨s2, f2, e2, g2⟩ := h2.find k p s1 f1
  exact ⟨s2, f2, e2.trans e1, fun n s h => g1 n s (g2 n s h)⟩

theorem Later.state {r r' : Receiver} {st : State} (h : Later { r with state := st } r') : Later r r' := ⟨h.nodeId, h.find, h.none⟩

theorem cleanExpired_sessions {now : Instant} {s : Subscription} {n : NodeId16} {se : Session} :
    (s.cleanExpired now).sessions n = some se ↔ s.sessions n = some se ∧ Instant.before se.expirationTime now = false := by
  simp only [Subscription.cleanExpired]
  cases h : s.sessions n with
  | none => simp
  | some se' =>
    simp only [Option.some.injEq]
    split
    · rename_i hb
      simp only [reduceCtorEq, false_iff, not_and]
      rintro rfl; simp [hb]
    · rename_i hb
      constructor
      · intro h; cases h; exact ⟨rfl, by simpa using hb⟩
      · rintro ⟨rfl, -⟩; rfl

theorem Later.clean (r : Receiver) (now : Instant) : Later r (r.cleanExpired now) := by
  refine ⟨rfl, fun k p sub h => ⟨sub.cleanExpired now, ?_, rfl, fun n s hs => (cleanExpired_sessions.mp hs).1⟩, fun k p h => ?_⟩
  all_goals simp [Receiver.cleanExpired, SubManager.find_mapAll, h]

theorem Later.wants {r r' : Receiver} (h : Later r r') {hd : SerialHeader} {sub : Subscription} (hw : Wants r hd sub) :
    ∃ sub', Wants r' hd sub' ∧ sub'.payloadSizeMax = sub.payloadSizeMax := by
  obtain ⟨s1, f1, e1, g1⟩ := h.find _ _ _ hw.subscribed
  refine ⟨s1, ⟨f1, fun d hd => h.nodeId.trans (hw.addressed d hd), fun s se h1 h2 => hw.newer s se h1 (g1 s se h2)⟩, e1⟩

theorem Quiet.tail {op : Op} {ops : List Op} (h : Quiet (op :: ops)) : Quiet ops := fun o ho => h o (List.mem_cons_of_mem _ ho)

theorem Quiet.cases {op : Op} {ops : List Op} (h : Quiet (op :: ops)) :
    (∃ now, op = .clean now) ∨ (∃ b now, op = .byte b now false) := h op (List.mem_cons_self ..)

theorem Quiet.append {a b : List Op} : Quiet (a ++ b) ↔ Quiet a ∧ Quiet b := by
  simp only [Quiet, List.mem_append]
  exact ⟨fun h => ⟨fun o ho => h o (Or.inl ho), fun o ho => h o (Or.inr ho)⟩, fun h o ho => ho.elim (h.1 o) (h.2 o)⟩

theorem bytesOf_append (a b : List Op) : bytesOf (a ++ b) = bytesOf a ++ bytesOf b := by
  induction a with
  | nil => rfl
  | cons op a ih => cases op <;> simp [bytesOf, ih]

/-- Events can be split where their bytes can. -/
theorem bytesOf_split {ops : List Op} {e1 e2 : List Byte} {b : Byte} (h : bytesOf ops = e1 ++ b :: e2) :
    ∃ ops1 now oom ops2, ops = ops1 ++ .byte b now oom :: ops2 ∧ bytesOf ops1 = e1 ∧ bytesOf ops2 = e2 := by
  induction ops generalizing e1 with
  | nil => simp [bytesOf] at h
  | cons op ops ih =>
    have other : bytesOf ops = e1 ++ b :: e2 → bytesOf [op] = [] →
        ∃ ops1 now oom ops2, op :: ops = ops1 ++ .byte b now oom :: ops2 ∧ bytesOf ops1 = e1 ∧ bytesOf ops2 = e2 := by
      intro h1 h2
      obtain ⟨o1, now, oom, o2, q1, q2, q3⟩ := ih h1
      refine ⟨op :: o1, now, oom, o2, by rw [q1]; rfl, ?_, q3⟩
      rw [← List.singleton_append, bytesOf_append, h2, q2]; rfl
    cases op with
    | byte b' now oom =>
      simp only [bytesOf] at h
      cases e1 with
      | nil =>
        simp only [List.nil_append, List.cons.injEq] at h
        obtain ⟨rfl, h⟩ := h
        exact ⟨[], now, oom, ops, rfl, rfl, h⟩
      | cons x e1 =>
        simp only [List.cons_append, List.cons.injEq] at h
        obtain ⟨rfl, h⟩ := h
        obtain ⟨o1, now', oom', o2, q1, q2, q3⟩ := ih h
        exact ⟨.byte b' now oom :: o1, now', oom', o2, by rw [q1]; rfl, by simp [bytesOf, q2], q3⟩
    | clean now => exact other h rfl
    | subscribe => exact other h rfl
    | unsubscribe => exact other h rfl
    | setId => exact other h rfl

/-- As `bytesOf_split`, for quiet events. -/
theorem quiet_split {ops : List Op} {e1 e2 : List Byte} {b : Byte} (hq : Quiet ops) (h : bytesOf ops = e1 ++ b :: e2) :
    ∃ ops1 now ops2, ops = ops1 ++ .byte b now false :: ops2 ∧ bytesOf ops1 = e1 ∧ bytesOf ops2 = e2 ∧ Quiet ops1 ∧ Quiet ops2 := by
  obtain ⟨o1, now, oom, o2, q1, q2, q3⟩ := bytesOf_split h
  subst q1
  obtain ⟨h1, h2⟩ := Quiet.append.mp hq
  rcases h2.cases with ⟨n, hn⟩ | ⟨b', n, hn⟩
  · cases hn
  · cases hn; exact ⟨o1, now, o2, rfl, q2, q3, h1, h2.tail⟩

theorem exec_cons_clean (r : Receiver) (now : Instant) (ops : List Op) :
    r.exec (.clean now :: ops) = (r.cleanExpired now).exec ops := by
  simp only [Receiver.exec, Receiver.step, Option.bind_some, List.nil_append]
  cases (r.cleanExpired now).exec ops <;> rfl

theorem feed_header {ops : List Op} {r : Receiver} {u u' : Unescaper} {h : HeaderCollector} {out : List Byte}
    (hq : Quiet ops) (hs : r.state = .header u h) (hr : u.run (bytesOf ops) = some (out, u')) (hlen : (h ++ out).length < 24) :
    ∃ r', r.exec ops = some (r', []) ∧ r'.state = .header u' (h ++ out) ∧ Later r r' := by
  induction ops generalizing r u h out with
  | nil =>
    simp only [bytesOf, Unescaper.run, Option.some.injEq, Prod.mk.injEq] at hr
    obtain ⟨rfl, rfl⟩ := hr
    exact ⟨r, rfl, by rw [List.append_nil, hs], .of_eq rfl rfl⟩
  | cons op ops ih =>
    rcases hq.cases with ⟨now, rfl⟩ | ⟨b, now, rfl⟩
    · obtain ⟨r', h1, h2, h3⟩ := ih (r := r.cleanExpired now) hq.tail hs hr hlen
      exact ⟨r', by rw [exec_cons_clean, h1], h2, (Later.clean r now).trans h3⟩
    · obtain ⟨o, u1, out1, h1, h2, h3⟩ := run_cons hr
      subst h3
      rw [← List.append_assoc] at hlen
      have hl1 : (h ++ o.toList).length < 24 := by
        simp only [List.length_append] at hlen ⊢; omega
      obtain ⟨r', k1, k2, k3⟩ := ih (r := { r with state := .header u1 (h ++ o.toList) }) hq.tail rfl h2 hlen
      refine ⟨r', ?_, by rw [k2, List.append_assoc], .state k3⟩
      rw [exec_cons_byte (step_header hs h1 hl1 now false), k1]
      rfl

theorem feed_nothing {ops : List Op} {r : Receiver} (hq : Quiet ops) (hb : bytesOf ops = []) :
    ∃ r', r.exec ops = some (r', []) ∧ r'.state = r.state ∧ Later r r' := by
  induction ops generalizing r with
  | nil => exact ⟨r, rfl, rfl, .of_eq rfl rfl⟩
  | cons op ops ih =>
    rcases hq.cases with ⟨now, rfl⟩ | ⟨b, now, rfl⟩
    · obtain ⟨r', h1, h2, h3⟩ := ih (r := r.cleanExpired now) hq.tail hb
      exact ⟨r', by rw [exec_cons_clean, h1], h2, (Later.clean r now).trans h3⟩
    · cases hb

/-- What the payload vector holds after more bytes were offered. -/
theorem take_push (p l : List Byte) (cap : Nat) (x : Byte) (hp : p.length ≤ cap) :
    ((if p.length < cap then p ++ [x] else p) ++ l).take cap = (p ++ x :: l).take cap := by
  split
  · simp
  · rw [List.take_append_of_le_length (by omega), List.take_append_of_le_length (by omega)]

theorem digestAll_cons (t : Tracker) (b : Byte) (bs : List Byte) :
    t.digestAll (b :: bs) = ((t.digest b).1.toList ++ ((t.digest b).2.digestAll bs).1, ((t.digest b).2.digestAll bs).2) := rfl

theorem feed_payload {ops : List Op} {r : Receiver} {u u' : Unescaper} {h : SerialHeader} {crc : Tracker}
    {p out : List Byte} {cap : Nat} (hq : Quiet ops) (hs : r.state = .payload u h crc p cap) (hp : p.length ≤ cap)
    (hr : u.run (bytesOf ops) = some (out, u')) :
    ∃ r', r.exec ops = some (r', []) ∧
      r'.state = .payload u' h (crc.digestAll out).2 ((p ++ (crc.digestAll out).1).take cap) cap ∧ Later r r' := by
  induction ops generalizing r u crc p out with
  | nil =>
    simp only [bytesOf, Unescaper.run, Option.some.injEq, Prod.mk.injEq] at hr
    obtain ⟨rfl, rfl⟩ := hr
    exact ⟨r, rfl, by simp only [Tracker.digestAll, List.append_nil, List.take_of_length_le hp, ← hs], .of_eq rfl rfl⟩
  | cons op ops ih =>
    rcases hq.cases with ⟨now, rfl⟩ | ⟨x, now, rfl⟩
    · obtain ⟨r', h1, h2, h3⟩ := ih (r := r.cleanExpired now) hq.tail hs hp hr
      exact ⟨r', by rw [exec_cons_clean, h1], h2, (Later.clean r now).trans h3⟩
    · obtain ⟨o, u1, out1, h1, h2, h3⟩ := run_cons hr
      subst h3
      cases o with
      | none =>
        have hstep : r.handleByte false x now = some ({ r with state := .payload u1 h crc p cap }, .nothing) := by
          unfold Receiver.handleByte; rw [hs]; simp [Receiver.payloadByte, h1]
        obtain ⟨r', k1, k2, k3⟩ := ih (r := { r with state := .payload u1 h crc p cap }) hq.tail rfl hp h2
        exact ⟨r', by rw [exec_cons_byte hstep, k1]; rfl, k2, .state k3⟩
      | some y =>
        generalize hqq : (match (crc.digest y).1 with
            | some before => if p.length < cap then p ++ [before] else p
            | none => p) = q
        have hstep : r.handleByte false x now = some ({ r with state := .payload u1 h (crc.digest y).2 q cap }, .nothing) := by
          unfold Receiver.handleByte; rw [hs]; simp [Receiver.payloadByte, h1, ← hqq]; rfl
        have hql : q.length ≤ cap := by
          rw [← hqq]
          split
          · split
            · simp only [List.length_append, List.length_cons, List.length_nil]; omega
            · exact hp
          · exact hp
        obtain ⟨r', k1, k2, k3⟩ := ih (r := { r with state := .payload u1 h (crc.digest y).2 q cap }) hq.tail rfl hql h2
        refine ⟨r', by rw [exec_cons_byte hstep, k1]; rfl, ?_, .state k3⟩
        rw [k2]
        simp only [Option.toList_some, List.cons_append, List.nil_append, digestAll_cons]
        congr 1
        rw [← hqq]
        cases hd : (crc.digest y).1 with
        | none => simp
        | some z =>
          simp only [Option.toList_some, List.cons_append, List.nil_append]
          exact take_push p _ cap z hp

/-! ### Headers -/

theorem asHeader_full {h : HeaderCollector} (hl : h.length = 24) : HeaderCollector.asHeader h = RawHeader.fromBytes h := by
  unfold HeaderCollector.asHeader Verif.Hdr.size
  rw [hl]; simp

/-- What the receiver does with a complete header. -/
theorem headerDone_eq (oom : Bool) (r : Receiver) (u : Unescaper) {h : HeaderCollector} (hl : h.length = 24) (now : Instant) :
    r.headerDone oom u h now = some (match (Verif.Hdr.decode h).bind (fun th => (r.isInterested (th.asCoreHeader now)).map
        (fun sub => (th, sub))) with
      | none => ({ r with state := .idle }, .nothing)
      | some (th, sub) => if oom then ({ r with state := .idle }, .outOfMemory)
        else ({ r with state := .payload u (th.asCoreHeader now) Tracker.new [] sub.payloadSizeMax }, .nothing)) := by
  obtain ⟨raw, hraw⟩ := Verif.Hdr.fromBytes_some hl
  unfold Receiver.headerDone Verif.Hdr.decode
  rw [asHeader_full hl, hraw]
  simp only [Option.bind_some]
  cases TransportHeader.tryFrom raw with
  | none => rfl
  | some th =>
    simp only [Option.bind_some]
    cases r.isInterested (th.asCoreHeader now) with
    | none => rfl
    | some sub => cases oom <;> rfl

theorem isInterested_some {r : Receiver} {h : SerialHeader} {sub : Subscription} :
    r.isInterested h = some sub ↔ r.subscriptions.find h.kind h.port = some sub ∧
      ∀ s session, h.source = some s → sub.sessions s = some session → session.lastTransferId < h.transferId := by
  unfold Receiver.isInterested findSubscription
  cases hf : r.subscriptions.find h.kind h.port with
  | none => simp
  | some sub' =>
    simp only [Option.some.injEq]
    cases hs : h.source with
    | none => simp
    | some s =>
      simp only [Option.some.injEq]
      cases hse : sub'.sessions s with
      | none =>
        simp only [Option.some.injEq]
        constructor
        · rintro rfl; exact ⟨rfl, fun s' se h1 h2 => by subst h1; rw [hse] at h2; cases h2⟩
        · exact fun h => h.1
      | some session =>
        simp only
        split
        · rename_i hlt
          simp only [Option.some.injEq]
          constructor
          · rintro rfl
            refine ⟨rfl, fun s' se h1 h2 => ?_⟩
            subst h1; rw [hse] at h2; cases h2; exact hlt
          · exact fun h => h.1
        · rename_i hlt
          simp only [reduceCtorEq, false_iff, not_and]
          rintro rfl h
          exact hlt (h s session rfl hse)

theorem findSubscriptionMut_some {r : Receiver} {h : SerialHeader} {sub : Subscription} :
    r.findSubscriptionMut h = some sub ↔ r.subscriptions.find h.kind h.port = some sub ∧
      ∀ d, h.destination = some d → r.nodeId = some d := by
  cases h with
  | message m => simp [Receiver.findSubscriptionMut, Header.kind, Header.port, Header.destination]
  | request s =>
    simp only [Receiver.findSubscriptionMut, Header.kind, Header.port, Header.destination, Option.some.injEq, forall_eq']
    split
    · rename_i h; simp [h]
    · rename_i h; simp [h]
  | response s =>
    simp only [Receiver.findSubscriptionMut, Header.kind, Header.port, Header.destination, Option.some.injEq, forall_eq']
    split
    · rename_i h; simp [h]
    · rename_i h; simp [h]

theorem le32_eq (v : BitVec 32) : leBytes 4 v.toNat = Verif.Crc.le32 v := by
  have h : ∀ (k : Nat), BitVec.ofNat 8 (v.toNat / 2 ^ k) = (v >>> k).setWidth 8 := by
    intro k
    apply BitVec.eq_of_toNat_eq
    simp only [BitVec.toNat_ofNat, BitVec.toNat_setWidth, BitVec.toNat_ushiftRight, Nat.shiftRight_eq_div_pow]
  have h0 := h 0
  have h8 := h 8
  have h16 := h 16
  have h24 := h 24
  simp only [leBytes, Verif.Crc.le32]
  simp only [Nat.pow_zero, Nat.div_one] at h0
  rw [h0, Nat.div_div_eq_div_mul, Nat.div_div_eq_div_mul, ← h8, ← h16, ← h24]
  simp

theorem payloadCrc_eq (p : List Byte) : payloadCrc p = Verif.Crc.le32 (Verif.Crc.crc32c p) := le32_eq _

/-! ### One frame -/

theorem wants_setTimestamp {r : Receiver} {h : SerialHeader} {sub : Subscription} (hw : Wants r h sub) (now : Instant) :
    Wants r (h.setTimestamp now) sub := by
  obtain ⟨h1, h2, h3⟩ := hw
  cases h <;> exact ⟨h1, h2, h3⟩

/-- A step from `BetweenTransfers` on a byte that starts a frame is a header step with an empty header. -/
theorem start_as_header {r : Receiver} (hs : r.state = .betweenTransfers) {b : Byte} (hb : b ≠ 0#8) (now : Instant) :
    r.handleByte false b now = ({ r with state := .header Unescaper.new [] } : Receiver).handleByte false b now := by
  unfold Receiver.handleByte
  rw [hs]
  simp only [if_pos hb, Receiver.startFrame, Receiver.headerByte]
  obtain ⟨o, u', h⟩ := accept_nonzero Unescaper.new b hb
  rw [h]
  cases o <;> simp [HeaderCollector.push, HeaderCollector.isDone, Verif.Hdr.size]

theorem step_header_last {r : Receiver} {u u' : Unescaper} {h : HeaderCollector} {b x : Byte}
    (hs : r.state = .header u h) (hb : u.accept b = some (some x, u')) (hlen : h.length = 23) (now : Instant) (oom : Bool) :
    r.handleByte oom b now = r.headerDone oom u' (h ++ [x]) now := by
  unfold Receiver.handleByte
  rw [hs]
  simp only [Receiver.headerByte, hb]
  have h1 : HeaderCollector.push h x = some (h ++ [x]) := by
    unfold HeaderCollector.push Verif.Hdr.size; rw [if_pos (by omega)]
  have h2 : HeaderCollector.isDone (h ++ [x]) = true := by
    unfold HeaderCollector.isDone Verif.Hdr.size
    simp [hlen]
  simp [h1, h2]

/-- The main lemma: after a delimiter, the bytes of a frame and a delimiter give the transfer. `e` is any byte string which
unescapes to the frame data. -/
theorem frame_received {ops : List Op} {r : Receiver} {t : SerialTransfer} {sub : Subscription} {e : List Byte}
    (hs : r.state = .betweenTransfers) (hq : Quiet ops) (hb : bytesOf ops = e ++ [0#8])
    (hdec : Verif.Cobs.decoded e = some (frameData t)) (hw : Wants r t.header sub) :
    ∃ r' b now, .byte b now false ∈ ops ∧ r'.state = .betweenTransfers ∧
      r.exec ops = some (r',
        [{ header := t.header.setTimestamp now, loopback := false, payload := t.payload.take sub.payloadSizeMax }]) := by
  simp only [Verif.Cobs.decoded] at hdec
  cases hrun : Unescaper.new.run e with
  | none => rw [hrun] at hdec; cases hdec
  | some p =>
    obtain ⟨out, uEnd⟩ := p
    rw [hrun] at hdec
    simp only [Option.map_some, Option.some.injEq] at hdec
    subst hdec
    have hel : (Verif.Hdr.encode (TransportHeader.ofCore t.header)).length = 24 := (Verif.Hdr.C25_checksum_valid _).1
    -- the end of the frame
    obtain ⟨opsA, nowE, opsB, rfl, hA, hB, qA, qB⟩ := quiet_split hq hb
    -- the end of the header
    obtain ⟨e1, b, e2, out1, u1, x, u2, out2, q1, q2, q3, q4, q5, q6⟩ := run_split (n := 23) hrun (by
      simp only [frameData, List.length_append, hel]; omega)
    rw [q1] at hA
    obtain ⟨ops1, now, ops2, rfl, h1, h2, qq1, qq2⟩ := quiet_split qA hA
    -- header bytes
    obtain ⟨r1, k1, k2, k3⟩ : ∃ r1, r.exec ops1 = some (r1, []) ∧
        (r1.state = .header u1 out1) ∧ Later r r1 := by
      cases e1 with
      | nil =>
        simp only [Unescaper.run, Option.some.injEq, Prod.mk.injEq] at q2
        rw [← q2.1] at q6; simp at q6
      | cons y e1 =>
        obtain ⟨opsC, nowC, opsD, rfl, hC, hD, qC, qD⟩ := quiet_split (e1 := []) qq1 (by rw [h1]; rfl)
        obtain ⟨rc, c1, c2, c3⟩ := feed_nothing (r := r) qC hC
        have hy : y ≠ 0#8 := by
          intro h0
          subst h0
          rw [Unescaper.run, accept_zero] at q2
          cases q2
        have hstart := start_as_header (r := rc) (by rw [c2, hs]) hy nowC
        obtain ⟨rd, d1, d2, d3⟩ := feed_header (ops := .byte y nowC false :: opsD)
          (r := { rc with state := .header Unescaper.new [] }) (by
            intro op hop
            rcases List.mem_cons.mp hop with rfl | hop
            · exact Or.inr ⟨_, _, rfl⟩
            · exact qD op hop) rfl (by rw [bytesOf, hD]; exact q2) (by simp [q6])
        refine ⟨rd, ?_, by simpa using d2, .trans c3 (.state d3)⟩
        rw [exec_append, c1]
        have : rc.exec (.byte y nowC false :: opsD) = ({ rc with state := .header Unescaper.new [] } : Receiver).exec (.byte y nowC false :: opsD) := by
          simp only [Receiver.exec, Receiver.step, hstart]
        simp [this, d1]
    -- the last byte of the header
    have hsplit : out1 ++ [x] = Verif.Hdr.encode (TransportHeader.ofCore t.header) ∧
        out2 = t.payload ++ Verif.Crc.le32 (Verif.Crc.crc32c t.payload) := by
      have : frameData t = (out1 ++ [x]) ++ out2 := by rw [q5]; simp
      rw [frameData, List.append_assoc] at this
      have := List.append_inj this (by simp [hel, q6])
      exact ⟨this.1.symm, this.2.symm⟩
    obtain ⟨sub1, w1, we1⟩ := k3.wants (wants_setTimestamp hw now)
    have hint : r1.isInterested (t.header.setTimestamp now) = some sub1 := isInterested_some.mpr ⟨w1.subscribed, w1.newer⟩
    have hdone := headerDone_eq false r1 u2 (h := out1 ++ [x]) (by simp [q6]) now
    rw [hsplit.1, Verif.Hdr.C25_header_roundtrip _ (by cases t.header <;> exact Nat.zero_lt_succ _)] at hdone
    simp only [Option.bind_some, Verif.Hdr.C25_core_roundtrip, hint, Option.map_some, Bool.false_eq_true, if_false] at hdone
    rw [← hsplit.1] at hdone
    have hstep := (step_header_last k2 q3 q6 now false).trans hdone
    -- the payload
    obtain ⟨r2, p1, p2, p3⟩ := feed_payload (r := { r1 with state := .payload u2 (t.header.setTimestamp now) Tracker.new [] sub1.payloadSizeMax })
      qq2 rfl (by simp) (h2 ▸ q4)
    obtain ⟨c1, c2⟩ := Verif.Crc.C02_tracker_correct_iff out2
    have hbody : out2.take (out2.length - 4) = t.payload := by
      rw [hsplit.2]
      simp [Verif.Crc.le32]
    -- the delimiter
    obtain ⟨sub2, w2, -⟩ := (Later.state p3 : Later r1 r2).wants w1
    have hfind : ({ r2 with state := .betweenTransfers } : Receiver).findSubscriptionMut (t.header.setTimestamp now) = some sub2 :=
      findSubscriptionMut_some.mpr ⟨w2.subscribed, w2.addressed⟩
    have hend : ∃ r3 : Receiver, r2.handleByte false 0#8 nowE = some (r3, .transfer { header := t.header.setTimestamp now, loopback := false, payload := t.payload.take sub.payloadSizeMax }) ∧ r3.state = .betweenTransfers := by
      unfold Receiver.handleByte
      rw [p2]
      simp only [Receiver.payloadByte, accept_zero, Receiver.completeTransfer, c1.mpr ⟨_, hsplit.2⟩, Bool.not_true,
        Bool.false_eq_true, if_false, hfind, List.nil_append, c2, hbody, we1]
      refine ⟨_, rfl, ?_⟩
      split <;> rfl
    obtain ⟨r3, e3, s3⟩ := hend
    obtain ⟨r4, e4, s4, -⟩ := feed_nothing (r := r3) qB hB
    refine ⟨r4, b, now, by simp, s4.trans s3, ?_⟩
    rw [exec_append, exec_append, k1]
    simp only [Option.bind_some, exec_cons_byte hstep, p1, Option.map_some, exec_cons_byte e3, e4, Output.transfers,
      List.nil_append, List.append_nil]

end Verif.Serial
