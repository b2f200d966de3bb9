import Verif.End.Lemmas
import Verif.End.Props
import Verif.End.SerialSpec
import Verif.Serial.StreamProps

/-!
C103: from `publish` at one node to `deserialize` at another, over a serial link.
-/

namespace Verif.End

open Verif.Node Verif.Dsdl Verif.Enc Verif.Serial
open Verif.Cobs (ZeroAfterFullRun)
open Verif.Hdr (NodeId16 Tid64)

theorem pushed_sublist {σ E : Type} (d : TxDriver σ E) : ∀ {ops : List TxOp} {s s' : σ × Queue} {ts : List SerialTransfer} {sent : List Byte},
    txExec d ops s = some (s', ts, sent) → ts.Sublist (pushesOf ops)
  | [], s, s', ts, sent, h => by
    simp only [txExec, Option.some.injEq, Prod.mk.injEq] at h
    rw [← h.2.1]
    exact List.Sublist.refl _
  | .push oom t :: ops, s, s', ts, sent, h => by
    simp only [txExec] at h
    cases hp : s.2.push oom t with
    | none => rw [hp] at h; cases h
    | some p =>
      rw [hp] at h
      obtain ⟨x, h1, h2⟩ := Option.map_eq_some_iff.1 h
      obtain ⟨x1, x2, x3⟩ := x
      simp only [Prod.mk.injEq] at h2
      have ih := pushed_sublist d h1
      rw [← h2.2.1]
      show List.Sublist _ (t :: pushesOf ops)
      split
      · exact ih.cons_cons t
      · exact ih.cons t
  | .flush :: ops, s, s', ts, sent, h => by
    simp only [txExec] at h
    obtain ⟨x, h1, h2⟩ := Option.map_eq_some_iff.1 h
    obtain ⟨x1, x2, x3⟩ := x
    simp only [Prod.mk.injEq] at h2
    rw [← h2.2.1]
    show List.Sublist _ (pushesOf ops)
    exact pushed_sublist d h1

theorem forall₂_sublist {α β : Type} {R : α → β → Prop} : ∀ {l l' : List α} {vs : List β}, l'.Sublist l → List.Forall₂ R l vs →
    ∃ vs', List.Sublist vs' vs ∧ List.Forall₂ R l' vs' := by
  intro l l' vs h
  induction h generalizing vs with
  | slnil => intro h; cases h; exact ⟨[], List.Sublist.refl _, .nil⟩
  | cons a _ ih =>
    intro h
    cases h with
    | cons _ h2 =>
      obtain ⟨vs', h3, h4⟩ := ih h2
      exact ⟨vs', h3.cons _, h4⟩
  | cons_cons a _ ih =>
    intro h
    cases h with
    | cons h1 h2 =>
      obtain ⟨vs', h3, h4⟩ := ih h2
      exact ⟨_, h3.cons₂ _, .cons h1 h4⟩

/-- The messages of the node on the subject are the transfers of one session. -/
theorem session_messages {s : SubjectId} {source : NodeId16} {ts : List SerialTransfer} (h : ∀ t ∈ messagesOn s ts, t.header.source = some source) :
    ofSessions (fun k => k == (.message, s.toNat, some source)) ts = messagesOn s ts := by
  unfold ofSessions messagesOn
  apply List.filter_congr
  intro t ht
  cases hh : t.header with
  | message h' =>
    by_cases hs : h'.subject = s
    · have : t.header.source = some source := h t (List.mem_filter.2 ⟨ht, by simp [hh, hs]⟩)
      rw [hh] at this
      simp [sessionOf, hh, Header.kind, Header.port, hs, this]
    · have : ¬ h'.subject.toNat = s.toNat := fun e => hs (BitVec.eq_of_toNat_eq e)
      simp [sessionOf, hh, Header.kind, Header.port, hs, this]
  | request h' => simp [sessionOf, hh, Header.kind]
  | response h' => simp [sessionOf, hh, Header.kind]

theorem ids_increase {ts : List SerialTransfer} {k : Nat} (hk : k ≤ 2 ^ 64) (h : ts.map (fun t => t.header.transferId) = (List.range k).map (fun i => tid64.increment^[i] tid64.dflt)) :
    ts.Pairwise fun a b => a.header.transferId < b.header.transferId := by
  have : (ts.map (fun t => t.header.transferId)).Pairwise (· < ·) := by
    rw [h, List.pairwise_map]
    have := (List.pairwise_lt_range (n := k))
    refine List.Pairwise.imp_of_mem (fun {a b} ha hb hab => ?_) this
    rw [tid64_iterate, tid64_iterate, BitVec.lt_def]
    have := List.mem_range.1 ha
    have := List.mem_range.1 hb
    rw [BitVec.toNat_ofNat, BitVec.toNat_ofNat, Nat.mod_eq_of_lt (by omega), Nat.mod_eq_of_lt (by omega)]
    exact hab
  exact List.pairwise_map.1 this

theorem read_all {m : Message} {s : SubjectId} {priority : Priority} {source : NodeId16} {extent : Nat} (hext : extent < 2 ^ 32) :
    ∀ {ts : List SerialTransfer} {vs : List Val} {outs : List SerialTransfer} (k : Nat), (∀ v ∈ vs, Sendable m extent v) → List.Forall₂ (Carries m s priority source) ts vs →
      List.Forall₂ (fun p out => IsReceived p.1 p.2 out) ((ts.map fun t => (t, extent)).take k) outs → List.Forall₂ (ReadsAs m) (vs.take k) outs
  | _, _, _, 0, _, _, h => by
    rw [List.take_zero] at h
    cases h
    exact .nil
  | [], _, _, k + 1, _, h1, h2 => by
    cases h1
    cases h2
    exact .nil
  | t :: ts, _, _, k + 1, hv, h1, h2 => by
    cases h1 with
    | @cons _ v _ vs hc h1 =>
      rw [List.map_cons, List.take_succ_cons] at h2
      cases h2 with
      | @cons _ out _ outs ho h2 =>
        rw [List.take_succ_cons]
        refine .cons ?_ (read_all hext k (fun x hx => hv x (List.mem_cons_of_mem _ hx)) h1 h2)
        obtain ⟨now, rfl⟩ := ho
        obtain ⟨e1, w, c, e2, e3⟩ := carries_read hext (hv v List.mem_cons_self) hc []
        refine ⟨w, c, ?_, e3⟩
        simp only [List.append_nil, List.take_nil] at e1 e2
        rw [e1]
        exact e2

/-- **C103 (partial).** A node with an ID publishes values of a type on a subject, at most 2^64 of them, among other things that it does. What it sends goes through the transmit queue, which
has no room for some of the transfers, and the bytes that the serial driver accepts go to a receiver that is subscribed to the subject with an extent that the values do not exceed. However
pushes, flushes and calls of `receive` are distributed, the receiver returns of the messages of the node on that subject exactly one for each published value that got into the queue, in the order of
the calls, as far as the bytes have arrived; and `deserialize` makes equal values of them.

Missing from the full claim: the types and values that C67 and C68 exclude (`Sendable`), and frame data with a zero after a full run of non-zero bytes (C28). -/
theorem C103_serial_partial {Trk E σ E' : Type} (tops : TrackerOps NodeId16 Tid64 Trk)
    -- the node that publishes
    (n : CoreNode NodeId16 Tid64 Trk) {source : NodeId16} (hid : n.nodeId = some source) {s : SubjectId} {timeout : Duration} {priority : Priority}
    (hstart : (n.startPublishing (E := E) tid64 s timeout priority).answer = .ok) {m : Message} {history : List (Node.Op NodeId16 Tid64 E)} {values : List Val}
    (hpub : Publishes m s history values) (hcount : values.length ≤ 2 ^ 64)
    -- the queue and the link
    (d : TxDriver σ E') {qops : List TxOp} (hq : pushesOf qops = handedOver ((n.startPublishing (E := E) tid64 s timeout priority).node.run tid64 tops history).1)
    {capacity : Nat} {state state' : σ} {queue : Queue} {pushed : List SerialTransfer} {sent : List Byte}
    (htx : txExec d qops (state, ⟨capacity, []⟩) = some ((state', queue), pushed, sent)) (hz : ∀ t ∈ pushed, ¬ ZeroAfterFullRun (frameData t))
    -- the receiver
    {r : Receiver} (hs : r.Between) {sub : Subscription} (hsub : r.subscriptions.find .message s.toNat = some sub) (hnew : sub.sessions source = none)
    (hext : sub.payloadSizeMax < 2 ^ 32) (hvalues : ∀ x ∈ values, Sendable m sub.payloadSizeMax x)
    {ops : List Serial.Op} (hquiet : Quiet ops) {underway : List Byte} (hops : bytesOf ops ++ underway = sent) :
    ∃ r' outs accepted k, r.exec ops = some (r', outs) ∧
      -- the values that got into the queue
      List.Sublist accepted values ∧ List.Forall₂ (Carries m s priority source) (messagesOn s pushed) accepted ∧
      -- what is received
      List.Forall₂ (ReadsAs m) (accepted.take k) (ofSessions (fun key => key == (.message, s.toNat, some source)) outs) ∧
      (underway = [] → queue.bytes = [] → accepted.length ≤ k) := by
  have hp := start_publisher hstart
  have hid' : (n.startPublishing (E := E) tid64 s timeout priority).node.nodeId = some source := by
    rw [← hid]
    unfold CoreNode.startPublishing
    split
    · rfl
    · split <;> rfl
  have hcar := run_carries tid64 tops hext hpub hvalues _ _ hp hid'
  obtain ⟨k, hk, -⟩ := run_publisher tid64 tops s history _ _ hp (publishes_no_stop hpub)
  rw [messagesOn_ids] at hk
  have hkl : k ≤ 2 ^ 64 := by
    have := congrArg List.length hk
    rw [List.length_map, List.length_map, List.length_range, hcar.length_eq] at this
    omega
  have hsubl : (messagesOn s pushed).Sublist (messagesOn s (pushesOf qops)) := (pushed_sublist d htx).filter _
  rw [hq] at hsubl
  obtain ⟨accepted, ha, hcar'⟩ := forall₂_sublist hsubl hcar
  have hsource : ∀ t ∈ messagesOn s pushed, t.header.source = some source := by
    intro t ht
    obtain ⟨x, ⟨_, _, hh⟩, -⟩ := forall₂_left hcar' t ht
    rw [hh]
    rfl
  have hses := session_messages hsource
  have hacc : ∀ t ∈ messagesOn s pushed, r.accepts t.header = some sub.payloadSizeMax := by
    intro t ht
    obtain ⟨x, ⟨_, _, hh⟩, -⟩ := forall₂_left hcar' t ht
    have : r.subscriptions.find t.header.kind t.header.port = some sub := by rw [hh]; exact hsub
    unfold Receiver.accepts
    rw [this, hh]
    rfl
  have haccepted : r.accepted (messagesOn s pushed) = (messagesOn s pushed).map fun t => (t, sub.payloadSizeMax) := by
    unfold Receiver.accepted
    rw [← List.filterMap_eq_map]
    apply List.filterMap_congr
    intro t ht
    simp [hacc t ht]
  have hinc : r.Increasing (ofSessions (fun key => key == (.message, s.toNat, some source)) pushed) := by
    rw [hses]
    exact ((ids_increase hkl hk).sublist hsubl).imp fun h _ _ _ _ => h
  have hfresh : ∀ t ∈ ofSessions (fun key => key == (.message, s.toNat, some source)) pushed, r.accepts t.header ≠ none → Fresh r t := by
    rw [hses]
    intro t ht _ sub' src session h1 h2 h3
    obtain ⟨x, ⟨_, _, hh⟩, -⟩ := forall₂_left hcar' t ht
    have : r.subscriptions.find t.header.kind t.header.port = some sub := by rw [hh]; exact hsub
    rw [this] at h1
    cases h1
    rw [hsource t ht] at h2
    cases h2
    rw [hnew] at h3
    cases h3
  obtain ⟨s1, q1, ts1, sent1, x1, -, x3⟩ := C32_stream_in_order d qops state ⟨capacity, []⟩ (Nat.zero_le _)
  rw [htx] at x1
  simp only [Option.some.injEq, Prod.mk.injEq] at x1
  obtain ⟨⟨rfl, rfl⟩, rfl, rfl⟩ := x1
  rw [List.nil_append, ← hops, List.append_assoc] at x3
  have hv : ∀ v ∈ accepted, Sendable m sub.payloadSizeMax v := fun v h => hvalues v (ha.subset h)
  by_cases hall : underway ++ queue.bytes = []
  · rw [hall, List.append_nil] at x3
    obtain ⟨r', outs, -, e1, e2⟩ := C102_serial_stream_partial (fun key => key == (.message, s.toNat, some source)) hs hquiet x3 hz hinc hfresh
    rw [hses, haccepted] at e2
    refine ⟨r', outs, accepted, accepted.length, e1, ha, hcar', ?_, fun _ _ => Nat.le_refl _⟩
    refine read_all hext _ hv hcar' ?_
    rwa [← hcar'.length_eq, List.take_of_length_le (by simp)]
  · obtain ⟨r', outs, k, e1, e2⟩ := C102_serial_prefix_partial (fun key => key == (.message, s.toNat, some source)) hs hquiet x3 hz hinc hfresh
    rw [hses, haccepted] at e2
    exact ⟨r', outs, accepted, k, e1, ha, hcar', read_all hext k hv hcar' e2, fun h1 h2 => absurd (by rw [h1, h2]; rfl) hall⟩

/-! ### A case: a value is published three times; the queue has no room for the second one, and another message is sent in between -/

/-- The node publishes, and publishes something else. -/
def serialHistory : List (Node.Op NodeId16 Tid64 Unit) :=
  [.publish (demoEnv .ok) 100 (.of mixed.writer aMixed) false,
   .publish (demoEnv .ok) 100 (.of mixed.writer aMixed) true,
   .startPublishing (demoEnv .ok) 101 9 3,
   .publish (demoEnv .ok) 101 (.of mixed.writer aMixed) false,
   .publish (demoEnv .ok) 100 (.of mixed.writer aMixed) false]

/-- The node has the ID 9. -/
def serialNode : CoreNode NodeId16 Tid64 (IMap NodeId16 Tid64) := .new (some (node 9#16)) 2 1

/-- What the node hands to the transmitter. -/
def serialHanded : List SerialTransfer := handedOver ((serialNode.startPublishing (E := Unit) tid64 100 7 2).node.run tid64 (fixedMapTracker tid64 2) serialHistory).1

/-- Two pushes, the second of which finds the queue full, then everything is sent, and two more. -/
def serialTx : List TxOp :=
  match serialHanded with
  | [a, b, c, d] => [.push false a, .push false b, .flush, .push false c, .flush, .push false d, .flush]
  | _ => []

/-- A driver that accepts everything. -/
def willing : TxDriver Unit Unit := fun s _ => (s, .ok)

/-- The receiver is subscribed to both. -/
def serialReceiver : Receiver := ((((Receiver.new none).subscribe false .message 100 30 2000000#32).1).subscribe false .message 101 30 2000000#32).1

example : (serialNode.startPublishing (E := Unit) tid64 100 7 2).answer = .ok ∧ pushesOf serialTx = serialHanded ∧
    (txExec willing serialTx ((), ⟨100, []⟩)).map (fun p => (p.1.2.bytes, p.2.1.map fun t => (t.header.port, t.header.transferId, t.payload.length))) =
      some ([], [(100, 0#64, 28), (101, 0#64, 28), (100, 2#64, 28)]) := by
  refine ⟨by decide +kernel, by decide +kernel, by decide +kernel⟩

example : Publishes mixed 100 serialHistory [aMixed, aMixed, aMixed] ∧ Sendable mixed 30 aMixed := by
  refine ⟨?_, ⟨by decide +kernel, by decide +kernel, by decide +kernel, by decide +kernel, by decide +kernel⟩⟩
  exact .value (fun _ => rfl) (.value (fun _ => rfl) (.other (by simp [Node.Op.stopsPublishing]) (by simp) (by simp)
    (.other (by simp [Node.Op.stopsPublishing]) (by simp) (by simp) (.value (fun _ => rfl) .done))))

example : (txExec willing serialTx ((), ⟨100, []⟩)).map (fun p => (serialReceiver.exec (arriving p.2.2)).map fun q => q.2.map fun t => (t.header.port, t.header.transferId)) =
    some (some [(100, 0#64), (101, 0#64), (100, 2#64)]) := by
  decide +kernel

end Verif.End
