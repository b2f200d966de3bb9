import Verif.End.Spec
import Mathlib.Data.List.Forall2

/-!
Lemmas for the way of a value from one node to another: what a node that publishes values hands to its transmitter.
-/

namespace Verif.End

open Verif.Node Verif.Dsdl Verif.Enc

/-- The message carries the value. -/
def Carries {N Tid : Type} (m : Message) (subject : SubjectId) (priority : Priority) (source : N) (t : Transfer N Tid) (v : Val) : Prop :=
  (∃ timestamp transferId, t.header = .message ⟨timestamp, transferId, priority, subject, some source⟩) ∧
    ∃ c, m.serialize v (WriteCursor.new (List.replicate ((m.sizeBits v + 7) / 8) 0)) = some c ∧ t.payload = c.bytes

theorem doSerialize_eq {m : Message} {v : Val} {alloc : Bool} (h : 64 < (m.sizeBits v + 7) / 8 → alloc = true) :
    doSerialize (.of m.writer v) alloc = match m.serialize v (WriteCursor.new (List.replicate ((m.sizeBits v + 7) / 8) 0)) with
      | some c => .bytes c.bytes
      | none => .panic := by
  show (if (m.sizeBits v + 7) / 8 > 64 then
      if alloc then match m.serialize v (WriteCursor.new (List.replicate ((m.sizeBits v + 7) / 8) 0)) with
        | some c => Serialized.bytes c.bytes
        | none => .panic
      else .outOfMemory
    else match m.serialize v (WriteCursor.new ((List.replicate 64 0).take ((m.sizeBits v + 7) / 8))) with
      | some c => .bytes c.bytes
      | none => .panic) = _
  by_cases hc : (m.sizeBits v + 7) / 8 > 64
  · rw [if_pos hc, if_pos (h hc)]
  · rw [if_neg hc, List.take_replicate, Nat.min_eq_left (by omega)]

theorem messagesOn_append {N Tid : Type} (s : SubjectId) (a b : List (Transfer N Tid)) : messagesOn s (a ++ b) = messagesOn s a ++ messagesOn s b := by
  simp [messagesOn]

theorem messagesOn_ids {N Tid : Type} (s : SubjectId) (ts : List (Transfer N Tid)) : messageIds s ts = (messagesOn s ts).map fun t => t.header.transferId := by
  induction ts with
  | nil => rfl
  | cons t ts ih =>
    have e1 : messageIds s (t :: ts) = messageIds s [t] ++ messageIds s ts := messageIds_append s [t] ts
    have e2 : messagesOn s (t :: ts) = messagesOn s [t] ++ messagesOn s ts := messagesOn_append s [t] ts
    rw [e1, e2, List.map_append, ih]
    congr 1
    cases h : t.header with
    | message h' =>
      by_cases hs : h'.subject = s
      · simp [messageIds, messagesOn, h, hs, Header.transferId]
      · simp [messageIds, messagesOn, h, hs]
    | request h' => simp [messageIds, messagesOn, h]
    | response h' => simp [messageIds, messagesOn, h]

theorem step_other {N Tid Trk E : Type} (ops : TidOps Tid) (tops : TrackerOps N Tid Trk) (n : CoreNode N Tid Trk) (op : Op N Tid E) (s : SubjectId)
    (h1 : ∀ env payload loopback, op ≠ .publish env s payload loopback) (h2 : ∀ env id, op ≠ .setNodeId env id) :
    messagesOn s (n.step ops tops op).sent = [] ∧ (n.step ops tops op).node.nodeId = n.nodeId := by
  cases op with
  | startPublishing env s' t pr => simp only [CoreNode.step, CoreNode.startPublishing]; split <;> [skip; split] <;> exact ⟨rfl, rfl⟩
  | stopPublishing env s' => exact ⟨rfl, rfl⟩
  | publish env s' pl l =>
    have hs : s' ≠ s := fun h => h1 env pl l (by rw [h])
    simp only [CoreNode.step, CoreNode.publish]
    split
    · exact ⟨rfl, rfl⟩
    · refine ⟨?_, rfl⟩
      simp only [Publisher.publish]
      split
      · rfl
      · rfl
      · simp [messagesOn, hs]
  | startSendingRequests env s' t x pr => simp only [CoreNode.step, CoreNode.startSendingRequests]; repeat' split
                                          all_goals exact ⟨rfl, by simp_all⟩
  | stopSendingRequests env s' => exact ⟨rfl, rfl⟩
  | sendRequest env s' pl d l =>
    simp only [CoreNode.step, CoreNode.sendRequest]
    split
    · exact ⟨rfl, rfl⟩
    · split
      · exact ⟨rfl, rfl⟩
      · refine ⟨?_, rfl⟩
        simp only [Requester.send]
        split
        · rfl
        · rfl
        · split <;> rfl
  | subscribeMessage env s' x t => exact ⟨rfl, rfl⟩
  | unsubscribeMessage env s' => exact ⟨rfl, rfl⟩
  | subscribeRequest env s' x t => exact ⟨rfl, rfl⟩
  | unsubscribeRequest env s' => exact ⟨rfl, rfl⟩
  | sendResponse env k t pl =>
    simp only [CoreNode.step, CoreNode.sendResponse]
    repeat' split
    all_goals exact ⟨rfl, rfl⟩
  | setNodeId env id => exact absurd rfl (h2 env id)

/-- What is handed to the transmitter: the values that could be serialized, in order. -/
theorem run_carries {N Tid Trk E : Type} (ops : TidOps Tid) (tops : TrackerOps N Tid Trk) {m : Message} {s : SubjectId} {source : N} {extent : Nat} (hext : extent < 2 ^ 32)
    {history : List (Op N Tid E)} {vs : List Val} (hp : Publishes m s history vs) : (∀ v ∈ vs, Sendable m extent v) →
    ∀ (n : CoreNode N Tid Trk) (p : Publisher Tid), n.publishers.get? s = some p → n.nodeId = some source →
      List.Forall₂ (Carries m s p.priority source) (messagesOn s (handedOver (n.run ops tops history).1)) vs := by
  induction hp with
  | done => intro _ n p _ _; exact .nil
  | @value env v loopback rest vs halloc _ ih =>
    intro hv n p hn hid
    have hsend := hv v List.mem_cons_self
    obtain ⟨c, hc, -⟩ := C67_wire_format_partial m v hsend.good hsend.has hsend.fits (by
      have h1 := C67_size_partial m v hsend.good hsend.has hsend.fits
      have h2 := hsend.size
      omega) (List.replicate ((m.sizeBits v + 7) / 8) 0) (by
      have h1 := C67_size_partial m v hsend.good hsend.has hsend.fits
      rw [List.length_replicate]
      omega)
    have hser := doSerialize_eq halloc
    rw [hc] at hser
    have hstep : n.step ops tops (.publish env s (.of m.writer v) loopback) =
        ⟨env.push.answer, { n with publishers := n.publishers.put s { p with nextTransferId := ops.increment p.nextTransferId } },
          [⟨.message ⟨env.now.plus p.timeout, p.nextTransferId, p.priority, s, n.nodeId⟩, loopback, c.bytes⟩], []⟩ := by
      simp only [CoreNode.step, CoreNode.publish, hn, Publisher.publish, hser]
    have hnext : (n.step ops tops (.publish env s (.of m.writer v) loopback)).node.publishers.get? s = some { p with nextTransferId := ops.increment p.nextTransferId } := by
      have := step_publisher ops tops n (.publish env s (.of m.writer v) loopback) s p hn (by simp [Op.stopsPublishing])
      rcases this with ⟨h, -⟩ | ⟨-, h⟩
      · rw [hstep] at h
        simp [messageIds] at h
      · exact h
    have hrest := ih (fun x hx => hv x (List.mem_cons_of_mem _ hx)) _ _ hnext (by rw [hstep]; exact hid)
    show List.Forall₂ _ (messagesOn s (handedOver (n.step ops tops _ :: ((n.step ops tops _).node.run ops tops rest).1))) _
    rw [handedOver_cons, messagesOn_append]
    have e : messagesOn s (n.step ops tops (.publish env s (.of m.writer v) loopback)).sent =
        [⟨.message ⟨env.now.plus p.timeout, p.nextTransferId, p.priority, s, n.nodeId⟩, loopback, c.bytes⟩] := by
      rw [hstep]
      simp [messagesOn]
    rw [e]
    exact .cons ⟨⟨_, _, by rw [hid]⟩, c, hc, rfl⟩ hrest
  | @noMemory env v loopback rest vs hbig halloc _ ih =>
    intro hv n p hn hid
    have hser : doSerialize (.of m.writer v) env.alloc = .outOfMemory := by
      unfold doSerialize
      show (if (m.sizeBits v + 7) / 8 > 64 then _ else _) = _
      rw [if_pos hbig, halloc]
      rfl
    have hstep : n.step ops tops (.publish env s (.of m.writer v) loopback) = ⟨.transport env.oom, { n with publishers := n.publishers.put s p }, [], []⟩ := by
      simp only [CoreNode.step, CoreNode.publish, hn, Publisher.publish, hser]
    have hnext : (n.step ops tops (.publish env s (.of m.writer v) loopback)).node.publishers.get? s = some p := by
      have := step_publisher ops tops n (.publish env s (.of m.writer v) loopback) s p hn (by simp [Op.stopsPublishing])
      rcases this with ⟨-, h⟩ | ⟨h, -⟩
      · exact h
      · rw [hstep] at h
        simp [messageIds] at h
    have hrest := ih hv _ _ hnext (by rw [hstep]; exact hid)
    show List.Forall₂ _ (messagesOn s (handedOver (n.step ops tops _ :: ((n.step ops tops _).node.run ops tops rest).1))) _
    rw [handedOver_cons, messagesOn_append, hstep]
    rw [hstep] at hrest
    exact hrest
  | @other op rest vs h1 h2 h3 _ ih =>
    intro hv n p hn hid
    obtain ⟨e1, e2⟩ := step_other ops tops n op s h2 h3
    have hnext : (n.step ops tops op).node.publishers.get? s = some p := by
      rcases step_publisher ops tops n op s p hn h1 with ⟨-, h⟩ | ⟨h, -⟩
      · exact h
      · rw [messagesOn_ids, e1] at h
        simp at h
    have hrest := ih hv _ _ hnext (by rw [e2]; exact hid)
    show List.Forall₂ _ (messagesOn s (handedOver (n.step ops tops op :: ((n.step ops tops op).node.run ops tops rest).1))) _
    rw [handedOver_cons, messagesOn_append, e1]
    exact hrest

/-- What is read from a payload that carries the value. -/
theorem carries_read {N Tid : Type} {m : Message} {s : SubjectId} {priority : Priority} {source : N} {t : Transfer N Tid} {v : Val} {extent : Nat} (hext : extent < 2 ^ 32)
    (hs : Sendable m extent v) (hc : Carries m s priority source t v) (extra : List Byte) :
    (t.payload ++ extra).take extent = t.payload ++ extra.take (extent - t.payload.length) ∧
    ∃ w c, m.deserialize (ReadCursor.new (t.payload ++ extra)) = some (.ok w, c) ∧ Same w v := by
  obtain ⟨-, c, h1, h2⟩ := hc
  have hlen : t.payload.length = (m.sizeBits v + 7) / 8 := by
    obtain ⟨c', h3, -, h4, -⟩ := C67_wire_format_partial m v hs.good hs.has hs.fits (by
      have h1 := C67_size_partial m v hs.good hs.has hs.fits
      have h2 := hs.size
      omega) (List.replicate ((m.sizeBits v + 7) / 8) 0) (by
      have h1 := C67_size_partial m v hs.good hs.has hs.fits
      rw [List.length_replicate]
      omega)
    rw [h1] at h3
    cases h3
    rw [h2, h4, List.length_replicate]
  have hsz := hs.size
  refine ⟨by rw [List.take_append, List.take_of_length_le (by omega)], ?_⟩
  rw [h2]
  exact C68_round_trip_partial m v hs.good hs.has hs.fits hs.safe (by omega) _ extra (by rw [List.length_replicate]; omega) c h1

end Verif.End
