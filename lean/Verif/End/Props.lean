import Verif.End.Lemmas
import Verif.Can.StreamProps

/-!
C101: from `publish` at one node to `deserialize` at another, over a CAN bus that loses frames.
-/

namespace Verif.End

open Verif.Node Verif.Dsdl Verif.Enc Verif.Can

theorem consecutive_of_ids {items : List Item} {start : Can.Tid} {k : Nat}
    (h : items.map (fun it => it.transfer.header.transferId) = (List.range k).map (fun i => canTid.increment^[i] start)) : Consecutive items := by
  have hlen : items.length = k := by simpa using congrArg List.length h
  have get : ∀ i (hi : i < items.length), items[i].transfer.header.transferId = canTid.increment^[i] start := by
    intro i hi
    have := congrArg (fun l => l[i]?) h
    simp only [List.getElem?_map, List.getElem?_eq_getElem hi, Option.map_some, List.getElem?_range (hlen ▸ hi)] at this
    exact Option.some.inj this
  intro i hi
  rw [get (i + 1) hi, get i (by omega), Function.iterate_succ_apply']
  rfl

theorem forall₂_left {α β : Type} {R : α → β → Prop} {l : List α} {l' : List β} (h : List.Forall₂ R l l') : ∀ x ∈ l, ∃ y, R x y := by
  induction h with
  | nil => intro x hx; cases hx
  | cons h _ ih =>
    intro x hx
    rcases List.mem_cons.1 hx with rfl | hx
    · exact ⟨_, h⟩
    · exact ih x hx

theorem publishes_no_stop {N Tid E : Type} {m : Message} {s : SubjectId} {history : List (Node.Op N Tid E)} {values : List Val} (h : Publishes m s history values) :
    ∀ op ∈ history, ¬ op.stopsPublishing s := by
  induction h with
  | done => intro op hop; cases hop
  | value _ _ ih => exact fun op hop => (List.mem_cons.1 hop).elim (fun e => by rw [e]; simp [Node.Op.stopsPublishing]) (ih op)
  | noMemory _ _ _ ih => exact fun op hop => (List.mem_cons.1 hop).elim (fun e => by rw [e]; simp [Node.Op.stopsPublishing]) (ih op)
  | other h1 _ _ _ ih => exact fun op hop => (List.mem_cons.1 hop).elim (fun e => by rw [e]; exact h1) (ih op)

theorem received_all {m : Message} {s : SubjectId} {priority : Priority} {source : NodeId} {extent mtu : Nat} (hext : extent < 2 ^ 32) :
    ∀ {items : List Item} {values : List Val} {outs : List (List CanTransfer)}, (∀ v ∈ values, Sendable m extent v) →
      List.Forall₂ (Carries m s priority source) (items.map (·.transfer)) values → List.Forall₂ (Outcome mtu false extent) items outs →
      List.Forall₂ (fun p out => Received m p.1 p.2 out) (items.zip values) outs
  | [], _, _, _, h1, h2 => by
    cases h1
    cases h2
    exact .nil
  | it :: items, _, _, hv, h1, h2 => by
    rw [List.map_cons] at h1
    cases h1 with
    | @cons _ v _ values hc h1 =>
      cases h2 with
      | @cons _ out _ outs ho h2 =>
        rw [List.zip_cons_cons]
        refine .cons ⟨ho.atMostOne, ho.lost, fun hw => ?_⟩ (received_all hext (fun x hx => hv x (List.mem_cons_of_mem _ hx)) h1 h2)
        obtain ⟨first, padding, -, -, e⟩ := ho.whole hw
        have hs := hv v List.mem_cons_self
        obtain ⟨e1, -⟩ := carries_read hext hs hc (List.replicate padding 0#8)
        obtain ⟨-, w, c, e2, e3⟩ := carries_read hext hs hc ((List.replicate padding 0#8).take (extent - it.transfer.payload.length))
        exact ⟨_, w, c, first.timestamp, e, rfl, by rw [← e2, ← e1], e3⟩

/-- **C101 (partial).** A node with an ID publishes values of a type on a subject, among other things that it does. Each message becomes frames, and some of the frames are lost; of 30
messages in a row at least one frame arrives. A receiver that is subscribed to the subject with an extent that the values do not exceed, and does anything else in between, delivers for each
published value in turn what `Received` says: every value of which no frame is lost is delivered once, in order, and `deserialize` makes an equal value of it.

Missing from the full claim: the types and values that C67 and C68 exclude (`Sendable`). -/
theorem C101_can_partial {checks : Bool} {cap mtu : Nat} {Trk E : Type} (hm : 1 < mtu) (hl : LegalLength mtu) (hcap : mtu ≤ cap) (tops : TrackerOps NodeId Can.Tid Trk)
    -- the node that publishes
    (n : CoreNode NodeId Can.Tid Trk) {source : NodeId} (hid : n.nodeId = some source) {s : SubjectId} {timeout : Duration} {priority : Priority}
    (hstart : (n.startPublishing (E := E) canTid s timeout priority).answer = .ok) {m : Message} {history : List (Node.Op NodeId Can.Tid E)} {values : List Val}
    (hpub : Publishes m s history values)
    -- the bus
    {items : List Item} (hitems : items.map (·.transfer) = messagesOn s (handedOver ((n.startPublishing (E := E) canTid s timeout priority).node.run canTid tops history).1))
    (hsound : ∀ it ∈ items, it.Sound cap mtu false) (hg : NotAllLost items)
    -- the receiver
    {r r' : Receiver} {v : View} (hview : r.view ⟨.message, s.toNat, source⟩ = some v) (hfresh : v.state.session = none ∧ v.state.lastTransferTime = none)
    (hext : v.extent < 2 ^ 32) (hvalues : ∀ x ∈ values, Sendable m v.extent x)
    {ops : List Can.Op} (hv : ∀ op ∈ ops, op.Valid)
    (hops : ops.filter (Key.relevant ⟨.message, s.toNat, source⟩) = items.flatMap fun it => it.arrived.map fun g => .frame g false)
    {ts : List CanTransfer} (he : r.exec checks ops = some (r', ts)) :
    items.length = values.length ∧
    ∃ outs, transfersOf ⟨.message, s.toNat, source⟩ ts = outs.flatten ∧ List.Forall₂ (fun p out => Received m p.1 p.2 out) (items.zip values) outs := by
  have hp := start_publisher hstart
  have hid' : (n.startPublishing (E := E) canTid s timeout priority).node.nodeId = some source := by
    rw [← hid]
    unfold CoreNode.startPublishing
    split
    · rfl
    · split <;> rfl
  have hcar := run_carries canTid tops hext hpub hvalues _ _ hp hid'
  rw [← hitems] at hcar
  obtain ⟨k, hk, -⟩ := run_publisher canTid tops s history _ _ hp (publishes_no_stop hpub)
  rw [messagesOn_ids, ← hitems, List.map_map] at hk
  have hkey : ∀ it ∈ items, (Key.mk .message s.toNat source).Matches it.transfer.header := by
    intro it hit
    obtain ⟨x, ⟨timestamp, transferId, hh⟩, -⟩ := forall₂_left hcar _ (List.mem_map_of_mem hit)
    rw [hh]
    exact ⟨rfl, rfl, rfl⟩
  obtain ⟨outs, h1, h2⟩ := C100_stream hm hl hcap hsound hkey (consecutive_of_ids hk) hg hview hfresh (by
    intro it hit d hd
    obtain ⟨x, ⟨timestamp, transferId, hh⟩, -⟩ := forall₂_left hcar _ (List.mem_map_of_mem hit)
    rw [hh] at hd
    cases hd) hv hops he
  exact ⟨by simpa using hcar.length_eq, outs, h1, received_all hext hvalues hcar h2⟩

/-! ### A case: a value is published three times; one frame of the second message is lost -/

/-- The node publishes, changes something else, and publishes again. -/
def endHistory : List (Node.Op NodeId Can.Tid Unit) :=
  [.publish (demoEnv .ok) 100 (.of mixed.writer aMixed) false,
   .startPublishing (demoEnv .ok) 101 9 3,
   .publish (demoEnv .ok) 100 (.of mixed.writer aMixed) true,
   .publish (demoEnv .ok) 101 (.of mixed.writer aMixed) false,
   .publish (demoEnv .ok) 100 (.of mixed.writer aMixed) false]

/-- The node has the ID 9. -/
def endNode : CoreNode NodeId Can.Tid CanTransferIdTracker := .new (some 9) 2 1

/-- The messages that are handed to the transmitter. -/
def endMessages : List CanTransfer :=
  messagesOn 100 (handedOver ((endNode.startPublishing (E := Unit) canTid 100 7 2).node.run canTid canTracker endHistory).1)

/-- The frames of a message. -/
def endFrames (t : CanTransfer) : List Frame := ((pushInner recorder 8 8 t ([], 0)).map (fun p => p.1.1)).getD []

/-- What arrives of them: not the third frame of the second message. -/
def endItems : List Item :=
  endMessages.map fun t => ⟨t, endFrames t, (if t.header.transferId = 1 then (endFrames t).take 2 ++ (endFrames t).drop 3 else endFrames t).map fun f => { f with loopback := false }⟩

/-- The receiver. -/
def endReceiver : Receiver := ((Receiver.new none).subscribeMessage false 100#13 30 1000#32).1

example : Publishes mixed 100 endHistory [aMixed, aMixed, aMixed] ∧ Sendable mixed 30 aMixed := by
  refine ⟨?_, ⟨by decide +kernel, by decide +kernel, by decide +kernel, by decide +kernel, by decide +kernel⟩⟩
  exact .value (fun _ => rfl) (.other (by simp [Node.Op.stopsPublishing]) (by simp) (by simp) (.value (fun _ => rfl)
    (.other (by simp [Node.Op.stopsPublishing]) (by simp) (by simp) (.value (fun _ => rfl) .done))))

theorem endFrames_sent (t : CanTransfer) : SentAs 8 8 t (endFrames t) := by
  apply sentAs_of (by omega) (by decide) (by omega)
  obtain ⟨id, padding, fs', h1, h2, h3⟩ := C05_segmentation 8 8 t (by omega) (by decide) (by omega)
  unfold endFrames
  rw [h3, recorder_eq]
  rfl

example : endItems.map (·.transfer) = endMessages ∧ (∀ it ∈ endItems, it.Sound 8 8 false) ∧ NotAllLost endItems ∧
    endItems.map (fun it => (it.frames.length, it.arrived.length)) = [(5, 5), (5, 4), (5, 5)] ∧
    (endReceiver.exec true (endItems.flatMap fun it => it.arrived.map fun g => .frame g false)).map (fun p => p.2.map fun t => (t.header.transferId, t.payload.length)) =
      some [(0, 28), (2, 28)] := by
  refine ⟨by rw [endItems, List.map_map]; exact List.map_id _, ?_, ?_, by decide +kernel, by decide +kernel⟩
  · intro it hit
    obtain ⟨t, -, rfl⟩ := List.mem_map.1 hit
    refine ⟨endFrames_sent t, if t.header.transferId = 1 then (endFrames t).take 2 ++ (endFrames t).drop 3 else endFrames t, ?_, ?_, ?_⟩
    · dsimp only
      split
      · calc (endFrames t).take 2 ++ (endFrames t).drop 3
          _ = (endFrames t).take 2 ++ ((endFrames t).drop 2).drop 1 := by rw [List.drop_drop]
          List.Sublist _ ((endFrames t).take 2 ++ (endFrames t).drop 2) := (List.drop_sublist 1 _).append_left _
          _ = endFrames t := List.take_append_drop 2 _
      · exact List.Sublist.refl _
    · dsimp only
      rw [List.map_map]
      rfl
    · intro g hg
      obtain ⟨f, -, rfl⟩ := List.mem_map.1 hg
      rfl
  · intro i hi
    have : endItems.length = 3 := by decide +kernel
    omega

end Verif.End
