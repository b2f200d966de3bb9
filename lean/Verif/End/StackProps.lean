import Verif.End.StackLemmas

/-!
C117: from `publish` at one node through its transmitter, queue and controller over the bus to `deserialize` at another node.
-/

namespace Verif.End

open Verif.Node Verif.Dsdl Verif.Enc Verif.Can Verif.Drv

/-- ID and data. -/
def pair (f : Frame) : BitVec 32 × List Byte := (f.id, f.data)

/-- The transfer is a message on the subject. -/
def isOn (s : SubjectId) (t : CanTransfer) : Bool :=
  match t.header with
  | .message h => decide (h.subject = s)
  | _ => false

theorem relevant_sent {cap : Nat} (hcap : 8 ≤ cap) {t : CanTransfer} {f g : Frame} (hf : f ∈ framesOf cap t) (hg : pair g = pair f) (key : Key) (b : Bool) :
    key.relevant (.frame g b) = decide (key.Matches t.header) := by
  obtain ⟨h1, h2⟩ := Prod.mk.inj hg
  obtain ⟨id, padding, k1, k2, -⟩ := sentAs_segmentation (by omega) (by decide) hcap (framesOf_sent hcap t)
  have hid : makeCanId t.header t.payload = some g.id := by rw [k1, h1, (k2.fields f hf).1]
  obtain ⟨i, hi, hfi⟩ := List.getElem_of_mem hf
  obtain ⟨last, t1, t2⟩ := k2.tails i hi
  rw [hfi, ← h2] at t1
  show (match readFrame g with | some (h, _) => decide (key.Matches h) | none => false) = _
  cases hsrc : t.header.source with
  | some src =>
    obtain ⟨r1, -⟩ := readFrame_sent t.header t.payload g last _ hid t1 t2 rfl (fun h => by rw [hsrc] at h; cases h)
    rw [r1]
    simp only
    congr 1
    unfold Key.Matches
    cases t.header <;> rfl
  | none =>
    have hno : ¬ key.Matches t.header := by
      rintro ⟨-, -, h3⟩
      rw [hsrc] at h3
      cases h3
    rw [decide_eq_false hno]
    split
    · rename_i h tb hr
      obtain ⟨-, -, -, -, hp⟩ := readFrame_data hr
      obtain ⟨id', m1, -, m3⟩ := C04_can_id_roundtrip t.header t.payload
      rw [hid] at m1
      cases m1
      obtain ⟨h', p1, -, -, -, p2, -⟩ := m3 g.timestamp tb.transferId
      rw [hp] at p1
      cases p1
      refine decide_eq_false ?_
      rintro ⟨-, -, h3⟩
      rw [p2, hsrc] at h3
      cases h3
    · rfl

/-- The ID of the frames of messages. -/
theorem message_id (priority : Priority) (s : SubjectId) (source : NodeId) : ∃ id, ∀ timestamp transferId payload,
    makeCanId (.message ⟨timestamp, transferId, priority, s, some source⟩) payload = some id := by
  obtain ⟨id, h, -⟩ := C04_can_id_roundtrip (.message ⟨0#32, 0#5, priority, s, some source⟩) []
  exact ⟨id, fun _ _ _ => h⟩

theorem framesOf_id {cap : Nat} (hcap : 8 ≤ cap) {t : CanTransfer} {f : Frame} (hf : f ∈ framesOf cap t) : makeCanId t.header t.payload = some f.id := by
  obtain ⟨id, padding, k1, k2, -⟩ := sentAs_segmentation (by omega) (by decide) hcap (framesOf_sent hcap t)
  rw [k1, (k2.fields f hf).1]

theorem framesOf_ne {cap : Nat} (hcap : 8 ≤ cap) (t : CanTransfer) : framesOf cap t ≠ [] := by
  obtain ⟨id, padding, k1, k2, -⟩ := sentAs_segmentation (by omega) (by decide) hcap (framesOf_sent hcap t)
  exact k2.nonempty

theorem matches_isOn {s : SubjectId} {source : NodeId} {t : CanTransfer} (h : (Key.mk .message s.toNat source).Matches t.header) : isOn s t = true := by
  obtain ⟨h1, h2, -⟩ := h
  unfold isOn
  cases ht : t.header with
  | message m =>
    rw [ht] at h2
    exact decide_eq_true (BitVec.eq_of_toNat_eq h2)
  | request m => rw [ht] at h1; cases h1
  | response m => rw [ht] at h1; cases h1

/-- All messages on the subject are from the source and have the priority. -/
def Uniform (priority : Priority) (s : SubjectId) (source : NodeId) (ts : List CanTransfer) : Prop :=
  ∀ t ∈ ts, isOn s t = true → ∃ timestamp transferId, t.header = .message ⟨timestamp, transferId, priority, s, some source⟩

theorem same_id {cap : Nat} (hcap : 8 ≤ cap) {priority : Priority} {s : SubjectId} {source : NodeId} {id : BitVec 32}
    (hid : ∀ timestamp transferId payload, makeCanId (.message ⟨timestamp, transferId, priority, s, some source⟩) payload = some id)
    {ts : List CanTransfer} (hu : Uniform priority s source ts) {t : CanTransfer} (ht : t ∈ ts) {f : Frame} (hf : f ∈ framesOf cap t) :
    (f.id == id) = isOn s t ∧ decide ((Key.mk .message s.toNat source).Matches t.header) = isOn s t := by
  have h1 := framesOf_id hcap hf
  by_cases hon : isOn s t = true
  · obtain ⟨timestamp, transferId, hh⟩ := hu t ht hon
    have h2 := h1
    rw [hh, hid] at h2
    cases h2
    refine ⟨by simp [hon], ?_⟩
    rw [hon, hh]
    exact decide_eq_true ⟨rfl, rfl, rfl⟩
  · have hoff : isOn s t = false := by simpa using hon
    refine ⟨?_, ?_⟩
    · rw [hoff]
      refine beq_eq_false_iff_ne.2 fun he => hon ?_
      obtain ⟨i1, a1, -, a3⟩ := C04_can_id_roundtrip t.header t.payload
      obtain ⟨i2, b1, -, b3⟩ := C04_can_id_roundtrip (.message ⟨0#32, 0#5, priority, s, some source⟩) []
      rw [h1] at a1
      cases a1
      rw [hid] at b1
      cases b1
      obtain ⟨x, x1, x2, -, x4, x5, -⟩ := a3 0#32 0#5
      obtain ⟨y, y1, y2, -, y4, y5, -⟩ := b3 0#32 0#5
      rw [he, y1] at x1
      cases x1
      exact matches_isOn (source := source) ⟨x2.symm.trans y2, x4.symm.trans y4, x5.symm.trans y5⟩
    · rw [hoff]
      exact decide_eq_false fun h => hon (matches_isOn h)

/-- The accepted frames with the ID of the messages are those of the messages. -/
theorem accepted_filter {cap : Nat} (hcap : 8 ≤ cap) {priority : Priority} {s : SubjectId} {source : NodeId} {id : BitVec 32}
    (hid : ∀ timestamp transferId payload, makeCanId (.message ⟨timestamp, transferId, priority, s, some source⟩) payload = some id) :
    ∀ (answers : List (CanTransfer × PushResult Empty)), Uniform priority s source (answers.map Prod.fst) →
      (acceptedFrames cap answers).filter (fun f => f.id == id) = acceptedFrames cap (answers.filter fun a => isOn s a.1)
  | [], _ => rfl
  | a :: answers, hu => by
    have ih := accepted_filter hcap hid answers (fun t ht => hu t (List.mem_cons_of_mem _ ht))
    have e : acceptedFrames cap (a :: answers) = (if a.2 = .ok then framesOf cap a.1 else []) ++ acceptedFrames cap answers := rfl
    rw [e, List.filter_append, ih]
    have hsame : ∀ f ∈ framesOf cap a.1, (f.id == id) = isOn s a.1 := fun f hf => (same_id hcap hid hu List.mem_cons_self hf).1
    by_cases hon : isOn s a.1 = true
    · rw [List.filter_cons, if_pos hon]
      show _ = (if a.2 = .ok then framesOf cap a.1 else []) ++ _
      congr 1
      split
      · exact List.filter_eq_self.2 fun f hf => by rw [hsame f hf, hon]
      · rfl
    · rw [List.filter_cons, if_neg hon]
      have : List.filter (fun f => f.id == id) (if a.2 = .ok then framesOf cap a.1 else []) = [] := by
        split
        · exact List.filter_eq_nil_iff.2 fun f hf => by rw [hsame f hf]; exact hon
        · rfl
      rw [this, List.nil_append]

/-- Which frames of the session are on the bus. -/
theorem session_sent {cap : Nat} (hcap : 8 ≤ cap) {priority : Priority} {s : SubjectId} {source : NodeId} {id : BitVec 32}
    (hid : ∀ timestamp transferId payload, makeCanId (.message ⟨timestamp, transferId, priority, s, some source⟩) payload = some id)
    {answers : List (CanTransfer × PushResult Empty)} (hu : Uniform priority s source (answers.map Prod.fst)) {sent : List Frame}
    (hsub : ∀ x ∈ sent, core x ∈ (acceptedFrames cap answers).map core) :
    (inSession ⟨.message, s.toNat, source⟩ sent).map core = withId id sent := by
  unfold inSession withId
  congr 1
  refine List.filter_congr fun x hx => ?_
  obtain ⟨f, hf, he⟩ := List.mem_map.1 (hsub x hx)
  obtain ⟨a, ha, hf⟩ := List.mem_flatMap.1 hf
  split at hf
  · have hp : pair x = pair f := by
      have h1 := congrArg (fun c => c.1) he
      have h2 := congrArg (fun c => c.2.1) he
      exact Prod.ext h1.symm h2.symm
    obtain ⟨k1, k2⟩ := same_id hcap hid hu (List.mem_map_of_mem ha) hf
    rw [relevant_sent hcap hf hp, k2, ← k1, (Prod.mk.inj hp).1]
  · cases hf

/-- What belongs to a message. -/
structure Part (cap : Nat) (a : CanTransfer × PushResult Empty) (it : Item) : Prop where
  transfer : it.transfer = a.1
  frames : it.frames = framesOf cap a.1
  arrived : (it.arrived.map pair).Sublist (if a.2 = .ok then (framesOf cap a.1).map pair else [])

theorem parts_of (cap : Nat) : ∀ (answers : List (CanTransfer × PushResult Empty)) (arrived : List Frame),
    (arrived.map pair).Sublist ((acceptedFrames cap answers).map pair) → ∃ items : List Item, List.Forall₂ (Part cap) answers items ∧ arrived = items.flatMap (·.arrived)
  | [], arrived, h => by
    have := List.sublist_nil.1 h
    exact ⟨[], .nil, List.map_eq_nil_iff.1 this⟩
  | a :: answers, arrived, h => by
    have e : (acceptedFrames cap (a :: answers)).map pair = (if a.2 = .ok then (framesOf cap a.1).map pair else []) ++ (acceptedFrames cap answers).map pair := by
      show ((if a.2 = .ok then framesOf cap a.1 else []) ++ acceptedFrames cap answers).map pair = _
      rw [List.map_append]
      congr 1
      split <;> rfl
    rw [e] at h
    obtain ⟨l1, l2, h1, h2, h3⟩ := List.sublist_append_iff.1 h
    obtain ⟨x, y, h4, h5, h6⟩ := List.map_eq_append_iff.1 h1
    subst h4
    rw [← h6] at h3
    obtain ⟨items, k1, k2⟩ := parts_of cap answers y h3
    exact ⟨⟨a.1, framesOf cap a.1, x⟩ :: items, .cons ⟨rfl, rfl, by rw [← h5] at h2; exact h2⟩ k1, by rw [List.flatMap_cons, k2]⟩

/-- If everything arrives, all of each message arrives. -/
theorem parts_whole (cap : Nat) : ∀ {answers : List (CanTransfer × PushResult Empty)} {items : List Item}, List.Forall₂ (Part cap) answers items →
    (items.flatMap (·.arrived)).map pair = (acceptedFrames cap answers).map pair →
    List.Forall₂ (fun a it => it.arrived.map pair = if a.2 = .ok then (framesOf cap a.1).map pair else []) answers items := by
  intro answers items h
  have len : ∀ {answers : List (CanTransfer × PushResult Empty)} {items : List Item}, List.Forall₂ (Part cap) answers items →
      (items.flatMap (·.arrived)).length ≤ (acceptedFrames cap answers).length := by
    intro answers items h
    induction h with
    | nil => exact Nat.le_refl _
    | @cons a it answers items h1 _ ih =>
      have e : acceptedFrames cap (a :: answers) = (if a.2 = .ok then framesOf cap a.1 else []) ++ acceptedFrames cap answers := rfl
      rw [List.flatMap_cons, e, List.length_append, List.length_append]
      have := h1.arrived.length_le
      split at this
      · rename_i hok; rw [if_pos hok]; simp only [List.length_map] at this; omega
      · rename_i hok; rw [if_neg hok]; simp only [List.length_map, List.length_nil] at this ⊢; omega
  induction h with
  | nil => exact fun _ => .nil
  | @cons a it answers items h1 h2 ih =>
    intro he
    have e : (acceptedFrames cap (a :: answers)).map pair = (if a.2 = .ok then (framesOf cap a.1).map pair else []) ++ (acceptedFrames cap answers).map pair := by
      show ((if a.2 = .ok then framesOf cap a.1 else []) ++ acceptedFrames cap answers).map pair = _
      rw [List.map_append]
      congr 1
      split <;> rfl
    rw [List.flatMap_cons, List.map_append, e] at he
    have l1 := h1.arrived.length_le
    have l2 := len h2
    have l3 := congrArg List.length he
    rw [List.length_append, List.length_append, List.length_map (as := acceptedFrames cap answers), List.length_map (as := items.flatMap _)] at l3
    obtain ⟨h3, h4⟩ := List.append_inj he (by omega)
    exact .cons h3 (ih h4)

theorem part_sound {cap : Nat} (hcap : 8 ≤ cap) {a : CanTransfer × PushResult Empty} {it : Item} (h : Part cap a it) (hl : ∀ g ∈ it.arrived, g.loopback = false) : it.Sound cap 8 false := by
  refine ⟨by rw [h.transfer, h.frames]; exact framesOf_sent hcap a.1, ?_⟩
  have hs := h.arrived
  have : (it.arrived.map pair).Sublist ((framesOf cap a.1).map pair) := by
    split at hs
    · exact hs
    · exact hs.trans (List.nil_sublist _)
  obtain ⟨l, h1, h2⟩ := List.sublist_map_iff.1 this
  exact ⟨l, by rw [h.frames]; exact h1, h2, hl⟩

theorem collect {cap : Nat} {m : Message} : ∀ {answers : List (CanTransfer × PushResult Empty)} {items : List Item} {values : List Val} {outs : List (List CanTransfer)},
    List.Forall₂ (Part cap) answers items → List.Forall₂ (fun a it => it.arrived.map pair = if a.2 = .ok then (framesOf cap a.1).map pair else []) answers items →
    (∀ it ∈ items, ∀ g ∈ it.arrived, g.loopback = false) → items.length = values.length → List.Forall₂ (fun p out => Received m p.1 p.2 out) (items.zip values) outs →
    List.Forall₂ (Delivered m) (taken values (answers.map Prod.snd)) outs.flatten
  | [], _, values, outs, .nil, _, _, hlen, h => by
    cases values with
    | nil => cases h; exact .nil
    | cons v vs => cases hlen
  | a :: answers, it :: items, values, outs, .cons h1 h2, .cons k1 k2, hl, hlen, h => by
    cases values with
    | nil => cases hlen
    | cons v vs =>
      rw [List.zip_cons_cons] at h
      cases h with
      | @cons _ out _ outs r1 r2 =>
        have ih := collect h2 k2 (fun x hx => hl x (List.mem_cons_of_mem _ hx)) (by simpa using hlen) r2
        by_cases hok : a.2 = .ok
        · have e : taken (v :: vs) ((a :: answers).map Prod.snd) = v :: taken vs (answers.map Prod.snd) := by simp [taken, hok]
          rw [if_pos hok] at k1
          obtain ⟨t, w, c, now, o1, -, o3, o4⟩ := r1.whole ⟨by rw [h1.frames]; exact k1, hl it List.mem_cons_self⟩
          rw [e, List.flatten_cons, o1]
          exact .cons ⟨w, c, o3, o4⟩ ih
        · have e : taken (v :: vs) ((a :: answers).map Prod.snd) = taken vs (answers.map Prod.snd) := by simp [taken, hok]
          rw [if_neg hok] at k1
          rw [e, List.flatten_cons, r1.lost (List.map_eq_nil_iff.1 k1)]
          exact ih

theorem not_all_lost {cap : Nat} (hcap : 8 ≤ cap) {answers : List (CanTransfer × PushResult Empty)} {items : List Item}
    (h : List.Forall₂ (fun a it => it.arrived.map pair = if a.2 = .ok then (framesOf cap a.1).map pair else []) answers items) (hg : NotAllRefused (answers.map Prod.snd)) : NotAllLost items := by
  intro i hi
  have hmem := hg i (by rw [List.length_map, h.length_eq]; exact hi)
  rw [← List.map_drop, ← List.map_take] at hmem
  obtain ⟨a, ha, hok⟩ := List.mem_map.1 hmem
  have h30 := List.forall₂_take 30 (List.forall₂_drop i h)
  obtain ⟨j, hj, hja⟩ := List.getElem_of_mem ha
  have hj' : j < (List.take 30 (List.drop i items)).length := by rw [← h30.length_eq]; exact hj
  have := h30.get hj hj'
  simp only [List.get_eq_getElem] at this
  rw [hja, if_pos hok] at this
  refine ⟨_, List.getElem_mem hj', fun hn => framesOf_ne hcap a.1 ?_⟩
  rw [hn] at this
  exact List.map_eq_nil_iff.1 this.symm

theorem messagesOn_eq (s : SubjectId) (ts : List CanTransfer) : messagesOn s ts = ts.filter (isOn s) := by
  unfold messagesOn
  refine List.filter_congr fun t _ => ?_
  unfold isOn
  cases t.header <;> rfl

theorem answersOn_eq (s : SubjectId) (answers : List (CanTransfer × PushResult Empty)) : answersOn s answers = (answers.filter fun a => isOn s a.1).map Prod.snd := rfl

/-- The device and what is on the bus. -/
theorem device_run {choose : Chooser} (hch : choose.OneOfEachId) {cap : Nat} (hcap : 8 ≤ cap) (N : Nat) (devOps : List DeviceOp) :
    ∃ dev, (Device.new N).run choose cap devOps = some dev ∧ dev.answers.map Prod.fst = sends devOps ∧
      (∀ id, (withId id (sentFrames dev.events)).Sublist (withId id (acceptedFrames cap dev.answers))) ∧
      ((∀ t ∈ sends devOps, ∀ now ∈ shown devOps, Instant.before t.header.timestamp now = false) → dev.d.waiting = [] → dev.q.toList = [] →
        ∀ id, withId id (sentFrames dev.events) = withId id (acceptedFrames cap dev.answers)) := by
  have hnew : SysGood (Sys.new N) := by
    have hl : (Sys.new N).q.toList = [] := by simp [Sys.new, ArrayQueue.toList, ArrayQueue.new]
    refine ⟨arrayQueue_new_ok N, by rw [hl]; simp, ⟨inv_new, ?_⟩⟩
    rw [hl]
    exact ⟨fun i b h => (nomatch h), fun id => List.Sublist.refl _, fun i j a b h => (nomatch h)⟩
  obtain ⟨dev, s, sysOps, answers, h1, h2, h3, h4, h5, h6, h7, h8⟩ := run_like hch hcap devOps (dev := Device.new N) (s := Sys.new N) ⟨rfl, rfl, rfl, rfl, rfl⟩ hnew
  have hv : PushesValid sysOps := fun f hf => by
    obtain ⟨t, -, ht⟩ := h8 f hf
    exact (framesOf_valid hcap ht).1
  have ha : dev.answers = answers := h5
  refine ⟨dev, h1, by rw [ha, h6], fun id => ?_, fun htime hbox hq id => ?_⟩
  · obtain ⟨s', k1, k2⟩ := C109_order hch N hv
    rw [h2] at k1
    cases k1
    rw [← h3.events, ← h3.accepted]
    exact k2 id
  · rw [← h3.events, ← h3.accepted]
    refine C116_all_sent hch N hv (fun f hf now hnow => ?_) h2 (by rw [h3.d]; exact hbox) (by rw [h3.q]; exact hq) id
    obtain ⟨t, ht, hf⟩ := h8 f hf
    rw [(framesOf_valid hcap hf).2]
    exact htime t ht now (by rw [← h7]; exact hnow)

/-- The parts of the messages that arrive. -/
theorem parts_arrive {cap : Nat} {Trk E : Type} (hcap : 8 ≤ cap) (tops : TrackerOps NodeId Can.Tid Trk) (n : CoreNode NodeId Can.Tid Trk) {source : NodeId} (hid : n.nodeId = some source) {s : SubjectId}
    {timeout : Duration} {priority : Priority} (hstart : (n.startPublishing (E := E) canTid s timeout priority).answer = .ok) {m : Message} {history : List (Node.Op NodeId Can.Tid E)} {values : List Val}
    (hpub : Publishes m s history values) {extent : Nat} (hext : extent < 2 ^ 32) (hvalues : ∀ x ∈ values, Sendable m extent x) {answers : List (CanTransfer × PushResult Empty)}
    (hgiven : messagesOn s (answers.map Prod.fst) = messagesOn s (handedOver ((n.startPublishing (E := E) canTid s timeout priority).node.run canTid tops history).1))
    {sent : List Frame} (hsub : ∀ id, (withId id sent).Sublist (withId id (acceptedFrames cap answers))) {some arrived : List Frame}
    (hsome : some.Sublist (inSession ⟨.message, s.toNat, source⟩ sent)) (harrived : Arrives false some arrived) :
    ∃ items : List Item, List.Forall₂ (Part cap) (answers.filter fun a => isOn s a.1) items ∧ arrived = items.flatMap (·.arrived) ∧ items.map (·.transfer) = messagesOn s (answers.map Prod.fst) ∧
      (∀ it ∈ items, it.Sound cap 8 false) ∧ (∀ it ∈ items, ∀ g ∈ it.arrived, g.loopback = false) ∧ items.length = values.length ∧
      ((∀ id, withId id sent = withId id (acceptedFrames cap answers)) → some = inSession ⟨.message, s.toNat, source⟩ sent →
        (items.flatMap (·.arrived)).map pair = (acceptedFrames cap (answers.filter fun a => isOn s a.1)).map pair) := by
  have hid' : (n.startPublishing (E := E) canTid s timeout priority).node.nodeId = .some source := by
    rw [← hid]
    unfold CoreNode.startPublishing
    split
    · rfl
    · split <;> rfl
  have hcar := run_carries canTid tops hext hpub hvalues _ _ (start_publisher hstart) hid'
  rw [← hgiven] at hcar
  have hu : Uniform priority s source (answers.map Prod.fst) := by
    intro t ht hon
    obtain ⟨x, hh, -⟩ := forall₂_left hcar t (by rw [messagesOn_eq]; exact List.mem_filter.2 ⟨ht, hon⟩)
    exact hh
  obtain ⟨id, hmake⟩ := message_id priority s source
  have hin := session_sent hcap hmake hu (sent := sent) (fun x hx => by
    have h1 : core x ∈ withId x.id sent := List.mem_map_of_mem (List.mem_filter.2 ⟨hx, by simp⟩)
    obtain ⟨f, hf, e⟩ := List.mem_map.1 ((hsub x.id).subset h1)
    rw [← e]
    exact List.mem_map_of_mem (List.mem_filter.1 hf).1)
  have pairs : ∀ l : List Frame, l.map pair = (l.map core).map fun c => (c.1, c.2.1) := fun l => by rw [List.map_map]; rfl
  have hacc : (withId id (acceptedFrames cap answers)).map (fun c => (c.1, c.2.1)) = (acceptedFrames cap (answers.filter fun a => isOn s a.1)).map pair := by
    rw [pairs, ← accepted_filter hcap hmake answers hu]
    rfl
  have h1 : (arrived.map pair).Sublist ((acceptedFrames cap (answers.filter fun a => isOn s a.1)).map pair) := by
    rw [show arrived.map pair = some.map pair from harrived.1, ← hacc]
    refine (hsome.map pair).trans ?_
    rw [pairs, hin]
    exact (hsub id).map _
  obtain ⟨items, k1, k2⟩ := parts_of cap _ _ h1
  have hmap : items.map (·.transfer) = messagesOn s (answers.map Prod.fst) := by
    rw [messagesOn_eq, List.filter_map]
    clear h1 k2 hacc
    show _ = (answers.filter fun a => isOn s a.1).map Prod.fst
    generalize (answers.filter fun a => isOn s a.1) = l at k1
    induction k1 with
    | nil => rfl
    | cons h _ ih => rw [List.map_cons, List.map_cons, ih, h.transfer]
  have hloop : ∀ it ∈ items, ∀ g ∈ it.arrived, g.loopback = false := fun it hit g hg => harrived.2 g (by rw [k2]; exact List.mem_flatMap.2 ⟨it, hit, hg⟩)
  refine ⟨items, k1, k2, hmap, fun it hit => ?_, hloop, ?_, fun hall hs => ?_⟩
  · obtain ⟨a, ha⟩ := forall₂_left k1.flip it hit
    exact part_sound hcap ha (hloop it hit)
  · rw [← hcar.length_eq, ← hmap, List.length_map]
  · rw [← k2, show arrived.map pair = some.map pair from harrived.1, hs, pairs, hin, hall id, hacc]

/-- **C117 (partial).** A node publishes values of a type on a subject, as in C101. The messages, among other transfers, are given to a transmitter with a queue in front of a bxCAN controller, which is flushed now and then, while
the controller sends, refuses and displaces frames. Frames may be lost in the device (because of their deadlines) and on the bus. At a receiver that is subscribed to the subject, and does anything else in between, what arrives is
made of parts of the messages, none of a message that `push` refused; and if of 30 messages in a row a frame arrives, it delivers for each value what `Received` says.

Missing from the full claim: the types and values that C67 and C68 exclude (`Sendable`). -/
theorem C117_lossy_partial {checks : Bool} {cap : Nat} {Trk E : Type} (hcap : 8 ≤ cap) (tops : TrackerOps NodeId Can.Tid Trk)
    -- the node that publishes
    (n : CoreNode NodeId Can.Tid Trk) {source : NodeId} (hid : n.nodeId = some source) {s : SubjectId} {timeout : Duration} {priority : Priority}
    (hstart : (n.startPublishing (E := E) canTid s timeout priority).answer = .ok) {m : Message} {history : List (Node.Op NodeId Can.Tid E)} {values : List Val}
    (hpub : Publishes m s history values)
    -- its device
    {choose : Chooser} (hch : choose.OneOfEachId) {N : Nat} {devOps : List DeviceOp}
    (hgiven : messagesOn s (sends devOps) = messagesOn s (handedOver ((n.startPublishing (E := E) canTid s timeout priority).node.run canTid tops history).1))
    {dev : Device N} (hdev : (Device.new N).run choose cap devOps = some dev)
    -- the receiver
    {r r' : Receiver} {v : View} (hview : r.view ⟨.message, s.toNat, source⟩ = some v) (hfresh : v.state.session = none ∧ v.state.lastTransferTime = none)
    (hext : v.extent < 2 ^ 32) (hvalues : ∀ x ∈ values, Sendable m v.extent x)
    {ops : List Can.Op} (hv : ∀ op ∈ ops, op.Valid) {some arrived : List Frame} (hsome : some.Sublist (inSession ⟨.message, s.toNat, source⟩ (sentFrames dev.events)))
    (harrived : Arrives false some arrived) (hops : ops.filter (Key.relevant ⟨.message, s.toNat, source⟩) = arrived.map fun g => .frame g false)
    {ts : List CanTransfer} (he : r.exec checks ops = .some (r', ts)) :
    (answersOn s dev.answers).length = values.length ∧
    ∃ items : List Item, items.map (·.transfer) = messagesOn s (sends devOps) ∧ (∀ it ∈ items, it.Sound cap 8 false) ∧ arrived = items.flatMap (·.arrived) ∧
      List.Forall₂ (fun answer it => answer ≠ .ok → it.arrived = []) (answersOn s dev.answers) items ∧
      (NotAllLost items → ∃ outs, transfersOf ⟨.message, s.toNat, source⟩ ts = outs.flatten ∧ List.Forall₂ (fun p out => Received m p.1 p.2 out) (items.zip values) outs) := by
  obtain ⟨dev', h1, h2, h3, -⟩ := device_run hch hcap N devOps
  rw [hdev] at h1
  cases h1
  rw [← h2] at hgiven ⊢
  obtain ⟨items, k1, k2, k3, k4, -, k6, -⟩ := parts_arrive hcap tops n hid hstart hpub hext hvalues hgiven h3 hsome harrived
  refine ⟨by rw [answersOn_eq, List.length_map, k1.length_eq, k6], items, k3, k4, k2, ?_, fun hg => ?_⟩
  · rw [answersOn_eq, List.forall₂_map_left_iff]
    refine k1.imp fun a it h hno => ?_
    have := h.arrived
    rw [if_neg hno] at this
    exact List.map_eq_nil_iff.1 (List.sublist_nil.1 this)
  · refine (C101_can_partial (by omega) (by decide) hcap tops n hid hstart hpub (k3.trans hgiven) k4 hg hview hfresh hext hvalues hv ?_ he).2
    rw [hops, k2, List.map_flatMap]

/-- **C117 (partial).** As above, but nothing is lost: the clock is never past the deadline of a transfer, in the end queue and mailboxes are empty, the frames on the bus arrive, and of 30 messages in a row `push` accepts one.
Then the receiver delivers exactly the values for which `push` returned `Ok`, in the order in which they were published: `deserialize` makes equal values of the transfers that it delivers.

Missing from the full claim: the types and values that C67 and C68 exclude (`Sendable`). -/
theorem C117_delivered_partial {checks : Bool} {cap : Nat} {Trk E : Type} (hcap : 8 ≤ cap) (tops : TrackerOps NodeId Can.Tid Trk)
    -- the node that publishes
    (n : CoreNode NodeId Can.Tid Trk) {source : NodeId} (hid : n.nodeId = some source) {s : SubjectId} {timeout : Duration} {priority : Priority}
    (hstart : (n.startPublishing (E := E) canTid s timeout priority).answer = .ok) {m : Message} {history : List (Node.Op NodeId Can.Tid E)} {values : List Val}
    (hpub : Publishes m s history values)
    -- its device
    {choose : Chooser} (hch : choose.OneOfEachId) {N : Nat} {devOps : List DeviceOp}
    (hgiven : messagesOn s (sends devOps) = messagesOn s (handedOver ((n.startPublishing (E := E) canTid s timeout priority).node.run canTid tops history).1))
    (htime : ∀ t ∈ sends devOps, ∀ now ∈ shown devOps, Instant.before t.header.timestamp now = false)
    {dev : Device N} (hdev : (Device.new N).run choose cap devOps = some dev) (hbox : dev.d.waiting = []) (hq : dev.q.toList = []) (hok : NotAllRefused (answersOn s dev.answers))
    -- the receiver
    {r r' : Receiver} {v : View} (hview : r.view ⟨.message, s.toNat, source⟩ = some v) (hfresh : v.state.session = none ∧ v.state.lastTransferTime = none)
    (hext : v.extent < 2 ^ 32) (hvalues : ∀ x ∈ values, Sendable m v.extent x)
    {ops : List Can.Op} (hv : ∀ op ∈ ops, op.Valid) {arrived : List Frame} (harrived : Arrives false (inSession ⟨.message, s.toNat, source⟩ (sentFrames dev.events)) arrived)
    (hops : ops.filter (Key.relevant ⟨.message, s.toNat, source⟩) = arrived.map fun g => .frame g false)
    {ts : List CanTransfer} (he : r.exec checks ops = some (r', ts)) :
    (answersOn s dev.answers).length = values.length ∧ List.Forall₂ (Delivered m) (taken values (answersOn s dev.answers)) (transfersOf ⟨.message, s.toNat, source⟩ ts) := by
  obtain ⟨dev', h1, h2, h3, h4⟩ := device_run hch hcap N devOps
  rw [hdev] at h1
  cases h1
  have h4 := h4 htime hbox hq
  rw [← h2] at hgiven
  obtain ⟨items, k1, k2, k3, k4, k5, k6, k7⟩ := parts_arrive hcap tops n hid hstart hpub hext hvalues hgiven h3 (List.Sublist.refl _) harrived
  have hwhole := parts_whole cap k1 (k7 h4 rfl)
  obtain ⟨outs, o1, o2⟩ := (C101_can_partial (by omega) (by decide) hcap tops n hid hstart hpub (k3.trans hgiven) k4 (not_all_lost hcap hwhole hok) hview hfresh hext hvalues hv (by
    rw [hops, k2, List.map_flatMap]) he).2
  refine ⟨by rw [answersOn_eq, List.length_map, k1.length_eq, k6], ?_⟩
  rw [o1]
  exact collect k1 hwhole k5 k6 o2

/-! ### A case: the node of C101 publishes three values on the subject; the queue has no room for the second one -/

/-- The transfers that the node hands over: three messages on the subject 100, and between them one on another subject. -/
def stackTransfers : List CanTransfer := handedOver ((endNode.startPublishing (E := Unit) canTid 100 7 2).node.run canTid canTracker endHistory).1

/-- The queue is flushed, and the controller sends what is in the mailboxes. -/
def stackRound : List DeviceOp := [.flush 9 [1#32, 1#32] [⟨[], 1#32, fun _ => false⟩, ⟨[], 1#32, fun _ => false⟩], .bus 0 1#32, .bus 1 1#32, .bus 2 1#32]

/-- The second message comes while the first one is in the queue, the third one later. -/
def stackOps : List DeviceOp :=
  (stackTransfers.take 2).map .send ++ (List.replicate 3 stackRound).flatten ++ ((stackTransfers.drop 2).take 1).map .send ++ (List.replicate 7 stackRound).flatten ++
    (stackTransfers.drop 3).map .send ++ (List.replicate 6 stackRound).flatten

/-- The device after that. -/
def stackDevice : Device 8 := ((Device.new 8).run urgentOnly 8 stackOps).getD (Device.new 8)

example : (Device.new 8).run urgentOnly 8 stackOps = some stackDevice := by
  obtain ⟨dev, h, -⟩ := device_run urgentOnly_one (Nat.le_refl 8) 8 stackOps
  unfold stackDevice
  rw [h]
  rfl

example : messagesOn 100 (sends stackOps) = messagesOn 100 stackTransfers := by decide +kernel

example : (sends stackOps).all (fun t => (shown stackOps).all fun now => Instant.before t.header.timestamp now == false) = true := by decide +kernel

example : stackDevice.d.waiting = [] ∧ stackDevice.q.toList = [] ∧ answersOn 100 stackDevice.answers = [.ok, .memory, .ok] ∧ (sentFrames stackDevice.events).length = 15 ∧
    (inSession ⟨.message, 100, 9⟩ (sentFrames stackDevice.events)).length = 10 := by decide +kernel

example : NotAllRefused (answersOn 100 stackDevice.answers) := by
  intro i hi
  have : (answersOn 100 stackDevice.answers).length = 3 := by decide +kernel
  omega

example : (endReceiver.exec true ((inSession ⟨.message, 100, 9⟩ (sentFrames stackDevice.events)).map fun f => .frame { f with loopback := false } false)).map
    (fun p => p.2.map fun t => (t.header.transferId, t.payload.length)) = some [(0, 28), (2, 28)] := by decide +kernel

end Verif.End
