import Verif.Can.DriverProps
import Verif.Drv.OrderModel
import Verif.Drv.Lemmas

/-!
C109: frames with the same CAN ID reach the bus in the order in which they were pushed.
-/

namespace Verif.Drv

open Verif.Can

/-! ### What the statements are about -/

/-- The controller takes no frame while another frame with the same ID waits in a mailbox. -/
def Chooser.OneOfEachId (choose : Chooser) : Prop := ∀ boxes f i, choose boxes f = some i → ∀ j b, boxes j = some b → b.id ≠ f.id

/-- The frames that were sent, in order. -/
def sentFrames (es : List BusEvent) : List Frame := es.filterMap fun e =>
  match e with
  | .sent f _ => some f
  | .aborted _ _ => none

/-- The frames with a given ID: data and deadlines. -/
def withId (id : BitVec 32) (fs : List Frame) : List (BitVec 32 × List Byte × Instant) := (fs.filter fun f => f.id == id).map core

/-! ### The order -/

theorem withId_append (id : BitVec 32) (a b : List Frame) : withId id (a ++ b) = withId id a ++ withId id b := by simp [withId]

theorem withId_cons_eq {id : BitVec 32} {f : Frame} (h : f.id = id) (l : List Frame) : withId id (f :: l) = core f :: withId id l := by simp [withId, h]

theorem withId_cons_ne {id : BitVec 32} {f : Frame} (h : f.id ≠ id) (l : List Frame) : withId id (f :: l) = withId id l := by simp [withId, h]

theorem withId_insertBefore (id : BitVec 32) (f : Frame) (l : List Frame) : withId id (insertBefore f l) = withId id (f :: l) := by
  unfold insertBefore
  rw [withId_append]
  by_cases h : f.id = id
  · rw [withId_cons_eq h, withId_cons_eq h]
    have h1 : withId id (l.filter fun g => decide (g.id < f.id)) = [] := by
      unfold withId
      rw [List.filter_filter, List.filter_eq_nil_iff.2, List.map_nil]
      intro g _
      simp only [Bool.and_eq_true, beq_iff_eq, decide_eq_true_eq, not_and]
      rintro rfl
      rw [h]
      exact BitVec.lt_irrefl _
    have h2 : withId id (l.filter fun g => decide (f.id ≤ g.id)) = withId id l := by
      unfold withId
      rw [List.filter_filter]
      congr 1
      apply List.filter_congr
      intro g _
      by_cases hg : g.id = id
      · simp [hg, h]
      · simp [hg]
    rw [h1, h2]
    rfl
  · rw [withId_cons_ne h, withId_cons_ne h]
    have key : ∀ l : List Frame, withId id (l.filter fun g => decide (g.id < f.id)) ++ withId id (l.filter fun g => decide (f.id ≤ g.id)) = withId id l := by
      intro l
      by_cases hlt : id < f.id
      · have h1 : withId id (l.filter fun g => decide (g.id < f.id)) = withId id l := by
          unfold withId
          rw [List.filter_filter]
          congr 1
          apply List.filter_congr
          intro g _
          by_cases hg : g.id = id
          · simp [hg, hlt]
          · simp [hg]
        have h2 : withId id (l.filter fun g => decide (f.id ≤ g.id)) = [] := by
          unfold withId
          rw [List.filter_filter, List.filter_eq_nil_iff.2, List.map_nil]
          intro g _
          simp only [Bool.and_eq_true, beq_iff_eq, decide_eq_true_eq, not_and]
          rintro rfl
          exact BitVec.not_le.2 hlt
        rw [h1, h2, List.append_nil]
      · have h1 : withId id (l.filter fun g => decide (f.id ≤ g.id)) = withId id l := by
          unfold withId
          rw [List.filter_filter]
          congr 1
          apply List.filter_congr
          intro g _
          by_cases hg : g.id = id
          · simp [hg, BitVec.not_lt.1 hlt]
          · simp [hg]
        have h2 : withId id (l.filter fun g => decide (g.id < f.id)) = [] := by
          unfold withId
          rw [List.filter_filter, List.filter_eq_nil_iff.2, List.map_nil]
          intro g _
          simp only [Bool.and_eq_true, beq_iff_eq, decide_eq_true_eq, not_and]
          rintro rfl
          exact hlt
        rw [h1, h2, List.nil_append]
    exact key l

theorem withId_insertBehind (id : BitVec 32) (f : Frame) (l : List Frame) : withId id (insertBehind f l) = withId id l ++ withId id [f] := by
  unfold insertBehind
  rw [withId_append]
  by_cases hle : id ≤ f.id
  · have h1 : withId id (l.filter fun g => decide (g.id ≤ f.id)) = withId id l := by
      unfold withId
      rw [List.filter_filter]
      congr 1
      apply List.filter_congr
      intro g _
      by_cases hg : g.id = id
      · simp [hg, hle]
      · simp [hg]
    have h2 : withId id (l.filter fun g => decide (f.id < g.id)) = [] := by
      unfold withId
      rw [List.filter_filter, List.filter_eq_nil_iff.2, List.map_nil]
      intro g _
      simp only [Bool.and_eq_true, beq_iff_eq, decide_eq_true_eq, not_and]
      rintro rfl
      exact BitVec.not_lt.2 hle
    by_cases h : f.id = id
    · rw [withId_cons_eq h, withId_cons_eq h, h1, h2]
      rfl
    · rw [withId_cons_ne h, withId_cons_ne h, h1, h2]
      rfl
  · have hlt := BitVec.not_le.1 hle
    have h1 : withId id (l.filter fun g => decide (g.id ≤ f.id)) = [] := by
      unfold withId
      rw [List.filter_filter, List.filter_eq_nil_iff.2, List.map_nil]
      intro g _
      simp only [Bool.and_eq_true, beq_iff_eq, decide_eq_true_eq, not_and]
      rintro rfl
      exact hle
    have h2 : withId id (l.filter fun g => decide (f.id < g.id)) = withId id l := by
      unfold withId
      rw [List.filter_filter]
      congr 1
      apply List.filter_congr
      intro g _
      by_cases hg : g.id = id
      · simp [hg, hlt]
      · simp [hg]
    have h : f.id ≠ id := by
      rintro rfl
      exact BitVec.lt_irrefl _ hlt
    rw [withId_cons_ne h, withId_cons_ne h, h1, h2]
    simp [withId]

/-- For each ID: what was sent, what waits in a mailbox, and what is in the queue are in the order of `p`. -/
structure Ord (p sent : List Frame) (boxes : Fin 3 → Option Boxed) (l : List Frame) : Prop where
  box : ∀ i b, boxes i = some b → (withId b.given.id sent ++ core b.given :: withId b.given.id l).Sublist (withId b.given.id p)
  rest : ∀ id, (withId id sent ++ withId id l).Sublist (withId id p)
  distinct : ∀ i j a b, boxes i = some a → boxes j = some b → a.given.id = b.given.id → i = j

theorem Ord.drop {p sent : List Frame} {boxes : Fin 3 → Option Boxed} {f : Frame} {l : List Frame} (h : Ord p sent boxes (f :: l)) : Ord p sent boxes l := by
  have hs : ∀ id, (withId id l).Sublist (withId id (f :: l)) := fun id => ((List.sublist_cons_self f l).filter _).map _
  exact ⟨fun i b hb => (List.Sublist.append (List.Sublist.refl _) ((hs _).cons_cons _)).trans (h.box i b hb), fun id => ((List.Sublist.refl _).append (hs id)).trans (h.rest id), h.distinct⟩

theorem Ord.congr {p sent : List Frame} {boxes : Fin 3 → Option Boxed} {l l' : List Frame} (h : Ord p sent boxes l) (hl : ∀ id, withId id l' = withId id l) : Ord p sent boxes l' :=
  ⟨fun i b hb => by rw [hl]; exact h.box i b hb, fun id => by rw [hl]; exact h.rest id, h.distinct⟩

/-- The frame in a mailbox goes away. -/
theorem Ord.free {p sent : List Frame} {boxes : Fin 3 → Option Boxed} {l : List Frame} (h : Ord p sent boxes l) (i : Fin 3) : Ord p sent (Function.update boxes i none) l := by
  have hf : ∀ j b, Function.update boxes i none j = some b → boxes j = some b := by
    intro j b hj
    by_cases he : j = i
    · subst he; simp at hj
    · rwa [Function.update_of_ne he] at hj
  exact ⟨fun j b hj => h.box j b (hf j b hj), h.rest, fun j k a b ha hb => h.distinct j k a b (hf j a ha) (hf k b hb)⟩

/-- The frame in a mailbox is sent. -/
theorem Ord.send {p sent : List Frame} {boxes : Fin 3 → Option Boxed} {l : List Frame} (h : Ord p sent boxes l) {i : Fin 3} {b : Boxed} (hb : boxes i = some b) :
    Ord p (sent ++ [b.given]) (Function.update boxes i none) l := by
  have hf : ∀ j b, Function.update boxes i none j = some b → boxes j = some b ∧ j ≠ i := by
    intro j b hj
    by_cases he : j = i
    · subst he; simp at hj
    · rw [Function.update_of_ne he] at hj
      exact ⟨hj, he⟩
  refine ⟨fun j c hj => ?_, fun id => ?_, fun j k a b ha hb => h.distinct j k a b (hf j a ha).1 (hf k b hb).1⟩
  · obtain ⟨h1, h2⟩ := hf j c hj
    have hne : b.given.id ≠ c.given.id := fun he => h2 (h.distinct i j b c hb h1 he).symm
    rw [withId_append, withId_cons_ne hne]
    simpa [withId] using h.box j c h1
  · by_cases he : b.given.id = id
    · subst he
      rw [withId_append, withId_cons_eq rfl]
      simpa [withId] using h.box i b hb
    · rw [withId_append, withId_cons_ne he]
      simpa [withId] using h.rest id

/-- The first frame of the queue goes into a mailbox. -/
theorem Ord.put {p sent : List Frame} {boxes : Fin 3 → Option Boxed} {f : Frame} {l : List Frame} (h : Ord p sent boxes (f :: l)) (hid : ∀ j b, boxes j = some b → b.given.id ≠ f.id) {i : Fin 3}
    {x : Boxed} (hx : x.given = f) : Ord p sent (Function.update boxes i (some x)) l := by
  refine ⟨fun j b hj => ?_, h.drop.rest, fun j k a b ha hb he => ?_⟩
  · by_cases hji : j = i
    · subst hji
      simp only [Function.update_self, Option.some.injEq] at hj
      subst hj
      rw [hx]
      have := h.rest f.id
      rwa [withId_cons_eq rfl] at this
    · rw [Function.update_of_ne hji] at hj
      exact h.drop.box j b hj
  · by_cases hji : j = i
    · by_cases hki : k = i
      · rw [hji, hki]
      · subst hji
        rw [Function.update_of_ne hki] at hb
        simp only [Function.update_self, Option.some.injEq] at ha
        subst ha
        rw [hx] at he
        exact (hid k b hb he.symm).elim
    · by_cases hki : k = i
      · subst hki
        rw [Function.update_of_ne hji] at ha
        simp only [Function.update_self, Option.some.injEq] at hb
        subst hb
        rw [hx] at he
        exact (hid j a ha he).elim
      · rw [Function.update_of_ne hji] at ha
        rw [Function.update_of_ne hki] at hb
        exact h.distinct j k a b ha hb he

/-- The frame in a mailbox goes back into the queue. -/
theorem Ord.back {p sent : List Frame} {boxes : Fin 3 → Option Boxed} {l : List Frame} (h : Ord p sent boxes l) {i : Fin 3} {b : Boxed} (hb : boxes i = some b) {g : Frame}
    (hg : core g = core b.given) : Ord p sent (Function.update boxes i none) (insertBefore g l) := by
  have hgid : g.id = b.given.id := congrArg Prod.fst hg
  have hf : ∀ j c, Function.update boxes i none j = some c → boxes j = some c ∧ j ≠ i := by
    intro j c hj
    by_cases he : j = i
    · subst he; simp at hj
    · rw [Function.update_of_ne he] at hj
      exact ⟨hj, he⟩
  refine ⟨fun j c hj => ?_, fun id => ?_, fun j k a b ha hb => h.distinct j k a b (hf j a ha).1 (hf k b hb).1⟩
  · obtain ⟨h1, h2⟩ := hf j c hj
    have hne : g.id ≠ c.given.id := fun he => h2 (h.distinct i j b c hb h1 (hgid ▸ he)).symm
    rw [withId_insertBefore, withId_cons_ne hne]
    exact h.box j c h1
  · rw [withId_insertBefore]
    by_cases he : g.id = id
    · rw [withId_cons_eq he, hg]
      have := h.box i b hb
      rwa [← hgid, he] at this
    · rw [withId_cons_ne he]
      exact h.rest id

theorem Ord.push {p sent : List Frame} {boxes : Fin 3 → Option Boxed} {l : List Frame} (h : Ord p sent boxes l) (f : Frame) : Ord (p ++ [f]) sent boxes (insertBehind f l) := by
  refine ⟨fun i b hb => ?_, fun id => ?_, h.distinct⟩
  · rw [withId_insertBehind, withId_append, ← List.cons_append, ← List.append_assoc]
    exact (h.box i b hb).append (List.Sublist.refl _)
  · rw [withId_insertBehind, withId_append, ← List.append_assoc]
    exact (h.rest id).append (List.Sublist.refl _)

/-! ### The controller -/

theorem sentFrames_append (a b : List BusEvent) : sentFrames (a ++ b) = sentFrames a ++ sentFrames b := by simp [sentFrames]

/-- The driver is all right, and the order is kept. -/
structure Good (p : List Frame) (es : List BusEvent) (d : BxCan) (l : List Frame) : Prop where
  inv : Inv d
  ord : Ord p (sentFrames es) d.boxes l

theorem Good.sendBox {p : List Frame} {es : List BusEvent} {d : BxCan} {l : List Frame} (h : Good p es d l) (i : Fin 3) (now : Instant) : Good p (es ++ (d.sendBox i now).2) (d.sendBox i now).1 l := by
  unfold BxCan.sendBox
  cases hb : d.boxes i with
  | none => simpa using h
  | some b =>
    refine ⟨⟨fun j c hj => ?_⟩, ?_⟩
    · dsimp only at hj ⊢
      by_cases he : j = i
      · subst he; simp at hj
      · rw [Function.update_of_ne he] at hj
        exact h.inv.box j c hj
    · rw [sentFrames_append]
      exact h.ord.send hb

theorem Good.sendBoxes {p : List Frame} {l : List Frame} : ∀ {ps : List (Fin 3 × Instant)} {es : List BusEvent} {d : BxCan}, Good p es d l → Good p (es ++ (d.sendBoxes ps).2) (d.sendBoxes ps).1 l
  | [], es, d, h => by simpa [BxCan.sendBoxes] using h
  | q :: ps, es, d, h => by
    unfold BxCan.sendBoxes
    dsimp only
    rw [← List.append_assoc]
    exact (h.sendBox q.1 q.2).sendBoxes

theorem Good.cleanOne {p : List Frame} {es : List BusEvent} {d : BxCan} {l : List Frame} (h : Good p es d l) (env : TxEnv) (i : Fin 3) :
    Good p (es ++ (d.cleanOne env i).2) (d.cleanOne env i).1 l := by
  have hinv := ((cleanOne_cleaned (env := env) h.inv i).1).inv h.inv
  refine ⟨hinv, ?_⟩
  unfold BxCan.cleanOne
  split
  · simpa using h.ord
  · split
    · split
      · simpa using h.ord
      · rename_i b hb
        rw [sentFrames_append]
        dsimp only
        split
        · exact h.ord.send hb
        · simpa [sentFrames] using h.ord.free i
    · simpa using h.ord

theorem Good.clean {p : List Frame} {es : List BusEvent} {d : BxCan} {l : List Frame} (h : Good p es d l) (env : TxEnv) : Good p (es ++ (d.clean env).2) (d.clean env).1 l := by
  unfold BxCan.clean
  dsimp only
  rw [← List.append_assoc, ← List.append_assoc]
  exact ((h.cleanOne env 0).cleanOne env 1).cleanOne env 2

/-- What `transmit` does, case by case. -/
theorem transmit_shape {d : BxCan} (hi : Inv d) {env : TxEnv} {f : Frame} (hv : Valid f) : ∃ d' r, d.transmit env f = some (d', r, (d.clean env).2) ∧ Inv d' ∧
    ((r = .ok none ∧ d'.boxes = (d.clean env).1.boxes) ∨ (r = .wouldBlock ∧ d'.boxes = (d.clean env).1.boxes) ∨
      ∃ i x, env.mailbox = some i ∧ x.given = f ∧ d'.boxes = Function.update (d.clean env).1.boxes i (some x) ∧
        ((r = .ok none ∧ (d.clean env).1.boxes i = none) ∨ ∃ b, (d.clean env).1.boxes i = some b ∧ r = .ok (some { b.given with loopback := false }))) := by
  obtain ⟨d', r, es, h1, h2⟩ := transmit_does (env := env) hi hv
  have hc := (clean_cleaned (env := env) hi).1.inv hi
  have hinv := h2.inv
  refine ⟨d', r, ?_, hinv, ?_⟩
  all_goals
    unfold BxCan.transmit at h1
    dsimp only at h1
    split at h1
    · have htb : toBx f = some ⟨.extended (f.id.setWidth 29), some f.data⟩ := if_pos hv
      unfold BxCan.transmitInner at h1
      rw [htb] at h1
      cases hm : env.mailbox with
      | none =>
        rw [hm] at h1
        cases h1
        first
          | (unfold BxCan.transmit BxCan.transmitInner; simp_all)
          | exact .inr (.inl ⟨rfl, rfl⟩)
      | some i =>
        rw [hm] at h1
        cases hb : (d.clean env).1.boxes i with
        | none =>
          simp only [hb] at h1
          cases h1
          first
            | (unfold BxCan.transmit BxCan.transmitInner; simp_all)
            | exact .inr (.inr ⟨i, _, rfl, rfl, storeCopy_boxes .., .inl ⟨rfl, hb⟩⟩)
        | some b =>
          have hdl := (hc.box i b hb)
          simp only [hb, hdl.2] at h1
          cases h1
          first
            | (unfold BxCan.transmit BxCan.transmitInner; simp_all)
            | exact .inr (.inr ⟨i, _, rfl, rfl, storeCopy_boxes .., .inr ⟨b, hb, by rw [fromBx_toBx hdl.1]⟩⟩)
    · cases h1
      first
        | (unfold BxCan.transmit; simp_all)
        | exact .inl ⟨rfl, rfl⟩

theorem mailbox_free {choose : Chooser} (hch : choose.OneOfEachId) {d : BxCan} (hi : Inv d) {now : Instant} {late : Fin 3 → Bool} {f : Frame} {i : Fin 3}
    (hm : choose.mailbox d now late f = some i) (m : Option (Fin 3)) : ∀ j b, (d.clean ⟨now, m, late⟩).1.boxes j = some b → b.given.id ≠ f.id := by
  intro j b hb he
  have hb' : (d.clean ⟨now, none, late⟩).1.boxes j = some b := hb
  have hinv := (clean_cleaned (env := ⟨now, none, late⟩) hi).1.inv hi
  have h1 := (hinv.box j b hb').1
  unfold Chooser.mailbox at hm
  split at hm
  · cases hm
  · rename_i x hx
    have h2 := hch _ _ _ hm j b.frame (by rw [hb']; rfl)
    unfold toBx at h1 hx
    split at h1
    · split at hx
      · cases hx
        rw [← Option.some.inj h1] at h2
        exact h2 (by simp [he])
      · cases hx
    · cases h1

/-- What a driver does with the first frame of the queue. -/
def Handles (t : FlushTarget Target Empty) : Prop :=
  (∀ s, (t.now s).1.events = s.events ∧ (t.now s).1.d = s.d ∧ (t.now s).1.panicked = s.panicked) ∧
  ∀ {p : List Frame} {s : Target} {f : Frame} {l : List Frame}, Good p s.events s.d (f :: l) → Valid f → (t.transmit s f).1.panicked = s.panicked ∧
      match (t.transmit s f).2 with
      | .ok none => Good p (t.transmit s f).1.events (t.transmit s f).1.d l
      | .ok (some g) => Good p (t.transmit s f).1.events (t.transmit s f).1.d l ∧ Good p (t.transmit s f).1.events (t.transmit s f).1.d (insertBefore g l) ∧ Valid g
      | .wouldBlock => Good p (t.transmit s f).1.events (t.transmit s f).1.d (f :: l)
      | .other _ => True

theorem bxTarget_handles {choose : Chooser} (hch : choose.OneOfEachId) : Handles (bxTarget choose) := by
  refine ⟨fun s => ?_, fun {p s f l} h hv => ?_⟩
  · simp only [bxTarget]
    split <;> exact ⟨rfl, rfl, rfl⟩
  have h1 := h.sendBoxes (ps := (s.turns.head?.getD ⟨[], 0#32, fun _ => false⟩).before)
  generalize hd : s.d.sendBoxes (s.turns.head?.getD ⟨[], 0#32, fun _ => false⟩).before = ds at h1
  obtain ⟨d, sent⟩ := ds
  dsimp only at h1
  generalize ht : s.turns.head?.getD ⟨[], 0#32, fun _ => false⟩ = turn at hd
  obtain ⟨d', r, k1, k2, k3⟩ := transmit_shape (env := ⟨turn.now, choose.mailbox d turn.now turn.late f, turn.late⟩) h1.inv hv
  have hres : (bxTarget choose).transmit s f =
      ({ s with d := d', turns := s.turns.tail, events := s.events ++ sent ++ (d.clean ⟨turn.now, choose.mailbox d turn.now turn.late f, turn.late⟩).2 }, r) := by
    simp only [bxTarget, ht, hd, k1]
  have h2 := h1.clean ⟨turn.now, choose.mailbox d turn.now turn.late f, turn.late⟩
  rw [hres]
  refine ⟨rfl, ?_⟩
  dsimp only
  have hfree : ∀ i, choose.mailbox d turn.now turn.late f = some i →
      ∀ j b, (d.clean ⟨turn.now, choose.mailbox d turn.now turn.late f, turn.late⟩).1.boxes j = some b → b.given.id ≠ f.id :=
    fun i hm => mailbox_free hch h1.inv hm _
  generalize d.clean ⟨turn.now, choose.mailbox d turn.now turn.late f, turn.late⟩ = c at *
  rcases k3 with ⟨rfl, hb⟩ | ⟨rfl, hb⟩ | ⟨i, x, hm, hx, hb, hr⟩
  · exact ⟨k2, by rw [hb]; exact h2.ord.drop⟩
  · exact ⟨k2, by rw [hb]; exact h2.ord⟩
  · have hid := hfree i hm
    have hput : Ord p (sentFrames (s.events ++ sent ++ c.2)) d'.boxes l := by
      rw [hb]
      exact h2.ord.put hid hx
    rcases hr with ⟨rfl, -⟩ | ⟨b, hbox, rfl⟩
    · exact ⟨k2, hput⟩
    · have hval : Valid b.given := by
        have := (h2.inv.box i b hbox).1
        unfold toBx at this
        split at this
        · assumption
        · cases this
      refine ⟨⟨k2, hput⟩, ⟨k2, ?_⟩, hval⟩
      have hne := hid i b hbox
      have h3 := h2.ord.back hbox (g := { b.given with loopback := false }) rfl
      have h4 : Ord p (sentFrames (s.events ++ sent ++ c.2)) (Function.update c.1.boxes i none) (f :: insertBefore { b.given with loopback := false } l) := by
        refine h3.congr fun id => ?_
        rw [withId_insertBefore]
        by_cases he : f.id = id
        · have hg : ({ b.given with loopback := false } : Frame).id ≠ id := fun hg => hne (hg.trans he.symm)
          rw [withId_cons_eq he, withId_insertBefore, withId_cons_ne hg, withId_cons_ne hg, withId_cons_eq he]
        · rw [withId_cons_ne he, withId_insertBefore]
          unfold withId
          rw [List.filter_cons, List.filter_cons, List.filter_cons]
          simp [he]
      have h5 := h4.put (i := i) (x := x) (fun j a ha => ?_) hx
      · rw [hb]
        rwa [Function.update_idem] at h5
      · by_cases hj : j = i
        · subst hj; simp at ha
        · rw [Function.update_of_ne hj] at ha
          exact hid j a ha

/-- The loop of a flush. -/
theorem flush_good {t : FlushTarget Target Empty} (hh : Handles t) {N : Nat} {p : List Frame} : ∀ (fuel : Nat) (q : ArrayQueue N) (s : Target), q.Ok → (∀ f ∈ q.toList, Valid f) →
    Good p s.events s.d q.toList → ∃ q' s' r ev, flushSingleQueue (arrayQueueImpl N) t fuel q s = some (q', s', r, ev) ∧ q'.Ok ∧ (∀ f ∈ q'.toList, Valid f) ∧
      Good p s'.events s'.d q'.toList ∧ s'.panicked = s.panicked
  | 0, q, s, ho, hv, hg => ⟨q, s, _, _, rfl, ho, hv, hg, rfl⟩
  | fuel + 1, q, s, ho, hv, hg => by
    have hc := arrayQueue_correct N
    obtain ⟨q1, hpop, hq1, ht1⟩ := hc.pop q ho
    unfold flushSingleQueue
    rw [hpop]
    cases hl : q.toList with
    | nil =>
      rw [hl] at ht1 hg
      exact ⟨q1, s, _, _, rfl, hq1, by rw [ht1]; simp, by rw [ht1]; exact hg, rfl⟩
    | cons f rest =>
      rw [hl] at ht1 hg hv
      simp only [List.tail_cons] at ht1
      have hbound := hc.bound q ho
      rw [hl, List.length_cons] at hbound
      have hlt : q1.toList.length < N := by rw [ht1]; omega
      have hvr : ∀ f ∈ q1.toList, Valid f := fun g hg => hv g (by rw [ht1] at hg; exact List.mem_cons_of_mem _ hg)
      simp only [List.head?_cons]
      obtain ⟨n1, n2, n3⟩ := hh.1 s
      rw [← n1, ← n2] at hg
      by_cases he : frameIsExpired f (t.now s).2 = true
      · rw [if_pos he]
        obtain ⟨q', s', r, ev, k1, k2, k3, k4, k5⟩ := flush_good hh fuel q1 (t.now s).1 hq1 hvr (by rw [ht1]; exact ⟨hg.inv, hg.ord.drop⟩)
        rw [k1]
        exact ⟨q', s', r, _, rfl, k2, k3, k4, k5.trans n3⟩
      · rw [if_neg he]
        have htr := hh.2 hg (hv f List.mem_cons_self)
        cases htx : t.transmit (t.now s).1 f with | mk s2 res =>
        rw [htx] at htr
        obtain ⟨p1, p2⟩ := htr
        dsimp only at p1 p2
        have hback : ∀ g, Valid g → ∃ q2, (arrayQueueImpl N).return_ q1 g = some (q2, true) ∧ q2.Ok ∧ q2.toList = insertBefore g rest ∧ ∀ f ∈ q2.toList, Valid f := by
          intro g hg
          obtain ⟨q2, r1, r2, r3⟩ := hc.return_ q1 g hq1
          rw [if_pos hlt, ht1] at r3
          rw [decide_eq_true hlt] at r1
          refine ⟨q2, r1, r2, r3, ?_⟩
          rw [r3]
          intro x hx
          unfold insertBefore at hx
          simp only [List.mem_append, List.mem_cons, List.mem_filter] at hx
          rcases hx with ⟨hx, -⟩ | rfl | ⟨hx, -⟩
          · exact hv x (List.mem_cons_of_mem _ hx)
          · exact hg
          · exact hv x (List.mem_cons_of_mem _ hx)
        cases res with
        | ok o =>
          cases o with
          | none =>
            dsimp only
            obtain ⟨q', s', r, ev, k1, k2, k3, k4, k5⟩ := flush_good hh fuel q1 s2 hq1 hvr (by rw [ht1]; exact p2)
            rw [k1]
            exact ⟨q', s', r, _, rfl, k2, k3, k4, k5.trans (p1.trans n3)⟩
          | some g =>
            dsimp only
            by_cases hx : frameIsExpired g (t.now s).2 = true
            · rw [if_neg (by simp [hx])]
              obtain ⟨q', s', r, ev, k1, k2, k3, k4, k5⟩ := flush_good hh fuel q1 s2 hq1 hvr (by rw [ht1]; exact p2.1)
              rw [k1]
              exact ⟨q', s', r, _, rfl, k2, k3, k4, k5.trans (p1.trans n3)⟩
            · rw [if_pos (by simp [hx])]
              obtain ⟨q2, r1, r2, r3, r4⟩ := hback g p2.2.2
              rw [r1]
              dsimp only
              obtain ⟨q', s', r, ev, k1, k2, k3, k4, k5⟩ := flush_good hh fuel q2 s2 r2 r4 (by rw [r3]; exact p2.2.1)
              rw [k1]
              exact ⟨q', s', r, _, rfl, k2, k3, k4, k5.trans (p1.trans n3)⟩
        | wouldBlock =>
          dsimp only
          obtain ⟨q2, r1, r2, r3, r4⟩ := hback f (hv f List.mem_cons_self)
          rw [r1]
          exact ⟨q2, s2, _, _, rfl, r2, r4, by rw [r3]; exact ⟨p2.inv, p2.ord.congr fun id => withId_insertBefore id f rest⟩, p1.trans n3⟩
        | other e => exact e.elim

/-! ### C109 -/

/-- The frames pushed have 29-bit IDs and at most eight bytes. -/
def PushesValid (ops : List SysOp) : Prop := ∀ f, .push f ∈ ops → Valid f

/-- Everything is all right. -/
structure SysGood {N : Nat} (s : Sys N) : Prop where
  ok : s.q.Ok
  valid : ∀ f ∈ s.q.toList, Valid f
  good : Good s.accepted s.events s.d s.q.toList

theorem sys_step {choose : Chooser} (hch : choose.OneOfEachId) {N : Nat} {s : Sys N} (h : SysGood s) {op : SysOp} (hv : ∀ f, op = .push f → Valid f) :
    ∃ s', s.step choose op = some s' ∧ SysGood s' := by
  cases op with
  | push f =>
    obtain ⟨q', k1, k2, k3⟩ := (arrayQueue_correct N).push s.q f h.ok
    simp only [Sys.step, singleQueueDriver, k1, Option.map_some]
    by_cases hlt : s.q.toList.length < N
    · rw [if_pos hlt] at k3
      simp only [decide_eq_true hlt, if_true]
      refine ⟨_, rfl, k2, ?_, ⟨h.good.inv, ?_⟩⟩
      · dsimp only
        rw [k3]
        intro x hx
        unfold insertBehind at hx
        simp only [List.mem_append, List.mem_cons, List.mem_filter] at hx
        rcases hx with ⟨hx, -⟩ | rfl | ⟨hx, -⟩
        · exact h.valid x hx
        · exact hv _ rfl
        · exact h.valid x hx
      · dsimp only
        rw [k3]
        exact h.good.ord.push f
    · rw [if_neg hlt] at k3
      simp only [decide_eq_false hlt, Bool.false_eq_true, if_false]
      exact ⟨_, rfl, k2, by dsimp only; rw [k3]; exact h.valid, by dsimp only; rw [k3]; exact h.good⟩
  | flush fuel times turns =>
    obtain ⟨q', s', r, ev, k1, k2, k3, k4, k5⟩ := flush_good (bxTarget_handles hch) fuel s.q ⟨s.d, times, turns, s.events, false⟩ h.ok h.valid h.good
    simp only [Sys.step, k1, k5, Bool.false_eq_true, if_false]
    exact ⟨_, rfl, k2, k3, k4⟩
  | bus i now => exact ⟨_, rfl, h.ok, h.valid, h.good.sendBox i now⟩
  | arrive x => exact ⟨_, rfl, h.ok, h.valid, ⟨⟨h.good.inv.box⟩, h.good.ord⟩⟩
  | receive now =>
    have hb : (s.d.receive now).1.boxes = s.d.boxes ∧ (s.d.receive now).1.deadlines = s.d.deadlines := by
      unfold BxCan.receive
      split
      · split <;> exact ⟨rfl, rfl⟩
      · exact ⟨rfl, rfl⟩
    refine ⟨_, rfl, h.ok, h.valid, ⟨⟨?_⟩, ?_⟩⟩
    · dsimp only
      rw [hb.1, hb.2]
      exact h.good.inv.box
    · dsimp only
      rw [hb.1]
      exact h.good.ord

theorem sys_run {choose : Chooser} (hch : choose.OneOfEachId) {N : Nat} : ∀ {ops : List SysOp} {s : Sys N}, SysGood s → PushesValid ops → ∃ s', s.run choose ops = some s' ∧ SysGood s'
  | [], s, h, _ => ⟨s, rfl, h⟩
  | op :: ops, s, h, hv => by
    obtain ⟨s1, h1, h2⟩ := sys_step hch h (op := op) (fun f he => hv f (he ▸ List.mem_cons_self))
    obtain ⟨s2, h3, h4⟩ := sys_run hch h2 (fun f he => hv f (List.mem_cons_of_mem _ he))
    exact ⟨s2, by simp [Sys.run, h1, h3], h4⟩

/-- **C109.** A queue in front of a bxCAN controller, whatever happens: nothing panics, and of the frames with any one CAN ID, those that reach the bus are some of those that the queue took, each once,
and in the order in which they were pushed; although frames are displaced from the mailboxes, put back into the queue, and aborted. -/
theorem C109_order {choose : Chooser} (hch : choose.OneOfEachId) (N : Nat) {ops : List SysOp} (hv : PushesValid ops) :
    ∃ s, (Sys.new N).run choose ops = some s ∧ ∀ id, (withId id (sentFrames s.events)).Sublist (withId id s.accepted) := by
  have hnew : SysGood (Sys.new N) := by
    have hl : (Sys.new N).q.toList = [] := by simp [Sys.new, ArrayQueue.toList, ArrayQueue.new]
    refine ⟨arrayQueue_new_ok N, by rw [hl]; simp, ⟨inv_new, ?_⟩⟩
    rw [hl]
    exact ⟨fun i b h => (nomatch h), fun id => List.Sublist.refl _, fun i j a b h => (nomatch h)⟩
  obtain ⟨s, h1, h2⟩ := sys_run hch hnew hv
  exact ⟨s, h1, fun id => (List.sublist_append_left _ _).trans (h2.good.ord.rest id)⟩

/-! ### Cases -/

/-- The priority of an ID: less is more urgent. -/
def idKey : BxId → Nat
  | .standard id => id.toNat * 2 ^ 18
  | .extended id => id.toNat

/-- A controller that takes a frame only if it is more urgent than all frames that wait, into a free mailbox if there is one, and otherwise in the place of the least urgent frame (as the crate
`bxcan` says that it does). -/
def urgentOnly : Chooser := fun boxes f =>
  if [0, 1, 2].any fun i : Fin 3 => (boxes i).any fun b => decide (idKey b.id ≤ idKey f.id) then none
  else
    match [0, 1, 2].find? fun i : Fin 3 => (boxes i).isNone with
    | some i => some i
    | none => [0, 1, 2].find? fun i : Fin 3 => [0, 1, 2].all fun j : Fin 3 => decide (((boxes j).map fun b => idKey b.id).getD 0 ≤ ((boxes i).map fun b => idKey b.id).getD 0)

theorem urgentOnly_one : urgentOnly.OneOfEachId := by
  intro boxes f i h j b hb he
  unfold urgentOnly at h
  rw [if_pos] at h
  · cases h
  · rw [List.any_eq_true]
    refine ⟨j, ?_, by simp [hb, he]⟩
    match j with
    | 0 => simp
    | 1 => simp
    | 2 => simp

/-- A frame for the example. -/
def frameOf (id : BitVec 32) (x : Byte) : Frame := { timestamp := 1000#32, id, loopback := false, data := [x, 0xe0#8] }

/-- A flush with room for two calls at the time `t`. -/
def flushAt (t : Instant) : SysOp := .flush 9 [t, t, t, t] [⟨[], t, fun _ => false⟩, ⟨[], t, fun _ => false⟩, ⟨[], t, fun _ => false⟩]

/-- Two frames with the ID 0x300, of which the first one is displaced by more urgent frames. -/
def someSys : List SysOp :=
  [.push (frameOf 0x300#32 1#8), flushAt 1#32, .push (frameOf 0x300#32 2#8), flushAt 2#32, .push (frameOf 0x200#32 3#8), flushAt 3#32, .push (frameOf 0x100#32 4#8), flushAt 4#32,
   .push (frameOf 0x50#32 5#8), flushAt 5#32, .bus 0 6#32, .bus 1 7#32, .bus 2 8#32, flushAt 9#32, .bus 0 10#32, .bus 1 10#32, .bus 2 10#32, flushAt 11#32, .bus 0 12#32, .bus 1 12#32, .bus 2 12#32,
   flushAt 13#32]

example : PushesValid someSys := by
  intro f h
  simp only [someSys, flushAt, List.mem_cons, SysOp.push.injEq, reduceCtorEq, List.not_mem_nil, or_false, false_or] at h
  obtain rfl | rfl | rfl | rfl | rfl := h <;> exact ⟨by decide, by decide⟩

example : ((Sys.new 4).run urgentOnly someSys).map (fun s => (sentFrames s.events).map fun f => (f.id, f.data.headD 0#8)) =
    some [(0x50#32, 5#8), (0x200#32, 3#8), (0x100#32, 4#8), (0x300#32, 1#8), (0x300#32, 2#8)] := by decide +kernel

/-- A controller that uses every free mailbox. -/
def anyFree : Chooser := fun boxes _ => [0, 1, 2].find? fun i : Fin 3 => (boxes i).isNone

/-- **C109.** That the order is kept with every controller is false: one that takes two frames with the same ID may send them in any order. -/
theorem C109_controller_counterexample :
    ¬ ∀ (choose : Chooser) (N : Nat) (ops : List SysOp) (s : Sys N), PushesValid ops → (Sys.new N).run choose ops = some s →
      ∀ id, (withId id (sentFrames s.events)).Sublist (withId id s.accepted) := by
  intro h
  have hv : PushesValid [.push (frameOf 0x300#32 1#8), .push (frameOf 0x300#32 2#8), flushAt 1#32, .bus 1 2#32, .bus 0 3#32] := by
    intro f h
    simp only [flushAt, List.mem_cons, SysOp.push.injEq, reduceCtorEq, List.not_mem_nil, or_false] at h
    obtain rfl | rfl := h <;> exact ⟨by decide, by decide⟩
  have h1 : ((Sys.new 4).run anyFree [.push (frameOf 0x300#32 1#8), .push (frameOf 0x300#32 2#8), flushAt 1#32, .bus 1 2#32, .bus 0 3#32]).map (fun s =>
      ((withId 0x300#32 (sentFrames s.events)).map (·.2.1), (withId 0x300#32 s.accepted).map (·.2.1))) = some ([[2#8, 0xe0#8], [1#8, 0xe0#8]], [[1#8, 0xe0#8], [2#8, 0xe0#8]]) := by decide +kernel
  obtain ⟨s, h2, h3⟩ := Option.map_eq_some_iff.1 h1
  simp only [Prod.mk.injEq] at h3
  have h4 := (h anyFree 4 _ s hv h2 0x300#32).map (·.2.1)
  rw [h3.1, h3.2] at h4
  revert h4
  decide

end Verif.Drv
