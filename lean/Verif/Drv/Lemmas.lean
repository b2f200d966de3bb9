import Verif.Drv.Spec

/-! Lemmas for the bxCAN driver. -/

namespace Verif.Drv

open Verif.Can

/-- The frames in the mailboxes are those that were given, and the deadlines are theirs. -/
structure Inv (d : BxCan) : Prop where
  box : ∀ i b, d.boxes i = some b → toBx b.given = some b.frame ∧ d.deadlines i = some b.given.timestamp

theorem inv_new : Inv BxCan.new := ⟨by intro i b h; cases h⟩

theorem fromBx_toBx {f : Frame} {b : BxFrame} (h : toBx f = some b) (t : Instant) : fromBx b t = some { f with timestamp := t, loopback := false } := by
  unfold toBx at h
  split at h
  · rename_i hv
    cases h
    simp only [fromBx, Option.map_some]
    congr 2
    apply BitVec.eq_of_toNat_eq
    simp only [BitVec.toNat_setWidth]
    omega
  · cases h

/-- How often the mailbox holds `x`. -/
def slot (x : BitVec 32 × List Byte × Instant) (o : Option Boxed) : Nat := if o.map (fun b => core b.given) = some x then 1 else 0

def load (x : BitVec 32 × List Byte × Instant) (d : BxCan) : Nat := slot x (d.boxes 0) + slot x (d.boxes 1) + slot x (d.boxes 2)

theorem count_waiting (x : BitVec 32 × List Byte × Instant) (d : BxCan) : (d.waiting.map core).count x = load x d := by
  unfold BxCan.waiting load slot
  cases d.boxes 0 <;> cases d.boxes 1 <;> cases d.boxes 2 <;> simp [List.count_cons] <;> omega

theorem load_update (x : BitVec 32 × List Byte × Instant) (d : BxCan) (i : Fin 3) (o : Option Boxed) :
    load x { d with boxes := Function.update d.boxes i o } + slot x (d.boxes i) = load x d + slot x o := by
  unfold load
  match i with
  | 0 => simp [Function.update]; omega
  | 1 => simp [Function.update]; omega
  | 2 => simp [Function.update]; omega

theorem load_congr (x : BitVec 32 × List Byte × Instant) {d d' : BxCan} (h : d'.boxes = d.boxes) : load x d' = load x d := by
  unfold load
  rw [h]

/-- What a cleanup may do. -/
structure Cleaned (env : TxEnv) (d d' : BxCan) (es : List BusEvent) : Prop where
  deadlines : d'.deadlines = d.deadlines
  loopback : d'.loopback = d.loopback
  received : d'.received = d.received
  fewer : ∀ i b, d'.boxes i = some b → d.boxes i = some b
  load : ∀ x, load x d = load x d' + (es.map fun e => core e.frame).count x
  events : ∀ e ∈ es, (∃ f, (e = .sent f env.now ∨ e = .aborted f env.now) ∧ Instant.after env.now f.timestamp = true)

theorem Cleaned.inv {env : TxEnv} {d d' : BxCan} {es : List BusEvent} (h : Cleaned env d d' es) (hi : Inv d) : Inv d' :=
  ⟨fun i b hb => by rw [h.deadlines]; exact hi.box i b (h.fewer i b hb)⟩

theorem Cleaned.trans {env : TxEnv} {a b c : BxCan} {e1 e2 : List BusEvent} (h1 : Cleaned env a b e1) (h2 : Cleaned env b c e2) : Cleaned env a c (e1 ++ e2) where
  deadlines := h2.deadlines.trans h1.deadlines
  loopback := h2.loopback.trans h1.loopback
  received := h2.received.trans h1.received
  fewer i x h := h1.fewer i x (h2.fewer i x h)
  load x := by
    rw [List.map_append, List.count_append, h1.load x, h2.load x]
    omega
  events e he := (List.mem_append.1 he).elim (h1.events e) (h2.events e)

theorem cleanOne_cleaned {env : TxEnv} {d : BxCan} (hi : Inv d) (i : Fin 3) : Cleaned env d (d.cleanOne env i).1 (d.cleanOne env i).2 ∧
    ∀ b, (d.cleanOne env i).1.boxes i = some b → Instant.after env.now b.given.timestamp = false := by
  have same : Cleaned env d d [] := ⟨rfl, rfl, rfl, fun _ _ h => h, fun x => by simp, fun e he => nomatch he⟩
  unfold BxCan.cleanOne
  cases hd : d.deadlines i with
  | none =>
    refine ⟨same, fun b hb => ?_⟩
    have := (hi.box i b hb).2
    rw [hd] at this
    cases this
  | some deadline =>
    dsimp only
    by_cases ha : Instant.after env.now deadline = true
    · rw [if_pos ha]
      cases hb : d.boxes i with
      | none =>
        refine ⟨same, fun b h => ?_⟩
        dsimp only at h
        rw [hb] at h
        cases h
      | some b =>
        have hdl := (hi.box i b hb).2
        rw [hd] at hdl
        cases hdl
        refine ⟨⟨rfl, rfl, rfl, ?_, ?_, ?_⟩, ?_⟩
        · intro j b' h
          by_cases hj : j = i
          · subst hj
            simp at h
          · simpa [Function.update, hj] using h
        · intro x
          have h1 := load_update x d i none
          rw [hb] at h1
          have h2 : slot x (some b) = ([core b.given]).count x := by simp [slot, List.count_cons]
          have h3 : slot x none = 0 := rfl
          rw [h2, h3] at h1
          dsimp only
          split <;> simp only [List.map_cons, List.map_nil, BusEvent.frame] <;> omega
        · intro e he
          simp only [List.mem_singleton] at he
          refine ⟨b.given, ?_, ha⟩
          subst he
          split
          · exact .inl rfl
          · exact .inr rfl
        · intro b' h
          simp at h
    · rw [if_neg ha]
      refine ⟨same, fun b hb => ?_⟩
      have hdl := (hi.box i b hb).2
      rw [hd] at hdl
      cases hdl
      simpa using ha

theorem clean_cleaned {env : TxEnv} {d : BxCan} (hi : Inv d) : Cleaned env d (d.clean env).1 (d.clean env).2 ∧
    ∀ i b, (d.clean env).1.boxes i = some b → Instant.after env.now b.given.timestamp = false := by
  obtain ⟨a1, a2⟩ := cleanOne_cleaned (env := env) hi 0
  obtain ⟨b1, b2⟩ := cleanOne_cleaned (env := env) (a1.inv hi) 1
  obtain ⟨c1, c2⟩ := cleanOne_cleaned (env := env) (b1.inv (a1.inv hi)) 2
  refine ⟨(a1.trans b1).trans c1, fun i b hb => ?_⟩
  match i with
  | 0 => exact a2 b (b1.fewer _ _ (c1.fewer _ _ hb))
  | 1 => exact b2 b (c1.fewer _ _ hb)
  | 2 => exact c2 b hb

/-- What a call of `transmit` does. -/
structure Transmitted (d : BxCan) (env : TxEnv) (f : Frame) (d' : BxCan) (r : TransmitResult Empty) (es : List BusEvent) : Prop where
  inv : Inv d'
  received : d'.received = d.received
  events : ∀ e ∈ es, (∃ f, (e = .sent f env.now ∨ e = .aborted f env.now) ∧ Instant.after env.now f.timestamp = true)
  waiting : ∀ i b, d'.boxes i = some b → Instant.after env.now b.given.timestamp = false
  result : (Instant.before f.timestamp env.now = true ∧ r = .ok none ∧ d'.loopback = d.loopback ∧
        ∀ x, load x d = load x d' + (es.map fun e => core e.frame).count x) ∨
      (Instant.before f.timestamp env.now = false ∧ r = .wouldBlock ∧ d'.loopback = d.loopback ∧ ∀ x, load x d = load x d' + (es.map fun e => core e.frame).count x) ∨
      (Instant.before f.timestamp env.now = false ∧ ∃ o : Option Frame, r = .ok (o.map fun g => { g with loopback := false }) ∧
        d'.loopback = (if f.loopback && decide (d.loopback.length < loopbackCapacity) then d.loopback ++ [{ f with timestamp := env.now }] else d.loopback) ∧
        ∀ x, [core f].count x + load x d = load x d' + (es.map fun e => core e.frame).count x + (o.toList.map core).count x)

theorem not_after_of_not_before {now t : Instant} (h : Instant.before t now = false) : Instant.after now t = false := by
  unfold Instant.after Instant.before at *
  simp only [decide_eq_false_iff_not, Nat.not_lt] at h
  by_cases he : now = t
  · simp [he]
  · have h1 : (now - t).toNat > 2147483647 := by
      have h2 : (t - now).toNat ≠ 0 := by
        intro h0
        apply he
        have : t - now = 0#32 := BitVec.eq_of_toNat_eq (by simpa using h0)
        have := BitVec.sub_eq_iff_eq_add.1 this
        simp at this
        exact this.symm
      have h3 : (now - t).toNat = 2 ^ 32 - (t - now).toNat := by
        rw [BitVec.toNat_sub, BitVec.toNat_sub] at *
        have := now.isLt
        have := t.isLt
        omega
      omega
    rw [decide_eq_true h1]
    simp

theorem storeCopy_boxes (d : BxCan) (f : Frame) (now : Instant) : (d.storeCopy f now).boxes = d.boxes := by
  unfold BxCan.storeCopy; split <;> rfl

theorem storeCopy_deadlines (d : BxCan) (f : Frame) (now : Instant) : (d.storeCopy f now).deadlines = d.deadlines := by
  unfold BxCan.storeCopy; split <;> rfl

theorem storeCopy_received (d : BxCan) (f : Frame) (now : Instant) : (d.storeCopy f now).received = d.received := by
  unfold BxCan.storeCopy; split <;> rfl

theorem storeCopy_loopback (d : BxCan) (f : Frame) (now : Instant) : (d.storeCopy f now).loopback =
    if f.loopback && decide (d.loopback.length < loopbackCapacity) then d.loopback ++ [{ f with timestamp := now }] else d.loopback := by
  unfold BxCan.storeCopy; split <;> rfl

theorem transmit_does {d : BxCan} (hi : Inv d) {env : TxEnv} {f : Frame} (hv : Valid f) :
    ∃ d' r es, d.transmit env f = some (d', r, es) ∧ Transmitted d env f d' r es := by
  obtain ⟨c1, c2⟩ := clean_cleaned (env := env) hi
  have hinv := c1.inv hi
  unfold BxCan.transmit
  dsimp only
  cases hb : Instant.before f.timestamp env.now with
  | true =>
    simp only [Bool.not_true, Bool.false_eq_true, if_false]
    exact ⟨_, _, _, rfl, hinv, c1.received, c1.events, c2, .inl ⟨hb, rfl, c1.loopback, c1.load⟩⟩
  | false =>
    simp only [Bool.not_false, if_true]
    have htb : toBx f = some ⟨.extended (f.id.setWidth 29), some f.data⟩ := if_pos hv
    unfold BxCan.transmitInner
    rw [htb]
    cases hm : env.mailbox with
    | none => exact ⟨_, _, _, rfl, hinv, c1.received, c1.events, c2, .inr (.inl ⟨hb, rfl, c1.loopback, c1.load⟩)⟩
    | some i =>
      dsimp only
      -- the state with the frame in the mailbox
      have key : ∀ d' : BxCan, d'.boxes = Function.update (d.clean env).1.boxes i (some ⟨⟨.extended (f.id.setWidth 29), some f.data⟩, f⟩) →
          d'.deadlines = Function.update (d.clean env).1.deadlines i (some f.timestamp) →
          Inv d' ∧ (∀ j b, d'.boxes j = some b → Instant.after env.now b.given.timestamp = false) ∧
          ∀ x, load x d' + slot x ((d.clean env).1.boxes i) = load x (d.clean env).1 + [core f].count x := by
        intro d' h1 h2
        refine ⟨⟨fun j b h => ?_⟩, fun j b h => ?_, fun x => ?_⟩
        · rw [h1] at h
          rw [h2]
          by_cases hj : j = i
          · subst hj
            simp only [Function.update_self, Option.some.injEq] at h ⊢
            subst h
            exact ⟨htb, rfl⟩
          · rw [Function.update_of_ne hj] at h ⊢
            exact hinv.box j b h
        · rw [h1] at h
          by_cases hj : j = i
          · subst hj
            simp only [Function.update_self, Option.some.injEq] at h
            subst h
            exact not_after_of_not_before hb
          · rw [Function.update_of_ne hj] at h
            exact c2 j b h
        · have := load_update x (d.clean env).1 i (some ⟨⟨.extended (f.id.setWidth 29), some f.data⟩, f⟩)
          rw [load_congr x h1.symm] at this
          rw [this]
          simp [slot, List.count_cons]
      cases hbox : (d.clean env).1.boxes i with
      | none =>
        dsimp only
        refine ⟨_, _, _, rfl, ?_⟩
        obtain ⟨k1, k2, k3⟩ := key (BxCan.storeCopy { (d.clean env).1 with boxes := Function.update (d.clean env).1.boxes i (some ⟨⟨.extended (f.id.setWidth 29), some f.data⟩, f⟩), deadlines := Function.update (d.clean env).1.deadlines i (some f.timestamp) } f env.now) (storeCopy_boxes _ f env.now) (storeCopy_deadlines _ f env.now)
        refine ⟨k1, ?_, c1.events, k2, .inr (.inr ⟨hb, none, rfl, ?_, fun x => ?_⟩)⟩
        · rw [storeCopy_received]; exact c1.received
        · rw [storeCopy_loopback, ← c1.loopback]
        · have h1 := k3 x
          have h2 := c1.load x
          rw [hbox] at h1
          simp only [slot, Option.map_none, Option.toList_none, List.map_nil, List.count_nil, reduceCtorEq, if_false] at h1 ⊢
          omega
      | some b =>
        obtain ⟨hg, hd⟩ := hinv.box i b hbox
        rw [hd]
        dsimp only
        rw [fromBx_toBx hg]
        refine ⟨_, _, _, rfl, ?_⟩
        obtain ⟨k1, k2, k3⟩ := key (BxCan.storeCopy { (d.clean env).1 with boxes := Function.update (d.clean env).1.boxes i (some ⟨⟨.extended (f.id.setWidth 29), some f.data⟩, f⟩), deadlines := Function.update (d.clean env).1.deadlines i (some f.timestamp) } f env.now) (storeCopy_boxes _ f env.now) (storeCopy_deadlines _ f env.now)
        refine ⟨k1, ?_, c1.events, k2, .inr (.inr ⟨hb, some b.given, rfl, ?_, fun x => ?_⟩)⟩
        · rw [storeCopy_received]; exact c1.received
        · rw [storeCopy_loopback, ← c1.loopback]
        · have h1 := k3 x
          have h2 := c1.load x
          rw [hbox] at h1
          have h3 : slot x (some b) = ([core b.given]).count x := by simp [slot, List.count_cons]
          rw [h3] at h1
          simp only [Option.toList_some, List.map_cons, List.map_nil] at h1 ⊢
          omega

end Verif.Drv
