import Verif.Can.RxSpec
import Verif.Can.IdLemmas

/-! Helper lemmas for the CAN receiver. -/

namespace Verif.Can

theorem subs_setSubs (r : Receiver) (k k' : Kind) (l : List Subscription) :
    (r.setSubs k l).subs k' = if k' = k then l else r.subs k' := by
  cases k <;> cases k' <;> rfl

@[simp] theorem setSubs_id (r : Receiver) (k : Kind) (l : List Subscription) : (r.setSubs k l).id = r.id := by
  cases k <;> rfl
@[simp] theorem incTransfer_subs (r : Receiver) (k : Kind) : r.incTransfer.subs k = r.subs k := by cases k <;> rfl
@[simp] theorem incError_subs (r : Receiver) (k : Kind) : r.incError.subs k = r.subs k := by cases k <;> rfl
@[simp] theorem incTransfer_id (r : Receiver) : r.incTransfer.id = r.id := rfl
@[simp] theorem incError_id (r : Receiver) : r.incError.id = r.id := rfl
@[simp] theorem setId_subs (r : Receiver) (i) (k : Kind) : (r.setId i).subs k = r.subs k := by cases k <;> rfl

@[simp] theorem incTransfer_view (r : Receiver) (key : Key) : r.incTransfer.view key = r.view key := by
  simp [Receiver.view, Receiver.find]
@[simp] theorem incError_view (r : Receiver) (key : Key) : r.incError.view key = r.view key := by
  simp [Receiver.view, Receiver.find]
@[simp] theorem setId_view (r : Receiver) (i) (key : Key) : (r.setId i).view key = r.view key := by
  simp [Receiver.view, Receiver.find]

/-- Accepting keeps the parameters of a subscription. -/
theorem accept_params {checks oom : Bool} {sub sub' : Subscription} {f : Frame} {h : CanHeader} {t : TailByte} {r}
    (ha : sub.accept checks oom f h t = some (sub', r)) :
    sub'.port = sub.port ∧ sub'.timeout = sub.timeout ∧ sub'.payloadSizeMax = sub.payloadSizeMax := by
  unfold Subscription.accept at ha
  split at ha
  · split at ha
    · cases ha
    · cases ha; exact ⟨rfl, rfl, rfl⟩
  · split at ha
    · cases ha
    · cases ha; exact ⟨rfl, rfl, rfl⟩

/-- `acceptFirst` in terms of `find?`. -/
theorem acceptFirst_spec (checks oom : Bool) (f : Frame) (h : CanHeader) (t : TailByte) (l : List Subscription) :
    match l.find? (fun s => s.port == h.port) with
    | none => acceptFirst checks oom f h t l = some none
    | some sub =>
      match sub.accept checks oom f h t with
      | none => acceptFirst checks oom f h t l = none
      | some (sub', r) => ∃ l', acceptFirst checks oom f h t l = some (some (l', r)) ∧
          (∀ p, l'.find? (fun s => s.port == p) = if p = h.port then some sub' else l.find? (fun s => s.port == p)) ∧
          l'.map Subscription.port = l.map Subscription.port ∧
          (∀ s ∈ l', s = sub' ∨ s ∈ l) := by
  induction l with
  | nil => simp [acceptFirst]
  | cons s rest ih =>
    by_cases hp : s.port = h.port
    · have hf : (s :: rest).find? (fun s => s.port == h.port) = some s := by simp [hp]
      rw [hf]
      simp only
      cases ha : s.accept checks oom f h t with
      | none => simp [acceptFirst, hp, ha]
      | some p =>
        obtain ⟨sub', r⟩ := p
        have hpp := (accept_params ha).1
        refine ⟨sub' :: rest, by simp [acceptFirst, hp, ha], ?_, by simp [hpp], ?_⟩
        · intro p
          by_cases h1 : p = h.port
          · subst h1; simp [hpp, hp]
          · have h2 : ¬ s.port = p := by rw [hp]; exact fun e => h1 e.symm
            simp [h1, hpp, h2]
        · intro x hx
          rcases List.mem_cons.mp hx with rfl | hx
          · exact Or.inl rfl
          · exact Or.inr (List.mem_cons_of_mem _ hx)
    · have hf : (s :: rest).find? (fun s => s.port == h.port) = rest.find? (fun s => s.port == h.port) := by simp [hp]
      rw [hf]
      cases hfind : rest.find? (fun s => s.port == h.port) with
      | none =>
        rw [hfind] at ih
        simp only at ih ⊢
        simp [acceptFirst, hp, ih]
      | some sub =>
        rw [hfind] at ih
        simp only at ih ⊢
        cases ha : sub.accept checks oom f h t with
        | none =>
          rw [ha] at ih
          simp only at ih ⊢
          simp [acceptFirst, hp, ih]
        | some p =>
          obtain ⟨sub', r⟩ := p
          rw [ha] at ih
          simp only at ih ⊢
          obtain ⟨l', h1, h2, h3, h4⟩ := ih
          refine ⟨s :: l', by simp [acceptFirst, hp, h1], ?_, by simp [h3], ?_⟩
          · intro p
            by_cases h5 : s.port = p
            · have : ¬ p = h.port := by rw [← h5]; exact hp
              simp [h5, this]
            · simp [h5, h2 p]
          · intro x hx
            rcases List.mem_cons.mp hx with rfl | hx
            · exact Or.inr (List.mem_cons_self ..)
            · rcases h4 x hx with h | h
              · exact Or.inl h
              · exact Or.inr (List.mem_cons_of_mem _ h)

/-- The receiver lets a header pass: messages always, services when addressed to it or looped back. -/
def passes (id : Option NodeId) (loopback : Bool) (h : CanHeader) : Bool :=
  match h.destination with
  | none => true
  | some d => loopback || (match id with | some l => l == d | none => false)

theorem acceptFrame_eq (checks oom : Bool) (r : Receiver) (f : Frame) :
    r.acceptFrame checks oom f =
      match sanityCheck f with
      | none => none
      | some none => some (r.incError, .nothing)
      | some (some (h, t)) =>
        if passes r.id f.loopback h then r.acceptSaneFrame checks oom f h t else some (r, .nothing) := by
  unfold Receiver.acceptFrame
  cases sanityCheck f with
  | none => rfl
  | some o =>
    cases o with
    | none => rfl
    | some p =>
      obtain ⟨h, t⟩ := p
      cases h with
      | message m => simp [passes, Header.destination]
      | request s =>
        simp only [passes, Header.destination, Receiver.canAcceptService]
        cases f.loopback <;> simp
        cases r.id <;> simp
      | response s =>
        simp only [passes, Header.destination, Receiver.canAcceptService]
        cases f.loopback <;> simp
        cases r.id <;> simp

theorem sanityCheck_ne_none (f : Frame) (h : f.id.toNat < 2 ^ 29) : sanityCheck f ≠ none := by
  unfold sanityCheck
  split
  · simp
  · simp only
    rw [parseCanId_eq _ _ _ h]
    split
    · rename_i h'; cases h'
    · simp
    · split <;> split <;> simp

theorem sanityCheck_eq (f : Frame) (h : f.id.toNat < 2 ^ 29) : sanityCheck f = some (readFrame f) := by
  unfold readFrame
  have := sanityCheck_ne_none f h
  revert this
  cases sanityCheck f with
  | none => intro h; exact absurd rfl h
  | some o => cases o <;> simp

/-- A frame that is read has data. -/
theorem readFrame_data {f : Frame} {h : CanHeader} {t : TailByte} (hr : readFrame f = some (h, t)) :
    ∃ last, f.data.getLast? = some last ∧ t = TailByte.parse last ∧ f.data ≠ [] ∧
      parseCanId f.id f.timestamp t.transferId = some (.ok h) := by
  unfold readFrame sanityCheck at hr
  split at hr
  · rename_i p hp
    cases hr
    split at hp
    · cases hp
    · rename_i last hl
      simp only at hp
      have hne : f.data ≠ [] := by intro hc; rw [hc] at hl; cases hl
      split at hp
      · cases hp
      · cases hp
      · rename_i header hparse
        split at hp <;> split at hp <;> cases hp
        all_goals exact ⟨last, hl, rfl, hne, hparse⟩
  · cases hr

theorem parse_header_fields {v : BitVec 32} {ts tid} {h : CanHeader} (hp : parseCanId v ts tid = some (.ok h)) :
    h.timestamp = ts ∧ h.transferId = tid := by
  unfold parseCanId at hp
  split at hp
  · cases hp
  split at hp
  · split at hp
    · split at hp
      · simp only at hp
        split at hp <;> cases hp <;> exact ⟨rfl, rfl⟩
      · cases hp
    split at hp
    · cases hp
    simp only at hp
    split at hp
    · cases hp; exact ⟨rfl, rfl⟩
    · cases hp
  · cases hp

theorem readFrame_fields {f : Frame} {h : CanHeader} {t : TailByte} (hr : readFrame f = some (h, t)) :
    h.timestamp = f.timestamp ∧ h.transferId = t.transferId := by
  obtain ⟨_, _, _, _, hp⟩ := readFrame_data hr
  exact parse_header_fields hp

/-- An anonymous frame that is read is a whole transfer. -/
theorem readFrame_anonymous {f : Frame} {h : CanHeader} {t : TailByte} (hr : readFrame f = some (h, t))
    (hs : h.source = none) : t.start = true ∧ t.end_ = true ∧ t.toggle = true := by
  unfold readFrame sanityCheck at hr
  split at hr
  · rename_i p hp
    cases hr
    split at hp
    · cases hp
    · simp only at hp
      split at hp
      · cases hp
      · cases hp
      · rename_i header _
        cases header with
        | message m =>
          simp only at hp
          split at hp
          · cases hp
          · rename_i hc
            cases hp
            simp only [Header.source] at hs
            simp [hs] at hc
            obtain ⟨⟨a, b⟩, c⟩ := hc
            exact ⟨b, c, a⟩
        | request m =>
          simp at hp
          obtain ⟨rfl, _⟩ := hp
          cases hs
        | response m =>
          simp at hp
          obtain ⟨rfl, _⟩ := hp
          cases hs
  · cases hr

/-! ### One frame seen from one session -/

/-- The outcome for the caller of what a subscription returned. -/
def outcome : Except SubscriptionError (Option CanTransfer) → Accepted
  | .ok (some t) => .transfer t
  | .ok none => .nothing
  | .error .memory => .outOfMemory
  | .error _ => .nothing

/-- What handling a frame of the session does to its view. -/
def viewFrame (checks oom : Bool) (id : Option NodeId) (v : Option View) (f : Frame) (h : CanHeader) (t : TailByte) :
    Option (Option View × Accepted) :=
  match v with
  | none => some (none, .nothing)
  | some v =>
    if passes id f.loopback h then
      match v.state.checkedAccept checks oom v.extent v.timeout f h t with
      | none => none
      | some (st, r) => some (some { v with state := st }, outcome r)
    else some (some v, .nothing)

theorem frame_view (checks oom : Bool) (r : Receiver) (f : Frame) (key : Key) (h : CanHeader) (t : TailByte)
    (hr : readFrame f = some (h, t)) (hk : key.Matches h) (hv : f.id.toNat < 2 ^ 29) :
    match viewFrame checks oom r.id (r.view key) f h t with
    | none => r.acceptFrame checks oom f = none
    | some (v', a) => ∃ r', r.acceptFrame checks oom f = some (r', a) ∧ r'.id = r.id ∧ r'.view key = v' := by
  obtain ⟨hk1, hk2, hk3⟩ := hk
  rw [acceptFrame_eq, sanityCheck_eq f hv, hr]
  simp only
  unfold Receiver.acceptSaneFrame
  have hspec := acceptFirst_spec checks oom f h t (r.subs h.kind)
  unfold viewFrame Receiver.view Receiver.find
  rw [← hk1, ← hk2]
  cases hf : (r.subs h.kind).find? (fun s => s.port == h.port) with
  | none =>
    rw [hf] at hspec
    simp only at hspec
    simp only [Option.map_none, hspec]
    refine ⟨r, by split <;> rfl, rfl, ?_⟩
    simp [hf]
  | some sub =>
    rw [hf] at hspec
    simp only [Option.map_some] at hspec ⊢
    by_cases hp : passes r.id f.loopback h = true
    · simp only [hp, if_true]
      have hacc : sub.accept checks oom f h t =
          match (sub.states key.source).checkedAccept checks oom sub.payloadSizeMax sub.timeout f h t with
          | none => none
          | some (st, r) => some ({ sub with states := fun n => if n = key.source then st else sub.states n }, r) := by
        unfold Subscription.accept
        rw [hk3]
        rfl
      cases hc : (sub.states key.source).checkedAccept checks oom sub.payloadSizeMax sub.timeout f h t with
      | none =>
        rw [hc] at hacc
        simp only at hacc
        rw [hacc] at hspec
        simp only at hspec
        simp [hspec]
      | some p =>
        obtain ⟨st, res⟩ := p
        rw [hc] at hacc
        simp only at hacc
        rw [hacc] at hspec
        simp only at hspec
        obtain ⟨l', h1, h2, -, -⟩ := hspec
        simp only [h1]
        have hview : ((r.setSubs h.kind l').subs h.kind).find? (fun s => s.port == h.port) =
            some { sub with states := fun n => if n = key.source then st else sub.states n } := by
          rw [subs_setSubs, if_pos rfl, h2, if_pos rfl]
        cases res with
        | ok o =>
          cases o with
          | none => exact ⟨_, rfl, by simp, by simp [hview]⟩
          | some tr => exact ⟨_, rfl, by simp, by simp [hview]⟩
        | error e => cases e <;> exact ⟨_, rfl, by simp, by simp [hview]⟩
    · simp only [hp]
      exact ⟨r, rfl, rfl, by simp [hf]⟩

/-- A frame that is not of the session leaves the view alone, and delivers no transfer of the session. -/
theorem frame_view_other (checks oom : Bool) (r : Receiver) (f : Frame) (key : Key)
    (hk : ∀ h t, readFrame f = some (h, t) → ¬ key.Matches h) (hv : f.id.toNat < 2 ^ 29) {r' a}
    (ha : r.acceptFrame checks oom f = some (r', a)) : r'.id = r.id ∧ r'.view key = r.view key := by
  rw [acceptFrame_eq, sanityCheck_eq f hv] at ha
  cases hr : readFrame f with
  | none =>
    rw [hr] at ha
    cases ha
    exact ⟨rfl, by simp⟩
  | some p =>
    obtain ⟨h, t⟩ := p
    rw [hr] at ha
    simp only at ha
    split at ha
    · unfold Receiver.acceptSaneFrame at ha
      have hspec := acceptFirst_spec checks oom f h t (r.subs h.kind)
      cases hf : (r.subs h.kind).find? (fun s => s.port == h.port) with
      | none =>
        rw [hf] at hspec
        simp only at hspec
        rw [hspec] at ha
        cases ha
        exact ⟨rfl, rfl⟩
      | some sub =>
        rw [hf] at hspec
        simp only at hspec
        cases hc : sub.accept checks oom f h t with
        | none => rw [hc] at hspec; simp only at hspec; rw [hspec] at ha; cases ha
        | some q =>
          obtain ⟨sub', res⟩ := q
          rw [hc] at hspec
          simp only at hspec
          obtain ⟨l', h1, h2, -, -⟩ := hspec
          rw [h1] at ha
          simp only at ha
          have hid : r'.id = r.id ∧ ∀ k, r'.subs k = (r.setSubs h.kind l').subs k := by
            cases res with
            | ok o => cases o <;> cases ha <;> simp
            | error e => cases e <;> cases ha <;> simp
          refine ⟨hid.1, ?_⟩
          unfold Receiver.view Receiver.find
          rw [hid.2, subs_setSubs]
          split
          · rename_i hkind
            rw [h2, ← hkind]
            split
            · rename_i hport
              rw [hkind, hport, hf]
              have hsrc : h.source ≠ some key.source := by
                intro hs
                exact hk h t hr ⟨hkind.symm, hport.symm, hs⟩
              have hpar := accept_params hc
              simp only [Option.map_some]
              have : sub'.states key.source = sub.states key.source := by
                unfold Subscription.accept at hc
                split at hc
                · rename_i source hs
                  split at hc
                  · cases hc
                  · cases hc
                    have : key.source ≠ source := by
                      intro e; rw [e] at hsrc; exact hsrc hs
                    simp [this]
                · split at hc
                  · cases hc
                  · cases hc; rfl
              rw [this, hpar.2.1, hpar.2.2]
            · rfl
          · rfl
    · cases ha
      exact ⟨rfl, rfl⟩

/-! ### Subscription calls seen from one session -/

theorem find?_filter_port (l : List Subscription) (p q : Nat) :
    (l.filter (fun s => s.port != p)).find? (fun s => s.port == q) =
      if q = p then none else l.find? (fun s => s.port == q) := by
  induction l with
  | nil => simp
  | cons s l ih =>
    by_cases h1 : s.port = p
    · by_cases h2 : q = p
      · subst h2
        rw [List.filter_cons, if_neg (by simp [h1]), ih]
        simp
      · rw [List.filter_cons, if_neg (by simp [h1]), ih, if_neg h2, if_neg h2]
        rw [List.find?_cons]
        have : (s.port == q) = false := by rw [h1]; simpa using fun e => h2 e.symm
        rw [this]
    · rw [List.filter_cons, if_pos (by simp [h1]), List.find?_cons, List.find?_cons]
      by_cases h3 : s.port = q
      · have : ¬ q = p := by rw [← h3]; exact h1
        simp [h3, this]
      · have h4 : (s.port == q) = false := by simpa using h3
        rw [h4]
        exact ih

theorem filter_length_lt_iff (l : List Subscription) (p : Nat) :
    (l.filter (fun s => s.port != p)).length < l.length ↔ (l.find? (fun s => s.port == p)).isSome := by
  induction l with
  | nil => simp
  | cons s l ih =>
    by_cases h1 : s.port = p
    · rw [List.filter_cons, if_neg (by simp [h1]), List.find?_cons]
      have := List.length_filter_le (fun s : Subscription => s.port != p) l
      simp [h1]; omega
    · rw [List.filter_cons, if_pos (by simp [h1]), List.find?_cons]
      have h2 : (s.port == p) = false := by simp [h1]
      rw [h2]
      simp only [List.length_cons]
      rw [← ih]
      omega

theorem unsubscribe_find (r : Receiver) (k : Kind) (p : Nat) (k' : Kind) (p' : Nat) :
    (r.unsubscribe k p).find k' p' = if k' = k ∧ p' = p then none else r.find k' p' := by
  unfold Receiver.unsubscribe Receiver.find
  rw [subs_setSubs]
  by_cases h1 : k' = k
  · subst h1
    rw [if_pos rfl, find?_filter_port]
    by_cases h2 : p' = p <;> simp [h2]
  · simp [h1]

@[simp] theorem unsubscribe_id (r : Receiver) (k : Kind) (p : Nat) : (r.unsubscribe k p).id = r.id := by
  simp [Receiver.unsubscribe]

theorem subscribe_find (oom : Bool) (r : Receiver) (k : Kind) (p e : Nat) (to : Duration) :
    (r.subscribe oom k p e to).1.id = r.id ∧
    (r.subscribe oom k p e to).2 = (!oom || (r.find k p).isSome) ∧
    ∀ k' p', (r.subscribe oom k p e to).1.find k' p' =
      if k' = k ∧ p' = p then (if (!oom || (r.find k p).isSome) then some (Subscription.new to e p) else none)
      else r.find k' p' := by
  have hlen : decide (((r.unsubscribe k p).subs k).length < (r.subs k).length) = (r.find k p).isSome := by
    unfold Receiver.unsubscribe
    rw [subs_setSubs, if_pos rfl]
    have := filter_length_lt_iff (r.subs k) p
    unfold Receiver.find
    by_cases h : (List.find? (fun s => s.port == p) (r.subs k)).isSome = true
    · rw [h]; exact decide_eq_true (this.mpr h)
    · rw [Bool.eq_false_iff.mpr h]; exact decide_eq_false (fun hh => h (this.mp hh))
  unfold Receiver.subscribe
  simp only [hlen]
  by_cases hc : (oom && !(r.find k p).isSome) = true
  · have hc' : (!oom || (r.find k p).isSome) = false := by
      revert hc; cases oom <;> cases (r.find k p).isSome <;> simp
    rw [if_pos hc, hc']
    refine ⟨by simp, rfl, ?_⟩
    intro k' p'
    rw [unsubscribe_find]
    by_cases h : k' = k ∧ p' = p <;> simp [h]
  · have hc' : (!oom || (r.find k p).isSome) = true := by
      revert hc; cases oom <;> cases (r.find k p).isSome <;> simp
    rw [if_neg hc, hc']
    refine ⟨by simp, rfl, ?_⟩
    intro k' p'
    have hu := unsubscribe_find r k p k' p'
    unfold Receiver.find at hu ⊢
    rw [subs_setSubs]
    by_cases h1 : k' = k
    · subst h1
      rw [if_pos rfl, List.find?_append, hu]
      by_cases h2 : p' = p
      · subst h2; simp [Subscription.new]
      · have : ¬ p = p' := fun e => h2 e.symm
        simp [h2, Subscription.new, this]
    · rw [if_neg h1, hu]
      simp [h1]

theorem view_of_find {r r' : Receiver} {key : Key} (h : r'.find key.kind key.port = r.find key.kind key.port) :
    r'.view key = r.view key := by
  unfold Receiver.view; rw [h]

/-- The view after a subscribe call. -/
theorem subscribe_view (oom : Bool) (r : Receiver) (k : Kind) (p e : Nat) (to : Duration) (key : Key) :
    (r.subscribe oom k p e to).1.view key =
      if key.kind = k ∧ key.port = p then
        (if (!oom || (r.view key).isSome) then some { timeout := to, extent := e, state := .init } else none)
      else r.view key := by
  have h := (subscribe_find oom r k p e to).2.2 key.kind key.port
  unfold Receiver.view
  rw [h]
  by_cases hk : key.kind = k ∧ key.port = p
  · obtain ⟨rfl, rfl⟩ := hk
    simp only [and_self, if_true, Option.isSome_map]
    split <;> rfl
  · simp [hk]

theorem unsubscribe_view (r : Receiver) (k : Kind) (p : Nat) (key : Key) :
    (r.unsubscribe k p).view key = if key.kind = k ∧ key.port = p then none else r.view key := by
  unfold Receiver.view
  rw [unsubscribe_find]
  by_cases hk : key.kind = k ∧ key.port = p <;> simp [hk]

theorem subscribeMessage_fst (oom : Bool) (r : Receiver) (s : SubjectId) (e : Nat) (to : Duration) :
    (r.subscribeMessage oom s e to).1 = (r.subscribe oom .message s.toNat e to).1 := by
  unfold Receiver.subscribeMessage
  cases h : r.subscribe oom .message s.toNat e to with
  | mk r' b => cases b <;> rfl

theorem subscribeService_fst (oom : Bool) (r : Receiver) (k : Kind) (s : ServiceId) (e : Nat) (to : Duration) :
    (r.subscribeService oom k s e to).1 = if r.id.isSome then (r.subscribe oom k s.toNat e to).1 else r := by
  unfold Receiver.subscribeService
  split
  · cases h : r.subscribe oom k s.toNat e to with
    | mk r' b => cases b <;> rfl
  · rfl

/-! ### Delivered transfers -/

theorem buildup_add_data {checks : Bool} {b b' : Buildup} {data d : List Byte}
    (h : b.add checks data = some (b', .ok (some d))) :
    ∃ last, data.getLast? = some last ∧ (TailByte.parse last).end_ = true ∧ (TailByte.parse last).start = b.expectStart ∧
      (TailByte.parse last).toggle = b.expectToggle := by
  unfold Buildup.add at h
  simp only at h
  split at h
  · cases h
  · rename_i last hl
    refine ⟨last, hl, ?_⟩
    split at h
    · cases h
    · rename_i h1
      split at h
      · cases h
      · rename_i h2
        split at h
        · cases h
        · split at h
          · rename_i h3
            refine ⟨h3, ?_, ?_⟩
            · exact Decidable.byContradiction h1
            · exact Decidable.byContradiction h2
          · cases h

/-- A transfer produced by one session carries the header of the frame that completed it, with a possibly earlier
timestamp, and its loopback flag. -/
theorem checkedAccept_transfer {checks oom : Bool} {e : Nat} {to : Duration} {s s' : SessionState} {f : Frame}
    {h : CanHeader} {t : TailByte} {tr : CanTransfer}
    (ha : s.checkedAccept checks oom e to f h t = some (s', .ok (some tr))) :
    (∃ ts, tr.header = h.setTimestamp ts) ∧ tr.loopback = f.loopback := by
  have key : ∀ s s' : SessionState, s.acceptNonAnonymous checks oom e f h t = some (s', .ok (some tr)) →
      (∃ ts, tr.header = h.setTimestamp ts) ∧ tr.loopback = f.loopback := by
    intro s s' ha
    unfold SessionState.acceptNonAnonymous at ha
    split at ha
    · cases ha
    split at ha
    · split at ha
      · cases ha
      · simp only at ha
        split at ha
        · cases ha
        · cases ha
          exact ⟨⟨h.timestamp, by simp⟩, rfl⟩
    · unfold SessionState.acceptWithSession at ha
      split at ha
      · cases ha
      simp only at ha
      split at ha
      · cases ha
      · rename_i session _
        split at ha
        · cases ha
        · rename_i hs
          cases ha
          unfold Session.accept at hs
          split at hs
          · cases hs
          · rename_i hl
            split at hs
            · cases hs
            · cases hs
            · cases hs
            · cases hs
              refine ⟨⟨_, rfl⟩, ?_⟩
              exact (Decidable.byContradiction hl).symm
        · cases ha
        · cases ha
  unfold SessionState.checkedAccept at ha
  split at ha
  · exact key _ _ ha
  split at ha
  · cases ha
  · exact key _ _ ha

/-- What is known of a frame that delivered a transfer. -/
theorem acceptFrame_transfer {checks oom : Bool} {r r' : Receiver} {f : Frame} {tr : CanTransfer}
    (hv : f.id.toNat < 2 ^ 29) (ha : r.acceptFrame checks oom f = some (r', .transfer tr)) :
    ∃ h t sub, readFrame f = some (h, t) ∧ (∃ ts, tr.header = h.setTimestamp ts) ∧ tr.loopback = f.loopback ∧
      passes r.id f.loopback h = true ∧ r.find h.kind h.port = some sub ∧ t.end_ = true := by
  rw [acceptFrame_eq, sanityCheck_eq f hv] at ha
  cases hr : readFrame f with
  | none => rw [hr] at ha; cases ha
  | some p =>
    obtain ⟨h, t⟩ := p
    rw [hr] at ha
    simp only at ha
    split at ha
    · rename_i hp
      unfold Receiver.acceptSaneFrame at ha
      have hspec := acceptFirst_spec checks oom f h t (r.subs h.kind)
      cases hf : (r.subs h.kind).find? (fun s => s.port == h.port) with
      | none =>
        rw [hf] at hspec
        simp only at hspec
        rw [hspec] at ha
        cases ha
      | some sub =>
        rw [hf] at hspec
        simp only at hspec
        cases hc : sub.accept checks oom f h t with
        | none => rw [hc] at hspec; simp only at hspec; rw [hspec] at ha; cases ha
        | some q =>
          obtain ⟨sub', res⟩ := q
          rw [hc] at hspec
          simp only at hspec
          obtain ⟨l', h1, -, -, -⟩ := hspec
          rw [h1] at ha
          simp only at ha
          have hres : res = .ok (some tr) := by
            cases res with
            | ok o =>
              cases o with
              | none => cases ha
              | some x => cases ha; rfl
            | error e => cases e <;> cases ha
          subst hres
          obtain ⟨last, hlast, ht, hdata, hparse⟩ := readFrame_data hr
          have hend : t.end_ = true := by
            unfold Subscription.accept at hc
            split at hc
            · rename_i source hs
              split at hc
              · cases hc
              · rename_i st r0 hcc
                cases hc
                have key : ∀ s s' : SessionState,
                    s.acceptNonAnonymous checks oom sub.payloadSizeMax f h t = some (s', .ok (some tr)) →
                    t.end_ = true := by
                  intro s s' ha
                  unfold SessionState.acceptNonAnonymous at ha
                  split at ha
                  · cases ha
                  split at ha
                  · rename_i hse
                    simp at hse
                    exact hse.2
                  · unfold SessionState.acceptWithSession at ha
                    split at ha
                    · cases ha
                    simp only at ha
                    split at ha
                    · cases ha
                    · split at ha
                      · cases ha
                      · rename_i hs
                        unfold Session.accept at hs
                        split at hs
                        · cases hs
                        · split at hs
                          · cases hs
                          · cases hs
                          · cases hs
                          · rename_i hb
                            obtain ⟨l2, hl2, he, -, -⟩ := buildup_add_data hb
                            rw [hlast] at hl2
                            cases hl2
                            rw [ht]; exact he
                      · cases ha
                      · cases ha
                unfold SessionState.checkedAccept at hcc
                split at hcc
                · exact key _ _ hcc
                split at hcc
                · cases hcc
                · exact key _ _ hcc
            · rename_i hs
              exact (readFrame_anonymous hr hs).2.1
          refine ⟨h, t, sub, rfl, ?_, ?_, hp, hf, hend⟩
          · unfold Subscription.accept at hc
            split at hc
            · split at hc
              · cases hc
              · rename_i hcc
                cases hc
                exact (checkedAccept_transfer hcc).1
            · split at hc
              · cases hc
              · rename_i hcc
                cases hc
                unfold acceptAnonymous at hcc
                split at hcc
                · cases hcc
                split at hcc
                · cases hcc
                · cases hcc
                  exact ⟨h.timestamp, by simp⟩
          · unfold Subscription.accept at hc
            split at hc
            · split at hc
              · cases hc
              · rename_i hcc
                cases hc
                exact (checkedAccept_transfer hcc).2
            · split at hc
              · cases hc
              · rename_i hcc
                cases hc
                unfold acceptAnonymous at hcc
                split at hcc
                · cases hcc
                split at hcc
                · cases hcc
                · cases hcc
                  rfl
    · cases ha

/-! ### Steps and runs seen from one session -/

theorem matches_setTimestamp (key : Key) (h : CanHeader) (ts : Instant) :
    key.Matches (h.setTimestamp ts) ↔ key.Matches h := by
  simp [Key.Matches]

/-- An irrelevant call leaves the view and the ID alone, and delivers no transfer of the session. -/
theorem step_irrelevant {checks : Bool} {r r' : Receiver} {op : Op} {a : Accepted} {key : Key} (hop : op.Valid)
    (hrel : key.relevant op = false) (hs : r.step checks op = some (r', a)) :
    r'.id = r.id ∧ r'.view key = r.view key ∧ ∀ tr, a = .transfer tr → ¬ key.Matches tr.header := by
  cases op with
  | frame f oom =>
    have hno : ∀ h t, readFrame f = some (h, t) → ¬ key.Matches h := by
      intro h t hr
      simp only [Key.relevant, hr, decide_eq_false_iff_not] at hrel
      exact hrel
    obtain ⟨h1, h2⟩ := frame_view_other checks oom r f key hno hop hs
    refine ⟨h1, h2, ?_⟩
    rintro tr rfl
    obtain ⟨h, t, sub, hr, ⟨ts, hts⟩, -⟩ := acceptFrame_transfer hop hs
    rw [hts, matches_setTimestamp]
    exact hno h t hr
  | subscribeMessage oom s e to =>
    simp only [Key.relevant, decide_eq_false_iff_not] at hrel
    cases hs
    rw [subscribeMessage_fst]
    refine ⟨(subscribe_find ..).1, ?_, by simp⟩
    rw [subscribe_view, if_neg hrel]
  | subscribeRequest oom s e to =>
    simp only [Key.relevant, decide_eq_false_iff_not] at hrel
    cases hs
    rw [subscribeService_fst]
    split
    · refine ⟨(subscribe_find ..).1, ?_, by simp⟩
      rw [subscribe_view, if_neg hrel]
    · exact ⟨rfl, rfl, by simp⟩
  | subscribeResponse oom s e to =>
    simp only [Key.relevant, decide_eq_false_iff_not] at hrel
    cases hs
    rw [subscribeService_fst]
    split
    · refine ⟨(subscribe_find ..).1, ?_, by simp⟩
      rw [subscribe_view, if_neg hrel]
    · exact ⟨rfl, rfl, by simp⟩
  | unsubscribeMessage s =>
    simp only [Key.relevant, decide_eq_false_iff_not] at hrel
    cases hs
    refine ⟨by simp [Receiver.unsubscribePort], ?_, by simp⟩
    simp only [Receiver.unsubscribePort]
    rw [unsubscribe_view, if_neg hrel]
  | unsubscribeRequest s =>
    simp only [Key.relevant, decide_eq_false_iff_not] at hrel
    cases hs
    refine ⟨by simp [Receiver.unsubscribePort], ?_, by simp⟩
    simp only [Receiver.unsubscribePort]
    rw [unsubscribe_view, if_neg hrel]
  | unsubscribeResponse s =>
    simp only [Key.relevant, decide_eq_false_iff_not] at hrel
    cases hs
    refine ⟨by simp [Receiver.unsubscribePort], ?_, by simp⟩
    simp only [Receiver.unsubscribePort]
    rw [unsubscribe_view, if_neg hrel]
  | setId i => simp [Key.relevant] at hrel

/-- A relevant call does the same to two receivers that look the same from the session, and only delivers transfers of the
session. -/
theorem step_relevant {checks : Bool} {r1 r2 r1' : Receiver} {op : Op} {a : Accepted} {key : Key} (hop : op.Valid)
    (hrel : key.relevant op = true) (hid : r1.id = r2.id) (hview : r1.view key = r2.view key)
    (hs : r1.step checks op = some (r1', a)) :
    (∃ r2', r2.step checks op = some (r2', a) ∧ r1'.id = r2'.id ∧ r1'.view key = r2'.view key) ∧
      ∀ tr, a = .transfer tr → key.Matches tr.header := by
  cases op with
  | frame f oom =>
    simp only [Key.relevant] at hrel
    cases hr : readFrame f with
    | none => rw [hr] at hrel; cases hrel
    | some p =>
      obtain ⟨h, t⟩ := p
      rw [hr] at hrel
      simp only [decide_eq_true_eq] at hrel
      have v1 := frame_view checks oom r1 f key h t hr hrel hop
      have v2 := frame_view checks oom r2 f key h t hr hrel hop
      rw [hid, hview] at v1
      simp only [Receiver.step] at hs ⊢
      cases hvf : viewFrame checks oom r2.id (r2.view key) f h t with
      | none => rw [hvf] at v1; simp only at v1; rw [v1] at hs; cases hs
      | some q =>
        obtain ⟨v', a'⟩ := q
        rw [hvf] at v1 v2
        obtain ⟨s1, e1, i1, w1⟩ := v1
        obtain ⟨s2, e2, i2, w2⟩ := v2
        rw [e1] at hs
        cases hs
        refine ⟨⟨s2, e2, by rw [i1, i2], by rw [w1, w2]⟩, ?_⟩
        rintro tr rfl
        obtain ⟨h', t', sub, hr', ⟨ts, hts⟩, -⟩ := acceptFrame_transfer hop e1
        rw [hr] at hr'
        cases hr'
        rw [hts, matches_setTimestamp]
        exact hrel
  | subscribeMessage oom s e to =>
    cases hs
    refine ⟨⟨_, rfl, ?_, ?_⟩, by simp⟩
    · rw [subscribeMessage_fst, subscribeMessage_fst, (subscribe_find ..).1, (subscribe_find ..).1, hid]
    · rw [subscribeMessage_fst, subscribeMessage_fst, subscribe_view, subscribe_view, hview]
  | subscribeRequest oom s e to =>
    cases hs
    refine ⟨⟨_, rfl, ?_, ?_⟩, by simp⟩
    · rw [subscribeService_fst, subscribeService_fst, hid]
      split
      · rw [(subscribe_find ..).1, (subscribe_find ..).1, hid]
      · exact hid
    · rw [subscribeService_fst, subscribeService_fst, hid]
      split
      · rw [subscribe_view, subscribe_view, hview]
      · exact hview
  | subscribeResponse oom s e to =>
    cases hs
    refine ⟨⟨_, rfl, ?_, ?_⟩, by simp⟩
    · rw [subscribeService_fst, subscribeService_fst, hid]
      split
      · rw [(subscribe_find ..).1, (subscribe_find ..).1, hid]
      · exact hid
    · rw [subscribeService_fst, subscribeService_fst, hid]
      split
      · rw [subscribe_view, subscribe_view, hview]
      · exact hview
  | unsubscribeMessage s =>
    cases hs
    refine ⟨⟨_, rfl, by simp [Receiver.unsubscribePort, hid], ?_⟩, by simp⟩
    simp only [Receiver.unsubscribePort]
    rw [unsubscribe_view, unsubscribe_view, hview]
  | unsubscribeRequest s =>
    cases hs
    refine ⟨⟨_, rfl, by simp [Receiver.unsubscribePort, hid], ?_⟩, by simp⟩
    simp only [Receiver.unsubscribePort]
    rw [unsubscribe_view, unsubscribe_view, hview]
  | unsubscribeResponse s =>
    cases hs
    refine ⟨⟨_, rfl, by simp [Receiver.unsubscribePort, hid], ?_⟩, by simp⟩
    simp only [Receiver.unsubscribePort]
    rw [unsubscribe_view, unsubscribe_view, hview]
  | setId i =>
    cases hs
    exact ⟨⟨_, rfl, rfl, by simpa using hview⟩, by simp⟩

/-- Only the relevant calls matter for a session. -/
theorem exec_relevant (checks : Bool) (key : Key) (ops : List Op) : ∀ (r1 r2 r1' : Receiver) (ts : List CanTransfer),
    (∀ op ∈ ops, op.Valid) → r1.id = r2.id → r1.view key = r2.view key → r1.exec checks ops = some (r1', ts) →
    ∃ r2', r2.exec checks (ops.filter key.relevant) = some (r2', ts.filter (fun t => decide (key.Matches t.header))) ∧
      r1'.id = r2'.id ∧ r1'.view key = r2'.view key := by
  induction ops with
  | nil =>
    intro r1 r2 r1' ts _ hid hview he
    cases he
    exact ⟨r2, rfl, hid, hview⟩
  | cons op ops ih =>
    intro r1 r2 r1' ts hval hid hview he
    have hop : op.Valid := hval op (List.mem_cons_self ..)
    have hval' : ∀ op ∈ ops, op.Valid := fun o ho => hval o (List.mem_cons_of_mem _ ho)
    unfold Receiver.exec at he
    cases hs : r1.step checks op with
    | none => rw [hs] at he; cases he
    | some p =>
      obtain ⟨s1, a⟩ := p
      rw [hs] at he
      simp only at he
      cases he2 : s1.exec checks ops with
      | none => rw [he2] at he; cases he
      | some q =>
        obtain ⟨r1'', ts'⟩ := q
        rw [he2] at he
        simp only [Option.some.injEq, Prod.mk.injEq] at he
        obtain ⟨rfl, rfl⟩ := he
        cases hrel : key.relevant op with
        | true =>
          obtain ⟨⟨s2, hs2, hid2, hview2⟩, hm⟩ := step_relevant hop hrel hid hview hs
          obtain ⟨r2', h1, h2, h3⟩ := ih s1 s2 r1'' ts' hval' hid2 hview2 he2
          refine ⟨r2', ?_, h2, h3⟩
          rw [List.filter_cons, if_pos hrel]
          unfold Receiver.exec
          rw [hs2]
          simp only [h1]
          cases a with
          | nothing => rfl
          | outOfMemory => rfl
          | transfer t =>
            simp only
            rw [List.filter_cons, if_pos (decide_eq_true (hm t rfl))]
        | false =>
          obtain ⟨hid2, hview2, hm⟩ := step_irrelevant hop hrel hs
          obtain ⟨r2', h1, h2, h3⟩ := ih s1 r2 r1'' ts' hval' (hid2.trans hid) (hview2.trans hview) he2
          refine ⟨r2', ?_, h2, h3⟩
          rw [List.filter_cons, if_neg (by simp [hrel]), h1]
          cases a with
          | nothing => rfl
          | outOfMemory => rfl
          | transfer t =>
            simp only
            rw [List.filter_cons, if_neg (by simpa using hm t rfl)]

end Verif.Can
