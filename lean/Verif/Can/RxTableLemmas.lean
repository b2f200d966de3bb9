import Verif.Can.RxLemmas

/-! Helper lemmas: the subscription lists through a history of calls. -/

namespace Verif.Can

/-- The upper bound of port IDs of a kind. -/
def portBound : Kind → Nat
  | .message => 2 ^ 13
  | _ => 2 ^ 9

/-- Port lists are free of repetitions and hold valid ports. -/
def PortsOk (r : Receiver) : Prop :=
  ∀ k, ((r.subs k).map Subscription.port).Nodup ∧ ∀ p ∈ (r.subs k).map Subscription.port, p < portBound k

theorem frame_ports {checks oom : Bool} {r r' : Receiver} {f : Frame} {a : Accepted} (hv : f.id.toNat < 2 ^ 29)
    (ha : r.acceptFrame checks oom f = some (r', a)) :
    r'.id = r.id ∧ (∀ k, (r'.subs k).map Subscription.port = (r.subs k).map Subscription.port) ∧
    ∀ k p, (r'.find k p).map (fun s => (s.payloadSizeMax, s.timeout)) =
      (r.find k p).map (fun s => (s.payloadSizeMax, s.timeout)) := by
  rw [acceptFrame_eq, sanityCheck_eq f hv] at ha
  cases hr : readFrame f with
  | none => rw [hr] at ha; cases ha; simp [Receiver.find]
  | some q =>
    obtain ⟨h, t⟩ := q
    rw [hr] at ha
    simp only at ha
    split at ha
    · unfold Receiver.acceptSaneFrame at ha
      have hspec := acceptFirst_spec checks oom f h t (r.subs h.kind)
      cases hf : (r.subs h.kind).find? (fun s => s.port == h.port) with
      | none =>
        rw [hf] at hspec
        simp only at hspec
        rw [hspec] at ha
        cases ha
        exact ⟨rfl, fun _ => rfl, fun _ _ => rfl⟩
      | some sub =>
        rw [hf] at hspec
        simp only at hspec
        cases hc : sub.accept checks oom f h t with
        | none => rw [hc] at hspec; simp only at hspec; rw [hspec] at ha; cases ha
        | some q =>
          obtain ⟨sub', res⟩ := q
          rw [hc] at hspec
          simp only at hspec
          obtain ⟨l', h1, h2, h3, -⟩ := hspec
          rw [h1] at ha
          simp only at ha
          have hid : r'.id = r.id ∧ ∀ k, r'.subs k = (r.setSubs h.kind l').subs k := by
            cases res with
            | ok o => cases o <;> cases ha <;> simp
            | error e => cases e <;> cases ha <;> simp
          refine ⟨hid.1, ?_, ?_⟩
          · intro k
            rw [hid.2, subs_setSubs]
            split
            · rename_i hk; rw [h3, hk]
            · rfl
          · intro k p
            unfold Receiver.find
            rw [hid.2, subs_setSubs]
            split
            · rename_i hk
              rw [h2]
              split
              · rename_i hp
                have hpar := accept_params hc
                rw [hk, hp, hf]
                simp [hpar.2.1, hpar.2.2]
              · rw [hk]
            · rfl
    · cases ha
      exact ⟨rfl, fun _ => rfl, fun _ _ => rfl⟩

theorem unsubscribe_ports (r : Receiver) (k : Kind) (p : Nat) (h : PortsOk r) : PortsOk (r.unsubscribe k p) := by
  intro k'
  unfold Receiver.unsubscribe
  rw [subs_setSubs]
  split
  · rename_i hk
    subst hk
    have hsub : ((r.subs k').filter (fun s => s.port != p)).Sublist (r.subs k') := List.filter_sublist
    refine ⟨((h k').1).sublist (hsub.map _), fun q hq => (h k').2 q ((hsub.map _).subset hq)⟩
  · exact h k'

theorem subscribe_ports (oom : Bool) (r : Receiver) (k : Kind) (p e : Nat) (to : Duration) (h : PortsOk r)
    (hp : p < portBound k) : PortsOk (r.subscribe oom k p e to).1 := by
  have hu := unsubscribe_ports r k p h
  unfold Receiver.subscribe
  simp only
  split
  · exact hu
  · intro k'
    rw [show ((r.unsubscribe k p).setSubs k _).subs k' = _ from subs_setSubs ..]
    split
    · rename_i hk
      subst hk
      rw [List.map_append]
      refine ⟨?_, ?_⟩
      · rw [List.nodup_append]
        refine ⟨(hu k').1, by simp, ?_⟩
        intro a ha b hb
        simp only [Subscription.new, List.map_cons, List.map_nil, List.mem_singleton] at hb
        subst hb
        unfold Receiver.unsubscribe at ha
        rw [subs_setSubs, if_pos rfl] at ha
        obtain ⟨s, hs, rfl⟩ := List.mem_map.mp ha
        have := (List.mem_filter.mp hs).2
        simpa using this
      · intro q hq
        rcases List.mem_append.mp hq with hq | hq
        · exact (hu k').2 q hq
        · simp only [Subscription.new, List.map_cons, List.map_nil, List.mem_singleton] at hq
          rw [hq]; exact hp
    · exact hu k'

theorem find_map_subscribe {r : Receiver} {c : Config} (oom : Bool) (k : Kind) (p e : Nat) (to : Duration)
    (h : ∀ k p, (r.find k p).map (fun s => (s.payloadSizeMax, s.timeout)) = c.table k p) (k' : Kind) (p' : Nat) :
    ((r.subscribe oom k p e to).1.find k' p').map (fun s => (s.payloadSizeMax, s.timeout)) =
      (c.subscribe oom k p e to).table k' p' := by
  have hsome : (r.find k p).isSome = (c.table k p).isSome := by rw [← h, Option.isSome_map]
  rw [(subscribe_find oom r k p e to).2.2, hsome]
  unfold Config.subscribe
  by_cases hk : k' = k ∧ p' = p
  · obtain ⟨rfl, rfl⟩ := hk
    cases oom <;> cases hc : c.table k' p' <;> simp [hc, Subscription.new]
  · rw [if_neg hk, h]
    split
    · rfl
    · simp [hk]

/-- The receiver agrees with the configuration. -/
structure Agrees (r : Receiver) (c : Config) : Prop where
  id : r.id = c.id
  find : ∀ k p, (r.find k p).map (fun s => (s.payloadSizeMax, s.timeout)) = c.table k p
  ports : PortsOk r

theorem agrees_subscribe {r : Receiver} {c : Config} (h : Agrees r c) (oom : Bool) (k : Kind) (p e : Nat) (to : Duration)
    (hp : p < portBound k) : Agrees (r.subscribe oom k p e to).1 (c.subscribe oom k p e to) := by
  refine ⟨?_, find_map_subscribe oom k p e to h.find, subscribe_ports oom r k p e to h.ports hp⟩
  rw [(subscribe_find ..).1, h.id]
  unfold Config.subscribe
  split <;> rfl

theorem agrees_unsubscribe {r : Receiver} {c : Config} (h : Agrees r c) (k : Kind) (p : Nat) :
    Agrees (r.unsubscribe k p) (c.unsubscribe k p) := by
  refine ⟨by simp [h.id, Config.unsubscribe], ?_, unsubscribe_ports r k p h.ports⟩
  intro k' p'
  rw [unsubscribe_find]
  unfold Config.unsubscribe
  simp only
  split
  · rfl
  · exact h.find k' p'

theorem agrees_step {checks : Bool} {r r' : Receiver} {c : Config} {op : Op} {a : Accepted} (h : Agrees r c)
    (hop : op.Valid) (hs : r.step checks op = some (r', a)) : Agrees r' (c.apply op) := by
  have b13 : ∀ s : SubjectId, s.toNat < portBound .message := fun s => s.isLt
  have b9 : ∀ s : ServiceId, s.toNat < 2 ^ 9 := fun s => s.isLt
  cases op with
  | frame f oom =>
    obtain ⟨h1, h2, h3⟩ := frame_ports hop hs
    refine ⟨h1.trans h.id, fun k p => (h3 k p).trans (h.find k p), ?_⟩
    intro k
    rw [h2 k]
    exact h.ports k
  | subscribeMessage oom s e to =>
    cases hs
    rw [subscribeMessage_fst]
    exact agrees_subscribe h oom _ _ e to (b13 s)
  | subscribeRequest oom s e to =>
    cases hs
    rw [subscribeService_fst]
    simp only [Config.apply, ← h.id]
    split
    · exact agrees_subscribe h oom _ _ e to (b9 s)
    · exact h
  | subscribeResponse oom s e to =>
    cases hs
    rw [subscribeService_fst]
    simp only [Config.apply, ← h.id]
    split
    · exact agrees_subscribe h oom _ _ e to (b9 s)
    · exact h
  | unsubscribeMessage s => cases hs; exact agrees_unsubscribe h .message s.toNat
  | unsubscribeRequest s => cases hs; exact agrees_unsubscribe h .request s.toNat
  | unsubscribeResponse s => cases hs; exact agrees_unsubscribe h .response s.toNat
  | setId i =>
    cases hs
    refine ⟨rfl, ?_, ?_⟩
    · intro k p
      have := h.find k p
      unfold Receiver.find at this ⊢
      rw [setId_subs]
      exact this
    · intro k
      rw [setId_subs]
      exact h.ports k

theorem agrees_new (id : Option NodeId) : Agrees (Receiver.new id) (Config.after id []) := by
  refine ⟨rfl, ?_, ?_⟩
  · intro k p; cases k <;> rfl
  · intro k; cases k <;> simp [Receiver.new, Receiver.subs]

theorem history_agrees {checks : Bool} {id : Option NodeId} {ops : List Op} {r : Receiver}
    (h : History checks id ops r) : Agrees r (Config.after id ops) := by
  induction h with
  | new => exact agrees_new id
  | call _ hop hs ih =>
    unfold Config.after at ih ⊢
    rw [List.foldl_append]
    exact agrees_step ih hop hs

theorem mem_ports_iff {r : Receiver} (k : Kind) (p : Nat) :
    p ∈ (r.subs k).map Subscription.port ↔ (r.find k p).isSome := by
  unfold Receiver.find
  rw [List.find?_isSome]
  simp [List.mem_map]

theorem mapM_some_spec {α β : Type} (f : α → Option β) : ∀ l : List α, (∀ a ∈ l, (f a).isSome) →
    ∃ l', l.mapM f = some l' ∧ l'.map some = l.map f := by
  intro l
  induction l with
  | nil => intro _; exact ⟨[], rfl, rfl⟩
  | cons a l ih =>
    intro h
    obtain ⟨l', h1, h2⟩ := ih (fun x hx => h x (List.mem_cons_of_mem _ hx))
    obtain ⟨b, hb⟩ := Option.isSome_iff_exists.mp (h a (List.mem_cons_self ..))
    refine ⟨b :: l', ?_, ?_⟩
    · rw [List.mapM_cons, hb, h1]; rfl
    · simp [h2, hb]

theorem nodup_of_map {α β : Type} (f : α → β) {l : List α} (h : (l.map f).Nodup) : l.Nodup := by
  unfold List.Nodup at *
  rw [List.pairwise_map] at h
  exact h.imp (fun hne heq => hne (congrArg f heq))

instance (op : Op) : Decidable op.Valid := by
  cases op <;> unfold Op.Valid <;> infer_instance

theorem history_exec {checks : Bool} {id : Option NodeId} (ops : List Op) :
    ∀ {pre r r'} {ts : List CanTransfer}, History checks id pre r → r.exec checks ops = some (r', ts) →
    (∀ op ∈ ops, op.Valid) → History checks id (pre ++ ops) r' := by
  induction ops with
  | nil => intro pre r r' ts h he _; cases he; simpa using h
  | cons op ops ih =>
    intro pre r r' ts h he hv
    unfold Receiver.exec at he
    cases hs : r.step checks op with
    | none => rw [hs] at he; cases he
    | some q =>
      obtain ⟨s1, a⟩ := q
      rw [hs] at he
      simp only at he
      cases he2 : s1.exec checks ops with
      | none => rw [he2] at he; cases he
      | some q =>
        obtain ⟨r2, ts'⟩ := q
        rw [he2] at he
        simp only [Option.some.injEq, Prod.mk.injEq] at he
        obtain ⟨rfl, -⟩ := he
        have := ih (h.call (hv op (List.mem_cons_self ..)) hs) he2 (fun o ho => hv o (List.mem_cons_of_mem _ ho))
        simpa using this

/-- A run on a new receiver is a history. -/
theorem History.ofExec {checks : Bool} {id : Option NodeId} {ops : List Op} {r : Receiver} {ts : List CanTransfer}
    (he : (Receiver.new id).exec checks ops = some (r, ts)) (hv : ∀ op ∈ ops, op.Valid) : History checks id ops r := by
  simpa using history_exec ops .new he hv

end Verif.Can
