import Verif.Can.RxTableLemmas

/-!
Properties of the CAN receiver about subscriptions: C11 (only subscribed and addressed transfers are returned) and C15
(the subscription table is a map).
-/

namespace Verif.Can

/-- **C15.** After any history of calls, the receiver holds for each kind and port exactly the extent and timeout of the
latest subscribe call that was not followed by an unsubscribe call; `subscribers` and `servers` do not panic, list exactly
the subscribed subjects and services, and list none of them twice. -/
theorem C15_subscription_table {checks : Bool} {id : Option NodeId} {ops : List Op} {r : Receiver}
    (h : History checks id ops r) :
    (∀ k p, (r.find k p).map (fun s => (s.payloadSizeMax, s.timeout)) = (Config.after id ops).table k p) ∧
    r.id = (Config.after id ops).id ∧
    (∀ k, ((r.subs k).map Subscription.port).Nodup) ∧
    (∃ l, r.subscribers = some l ∧ l.Nodup ∧
      ∀ s, s ∈ l ↔ ((Config.after id ops).table .message s.toNat).isSome) ∧
    (∃ l, r.servers = some l ∧ l.Nodup ∧
      ∀ s, s ∈ l ↔ ((Config.after id ops).table .request s.toNat).isSome) := by
  have ha := history_agrees h
  have hiff : ∀ k p, p ∈ (r.subs k).map Subscription.port ↔ ((Config.after id ops).table k p).isSome := by
    intro k p
    rw [mem_ports_iff, ← ha.find, Option.isSome_map]
  refine ⟨ha.find, ha.id, fun k => (ha.ports k).1, ?_, ?_⟩
  · have key : ∀ l : List Subscription, (∀ p ∈ l.map Subscription.port, p < 2 ^ 13) →
        (l.map Subscription.port).Nodup →
        ∃ l' : List SubjectId, l.mapM (fun s => SubjectId.tryFrom (BitVec.ofNat 16 s.port)) = some l' ∧
          l'.map BitVec.toNat = l.map Subscription.port := by
      intro l hb _
      induction l with
      | nil => exact ⟨[], rfl, rfl⟩
      | cons s l ih =>
        rename_i hn
        obtain ⟨l', h1, h2⟩ := ih (fun p hp => hb p (List.mem_cons_of_mem _ hp)) (List.nodup_cons.mp hn).2
        have hp := hb s.port (List.mem_cons_self ..)
        have ht : SubjectId.tryFrom (BitVec.ofNat 16 s.port) = some (BitVec.ofNat 13 s.port) := by
          unfold SubjectId.tryFrom
          rw [if_pos (by rw [BitVec.toNat_ofNat]; omega)]
          congr 1
          apply BitVec.eq_of_toNat_eq
          rw [BitVec.toNat_setWidth, BitVec.toNat_ofNat, BitVec.toNat_ofNat]
          omega
        refine ⟨BitVec.ofNat 13 s.port :: l', ?_, ?_⟩
        · rw [List.mapM_cons, ht, h1]; rfl
        · rw [List.map_cons, h2, List.map_cons, BitVec.toNat_ofNat, Nat.mod_eq_of_lt hp]
    obtain ⟨l', h1, h2⟩ := key (r.subs .message) (ha.ports .message).2 (ha.ports .message).1
    refine ⟨l', h1, ?_, ?_⟩
    · have hn := (ha.ports .message).1
      rw [← h2] at hn
      exact nodup_of_map _ hn
    · intro s
      rw [← hiff .message s.toNat, ← h2]
      constructor
      · exact fun hs => List.mem_map.mpr ⟨s, hs, rfl⟩
      · intro hs
        obtain ⟨x, hx, he⟩ := List.mem_map.mp hs
        rw [← BitVec.eq_of_toNat_eq he]; exact hx
  · have key : ∀ l : List Subscription, (∀ p ∈ l.map Subscription.port, p < 2 ^ 9) →
        (l.map Subscription.port).Nodup →
        ∃ l' : List ServiceId, l.mapM (fun s => ServiceId.tryFrom (BitVec.ofNat 16 s.port)) = some l' ∧
          l'.map BitVec.toNat = l.map Subscription.port := by
      intro l hb _
      induction l with
      | nil => exact ⟨[], rfl, rfl⟩
      | cons s l ih =>
        rename_i hn
        obtain ⟨l', h1, h2⟩ := ih (fun p hp => hb p (List.mem_cons_of_mem _ hp)) (List.nodup_cons.mp hn).2
        have hp := hb s.port (List.mem_cons_self ..)
        have ht : ServiceId.tryFrom (BitVec.ofNat 16 s.port) = some (BitVec.ofNat 9 s.port) := by
          unfold ServiceId.tryFrom
          rw [if_pos (by rw [BitVec.toNat_ofNat]; omega)]
          congr 1
          apply BitVec.eq_of_toNat_eq
          rw [BitVec.toNat_setWidth, BitVec.toNat_ofNat, BitVec.toNat_ofNat]
          omega
        refine ⟨BitVec.ofNat 9 s.port :: l', ?_, ?_⟩
        · rw [List.mapM_cons, ht, h1]; rfl
        · rw [List.map_cons, h2, List.map_cons, BitVec.toNat_ofNat, Nat.mod_eq_of_lt hp]
    obtain ⟨l', h1, h2⟩ := key (r.subs .request) (ha.ports .request).2 (ha.ports .request).1
    refine ⟨l', h1, ?_, ?_⟩
    · have hn := (ha.ports .request).1
      rw [← h2] at hn
      exact nodup_of_map _ hn
    · intro s
      rw [← hiff .request s.toNat, ← h2]
      constructor
      · exact fun hs => List.mem_map.mpr ⟨s, hs, rfl⟩
      · intro hs
        obtain ⟨x, hx, he⟩ := List.mem_map.mp hs
        rw [← BitVec.eq_of_toNat_eq he]; exact hx

/-- A history with a replaced subscription, an unsubscription and a rejected service subscription. -/
def demoOps : List Op :=
  [.subscribeMessage false 100#13 8 1000#32, .subscribeMessage false 7509#13 16 1000#32,
   .subscribeMessage false 100#13 32 2000#32, .unsubscribeMessage 7509#13, .subscribeRequest false 430#9 0 1#32]

example : ∃ r, History true none demoOps r ∧ r.subscribers = some [100#13] ∧ r.servers = some [] ∧
    (Config.after none demoOps).table .message 100 = some (32, 2000#32) :=
  ⟨_, .ofExec (ts := []) rfl (by decide), by decide, by decide, by decide⟩

/-- **C11.** A transfer is returned only if its kind and port are subscribed at that time; a service transfer that was not
looped back is returned only if its destination is the current ID of this node (so never by an anonymous receiver). The
header is the one read from the frame, apart from the timestamp. -/
theorem C11_only_subscribed_and_addressed {checks oom : Bool} {id : Option NodeId} {ops : List Op} {r r' : Receiver}
    {f : Frame} {tr : CanTransfer} (h : History checks id ops r) (hv : f.id.toNat < 2 ^ 29)
    (hs : r.step checks (.frame f oom) = some (r', .transfer tr)) :
    ((Config.after id ops).table tr.header.kind tr.header.port).isSome ∧
    (∀ d, tr.header.destination = some d → tr.loopback = false → (Config.after id ops).id = some d) ∧
    tr.loopback = f.loopback ∧
    ∃ hd t, readFrame f = some (hd, t) ∧ tr.header = hd.setTimestamp tr.header.timestamp := by
  obtain ⟨hd, t, sub, hr, ⟨ts, hts⟩, hl, hp, hf, -⟩ := acceptFrame_transfer hv hs
  have ha := history_agrees h
  refine ⟨?_, ?_, hl, hd, t, hr, ?_⟩
  · rw [← ha.find, hts]
    simp [hf]
  · intro d hd' hlo
    rw [hts] at hd'
    simp at hd'
    rw [hl] at hlo
    rw [← ha.id]
    unfold passes at hp
    rw [hd', hlo] at hp
    simp only [Bool.false_or] at hp
    cases hi : r.id with
    | none => rw [hi] at hp; simp at hp
    | some l => rw [hi] at hp; simp at hp; rw [hp]
  · rw [hts]; simp

/-- A request for service 430 to node 5 from node 9, as one frame (tail byte 0xe0). -/
def demoRequest : Frame := { timestamp := 77#32, id := 0x136b8289#32, loopback := false, data := [1#8, 0xe0#8] }

example : ((Receiver.new (some 5#7)).exec true [.subscribeRequest false 430#9 4 1#32, .frame demoRequest false]).map
    (fun p => p.2.map (fun t => (t.header.kind, t.header.port, t.header.destination, t.payload))) =
    some [(.request, 430, some 5#7, [1#8])] := by decide

example : ((Receiver.new (some 6#7)).exec true [.subscribeRequest false 430#9 4 1#32, .frame demoRequest false]).map
    (fun p => p.2) = some [] := by decide

/-- The call subscribes to the port. -/
def Op.subscribes (k : Kind) (p : Nat) : Op → Prop
  | .subscribeMessage _ s _ _ => k = .message ∧ p = s.toNat
  | .subscribeRequest _ s _ _ => k = .request ∧ p = s.toNat
  | .subscribeResponse _ s _ _ => k = .response ∧ p = s.toNat
  | _ => False

/-- The call unsubscribes from the port. -/
def Op.unsubscribes (k : Kind) (p : Nat) : Op → Prop
  | .unsubscribeMessage s => k = .message ∧ p = s.toNat
  | .unsubscribeRequest s => k = .request ∧ p = s.toNat
  | .unsubscribeResponse s => k = .response ∧ p = s.toNat
  | _ => False

theorem exec_unsubscribed (checks : Bool) (k : Kind) (p : Nat) (ops : List Op) :
    ∀ (r r' : Receiver) (ts : List CanTransfer) (c : Config), Agrees r c → c.table k p = none → (∀ op ∈ ops, op.Valid) →
    (∀ op ∈ ops, ¬ op.subscribes k p) → r.exec checks ops = some (r', ts) →
    ∀ tr ∈ ts, ¬ (tr.header.kind = k ∧ tr.header.port = p) := by
  induction ops with
  | nil => intro r r' ts c _ _ _ _ he; cases he; simp
  | cons op ops ih =>
    intro r r' ts c ha hc hval hno he
    unfold Receiver.exec at he
    cases hs : r.step checks op with
    | none => rw [hs] at he; cases he
    | some q =>
      obtain ⟨s1, a⟩ := q
      rw [hs] at he
      simp only at he
      cases he2 : s1.exec checks ops with
      | none => rw [he2] at he; cases he
      | some q =>
        obtain ⟨r2, ts'⟩ := q
        rw [he2] at he
        simp only [Option.some.injEq, Prod.mk.injEq] at he
        obtain ⟨rfl, rfl⟩ := he
        have hop := hval op (List.mem_cons_self ..)
        have hno' := hno op (List.mem_cons_self ..)
        have ha' := agrees_step ha hop hs
        have hc' : (c.apply op).table k p = none := by
          have sub : ∀ oom k' p' e to, ¬ (k = k' ∧ p = p') → (c.subscribe oom k' p' e to).table k p = none := by
            intro oom k' p' e to hne
            unfold Config.subscribe
            split
            · exact hc
            · simp only; rw [if_neg hne]; exact hc
          have unsub : ∀ k' p', (c.unsubscribe k' p').table k p = none := by
            intro k' p'
            unfold Config.unsubscribe
            simp only
            split
            · rfl
            · exact hc
          cases op with
          | frame f oom => exact hc
          | subscribeMessage oom s e to => exact sub _ _ _ _ _ hno'
          | subscribeRequest oom s e to =>
            simp only [Config.apply]
            split
            · exact sub _ _ _ _ _ hno'
            · exact hc
          | subscribeResponse oom s e to =>
            simp only [Config.apply]
            split
            · exact sub _ _ _ _ _ hno'
            · exact hc
          | unsubscribeMessage s => exact unsub _ _
          | unsubscribeRequest s => exact unsub _ _
          | unsubscribeResponse s => exact unsub _ _
          | setId i => exact hc
        have hrest := ih s1 r2 ts' _ ha' hc' (fun o ho => hval o (List.mem_cons_of_mem _ ho))
          (fun o ho => hno o (List.mem_cons_of_mem _ ho)) he2
        intro tr htr
        cases a with
        | nothing => exact hrest tr htr
        | outOfMemory => exact hrest tr htr
        | transfer t =>
          simp only [List.mem_cons] at htr
          rcases htr with rfl | htr
          · rintro ⟨rfl, rfl⟩
            cases op with
            | frame f oom =>
              obtain ⟨hd, t, sub, hr, ⟨ts, hts⟩, -, -, hf, -⟩ := acceptFrame_transfer hop hs
              rw [hts] at hc
              simp at hc
              rw [← ha.find, hf] at hc
              cases hc
            | _ => cases hs
          · exact hrest tr htr

/-- **C11.** From an unsubscribe call until the next subscribe call for a port, no transfer of that port is returned,
whatever else happens. -/
theorem C11_nothing_after_unsubscribe {checks : Bool} {id : Option NodeId} {ops ops' : List Op} {op : Op} {r r' : Receiver}
    {ts : List CanTransfer} {k : Kind} {p : Nat} (h : History checks id ops r) (hop : op.unsubscribes k p)
    (hval : ∀ op ∈ ops', op.Valid) (hno : ∀ op ∈ ops', ¬ op.subscribes k p)
    (he : r.exec checks (op :: ops') = some (r', ts)) :
    ∀ tr ∈ ts, ¬ (tr.header.kind = k ∧ tr.header.port = p) := by
  have ha := history_agrees h
  unfold Receiver.exec at he
  cases hs : r.step checks op with
  | none => rw [hs] at he; cases he
  | some q =>
    obtain ⟨s1, a⟩ := q
    rw [hs] at he
    simp only at he
    have hval1 : op.Valid := by
      cases op with
      | frame f oom => exact hop.elim
      | _ => trivial
    have ha' := agrees_step ha hval1 hs
    have hc : ((Config.after id ops).apply op).table k p = none ∧ a = .nothing := by
      cases op with
      | unsubscribeMessage s => obtain ⟨rfl, rfl⟩ := hop; cases hs; simp [Config.apply, Config.unsubscribe]
      | unsubscribeRequest s => obtain ⟨rfl, rfl⟩ := hop; cases hs; simp [Config.apply, Config.unsubscribe]
      | unsubscribeResponse s => obtain ⟨rfl, rfl⟩ := hop; cases hs; simp [Config.apply, Config.unsubscribe]
      | _ => exact hop.elim
    obtain ⟨hc, rfl⟩ := hc
    cases he2 : s1.exec checks ops' with
    | none => rw [he2] at he; cases he
    | some q =>
      obtain ⟨r2, ts'⟩ := q
      rw [he2] at he
      simp only [Option.some.injEq, Prod.mk.injEq] at he
      obtain ⟨rfl, rfl⟩ := he
      exact exec_unsubscribed checks k p ops' s1 r2 ts' _ ha' hc hval hno he2

example : ((Receiver.new (some 5#7)).exec true
    [.subscribeRequest false 430#9 4 1#32, .frame demoRequest false, .unsubscribeRequest 430#9,
     .frame { demoRequest with data := [1#8, 0xe1#8] } false]).map (fun p => p.2.length) = some 1 := by decide

end Verif.Can
