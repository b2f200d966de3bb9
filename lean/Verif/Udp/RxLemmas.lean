import Verif.Udp.RxSpec
import Verif.Udp.TxProps

/-! Lemmas about the UDP receiver. -/

namespace Verif.Udp

open Verif.Crc (Tracker)
open Verif.Hdr (NodeId16 Tid64 TransportHeader)

/-! ### Collecting bytes -/

theorem collectBytes_eq (cap : Nat) (bs : List Byte) : ∀ (pre : List Byte) (t : Tracker),
    collectBytes cap (pre.take cap, t) bs = ((pre ++ (t.digestAll bs).1).take cap, (t.digestAll bs).2) := by
  induction bs with
  | nil => intro pre t; simp [collectBytes, Tracker.digestAll]
  | cons b bs ih =>
    intro pre t
    unfold collectBytes
    rw [List.foldl_cons, Verif.Serial.digestAll_cons]
    have hc : collectByte cap (pre.take cap, t) b = ((pre ++ (t.digest b).1.toList).take cap, (t.digest b).2) := by
      unfold collectByte
      dsimp only
      cases hd : (t.digest b).1 with
      | none => simp
      | some x =>
        simp only [Option.toList_some, Prod.mk.injEq, and_true]
        by_cases h : (pre.take cap).length < cap
        · rw [if_pos h]
          have : pre.length < cap := by simp at h; omega
          rw [List.take_of_length_le (by omega), List.take_of_length_le (by simp; omega)]
        · rw [if_neg h]
          have : cap ≤ pre.length := by simp at h; omega
          rw [List.take_append_of_le_length (by omega)]
    rw [hc]
    have := ih (pre ++ (t.digest b).1.toList) (t.digest b).2
    unfold collectBytes at this
    rw [this, List.append_assoc]

/-- What is collected when `m` has been digested. -/
def collected (cap : Nat) (m : List Byte) : List Byte × Tracker := ((m.take (m.length - 4)).take cap, (Tracker.new.digestAll m).2)

theorem collect_first (cap : Nat) (bs : List Byte) : collectBytes cap ([], Tracker.new) bs = collected cap bs := by
  have := collectBytes_eq cap bs [] Tracker.new
  simp only [List.take_nil, List.nil_append] at this
  rw [this, (Verif.Crc.C02_tracker_correct_iff bs).2]
  rfl

theorem collect_more (cap : Nat) (m bs : List Byte) : collectBytes cap (collected cap m) bs = collected cap (m ++ bs) := by
  unfold collected
  rw [← (Verif.Crc.C02_tracker_correct_iff m).2, collectBytes_eq, ← (Verif.Crc.C02_tracker_correct_iff (m ++ bs)).2,
    Verif.Crc.digestAll_append]

theorem collected_correct (cap : Nat) (m : List Byte) : (collected cap m).2.correct = true ↔
    ∃ body, m = body ++ Verif.Crc.le32 (Verif.Crc.crc32c body) := (Verif.Crc.C02_tracker_correct_iff m).1

theorem collected_body (cap : Nat) (body : List Byte) :
    (collected cap (body ++ Verif.Crc.le32 (Verif.Crc.crc32c body))).1 = body.take cap := by
  unfold collected
  simp [Verif.Crc.le32]

/-! ### The subscription tables -/

theorem find_map {l : List (Nat × Subscription)} (port port' : Nat) (sub : Subscription) :
    ((l.map (fun e => if e.1 == port then (port, sub) else e)).find? (fun e => e.1 == port')).map (·.2) =
      if port' = port then ((l.find? (fun e => e.1 == port)).map (fun _ => sub)) else (l.find? (fun e => e.1 == port')).map (·.2) := by
  induction l with
  | nil => simp
  | cons e l ih =>
    by_cases hp : port' = port
    · subst hp
      rw [if_pos rfl] at ih ⊢
      simp only [List.map_cons]
      by_cases he : e.1 = port'
      · simp [he]
      · simp only [beq_iff_eq, he, if_false]
        rw [List.find?_cons_of_neg (by simpa using he), List.find?_cons_of_neg (by simpa using he)]
        simpa using ih
    · rw [if_neg hp] at ih ⊢
      simp only [List.map_cons]
      by_cases he : e.1 = port
      · simp only [beq_iff_eq, he, if_true]
        rw [List.find?_cons_of_neg (by simp; omega), List.find?_cons_of_neg (by simp; omega)]
        simpa using ih
      · simp only [beq_iff_eq, he, if_false]
        by_cases he' : e.1 = port'
        · rw [List.find?_cons_of_pos (by simpa using he'), List.find?_cons_of_pos (by simpa using he')]
        · rw [List.find?_cons_of_neg (by simpa using he'), List.find?_cons_of_neg (by simpa using he')]
          simpa using ih

theorem get_set (s : Subscriptions) (k k' : Kind) (l : List (Nat × Subscription)) :
    (s.set k l).get k' = if k' = k then l else s.get k' := by
  cases k <;> cases k' <;> rfl

theorem find_store (s : Subscriptions) (k k' : Kind) (port port' : Nat) (sub : Subscription) :
    (s.store k port sub).find k' port' =
      if k' = k ∧ port' = port then (s.find k port).map (fun _ => sub) else s.find k' port' := by
  unfold Subscriptions.store Subscriptions.find
  rw [get_set]
  by_cases hk : k' = k
  · subst hk
    rw [if_pos rfl, find_map]
    by_cases hp : port' = port
    · rw [if_pos hp, if_pos ⟨rfl, hp⟩]
      simp [Option.map_map, Function.comp_def]
    · rw [if_neg hp, if_neg (fun h => hp h.2)]
  · rw [if_neg hk, if_neg (fun h => hk h.1)]

theorem find_filter (l : List (Nat × Subscription)) (port port' : Nat) :
    (l.filter (fun e => e.1 != port)).find? (fun e => e.1 == port') =
      if port' = port then none else l.find? (fun e => e.1 == port') := by
  induction l with
  | nil => simp
  | cons e l ih =>
    by_cases he : e.1 = port
    · rw [List.filter_cons_of_neg (by simpa using he), ih]
      by_cases hp : port' = port
      · rw [if_pos hp, if_pos hp]
      · rw [if_neg hp, if_neg hp, List.find?_cons_of_neg (by simp; omega)]
    · rw [List.filter_cons_of_pos (by simpa using he)]
      by_cases hp : port' = port
      · rw [if_pos hp] at ih ⊢
        subst hp
        rw [List.find?_cons_of_neg (by simpa using he), ih]
      · rw [if_neg hp] at ih ⊢
        by_cases he' : e.1 = port'
        · rw [List.find?_cons_of_pos (by simpa using he'), List.find?_cons_of_pos (by simpa using he')]
        · rw [List.find?_cons_of_neg (by simpa using he'), List.find?_cons_of_neg (by simpa using he'), ih]

theorem find_subscribe (s : Subscriptions) (k k' : Kind) (port port' : Nat) (sub : Subscription) :
    (s.subscribe k port sub).find k' port' = if k' = k ∧ port' = port then some sub else s.find k' port' := by
  unfold Subscriptions.subscribe Subscriptions.find
  rw [get_set]
  by_cases hk : k' = k
  · subst hk
    rw [if_pos rfl]
    by_cases hp : port' = port
    · rw [if_pos ⟨rfl, hp⟩, List.find?_cons_of_pos (by simp [hp])]; rfl
    · rw [if_neg (fun h => hp h.2), List.find?_cons_of_neg (by simp; omega), find_filter, if_neg hp]
  · rw [if_neg hk, if_neg (fun h => hk h.1)]

theorem find_unsubscribe (s : Subscriptions) (k k' : Kind) (port port' : Nat) :
    (s.unsubscribe k port).find k' port' = if k' = k ∧ port' = port then none else s.find k' port' := by
  unfold Subscriptions.unsubscribe Subscriptions.find
  rw [get_set]
  by_cases hk : k' = k
  · subst hk
    rw [if_pos rfl, find_filter]
    by_cases hp : port' = port
    · rw [if_pos hp, if_pos ⟨rfl, hp⟩]; rfl
    · rw [if_neg hp, if_neg (fun h => hp h.2)]
  · rw [if_neg hk, if_neg (fun h => hk h.1)]

/-! ### One datagram -/

/-- A frame reaching its subscription. -/
def Receiver.acceptFrame (r : Receiver) (f : Frame) : Option (Receiver × Output) :=
  match r.subscriptions.find (specifierKind f.header.dataSpecifier) (specifierPort f.header.dataSpecifier) with
  | none => some (r, .nothing)
  | some sub =>
    match sub.handleFrame f.oomSession f.oom f.header f.bytes f.now with
    | none => none
    | some q =>
      some ({ r with subscriptions := r.subscriptions.store (specifierKind f.header.dataSpecifier) (specifierPort f.header.dataSpecifier) q.1 },
        q.2)

theorem acceptInner_eq (mtu : Nat) (r : Receiver) (p : Packet) : r.acceptInner mtu p =
    match p.frame mtu with
    | none => some (r, .nothing)
    | some f => r.acceptFrame f := by
  unfold Receiver.acceptInner Packet.frame
  dsimp only
  by_cases h : (p.data.take mtu).length < 28
  · rw [if_pos h, if_pos (show (p.data.take mtu).length < minPacketSize from h)]
  · rw [if_neg h, if_neg (show ¬ (p.data.take mtu).length < minPacketSize from h)]
    unfold readHeader
    change (match Verif.Hdr.decode ((p.data.take mtu).take 24) with | none => _ | some _ => _) = _
    cases Verif.Hdr.decode ((p.data.take mtu).take 24) with
    | none => rfl
    | some header => rfl

theorem frame_length {mtu : Nat} {p : Packet} {f : Frame} (h : p.frame mtu = some f) : 4 ≤ f.bytes.length := by
  unfold Packet.frame at h
  split at h
  · cases h
  · rename_i hl
    cases hd : Verif.Hdr.decode ((p.data.take mtu).take 24) with
    | none => rw [hd] at h; cases h
    | some header =>
      rw [hd] at h
      cases h
      simp only [List.length_drop]
      omega

/-- The index in a decoded header has 31 bits. -/
theorem decode_index {bs : List Byte} {h : TransportHeader} (hd : Verif.Hdr.decode bs = some h) : h.frameIndex.toNat < 2 ^ 31 := by
  unfold Verif.Hdr.decode at hd
  cases hr : Verif.Hdr.RawHeader.fromBytes bs with
  | none => rw [hr] at hd; cases hd
  | some raw =>
    rw [hr] at hd
    simp only [Option.bind_some, TransportHeader.tryFrom] at hd
    split at hd
    · cases hd
    · split at hd
      · cases hd
      · split at hd
        · cases hd
        · split at hd
          · cases hd
          · split at hd
            · cases hd
            · split at hd
              · cases hd
              · cases hd
                simp only [Verif.Hdr.RawHeader.frameIndex]
                rw [Verif.Hdr.mask_index]
                exact Nat.mod_lt _ (by decide)

theorem frame_index {mtu : Nat} {p : Packet} {f : Frame} (h : p.frame mtu = some f) : f.header.frameIndex.toNat < 2 ^ 31 := by
  unfold Packet.frame at h
  split at h
  · cases h
  · cases hd : Verif.Hdr.decode ((p.data.take mtu).take 24) with
    | none => rw [hd] at h; cases h
    | some header => rw [hd] at h; cases h; exact decode_index hd

theorem frame_now {mtu : Nat} {p : Packet} {f : Frame} (h : p.frame mtu = some f) : f.now = p.now ∧ f.oomSession = p.oomSession ∧ f.oom = p.oom := by
  unfold Packet.frame at h
  split at h
  · cases h
  · cases hd : Verif.Hdr.decode ((p.data.take mtu).take 24) with
    | none => rw [hd] at h; cases h
    | some header => rw [hd] at h; cases h; exact ⟨rfl, rfl, rfl⟩

theorem key_eq (f : Frame) : f.key? = f.header.dataSpecifier.source.map
    (fun source => { kind := specifierKind f.header.dataSpecifier, port := specifierPort f.header.dataSpecifier, source }) := by
  unfold Frame.key?
  cases f.header.dataSpecifier with
  | subject source subject => cases source <;> rfl
  | request source to service => rfl
  | response source to service => rfl

/-- The step of one session for one frame. -/
def Frame.step (f : Frame) (extent : Nat) (timeout : Duration) (s : Option Session) : Option (Option Session × Output) :=
  sessionStep f.oomSession f.oom extent timeout s f.header f.bytes f.now

/-- The state of a session in a receiver. -/
def Receiver.session (r : Receiver) (key : Key) : Option Session :=
  (r.subscriptions.find key.kind key.port).bind (fun sub => sub.sessions key.source)

theorem convert_key (payload : List Byte) (f : Frame) (now : Instant) : keyOf? (convertResult payload f.header now).header = f.key? := by
  unfold keyOf? convertResult Frame.key?
  cases f.header.dataSpecifier with
  | subject source subject => cases source <;> rfl
  | request source to service => rfl
  | response source to service => rfl

theorem handleAnonymous_key {oom : Bool} {n : Nat} {f : Frame} {now : Instant} {t : UdpTransfer}
    (h : handleAnonymous oom n f.header f.bytes now = .transfer t) : keyOf? t.header = f.key? := by
  unfold handleAnonymous at h
  split at h
  · cases h; exact convert_key _ _ _
  all_goals cases h

theorem accept_key {oom : Bool} {n : Nat} {a : ActiveSession} {f : Frame} {t : UdpTransfer}
    (h : (a.accept oom f.header f.bytes n).2 = .transfer t) : keyOf? t.header = f.key? := by
  unfold ActiveSession.accept at h
  dsimp only at h
  split at h
  · cases h; exact convert_key _ _ _
  all_goals cases h

theorem step_key {n : Nat} {timeout : Duration} {f : Frame} {s : Option Session} {p : Option Session × Output} {t : UdpTransfer}
    (h : f.step n timeout s = some p) (ht : p.2 = .transfer t) : keyOf? t.header = f.key? := by
  unfold Frame.step sessionStep at h
  cases s with
  | none =>
    dsimp only at h
    split at h
    · cases h; cases ht
    · cases h; exact accept_key ht
  | some s =>
    dsimp only at h
    split at h
    · cases h
    · cases h; cases ht
    · cases h; exact accept_key ht

/-- What one frame does. -/
inductive FrameStep (r : Receiver) (f : Frame) : Receiver → Output → Prop where
  | unsubscribed (h : r.subscriptions.find (specifierKind f.header.dataSpecifier) (specifierPort f.header.dataSpecifier) = none) :
      FrameStep r f r .nothing
  | anonymous (sub : Subscription) (r' : Receiver)
      (h : r.subscriptions.find (specifierKind f.header.dataSpecifier) (specifierPort f.header.dataSpecifier) = some sub)
      (hk : f.key? = none) (hid : r'.nodeId = r.nodeId) (hlen : ∀ k, (r'.subscriptions.get k).map (·.1) = (r.subscriptions.get k).map (·.1))
      (hf : ∀ k port, r'.subscriptions.find k port = r.subscriptions.find k port) :
      FrameStep r f r' (handleAnonymous f.oom sub.payloadSizeMax f.header f.bytes f.now)
  | session (key : Key) (sub : Subscription) (s : Option Session) (o : Output) (r' : Receiver) (hk : f.key? = some key)
      (h : r.subscriptions.find key.kind key.port = some sub)
      (hs : f.step sub.payloadSizeMax sub.timeout (sub.sessions key.source) = some (s, o)) (hid : r'.nodeId = r.nodeId)
      (hlen : ∀ k, (r'.subscriptions.get k).map (·.1) = (r.subscriptions.get k).map (·.1))
      (hf : ∀ k port, r'.subscriptions.find k port =
        if k = key.kind ∧ port = key.port then some (sub.setSession key.source s) else r.subscriptions.find k port) :
      FrameStep r f r' o

theorem store_ports (s : Subscriptions) (k k' : Kind) (port : Nat) (sub : Subscription) :
    ((s.store k port sub).get k').map (·.1) = (s.get k').map (·.1) := by
  unfold Subscriptions.store
  rw [get_set]
  split
  · rename_i h
    subst h
    rw [List.map_map]
    apply List.map_congr_left
    intro e _
    simp only [Function.comp_apply]
    split
    · rename_i he; simp at he; exact he.symm
    · rfl
  · rfl

theorem acceptFrame_step {r : Receiver} {f : Frame} {r' : Receiver} {o : Output} (h : r.acceptFrame f = some (r', o)) :
    FrameStep r f r' o := by
  unfold Receiver.acceptFrame at h
  cases hf : r.subscriptions.find (specifierKind f.header.dataSpecifier) (specifierPort f.header.dataSpecifier) with
  | none => rw [hf] at h; cases h; exact .unsubscribed hf
  | some sub =>
    rw [hf] at h
    dsimp only at h
    have hkey := key_eq f
    unfold Subscription.handleFrame at h
    cases hs : f.header.dataSpecifier.source with
    | none =>
      rw [hs] at h hkey
      cases h
      refine .anonymous sub _ hf hkey rfl (fun k => store_ports _ _ _ _ _) ?_
      intro k port
      rw [find_store, hf]
      split
      · rename_i hk; rw [hk.1, hk.2, hf]; rfl
      · rfl
    | some source =>
      rw [hs] at h hkey
      dsimp only at h
      cases hst : sessionStep f.oomSession f.oom sub.payloadSizeMax sub.timeout (sub.sessions source) f.header f.bytes f.now with
      | none => rw [hst] at h; cases h
      | some q =>
        rw [hst] at h
        cases h
        refine .session _ sub q.1 q.2 _ hkey hf hst rfl (fun k => store_ports _ _ _ _ _) ?_
        intro k port
        rw [find_store, hf]
        rfl

/-- A panic is a panic of the session of the frame. -/
theorem acceptFrame_none {r : Receiver} {f : Frame} (h : r.acceptFrame f = none) :
    ∃ key sub, f.key? = some key ∧ r.subscriptions.find key.kind key.port = some sub ∧
      f.step sub.payloadSizeMax sub.timeout (sub.sessions key.source) = none := by
  unfold Receiver.acceptFrame at h
  cases hf : r.subscriptions.find (specifierKind f.header.dataSpecifier) (specifierPort f.header.dataSpecifier) with
  | none => rw [hf] at h; cases h
  | some sub =>
    rw [hf] at h
    dsimp only at h
    have hkey := key_eq f
    unfold Subscription.handleFrame at h
    cases hs : f.header.dataSpecifier.source with
    | none => rw [hs] at h; cases h
    | some source =>
      rw [hs] at h hkey
      dsimp only at h
      cases hst : sessionStep f.oomSession f.oom sub.payloadSizeMax sub.timeout (sub.sessions source) f.header f.bytes f.now with
      | none => exact ⟨_, sub, hkey, hf, hst⟩
      | some q => rw [hst] at h; cases h

/-! ### Sessions are independent -/

/-- The frames of one session, one after the other. -/
def runSession (extent : Nat) (timeout : Duration) (s : Option Session) : List Frame → Option (Option Session × List UdpTransfer)
  | [] => some (s, [])
  | f :: fs => (f.step extent timeout s).bind (fun p => (runSession extent timeout p.1 fs).map (fun q => (q.1, p.2.transfers ++ q.2)))

theorem transfersOf_append (key : Key) (a b : List UdpTransfer) : transfersOf key (a ++ b) = transfersOf key a ++ transfersOf key b :=
  List.filter_append _ _

/-- **C34/C36/C38 support.** Whatever else arrives, one session behaves as if only its own frames had arrived. -/
theorem run_session {mtu : Nat} {key : Key} : ∀ {ps : List Packet} {r r' : Receiver} {out : List UdpTransfer} {sub : Subscription},
    r.run mtu ps = some (r', out) → r.subscriptions.find key.kind key.port = some sub →
    ∃ sub', r'.subscriptions.find key.kind key.port = some sub' ∧ sub'.payloadSizeMax = sub.payloadSizeMax ∧ sub'.timeout = sub.timeout ∧
      runSession sub.payloadSizeMax sub.timeout (sub.sessions key.source) (framesOf mtu key ps) =
        some (sub'.sessions key.source, transfersOf key out) := by
  intro ps
  induction ps with
  | nil =>
    intro r r' out sub h hf
    cases h
    exact ⟨sub, hf, rfl, rfl, rfl⟩
  | cons p ps ih =>
    intro r r' out sub h hf
    simp only [Receiver.run] at h
    cases ha : r.acceptInner mtu p with
    | none => rw [ha] at h; cases h
    | some q =>
      rw [ha] at h
      simp only [Option.bind_some] at h
      cases hr : q.1.run mtu ps with
      | none => rw [hr] at h; cases h
      | some q' =>
        rw [hr] at h
        simp only [Option.map_some, Option.some.injEq, Prod.mk.injEq] at h
        obtain ⟨h1, h2⟩ := h
        subst h1; subst h2
        rw [acceptInner_eq] at ha
        cases hp : p.frame mtu with
        | none =>
          rw [hp] at ha
          cases ha
          have hfr : framesOf mtu key (p :: ps) = framesOf mtu key ps := by simp [framesOf, hp]
          rw [hfr]
          exact ih hr hf
        | some f =>
          rw [hp] at ha
          dsimp only at ha
          have hst := acceptFrame_step (r' := q.1) (o := q.2) ha
          by_cases hkey : f.key? = some key
          · have hfr : framesOf mtu key (p :: ps) = f :: framesOf mtu key ps := by simp [framesOf, hp, hkey]
            rw [hfr]
            generalize hq1 : q.1 = r1 at *
            generalize hq2 : q.2 = o1 at *
            have hke := key_eq f
            rw [hkey] at hke
            cases hst with
            | unsubscribed hu =>
              exfalso
              cases hsrc : f.header.dataSpecifier.source with
              | none => rw [hsrc] at hke; cases hke
              | some source =>
                rw [hsrc] at hke
                simp only [Option.map_some, Option.some.injEq] at hke
                rw [hke] at hf
                rw [hu] at hf
                cases hf
            | anonymous sub' r'' hu hk => rw [hkey] at hk; cases hk
            | session key' sub' s o r'' hk hu hs hid hlen hff =>
              rw [hkey] at hk
              cases hk
              rw [hf] at hu
              cases hu
              have hf1 := hff key.kind key.port
              rw [if_pos ⟨rfl, rfl⟩] at hf1
              obtain ⟨sub2, g1, g2, g3, g4⟩ := ih hr hf1
              refine ⟨sub2, g1, g2, g3, ?_⟩
              simp only [runSession, hs, Option.bind_some]
              have e1 : (sub.setSession key.source s).sessions key.source = s := by simp [Subscription.setSession]
              rw [e1] at g4
              have e2 : runSession sub.payloadSizeMax sub.timeout s (framesOf mtu key ps) = _ := g4
              rw [e2, transfersOf_append]
              simp only [Option.map_some, Option.some.injEq, Prod.mk.injEq, true_and, List.append_cancel_right_eq]
              cases o1 with
              | nothing => rfl
              | outOfMemory => rfl
              | transfer t =>
                have := step_key hs rfl
                simp [transfersOf, Output.transfers, this, hkey]
          · have hfr : framesOf mtu key (p :: ps) = framesOf mtu key ps := by
              simp [framesOf, hp, hkey]
            rw [hfr, transfersOf_append]
            have hno : transfersOf key q.2.transfers = [] ∧ ∃ sub1, q.1.subscriptions.find key.kind key.port = some sub1 ∧
                sub1.payloadSizeMax = sub.payloadSizeMax ∧ sub1.timeout = sub.timeout ∧ sub1.sessions key.source = sub.sessions key.source := by
              generalize q.1 = r1 at *
              generalize q.2 = o1 at *
              have hko : ∀ t, o1 = .transfer t → keyOf? t.header = f.key? := by
                intro t ht
                cases hst with
                | unsubscribed hu => cases ht
                | anonymous sub' r'' hu hk => exact handleAnonymous_key ht
                | session key' sub' s o r'' hk hu hs hid hlen hff => exact step_key hs ht
              constructor
              · cases o1 with
                | nothing => rfl
                | outOfMemory => rfl
                | transfer t =>
                  have := hko t rfl
                  simp [transfersOf, Output.transfers, this, hkey]
              · cases hst with
                | unsubscribed hu => exact ⟨sub, hf, rfl, rfl, rfl⟩
                | anonymous sub' r'' hu hk hid hlen hff => exact ⟨sub, by rw [hff, hf], rfl, rfl, rfl⟩
                | session key' sub' s o r'' hk hu hs hid hlen hff =>
                  rw [hff]
                  by_cases hc : key.kind = key'.kind ∧ key.port = key'.port
                  · rw [if_pos hc]
                    rw [← hc.1, ← hc.2, hf] at hu
                    cases hu
                    refine ⟨_, rfl, rfl, rfl, ?_⟩
                    simp only [Subscription.setSession]
                    rw [if_neg]
                    intro hsrc
                    apply hkey
                    rw [hk]
                    cases key; cases key'
                    simp_all
                  · rw [if_neg hc]; exact ⟨sub, hf, rfl, rfl, rfl⟩
            obtain ⟨hno, sub1, f1, f2, f3, f4⟩ := hno
            rw [hno, List.nil_append]
            obtain ⟨sub2, g1, g2, g3, g4⟩ := ih hr f1
            rw [f2] at g2 g4
            rw [f3] at g3 g4
            rw [f4] at g4
            exact ⟨sub2, g1, g2, g3, g4⟩

end Verif.Udp
