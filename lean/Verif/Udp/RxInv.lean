import Verif.Udp.RxRun

/-! Invariants of the UDP receiver over all histories (C37, C38). -/

namespace Verif.Udp

open Verif.Hdr (NodeId16 Tid64 TransportHeader)
open Verif.Crc (Tracker le32 crc32c)

/-- Frames of one transfer with consecutive indices from `start` on. -/
def Consecutive (start : Nat) (tid : Tid64) (priority : Priority) (run : List Frame) : Prop :=
  ∀ i f, run[i]? = some f → f.header.frameIndex.toNat = start + i ∧ f.header.transferId = tid ∧ f.header.priority = priority

/-- No frame claims to be the last one, except perhaps the first if its index is not zero. -/
def Unflagged (start : Nat) (run : List Frame) : Prop :=
  ∀ i f, run[i]? = some f → 0 < i ∨ start = 0 → f.header.lastFrame = false

/-- A session that collects frames has collected the most recent frames in `fs`. -/
def Gathers (extent : Nat) (fs : List Frame) : Option Session → Prop
  | some (.active a) => ∃ run start b, a.buildup = some b ∧ run ≠ [] ∧ run <:+ fs ∧ Consecutive start b.transferId b.priority run ∧
      Unflagged start run ∧ b.capacity = extent ∧ (b.bytes, b.crc) = collected extent (run.flatMap (·.bytes)) ∧
      b.nextFrameIndex.toNat = start + run.length
  | _ => True

/-- The transfer is put together from a run of frames which ends with `f`. -/
def Assembled (extent : Nat) (fs : List Frame) (f : Frame) (t : UdpTransfer) : Prop :=
  ∃ run start body time, (run ++ [f]) <:+ fs ∧ Consecutive start f.header.transferId f.header.priority (run ++ [f]) ∧ Unflagged start run ∧
    f.header.lastFrame = true ∧ (run ++ [f]).flatMap (·.bytes) = body ++ le32 (crc32c body) ∧
    t = convertResult (body.take extent) f.header time

theorem consecutive_snoc {start : Nat} {tid : Tid64} {priority : Priority} {run : List Frame} {f : Frame}
    (h : Consecutive start tid priority run) (h1 : f.header.frameIndex.toNat = start + run.length) (h2 : f.header.transferId = tid)
    (h3 : f.header.priority = priority) : Consecutive start tid priority (run ++ [f]) := by
  intro i g hg
  rw [List.getElem?_append] at hg
  split at hg
  · exact h i g hg
  · rename_i hi
    cases hj : i - run.length with
    | zero =>
      rw [hj] at hg
      simp only [List.getElem?_cons_zero, Option.some.injEq] at hg
      subst hg
      exact ⟨by omega, h2, h3⟩
    | succ j => rw [hj] at hg; simp at hg

theorem unflagged_snoc {start : Nat} {run : List Frame} {f : Frame} (h : Unflagged start run) (hf : f.header.lastFrame = false) :
    Unflagged start (run ++ [f]) := by
  intro i g hg hi
  rw [List.getElem?_append] at hg
  split at hg
  · exact h i g hg hi
  · rename_i hi
    cases hj : i - run.length with
    | zero =>
      rw [hj] at hg
      simp only [List.getElem?_cons_zero, Option.some.injEq] at hg
      subst hg
      exact hf
    | succ j => rw [hj] at hg; simp at hg

theorem gathers_new {n : Nat} {f : Frame} {fs : List Frame} {time : Instant} {tid : Tid64} {b : Buildup}
    (hidx : f.header.frameIndex.toNat < 2 ^ 31) (hns : ¬ (f.header.frameIndex = 0#32 ∧ f.header.lastFrame = true))
    (hb : Buildup.new f.oom f.header f.bytes n = some b) :
    Gathers n (fs ++ [f]) (some (.active { time := time, transferId := tid, buildup := some b })) := by
  unfold Buildup.new at hb
  split at hb
  · cases hb
  · cases hb
    refine ⟨[f], f.header.frameIndex.toNat, _, rfl, by simp, List.suffix_append _ _, ?_, ?_, rfl, ?_, ?_⟩
    · exact consecutive_snoc (run := []) (fun i g hg => by simp at hg) (by simp) rfl rfl
    · intro i g hg hi
      cases i with
      | zero =>
        simp only [List.getElem?_cons_zero, Option.some.injEq] at hg
        subst hg
        rcases hi with hi | hi
        · omega
        · have h0 : f.header.frameIndex = 0#32 := BitVec.eq_of_toNat_eq (by simpa using hi)
          cases hl : f.header.lastFrame with
          | false => rfl
          | true => exact absurd ⟨h0, hl⟩ hns
      | succ i => simp at hg
    · simp [collect_first]
    · simp only [List.length_singleton]
      rw [BitVec.toNat_add]
      simp only [BitVec.toNat_ofNat]
      omega

theorem accept_gathers {n : Nat} {f : Frame} {fs : List Frame} {a : ActiveSession} {q : Option Session × Output}
    (hlen : 4 ≤ f.bytes.length) (hidx : f.header.frameIndex.toNat < 2 ^ 31)
    (ha : a.buildup = none ∨ Gathers n fs (some (.active a))) (h : a.accept f.oom f.header f.bytes n = q) :
    Gathers n (fs ++ [f]) q.1 ∧ ∀ t ∈ q.2.transfers, Assembled n (fs ++ [f]) f t := by
  subst h
  unfold ActiveSession.accept ActiveSession.handleFrame
  rw [if_neg (by unfold transferCrcSize; omega)]
  by_cases hns : f.header.frameIndex = 0#32 ∧ f.header.lastFrame = true
  · rw [if_pos hns]
    cases hoom : f.oom with
    | true => exact ⟨trivial, by simp [Output.transfers]⟩
    | false =>
      dsimp only
      rw [if_neg (by simp), collect_first]
      split
      · refine ⟨trivial, ?_⟩
        intro t ht
        simp only [Output.transfers, List.mem_singleton] at ht
        rename_i p heq
        split at heq
        · rename_i hc
          simp only [Except.ok.injEq, Option.some.injEq] at heq
          obtain ⟨body, hbody⟩ := (collected_correct n f.bytes).mp hc
          refine ⟨[], 0, body, a.time, List.suffix_append _ _, ?_, fun i g hg => by simp at hg, hns.2, by simpa using hbody, ?_⟩
          · exact consecutive_snoc (run := []) (fun i g hg => by simp at hg) (by rw [hns.1]; rfl) rfl rfl
          · rw [if_pos hc] at ht
            rw [ht, ← heq, hbody, collected_body]
        · cases heq
      · rename_i heq
        split at heq <;> cases heq
      · exact ⟨trivial, by simp [Output.transfers]⟩
  · rw [if_neg hns]
    cases hb : a.buildup with
    | none =>
      cases hnew : Buildup.new f.oom f.header f.bytes n with
      | none => exact ⟨trivial, by simp [Output.transfers]⟩
      | some b => exact ⟨gathers_new hidx hns hnew, by simp [Output.transfers]⟩
    | some b =>
      rcases ha with ha | ⟨run, start, b', hb', hne, hsuf, hcon, hun, hcap, hbytes, hnext⟩
      · rw [hb] at ha; cases ha
      · rw [hb] at hb'
        cases hb'
        dsimp only
        unfold Buildup.push
        by_cases h1 : f.header.frameIndex ≠ b.nextFrameIndex
        · rw [if_pos h1]; exact ⟨trivial, by simp [Output.transfers]⟩
        rw [if_neg h1]
        by_cases h2 : f.header.transferId ≠ b.transferId
        · rw [if_pos h2]; exact ⟨trivial, by simp [Output.transfers]⟩
        rw [if_neg h2]
        by_cases h3 : f.header.priority ≠ b.priority
        · rw [if_pos h3]; exact ⟨trivial, by simp [Output.transfers]⟩
        rw [if_neg h3]
        simp only [Decidable.not_not] at h1 h2 h3
        have hsuf' : run ++ [f] <:+ fs ++ [f] := by
          obtain ⟨pre, hpre⟩ := hsuf
          exact ⟨pre, by rw [← hpre, List.append_assoc]⟩
        have hcon' := consecutive_snoc hcon (by rw [h1]; exact hnext) h2 h3
        have hmore : collectBytes b.capacity (b.bytes, b.crc) f.bytes = collected n ((run ++ [f]).flatMap (·.bytes)) := by
          rw [hbytes, hcap, collect_more]; simp
        dsimp only
        rw [hmore]
        cases hl : f.header.lastFrame with
        | false =>
          refine ⟨⟨run ++ [f], start, _, rfl, by simp, hsuf', hcon', unflagged_snoc hun hl, hcap, rfl, ?_⟩, by simp [Output.transfers]⟩
          simp only [List.length_append, List.length_singleton]
          rw [BitVec.toNat_add]
          simp only [BitVec.toNat_ofNat]
          rw [h1] at hidx
          omega
        | true =>
          simp only [if_true]
          split
          · refine ⟨trivial, ?_⟩
            intro t ht
            simp only [Output.transfers, List.mem_singleton] at ht
            rename_i p heq
            split at heq
            · rename_i hc
              simp only [Except.ok.injEq, Option.some.injEq] at heq
              obtain ⟨body, hbody⟩ := (collected_correct n _).mp hc
              refine ⟨run, start, body, a.time, hsuf', by rw [h2, h3]; exact hcon', hun, hl, hbody, ?_⟩
              rw [if_pos hc] at ht
              rw [ht, ← heq, hbody, collected_body]
            · cases heq
          · rename_i heq
            split at heq <;> cases heq
          · exact ⟨trivial, by simp [Output.transfers]⟩

theorem step_gathers {n : Nat} {timeout : Duration} {f : Frame} {fs : List Frame} {s s' : Option Session} {o : Output}
    (hs : Gathers n fs s) (hlen : 4 ≤ f.bytes.length) (hidx : f.header.frameIndex.toNat < 2 ^ 31) (h : f.step n timeout s = some (s', o)) :
    Gathers n (fs ++ [f]) s' ∧ ∀ t ∈ o.transfers, Assembled n (fs ++ [f]) f t := by
  unfold Frame.step sessionStep at h
  cases s with
  | none =>
    dsimp only at h
    split at h
    · cases h; exact ⟨trivial, by simp [Output.transfers]⟩
    · have := Option.some.inj h
      exact accept_gathers (q := (s', o)) hlen hidx (Or.inl rfl) this
  | some s =>
    dsimp only at h
    split at h
    · cases h
    · rename_i hadm
      cases h
      cases s with
      | active a => cases hadm
      | complete t i => exact ⟨trivial, by simp [Output.transfers]⟩
    · rename_i a hadm
      have := Option.some.inj h
      refine accept_gathers (q := (s', o)) hlen hidx ?_ this
      cases s with
      | active a' => cases hadm; exact Or.inr hs
      | complete t i =>
        left
        unfold Session.admit at hadm
        dsimp only at hadm
        split at hadm
        · cases hadm
        · split at hadm
          · cases hadm; rfl
          · cases hadm

/-- What one event does to one session. -/
inductive SessionEvent (mtu : Nat) (w : World) (op : Op) (key : Key) (sub' : Subscription) (out : List UdpTransfer) : Prop where
  | same (sub : Subscription) (h : w.receiver.subscriptions.find key.kind key.port = some sub) (h1 : sub'.payloadSizeMax = sub.payloadSizeMax)
      (h2 : sub'.timeout = sub.timeout) (h3 : sub'.sessions key.source = sub.sessions key.source)
      (hno : framesOf mtu key (packetsOf [op]) = [])
  | fresh (h : sub'.sessions key.source = none)
  | frame (sub : Subscription) (p : Packet) (f : Frame) (o : Output) (hop : op = .packet p) (hp : p.frame mtu = some f)
      (hk : f.key? = some key) (h : w.receiver.subscriptions.find key.kind key.port = some sub) (h1 : sub'.payloadSizeMax = sub.payloadSizeMax)
      (h2 : sub'.timeout = sub.timeout) (hs : f.step sub.payloadSizeMax sub.timeout (sub.sessions key.source) = some (sub'.sessions key.source, o))
      (ho : out = o.transfers)

theorem subscribe_event {mtu : Nat} {w : World} {op : Op} {key : Key} {sub' : Subscription} {out : List UdpTransfer} {k : Kind} {port extent : Nat} {timeout : Duration}
    (h : (w.receiver.subscriptions.subscribe k port (Subscription.new extent timeout)).find key.kind key.port = some sub')
    (hno : framesOf mtu key (packetsOf [op]) = []) : SessionEvent mtu w op key sub' out := by
  rw [find_subscribe] at h
  split at h
  · cases h; exact .fresh rfl
  · exact .same sub' h rfl rfl rfl hno

theorem unsubscribe_event {mtu : Nat} {w : World} {op : Op} {key : Key} {sub' : Subscription} {out : List UdpTransfer} {k : Kind} {port : Nat}
    (h : (w.receiver.subscriptions.unsubscribe k port).find key.kind key.port = some sub')
    (hno : framesOf mtu key (packetsOf [op]) = []) : SessionEvent mtu w op key sub' out := by
  rw [find_unsubscribe] at h
  split at h
  · cases h
  · exact .same sub' h rfl rfl rfl hno

theorem subscribeService_event {mtu : Nat} {w : World} {op : Op} {key : Key} {sub' : Subscription} {out : List UdpTransfer} {fails : Bool} {k : Kind}
    {service : ServiceId} {extent : Nat} {timeout : Duration}
    (h : (w.receiver.subscribeService fails w.groups k service extent timeout).1.subscriptions.find key.kind key.port = some sub')
    (hno : framesOf mtu key (packetsOf [op]) = []) : SessionEvent mtu w op key sub' out := by
  unfold Receiver.subscribeService at h
  split at h
  · exact .same sub' h rfl rfl rfl hno
  · split at h
    · exact subscribe_event h hno
    · exact .same sub' h rfl rfl rfl hno

theorem step_event {mtu : Nat} {w w' : World} {op : Op} {out : List UdpTransfer} {key : Key} {sub' : Subscription}
    (h : w.step mtu op = some (w', out)) (hf : w'.receiver.subscriptions.find key.kind key.port = some sub') : SessionEvent mtu w op key sub' out := by
  cases op with
  | packet p =>
    simp only [World.step] at h
    rw [acceptInner_eq] at h
    cases hp : p.frame mtu with
    | none => rw [hp] at h; cases h; exact .same sub' hf rfl rfl rfl (by simp [packetsOf, framesOf, hp])
    | some f =>
      rw [hp] at h
      dsimp only at h
      cases ha : w.receiver.acceptFrame f with
      | none => rw [ha] at h; cases h
      | some q =>
        obtain ⟨r', o⟩ := q
        rw [ha] at h
        cases h
        dsimp only at hf
        cases acceptFrame_step ha with
        | unsubscribed hu =>
          refine .same sub' hf rfl rfl rfl ?_
          have hne : f.key? ≠ some key := by
            intro hk
            have hke := key_eq f
            rw [hk] at hke
            cases hsrc : f.header.dataSpecifier.source with
            | none => rw [hsrc] at hke; cases hke
            | some source =>
              rw [hsrc] at hke
              cases hke
              rw [hu] at hf
              cases hf
          simp [packetsOf, framesOf, hp, hne]
        | anonymous sub r' hu hk hid hlen hfind => rw [hfind] at hf; exact .same sub' hf rfl rfl rfl (by simp [packetsOf, framesOf, hp, hk])
        | session key' sub s o r' hk hu hs hid hlen hfind =>
          rw [hfind] at hf
          split at hf
          · rename_i hkk
            cases hf
            by_cases hsrc : key.source = key'.source
            · have : key = key' := by
                cases key; cases key'; simp only at hkk hsrc; simp [hkk, hsrc]
              subst this
              refine .frame sub p f o rfl hp hk hu rfl rfl ?_ rfl
              rw [hs]
              simp [Subscription.setSession]
            · refine .same sub (by rw [hkk.1, hkk.2]; exact hu) rfl rfl ?_ ?_
              · simp [Subscription.setSession, hsrc]
              · have : key' ≠ key := by rintro rfl; exact hsrc rfl
                simp [packetsOf, framesOf, hp, hk, this]
          · rename_i hkk
            refine .same sub' hf rfl rfl rfl ?_
            have : key' ≠ key := by rintro rfl; exact hkk ⟨rfl, rfl⟩
            simp [packetsOf, framesOf, hp, hk, this]
  | subscribeMessage fails subject extent timeout =>
    simp only [World.step, Receiver.subscribeMessage] at h
    split at h
    · cases h; exact .same sub' hf rfl rfl rfl rfl
    · cases h; exact subscribe_event hf rfl
  | unsubscribeMessage fails subject => cases h; exact unsubscribe_event hf rfl
  | subscribeRequest fails service extent timeout => cases h; exact subscribeService_event hf rfl
  | unsubscribeRequest fails service => cases h; exact unsubscribe_event hf rfl
  | subscribeResponse fails service extent timeout => cases h; exact subscribeService_event hf rfl
  | unsubscribeResponse fails service => cases h; exact unsubscribe_event hf rfl
  | setId id => cases h; exact .same sub' hf rfl rfl rfl rfl

theorem packetsOf_append (a b : List Op) : packetsOf (a ++ b) = packetsOf a ++ packetsOf b := by
  induction a with
  | nil => rfl
  | cons op a ih => cases op <;> simp [packetsOf, ih]

theorem exec_append {mtu : Nat} (a b : List Op) : ∀ (w : World), w.exec mtu (a ++ b) =
    (w.exec mtu a).bind (fun p => (p.1.exec mtu b).map (fun q => (q.1, p.2 ++ q.2))) := by
  induction a with
  | nil => intro w; simp [World.exec]
  | cons op a ih =>
    intro w
    simp only [List.cons_append, World.exec]
    cases w.step mtu op with
    | none => rfl
    | some p =>
      simp only [Option.bind_some, ih]
      cases p.1.exec mtu a with
      | none => rfl
      | some q =>
        simp only [Option.bind_some, Option.map_some]
        cases q.1.exec mtu b with
        | none => rfl
        | some x => simp

theorem exec_snoc {mtu : Nat} {ops : List Op} {op : Op} {w w' : World} {out : List UdpTransfer} (h : w.exec mtu (ops ++ [op]) = some (w', out)) :
    ∃ w1 out1 out2, w.exec mtu ops = some (w1, out1) ∧ w1.step mtu op = some (w', out2) ∧ out = out1 ++ out2 := by
  rw [exec_append] at h
  cases h1 : w.exec mtu ops with
  | none => rw [h1] at h; cases h
  | some p =>
    rw [h1] at h
    simp only [Option.bind_some, World.exec] at h
    cases h2 : p.1.step mtu op with
    | none => rw [h2] at h; cases h
    | some q =>
      rw [h2] at h
      simp only [Option.bind_some, Option.map_some, List.append_nil, Option.some.injEq, Prod.mk.injEq] at h
      exact ⟨p.1, p.2, q.2, rfl, by rw [h2, ← h.1], h.2.symm⟩

/-- Induction over histories, from the end. -/
theorem snoc_induction {α : Type} {P : List α → Prop} (nil : P []) (snoc : ∀ l a, P l → P (l ++ [a])) : ∀ l, P l := by
  intro l
  obtain ⟨n, hn⟩ : ∃ n, l.length = n := ⟨_, rfl⟩
  induction n generalizing l with
  | zero => rw [List.length_eq_zero_iff.mp hn]; exact nil
  | succ n ih =>
    have hne : l ≠ [] := by rintro rfl; simp at hn
    rw [← List.dropLast_concat_getLast hne]
    exact snoc _ _ (ih _ (by simp [hn]))

theorem framesOf_snoc {mtu : Nat} {key : Key} (ops : List Op) (op : Op) : framesOf mtu key (packetsOf (ops ++ [op])) =
    framesOf mtu key (packetsOf ops) ++ framesOf mtu key (packetsOf [op]) := by
  rw [packetsOf_append]
  simp [framesOf]

/-- Over every history, every session that collects frames has collected the latest ones of its key. -/
theorem exec_gathers {mtu : Nat} {id : Option NodeId16} : ∀ (ops : List Op) {w : World} {out : List UdpTransfer},
    (World.new id).exec mtu ops = some (w, out) → ∀ (key : Key) (sub : Subscription), w.receiver.subscriptions.find key.kind key.port = some sub →
    Gathers sub.payloadSizeMax (framesOf mtu key (packetsOf ops)) (sub.sessions key.source) := by
  intro ops
  induction ops using snoc_induction with
  | nil =>
    intro w out h key sub hf
    cases h
    cases hk : key.kind <;> rw [hk] at hf <;> cases hf
  | snoc ops op ih =>
    intro w out h key sub hf
    obtain ⟨w1, out1, out2, h1, h2, -⟩ := exec_snoc h
    cases step_event h2 hf with
    | fresh hn => rw [hn]; trivial
    | same sub1 hf1 e1 e2 e3 hno =>
      have hg := ih h1 key sub1 hf1
      rw [framesOf_snoc, hno, List.append_nil, e1, e3]
      exact hg
    | frame sub1 p f o hop hp hk hf1 e1 e2 hs ho =>
      have hg := ih h1 key sub1 hf1
      have := (step_gathers hg (frame_length hp) (frame_index hp) hs).1
      rw [framesOf_snoc, hop, e1]
      have hone : framesOf mtu key (packetsOf [Op.packet p]) = [f] := by simp [packetsOf, framesOf, hp, hk]
      rw [hone]
      exact this

theorem handleFrame_time (oom : Bool) (a : ActiveSession) (header : TransportHeader) (bytes : List Byte) (n : Nat) :
    (a.handleFrame oom header bytes n).1.time = a.time := by
  unfold ActiveSession.handleFrame
  split
  · rfl
  · split
    · split
      · rfl
      · dsimp only
        split <;> rfl
    · split
      · dsimp only
        split
        · rfl
        · split
          · split <;> rfl
          · rfl
      · split <;> rfl

theorem anonymous_transfers {f : Frame} {n : Nat} {t : UdpTransfer} (ht : t ∈ (handleAnonymous f.oom n f.header f.bytes f.now).transfers) :
    t ∈ ((freshSession f.header f.now).accept f.oom f.header f.bytes n).2.transfers := by
  unfold handleAnonymous at ht
  unfold ActiveSession.accept
  have htime := handleFrame_time f.oom (freshSession f.header f.now) f.header f.bytes n
  cases h : ((freshSession f.header f.now).handleFrame f.oom f.header f.bytes n).2 with
  | error e => rw [h] at ht; cases e <;> cases ht
  | ok p =>
    cases p with
    | none => rw [h] at ht; cases ht
    | some payload =>
      rw [h] at ht
      dsimp only at ht ⊢
      rw [h, htime]
      exact ht

theorem convert_fields (payload : List Byte) (header : TransportHeader) (time : Instant) :
    (convertResult payload header time).header.kind = specifierKind header.dataSpecifier ∧
    (convertResult payload header time).header.port = specifierPort header.dataSpecifier ∧
    (convertResult payload header time).header.transferId = header.transferId ∧
    (convertResult payload header time).header.priority = header.priority := by
  unfold convertResult
  cases header.dataSpecifier <;> exact ⟨rfl, rfl, rfl, rfl⟩

theorem key_port {f : Frame} {key : Key} (h : f.key? = some key) :
    key.kind = specifierKind f.header.dataSpecifier ∧ key.port = specifierPort f.header.dataSpecifier := by
  have hke := key_eq f
  rw [h] at hke
  cases hsrc : f.header.dataSpecifier.source with
  | none => rw [hsrc] at hke; cases hke
  | some source => rw [hsrc] at hke; cases hke; exact ⟨rfl, rfl⟩

/-! ### Panics -/

/-- The time in a session (`time` of both variants). -/
def Session.time : Session → Instant
  | .active a => a.time
  | .complete t _ => t

theorem step_time {n : Nat} {timeout : Duration} {f : Frame} {s s' : Option Session} {o : Output} (h : f.step n timeout s = some (s', o)) :
    ∀ x, s' = some x → x.time = f.now ∨ ∃ y, s = some y ∧ x.time = y.time := by
  have acc : ∀ (a : ActiveSession) (q : Option Session × Output), a.accept f.oom f.header f.bytes n = q → ∀ x, q.1 = some x → x.time = a.time := by
    intro a q hq x hx
    have ht := handleFrame_time f.oom a f.header f.bytes n
    subst hq
    unfold ActiveSession.accept at hx
    dsimp only at hx
    split at hx
    · cases hx; exact ht
    · cases hx; exact ht
    · cases hx
  intro x hx
  unfold Frame.step sessionStep at h
  cases s with
  | none =>
    dsimp only at h
    split at h
    · cases h; cases hx
    · exact Or.inl (acc _ (s', o) (Option.some.inj h) x hx)
  | some s =>
    dsimp only at h
    split at h
    · cases h
    · cases h; exact Or.inr ⟨s, rfl, by cases hx; rfl⟩
    · rename_i a hadm
      have := acc _ (s', o) (Option.some.inj h) x hx
      cases s with
      | active a' => cases hadm; exact Or.inr ⟨_, rfl, this⟩
      | complete t i =>
        unfold Session.admit at hadm
        dsimp only at hadm
        split at hadm
        · cases hadm
        · split at hadm
          · cases hadm; exact Or.inl this
          · cases hadm

theorem step_panics {n : Nat} {timeout : Duration} {f : Frame} {s : Option Session} (h : f.step n timeout s = none) :
    ∃ t i, s = some (.complete t i) ∧ Instant.before f.now t = true := by
  unfold Frame.step sessionStep at h
  cases s with
  | none => dsimp only at h; split at h <;> cases h
  | some s =>
    dsimp only at h
    split at h
    · rename_i hadm
      cases s with
      | active a => cases hadm
      | complete t i =>
        refine ⟨t, i, rfl, ?_⟩
        unfold Session.admit Instant.sub? Instant.checkedDurationSince at hadm
        dsimp only at hadm
        split at hadm
        · rename_i heq
          split at heq
          · assumption
          · cases heq
        · split at hadm <;> cases hadm
    · cases h
    · cases h

/-- The times in the sessions are times at which datagrams have arrived. -/
theorem exec_times {mtu : Nat} {id : Option NodeId16} : ∀ (ops : List Op) {w : World} {out : List UdpTransfer},
    (World.new id).exec mtu ops = some (w, out) → ∀ (key : Key) (sub : Subscription), w.receiver.subscriptions.find key.kind key.port = some sub →
    ∀ s, sub.sessions key.source = some s → s.time ∈ (packetsOf ops).map (·.now) := by
  intro ops
  induction ops using snoc_induction with
  | nil =>
    intro w out h key sub hf
    cases h
    cases hk : key.kind <;> rw [hk] at hf <;> cases hf
  | snoc ops op ih =>
    intro w out h key sub hf s hs'
    obtain ⟨w1, out1, out2, h1, h2, -⟩ := exec_snoc h
    rw [packetsOf_append, List.map_append, List.mem_append]
    cases step_event h2 hf with
    | fresh hn => rw [hn] at hs'; cases hs'
    | same sub1 hf1 e1 e2 e3 hno => exact Or.inl (ih h1 key sub1 hf1 s (by rw [← e3]; exact hs'))
    | frame sub1 p f o hop hp hk hf1 e1 e2 hs ho =>
      rcases step_time hs s hs' with htm | ⟨y, hy, htm⟩
      · right
        subst hop
        simp [packetsOf, htm, (frame_now hp).1]
      · left
        rw [htm]
        exact ih h1 key sub1 hf1 y hy

end Verif.Udp
