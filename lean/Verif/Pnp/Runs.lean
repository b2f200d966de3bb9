import Verif.Pnp.Lemmas
import Verif.App.Runs
import Mathlib.Data.List.GetD

/-!
Helper lemmas about clients, servers and their histories, for the properties in `Verif.Pnp.Props`.
-/

namespace Verif.Pnp

open Verif.Dsdl Verif.Enc Verif.Node Verif.App

variable {N Tid Trk E M : Type}

/-! ### Clients -/

/-- The node ID that a payload grants to the node with this unique ID. -/
def grantTo (ids : IdOps N) (v : Version) (p : List Byte) (u : UniqueId) : Option N :=
  if wellFormed v p && isAbout v p u then (granted v p).bind fun n => ids.tryFrom (BitVec.ofNat 16 n) else none

theorem granted_lt {v : Version} {p : List Byte} {n : Nat} (h : granted v p = some n) : n < 65536 := by
  cases v with
  | one =>
    have h : (if byte p 6 = 1 then some (numberAt p 7 2) else none) = some n := h
    split at h
    · injection h with h
      rw [← h]
      exact numberAt_lt p 7 2
    · cases h
  | two =>
    have h : some (numberAt p 0 2) = some n := h
    injection h with h
    rw [← h]
    exact numberAt_lt p 0 2

theorem grantTo_iff {ids : IdOps N} (hl : ids.Lawful) (v : Version) (p : List Byte) (u : UniqueId) (id : N) :
    grantTo ids v p u = some id ↔ wellFormed v p = true ∧ isAbout v p u = true ∧ granted v p = some (ids.toU16 id).toNat := by
  unfold grantTo
  constructor
  · intro h
    split at h
    · rename_i hc
      rw [Bool.and_eq_true] at hc
      refine ⟨hc.1, hc.2, ?_⟩
      cases hg : granted v p with
      | none => rw [hg] at h; cases h
      | some n =>
        rw [hg, Option.bind_some, hl.tryFrom_iff] at h
        rw [h, BitVec.toNat_ofNat, Nat.mod_eq_of_lt (granted_lt hg)]
    · cases h
  · rintro ⟨h1, h2, h3⟩
    rw [h1, h2, h3, Bool.and_self, if_pos rfl, Option.bind_some, hl.tryFrom_iff]
    apply BitVec.eq_of_toNat_eq
    rw [BitVec.toNat_ofNat, Nat.mod_eq_of_lt (BitVec.isLt _)]

theorem client_spec {ids : IdOps N} {v : Version} {a : AllocationMessage N M} (ha : Acts ids v a) (u : UniqueId) (node : CoreNode N Tid Trk)
    (header : MessageHeader N Tid) (p : List Byte) :
    ClientService.handleMessage a u node header p = some (match grantTo ids v p u with
      | some id => ⟨true, (), { node with nodeId := some id, publishers := node.publishers.remove v.subject }, [],
          [.setId id, .unsubscribeMessage v.subject]⟩
      | none => ⟨false, (), node, [], []⟩) := by
  unfold ClientService.handleMessage grantTo
  cases hw : wellFormed v p with
  | false => rw [ha.malformed p hw]; rfl
  | true =>
    obtain ⟨m, h1, h2, h3, -⟩ := ha.parsed p hw
    rw [h1]
    simp only [h2, h3, Bool.true_and, ha.subject]
    cases isAbout v p u with
    | false => rfl
    | true =>
      simp only [if_true]
      cases (granted v p).bind (fun n => ids.tryFrom (BitVec.ofNat 16 n)) <;> rfl

theorem receive_spec {ids : IdOps N} {v : Version} {a : AllocationMessage N M} (ha : Acts ids v a) (c : PnpClient Tid) (t : Transfer N Tid) :
    (PnpClient.receive a c (.transfer t) : Got N E) = match grantTo ids v t.payload c.uniqueId with
      | some id => .id id
      | none => .nothing := by
  unfold PnpClient.receive grantTo
  cases hw : wellFormed v t.payload with
  | false => simp only [ha.malformed _ hw]; rfl
  | true =>
    obtain ⟨m, h1, h2, h3, -⟩ := ha.parsed _ hw
    simp only [h1, h2, h3, Bool.true_and]
    cases isAbout v t.payload c.uniqueId with
    | false => rfl
    | true =>
      simp only [if_true]
      cases (granted v t.payload).bind (fun n => ids.tryFrom (BitVec.ofNat 16 n)) <;> rfl

theorem free_sends {ids : IdOps N} {v : Version} {a : AllocationMessage N M} (ha : Acts ids v a) (ops : TidOps Tid) (c : PnpClient Tid) (mtu : Nat)
    (env : Env E) :
    PnpClient.sendRequest ops a c mtu env =
      match decide ((request v c.uniqueId).length ≤ mtu), env.push with
      | true, .ok => some (⟨c.uniqueId, { c.publisher with nextTransferId := ops.increment c.publisher.nextTransferId }⟩,
          [⟨.message ⟨env.now.plus c.publisher.timeout, c.publisher.nextTransferId, c.publisher.priority, c.publisher.subject, none⟩, false,
            request v c.uniqueId⟩])
      | _, _ => none := by
  unfold PnpClient.sendRequest AnonymousPublisher.send
  rw [ha.size]
  by_cases h : (request v c.uniqueId).length ≤ mtu
  · rw [if_neg (by omega)]
    simp only [ha.request, h, decide_true]
    cases env.push <;> rfl
  · rw [if_pos (by omega), decide_eq_false h]

theorem run_publishes {ops : TidOps Tid} {tops : TrackerOps N Tid Trk} {n : CoreNode N Tid Trk} {s : SubjectId} {t : Duration} {pr : Priority}
    (h : Publishes n s t pr) : ∀ (history : List (Op N Tid E)), (∀ op ∈ history, ¬ op.stopsPublishing s) →
    Publishes (CoreNode.run ops tops n history).2 s t pr := by
  intro history
  induction history generalizing n with
  | nil => exact fun _ => h
  | cons op rest ih =>
    intro hh
    exact ih (h.step op (hh op (by simp))) fun o ho => hh o (by simp [ho])

/-! ### Replies -/

theorem byte_append_left {a b : List Byte} {i : Nat} (h : i < a.length) : byte (a ++ b) i = byte a i := by
  unfold byte
  rw [List.getD_append _ _ _ _ h]

theorem byte_append_right {a b : List Byte} {i : Nat} (h : a.length ≤ i) : byte (a ++ b) i = byte b (i - a.length) := by
  unfold byte
  rw [List.getD_append_right _ _ _ _ h]

theorem numberAt_congr {p q : List Byte} : ∀ {n i j : Nat}, (∀ k, k < n → byte p (i + k) = byte q (j + k)) → numberAt p i n = numberAt q j n
  | 0, _, _, _ => rfl
  | n + 1, i, j, h => by
    unfold numberAt
    rw [show byte p i = byte q j from h 0 (by omega), numberAt_congr (i := i + 1) (j := j + 1) fun k hk => by
      have := h (k + 1) (by omega)
      rw [show i + 1 + k = i + (k + 1) by omega, show j + 1 + k = j + (k + 1) by omega]
      exact this]

theorem slice_congr {p q : List Byte} {n i j : Nat} (h : ∀ k, k < n → byte p (i + k) = byte q (j + k)) : slice p i n = slice q j n := by
  unfold slice
  apply List.map_congr_left
  intro k hk
  exact h k (List.mem_range.1 hk)

theorem byte_slice {p : List Byte} {i n k : Nat} (h : k < n) : byte (slice p i n) k = byte p (i + k) := by
  unfold slice
  rw [byte, List.getD_eq_getElem _ _ (by simpa using h)]
  simp

theorem slice_zero {p : List Byte} {n : Nat} (h : p.length = n) : slice p 0 n = p := by
  apply List.ext_getElem
  · rw [length_slice, h]
  · intro k h1 h2
    rw [← List.getD_eq_getElem (slice p 0 n) 0 h1, ← List.getD_eq_getElem p 0 h2]
    have := byte_slice (p := p) (i := 0) (n := n) (k := k) (by rw [length_slice] at h1; exact h1)
    rw [Nat.zero_add] at this
    exact this

theorem reply_one (p : List Byte) (n : Nat) : reply .one p n = slice p 0 6 ++ [1] ++ numberBytes 2 n := rfl

theorem reply_two (p : List Byte) (n : Nat) : reply .two p n = numberBytes 2 n ++ slice p 2 16 := rfl

theorem request_one (u : UniqueId) : request .one u = numberBytes 6 (hash48 u).toNat ++ [0] := by
  rw [hash_eq]
  rfl

theorem request_two (u : UniqueId) : request .two u = [0, 0] ++ u.1 := rfl

theorem isAbout_one (p : List Byte) (u : UniqueId) : isAbout .one p u = decide (numberAt p 0 6 = (hash48 u).toNat) := by
  rw [hash_eq]
  rfl

theorem isAbout_two (p : List Byte) (u : UniqueId) : isAbout .two p u = decide (slice p 2 16 = u.1) := rfl

theorem wellFormed_one (p : List Byte) : wellFormed .one p = decide ((byte p 6).toNat ≤ 1) := rfl

theorem numberAt_numberBytes : ∀ (n x : Nat), x < 256 ^ n → numberAt (numberBytes n x) 0 n = x
  | 0, x, h => by simp at h; rw [h]; rfl
  | n + 1, x, h => by
    rw [numberBytes, numberAt]
    have e : numberAt (BitVec.ofNat 8 x :: numberBytes n (x / 256)) (0 + 1) n = numberAt (numberBytes n (x / 256)) 0 n := numberAt_congr fun k hk => by
      rw [Nat.zero_add, Nat.zero_add, Nat.add_comm]
      rfl
    rw [e, numberAt_numberBytes n (x / 256) (by rw [Nat.pow_succ] at h; omega)]
    show (BitVec.ofNat 8 x).toNat + _ = x
    rw [BitVec.toNat_ofNat]
    omega

theorem reply_wellFormed (v : Version) (p : List Byte) (n : Nat) : wellFormed v (reply v p n) = true := by
  cases v with
  | two => rfl
  | one =>
    have e : byte (reply .one p n) 6 = 1 := by
      rw [reply_one, List.append_assoc, byte_append_right (by rw [length_slice]), length_slice]
      rfl
    rw [wellFormed_one, e]
    rfl

theorem reply_isAbout (v : Version) (p : List Byte) (n : Nat) (u : UniqueId) : isAbout v (reply v p n) u = isAbout v p u := by
  cases v with
  | one =>
    have e : numberAt (reply .one p n) 0 6 = numberAt p 0 6 := numberAt_congr fun k hk => by
      rw [reply_one, List.append_assoc, byte_append_left (by rw [length_slice]; omega), byte_slice (by omega)]
      simp
    rw [isAbout_one, isAbout_one, e]
  | two =>
    have e : slice (reply .two p n) 2 16 = slice p 2 16 := slice_congr fun k hk => by
      rw [reply_two, byte_append_right (by rw [length_numberBytes]; omega), length_numberBytes, byte_slice (by omega)]
      congr 1
      omega
    rw [isAbout_two, isAbout_two, e]

theorem reply_granted (v : Version) (p : List Byte) (n : Nat) (h : n < 65536) : granted v (reply v p n) = some n := by
  cases v with
  | one =>
    have e : byte (reply .one p n) 6 = 1 := by
      rw [reply_one, List.append_assoc, byte_append_right (by rw [length_slice]), length_slice]
      rfl
    have h7 : (slice p 0 6 ++ [1]).length = 7 := by rw [List.length_append, length_slice]; rfl
    have e2 : numberAt (reply .one p n) 7 2 = numberAt (numberBytes 2 n) 0 2 := numberAt_congr fun k hk => by
      rw [reply_one, byte_append_right (by rw [h7]; omega), h7]
      congr 1
      omega
    show (if byte (reply .one p n) 6 = 1 then some (numberAt (reply .one p n) 7 2) else none) = some n
    rw [e, if_pos rfl, e2, numberAt_numberBytes 2 n h]
  | two =>
    have e2 : numberAt (reply .two p n) 0 2 = numberAt (numberBytes 2 n) 0 2 := numberAt_congr fun k hk => by
      rw [reply_two, byte_append_left (by rw [length_numberBytes]; omega)]
    show some (numberAt (reply .two p n) 0 2) = some n
    rw [e2, numberAt_numberBytes 2 n h]

theorem request_isAbout (v : Version) (u : UniqueId) : isAbout v (request v u) u = true := by
  cases v with
  | one =>
    have e : numberAt (request .one u) 0 6 = numberAt (numberBytes 6 (hash48 u).toNat) 0 6 := numberAt_congr fun k hk => by
      rw [request_one, byte_append_left (by rw [length_numberBytes]; omega)]
    have hb := hash_bound u
    rw [isAbout_one, e, numberAt_numberBytes 6 _ hb]
    simp
  | two =>
    have e : slice (request .two u) 2 16 = u.1 := by
      have : slice (request .two u) 2 16 = slice u.1 0 16 := slice_congr fun k hk => by
        rw [request_two, byte_append_right (by simp)]
        congr 1
        simp
      rw [this, slice_zero u.2]
    rw [isAbout_two, e]
    simp

theorem request_wellFormed (v : Version) (u : UniqueId) : wellFormed v (request v u) = true := by
  cases v with
  | two => rfl
  | one =>
    have e : byte (request .one u) 6 = 0 := by
      rw [request_one, byte_append_right (by rw [length_numberBytes]), length_numberBytes]
      rfl
    rw [wellFormed_one, e]
    rfl

/-- A reply to the reply is the reply. -/
theorem reply_reply (v : Version) (p : List Byte) (n m : Nat) : reply v (reply v p n) m = reply v p m := by
  cases v with
  | one =>
    have e : slice (reply .one p n) 0 6 = slice p 0 6 := slice_congr fun k hk => by
      rw [reply_one, List.append_assoc, byte_append_left (by rw [length_slice]; omega), byte_slice (by omega)]
      simp
    show slice (reply .one p n) 0 6 ++ [1] ++ numberBytes 2 m = _
    rw [e]
    rfl
  | two =>
    have e : slice (reply .two p n) 2 16 = slice p 2 16 := slice_congr fun k hk => by
      rw [reply_two, byte_append_right (by rw [length_numberBytes]; omega), length_numberBytes, byte_slice (by omega)]
      congr 1
      omega
    show numberBytes 2 m ++ slice (reply .two p n) 2 16 = _
    rw [e]
    rfl

theorem reply_grants {ids : IdOps N} (v : Version) (u : UniqueId) (id : N) :
    wellFormed v (reply v (request v u) (ids.toU16 id).toNat) = true ∧ isAbout v (reply v (request v u) (ids.toU16 id).toNat) u = true ∧
      granted v (reply v (request v u) (ids.toU16 id).toNat) = some (ids.toU16 id).toNat :=
  ⟨reply_wellFormed v _ _, by rw [reply_isAbout, request_isAbout], reply_granted v _ _ (ids.toU16 id).isLt⟩

/-! ### Allocation -/

theorem allocate_lt {s s' : Server} {f : UniqueId → Bool} {i : Nat} (h : s.allocate f = (some i, s')) : i < s.length ∧ s'.length = s.length := by
  unfold Server.allocate at h
  split at h
  · rename_i j hj
    injection h with h1 h2
    injection h1 with h1
    subst h1 h2
    exact ⟨(List.findIdx?_eq_some_iff_getElem.1 hj).1, rfl⟩
  · split at h
    · rename_i j hj
      injection h with h1 h2
      injection h1 with h1
      subst h1 h2
      have := (List.findIdx?_eq_some_iff_getElem.1 hj).1
      rw [List.length_reverse] at this
      exact ⟨this, by simp⟩
    · cases h

theorem allocate_none (s : Server) (f : UniqueId → Bool) : s.allocate f = (none, s) ↔ ∀ a ∈ s, ∃ u, a = .assigned u ∧ f u = false := by
  unfold Server.allocate
  constructor
  · intro h
    split at h
    · cases h
    · rename_i h1
      split at h
      · cases h
      · rename_i h2
        rw [List.findIdx?_eq_none_iff] at h1 h2
        intro a ha
        have g1 := h1 a ha
        have g2 := h2 a (List.mem_reverse.2 ha)
        cases a with
        | assigned u => exact ⟨u, rfl, g1⟩
        | reserved => cases g1
        | unassigned => cases g2
  · intro h
    have h1 : (s.findIdx? fun a => a.isAssignedAnd f) = none := by
      rw [List.findIdx?_eq_none_iff]
      intro a ha
      obtain ⟨u, rfl, hu⟩ := h a ha
      exact hu
    have h2 : (s.reverse.findIdx? fun a => !a.isAssigned) = none := by
      rw [List.findIdx?_eq_none_iff]
      intro a ha
      obtain ⟨u, rfl, hu⟩ := h a (List.mem_reverse.1 ha)
      rfl
    rw [h1, h2]

theorem allocate_none_state {s s' : Server} {f : UniqueId → Bool} (h : s.allocate f = (none, s')) : s = s' := by
  unfold Server.allocate at h
  split at h
  · cases h
  · split at h
    · cases h
    · injection h

theorem allocate_state {s s' : Server} {f : UniqueId → Bool} {i : Nat} (h : s.allocate f = (some i, s')) : s' = s ∨ s' = s.set i .reserved := by
  unfold Server.allocate at h
  split at h
  · injection h with _ h
    exact .inl h.symm
  · split at h
    · injection h with h1 h2
      injection h1 with h1
      rw [← h1]
      exact .inr h2.symm
    · cases h

theorem publish_nodeId (ops : TidOps Tid) (node : CoreNode N Tid Trk) (env : Env E) (subject : SubjectId) (payload : Payload) (l : Bool) :
    (node.publish ops env subject payload l).node.nodeId = node.nodeId := by
  unfold CoreNode.publish
  split <;> rfl

/-- The handler of the server with an allocation message. -/
theorem handle_allocation {ids : IdOps N} (hl : ids.Lawful) (ops : TidOps Tid) (v : Version) (s : Server) (node : CoreNode N Tid Trk) (env : Env E)
    (header : MessageHeader N Tid) (p : List Byte) (hs : header.subject = v.subject) (hw : wellFormed v p = true)
    (hc : s.length ≤ (ids.toU16 ids.max).toNat + 1) :
    ∃ out, s.handleMessage ops ids node env header p = some out ∧ out.handled = true ∧ out.state = (s.allocate (isAbout v p)).2 ∧ out.rx = [] ∧
      ((s.allocate (isAbout v p)).1 = none → out.node = node ∧ out.sent = []) ∧
      ∀ i, (s.allocate (isAbout v p)).1 = some i → ∃ payload, doSerialize payload env.alloc = .bytes (reply v p i) ∧
        out.node = (node.publish ops env v.subject payload false).node ∧ out.sent = (node.publish ops env v.subject payload false).sent := by
  have key : ∀ {M : Type} (a : AllocationMessage N M), Acts ids v a → ∀ m, (∀ u, a.matchesUniqueId m u = isAbout v p u) →
      (∀ id alloc, doSerialize (a.payload (a.withNodeId m id)) alloc = .bytes (reply v p (ids.toU16 id).toNat)) →
      ∃ out, s.handleAllocation ops ids a node env m = some out ∧ out.handled = true ∧ out.state = (s.allocate (isAbout v p)).2 ∧ out.rx = [] ∧
      ((s.allocate (isAbout v p)).1 = none → out.node = node ∧ out.sent = []) ∧
      ∀ i, (s.allocate (isAbout v p)).1 = some i → ∃ payload, doSerialize payload env.alloc = .bytes (reply v p i) ∧
        out.node = (node.publish ops env v.subject payload false).node ∧ out.sent = (node.publish ops env v.subject payload false).sent := by
    intro M a ha m hm hp
    have hf : a.matchesUniqueId m = isAbout v p := funext hm
    unfold Server.handleAllocation
    rw [hf]
    cases hr : s.allocate (isAbout v p) with
    | mk r s' =>
      cases r with
      | none => exact ⟨_, rfl, rfl, rfl, rfl, fun _ => ⟨rfl, rfl⟩, fun i hi => by cases hi⟩
      | some i =>
        have hi := (allocate_lt hr).1
        have hmax := (ids.toU16 ids.max).isLt
        have hi' : i < 65536 := by omega
        simp only [hi', if_true]
        have hv := (hl.valid_iff (BitVec.ofNat 16 i)).2 (by rw [BitVec.toNat_ofNat, Nat.mod_eq_of_lt (by omega)]; omega)
        obtain ⟨id, hid⟩ := Option.isSome_iff_exists.1 hv
        have hid' := (hl.tryFrom_iff _ _).1 hid
        have hn : (ids.toU16 id).toNat = i := by rw [hid', BitVec.toNat_ofNat, Nat.mod_eq_of_lt (by omega)]
        have hb := hp id env.alloc
        rw [hn] at hb
        rw [hid, ha.subject]
        have hans : (node.publish ops env v.subject (a.payload (a.withNodeId m id)) false).answer ≠ .panic := by
          unfold CoreNode.publish
          split
          · simp
          · simp only [Publisher.publish, hb]
            cases env.push <;> simp [Push.answer]
        simp only
        refine ⟨_, rfl, rfl, rfl, rfl, (fun h => by cases h), fun j hj => ?_⟩
        injection hj with hj
        subst hj
        exact ⟨_, hb, rfl, rfl⟩
  unfold Server.handleMessage
  cases v with
  | one =>
    have e : header.subject = (version1 ids).subject := hs
    rw [if_pos e]
    obtain ⟨m, h1, h2, -, h4⟩ := (acts1 ids).parsed p hw
    rw [h1]
    exact key _ (acts1 ids) m h2 h4
  | two =>
    have e : ¬ header.subject = (version1 ids).subject := by
      rw [hs]
      show ¬ (8165#13 : BitVec 13) = 8166#13
      decide
    have e' : header.subject = (version2 ids).subject := hs
    rw [if_neg e, if_pos e']
    obtain ⟨m, h1, h2, -, h4⟩ := (acts2 ids).parsed p hw
    rw [h1]
    exact key _ (acts2 ids) m h2 h4

theorem heartbeat_parses (p : List Byte) : ∃ w c, heartbeatType.deserialize (ReadCursor.new p) = some (.ok w, c) := by
  have hz : heartbeatType.zeroCopy = false := by decide +kernel
  have h := readUInt_rcur p 0 32 (by omega) (by omega)
  rw [new_eq_rcur]
  unfold heartbeatType at hz ⊢
  simp only [Message.deserialize, hz, Bool.false_eq_true, if_false, Fields.deserialize, List.foldl_nil, readField, Scalar.read, Prim.read, Prim.bits,
    okRead, h, Option.map_some, andThen]
  exact ⟨_, _, rfl⟩

theorem handle_malformed (ops : TidOps Tid) (ids : IdOps N) (v : Version) (s : Server) (node : CoreNode N Tid Trk) (env : Env E)
    (header : MessageHeader N Tid) (p : List Byte) (hs : header.subject = v.subject) (hw : wellFormed v p = false) :
    s.handleMessage ops ids node env header p = some ⟨false, s, node, [], []⟩ := by
  unfold Server.handleMessage
  cases v with
  | one =>
    have e : header.subject = (version1 ids).subject := hs
    rw [if_pos e, (acts1 ids).malformed p hw]
  | two => cases hw

theorem handle_heartbeat (ops : TidOps Tid) (ids : IdOps N) (s : Server) (node : CoreNode N Tid Trk) (env : Env E) (header : MessageHeader N Tid)
    (p : List Byte) (hs : header.subject = heartbeatSubject) :
    s.handleMessage ops ids node env header p =
      match header.source with
      | none => some ⟨false, s, node, [], []⟩
      | some id => (s[(ids.toU16 id).toNat]?).map fun a => ⟨false, if a.isAssigned then s else s.set (ids.toU16 id).toNat .reserved, node, [], []⟩ := by
  have e1 : ¬ header.subject = (version1 ids).subject := by
    rw [hs]; show ¬ (7509#13 : BitVec 13) = 8166#13; decide
  have e2 : ¬ header.subject = (version2 ids).subject := by
    rw [hs]; show ¬ (7509#13 : BitVec 13) = 8165#13; decide
  unfold Server.handleMessage
  rw [if_neg e1, if_neg e2, if_pos hs]
  obtain ⟨w, c, h⟩ := heartbeat_parses p
  cases header.source with
  | none => rfl
  | some id =>
    simp only [h]
    cases s[(ids.toU16 id).toNat]? <;> rfl

theorem handle_other (ops : TidOps Tid) (ids : IdOps N) (s : Server) (node : CoreNode N Tid Trk) (env : Env E) (header : MessageHeader N Tid)
    (p : List Byte) (h1 : ∀ v : Version, header.subject ≠ v.subject) (h2 : header.subject ≠ heartbeatSubject) :
    s.handleMessage ops ids node env header p = some ⟨false, s, node, [], []⟩ := by
  have e1 : ¬ header.subject = (version1 ids).subject := h1 .one
  have e2 : ¬ header.subject = (version2 ids).subject := h1 .two
  unfold Server.handleMessage
  rw [if_neg e1, if_neg e2, if_neg h2]

/-- The subject of a message decides which of the four cases it is. -/
theorem subject_cases (subject : SubjectId) (p : List Byte) :
    (∃ v : Version, subject = v.subject ∧ wellFormed v p = true) ∨ (∃ v : Version, subject = v.subject ∧ wellFormed v p = false) ∨
      subject = heartbeatSubject ∨ ((∀ v : Version, subject ≠ v.subject) ∧ subject ≠ heartbeatSubject) := by
  by_cases h : ∃ v : Version, subject = v.subject
  · obtain ⟨v, h⟩ := h
    cases hw : wellFormed v p with
    | false => exact .inr (.inl ⟨v, h, hw⟩)
    | true => exact .inl ⟨v, h, hw⟩
  · by_cases h2 : subject = heartbeatSubject
    · exact .inr (.inr (.inl h2))
    · exact .inr (.inr (.inr ⟨fun v e => h ⟨v, e⟩, h2⟩))

theorem subject_inj {v w : Version} (h : v.subject = w.subject) : v = w := by
  cases v <;> cases w <;> first | rfl | exact absurd h (by decide)

/-! ### Histories -/

theorem run_append (ops : TidOps Tid) (tops : TrackerOps N Tid Trk) (ids : IdOps N) (w : Server × CoreNode N Tid Trk)
    (h h' : List (ServerOp N Tid E)) : Server.run ops tops ids w (h ++ h') = (Server.run ops tops ids w h).bind fun w => Server.run ops tops ids w h' := by
  unfold Server.run
  rw [List.foldlM_append]
  rfl

theorem run_snoc (ops : TidOps Tid) (tops : TrackerOps N Tid Trk) (ids : IdOps N) (w : Server × CoreNode N Tid Trk)
    (h : List (ServerOp N Tid E)) (op : ServerOp N Tid E) :
    Server.run ops tops ids w (h ++ [op]) = (Server.run ops tops ids w h).bind fun w => (Server.step ops tops ids w op).map Prod.fst := by
  rw [run_append]
  congr
  funext w
  unfold Server.run
  rw [List.foldlM_cons]
  cases (Server.step ops tops ids w op).map Prod.fst <;> rfl

theorem owner_snoc (ids : IdOps N) (h : List (ServerOp N Tid E)) (op : ServerOp N Tid E) (i : Nat) :
    owner ids (h ++ [op]) i = (owner ids h i).or (match op with
      | .assign id u => if (ids.toU16 id).toNat = i then some u else none
      | _ => none) := by
  unfold owner
  rw [List.findSome?_append]
  congr 1
  rw [List.findSome?_cons]
  cases op with
  | assign id u =>
    by_cases h : (ids.toU16 id).toNat = i <;> simp [h]
  | _ => rfl

theorem owner_append (ids : IdOps N) (h h' : List (ServerOp N Tid E)) {i : Nat} {u : UniqueId} (hu : owner ids h i = some u) :
    owner ids (h ++ h') i = some u := by
  unfold owner at hu ⊢
  rw [List.findSome?_append, hu]
  rfl

theorem Orderly.init {ids : IdOps N} {C : Nat} {h : List (ServerOp N Tid E)} {op : ServerOp N Tid E} (ho : Orderly ids C (h ++ [op])) :
    Orderly ids C h ∧ Allowed ids C h op :=
  ⟨fun b o a e => ho b o (a ++ [op]) (by rw [e]; simp), ho h op [] rfl⟩

theorem Orderly.prefix {ids : IdOps N} {C : Nat} {h h' : List (ServerOp N Tid E)} (ho : Orderly ids C (h ++ h')) : Orderly ids C h :=
  fun b o a e => ho b o (a ++ h') (by rw [e]; simp)

theorem orderly_nil (ids : IdOps N) (C : Nat) : Orderly ids C ([] : List (ServerOp N Tid E)) := fun b o a e => by
  have := congrArg List.length e
  simp at this

theorem Orderly.snoc {ids : IdOps N} {C : Nat} {h : List (ServerOp N Tid E)} (ho : Orderly ids C h) {op : ServerOp N Tid E}
    (ha : Allowed ids C h op) : Orderly ids C (h ++ [op]) := by
  intro b o a e
  rcases List.eq_nil_or_concat a with rfl | ⟨a', x, rfl⟩
  · obtain ⟨rfl, e2⟩ := List.append_inj' e rfl
    have e3 := (List.cons.inj e2).1
    rw [← e3]
    exact ha
  · have e' : h ++ [op] = (b ++ o :: a') ++ [x] := by rw [e]; simp
    obtain ⟨rfl, -⟩ := List.append_inj' e' rfl
    exact ho b o a' rfl

theorem allocate_fresh (D : Nat) (f : UniqueId → Bool) :
    Server.allocate (List.replicate (D + 1) .unassigned) f = (some 0, .reserved :: List.replicate D .unassigned) := by
  have h : (List.replicate (D + 1) Assignment.unassigned).findIdx? (fun a => a.isAssignedAnd f) = none := by
    rw [List.findIdx?_eq_none_iff]
    intro a ha
    rw [List.eq_of_mem_replicate ha]
    rfl
  unfold Server.allocate
  rw [h, List.reverse_replicate, List.replicate_succ, List.findIdx?_cons]
  rfl

/-- The table of the server after an orderly history. -/
structure Static (ids : IdOps N) (C : Nat) (h : List (ServerOp N Tid E)) (s : Server) : Prop where
  length : s.length = C
  entry : ∀ i, i < C → s[i]? = some (match owner ids h i with | some u => .assigned u | none => .unassigned)
  bound : ∀ i u, owner ids h i = some u → i < C

theorem Static.find {ids : IdOps N} {C : Nat} {h : List (ServerOp N Tid E)} {s : Server} (hs : Static ids C h s) {f : UniqueId → Bool}
    {i : Nat} {u : UniqueId} (hu : owner ids h i = some u) (hf : f u = true) :
    ∃ j w, s.allocate f = (some j, s) ∧ owner ids h j = some w ∧ f w = true ∧ ∀ k, k < j → ∀ x, owner ids h k = some x → f x = false := by
  have hi := hs.bound i u hu
  cases hj : s.findIdx? fun a => a.isAssignedAnd f with
  | none =>
    exfalso
    rw [List.findIdx?_eq_none_iff] at hj
    have he := hs.entry i hi
    rw [hu] at he
    have := hj _ (List.mem_of_getElem? he)
    simp [Assignment.isAssignedAnd, hf] at this
  | some j =>
    have ha : s.allocate f = (some j, s) := by unfold Server.allocate; rw [hj]
    obtain ⟨g1, g2, g3⟩ := List.findIdx?_eq_some_iff_getElem.1 hj
    have hjc : j < C := by rw [← hs.length]; exact g1
    have he := hs.entry j hjc
    rw [List.getElem?_eq_getElem g1] at he
    injection he with he
    rw [he] at g2
    cases ho : owner ids h j with
    | none => rw [ho] at g2; simp [Assignment.isAssignedAnd] at g2
    | some w =>
      rw [ho] at g2
      refine ⟨j, w, ha, ho, g2, fun k hk x hx => ?_⟩
      have hkc : k < C := by omega
      have hek := hs.entry k hkc
      have hkl : k < s.length := by omega
      rw [List.getElem?_eq_getElem hkl, hx] at hek
      injection hek with hek
      have := g3 k hk
      rw [hek] at this
      simpa [Assignment.isAssignedAnd] using this

theorem static_nil (ids : IdOps N) (C : Nat) : Static ids C ([] : List (ServerOp N Tid E)) (List.replicate C .unassigned) where
  length := List.length_replicate
  entry i hi := by rw [List.getElem?_replicate, if_pos hi]; rfl
  bound i u h := by cases h

theorem Static.same {ids : IdOps N} {C : Nat} {h : List (ServerOp N Tid E)} {s : Server} (hs : Static ids C h s) {op : ServerOp N Tid E}
    (hop : ∀ id u, op ≠ .assign id u) : Static ids C (h ++ [op]) s := by
  have e : ∀ i, owner ids (h ++ [op]) i = owner ids h i := by
    intro i
    rw [owner_snoc]
    cases op with
    | assign id u => exact absurd rfl (hop id u)
    | _ => simp
  exact ⟨hs.length, fun i hi => by rw [e]; exact hs.entry i hi, fun i u hu => hs.bound i u (by rw [← e]; exact hu)⟩

/-- One event of an orderly history. -/
theorem static_step {ids : IdOps N} (hl : ids.Lawful) (ops : TidOps Tid) (tops : TrackerOps N Tid Trk) {C : Nat}
    (hC : C ≤ (ids.toU16 ids.max).toNat + 1) {h : List (ServerOp N Tid E)} {s : Server} (hs : Static ids C h s) (node : CoreNode N Tid Trk)
    {op : ServerOp N Tid E} (ho : Allowed ids C h op) :
    ∃ s' node' sent, Server.step ops tops ids (s, node) op = some ((s', node'), sent) ∧ Static ids C (h ++ [op]) s' ∧
      ∀ (v : Version) t pr, Publishes node v.subject t pr → Publishes node' v.subject t pr := by
  cases op with
  | assign id u =>
    have ho : (ids.toU16 id).toNat < C := ho
    have he := hs.entry _ ho
    unfold Server.step Server.assign
    simp only [he]
    cases hown : owner ids h (ids.toU16 id).toNat with
    | some w =>
      simp only [Assignment.isAssigned, Assignment.isAssignedAnd, if_true, Option.map_some]
      refine ⟨_, _, _, rfl, ?_, fun v t pr hp => hp⟩
      have e : ∀ i, owner ids (h ++ [ServerOp.assign id u]) i = owner ids h i := by
        intro i
        rw [owner_snoc]
        by_cases hi : (ids.toU16 id).toNat = i
        · subst hi; rw [hown]; rfl
        · simp [hi]
      exact ⟨hs.length, fun i hi => by rw [e]; exact hs.entry i hi, fun i u hu => hs.bound i u (by rw [← e]; exact hu)⟩
    | none =>
      simp only [Assignment.isAssigned, Assignment.isAssignedAnd, Bool.false_eq_true, if_false, Option.map_some]
      refine ⟨_, _, _, rfl, ⟨?_, fun i hi => ?_, fun i w hw => ?_⟩, fun v t pr hp => hp⟩
      · rw [List.length_set, hs.length]
      · rw [owner_snoc]
        by_cases hi' : (ids.toU16 id).toNat = i
        · subst hi'
          rw [List.getElem?_set_self (by rw [hs.length]; exact ho), hown]
          simp
        · rw [List.getElem?_set_ne hi', hs.entry i hi]
          simp [hi']
      · rw [owner_snoc] at hw
        by_cases hi' : (ids.toU16 id).toNat = i
        · rw [← hi']; exact ho
        · simp [hi'] at hw; exact hs.bound i w hw
  | other op =>
    have ho : ∀ v : Version, ¬ op.stopsPublishing v.subject := ho
    exact ⟨_, _, _, rfl, hs.same (by simp), fun v t pr hp => hp.step op (ho v)⟩
  | message env header p =>
    obtain ⟨ho1, ho2⟩ : (∀ v : Version, header.subject = v.subject → wellFormed v p = true → ∃ i u, owner ids h i = some u ∧ isAbout v p u = true) ∧
      (header.subject = heartbeatSubject → ∀ id, header.source = some id → (owner ids h (ids.toU16 id).toNat).isSome = true) := ho
    have hsame : Static ids C (h ++ [ServerOp.message env header p]) s := hs.same (by simp)
    unfold Server.step
    simp only
    rcases subject_cases header.subject p with ⟨v, hv, hw⟩ | ⟨v, hv, hw⟩ | hb | ⟨h1, h2⟩
    · obtain ⟨i, u, hu, hf⟩ := ho1 v hv hw
      obtain ⟨j, w, ha, -, -, -⟩ := hs.find hu hf
      obtain ⟨out, g1, -, g3, -, -, g6⟩ := handle_allocation hl ops v s node env header p hv hw (by rw [hs.length]; exact hC)
      rw [ha] at g3 g6
      obtain ⟨payload, -, g7, -⟩ := g6 j rfl
      rw [g1]
      refine ⟨_, _, _, rfl, ?_, fun v' t pr hp => ?_⟩
      · rw [g3]; exact hsame
      · rw [g7]; exact Publishes.publish tops hp env v.subject payload false
    · rw [handle_malformed ops ids v s node env header p hv hw]
      exact ⟨_, _, _, rfl, hsame, fun v t pr hp => hp⟩
    · rw [handle_heartbeat ops ids s node env header p hb]
      cases hsrc : header.source with
      | none => exact ⟨_, _, _, rfl, hsame, fun v t pr hp => hp⟩
      | some id =>
        obtain ⟨w, hw⟩ := Option.isSome_iff_exists.1 (ho2 hb id hsrc)
        have he := hs.entry _ (hs.bound _ _ hw)
        rw [hw] at he
        simp only [he, Option.map_some, Assignment.isAssigned, Assignment.isAssignedAnd, if_true]
        exact ⟨_, _, _, rfl, hsame, fun v t pr hp => hp⟩
    · rw [handle_other ops ids s node env header p h1 h2]
      exact ⟨_, _, _, rfl, hsame, fun v t pr hp => hp⟩

theorem static_run {ids : IdOps N} (hl : ids.Lawful) (ops : TidOps Tid) (tops : TrackerOps N Tid Trk) {C : Nat}
    (hC : C ≤ (ids.toU16 ids.max).toNat + 1) (node : CoreNode N Tid Trk) (h : List (ServerOp N Tid E)) :
    Orderly ids C h → ∃ s node', Server.run ops tops ids (List.replicate C .unassigned, node) h = some (s, node') ∧ Static ids C h s ∧
      ∀ (v : Version) t pr, Publishes node v.subject t pr → Publishes node' v.subject t pr := by
  induction h using List.reverseRecOn with
  | nil => exact fun _ => ⟨_, _, rfl, static_nil ids C, fun v t pr hp => hp⟩
  | append_singleton h op ih =>
    intro ho
    obtain ⟨s, node', h1, h2, h3⟩ := ih ho.init.1
    obtain ⟨s', node'', sent, g1, g2, g3⟩ := static_step hl ops tops hC h2 node' ho.init.2
    refine ⟨s', node'', ?_, g2, fun v t pr hp => g3 v t pr (h3 v t pr hp)⟩
    rw [run_snoc, h1, Option.bind_some, g1, Option.map_some]

/-- A new service has joined the subject. -/
theorem join_ok {ops : TidOps Tid} {node node' : CoreNode N Tid Trk} {env : Env E} {subject : SubjectId} {extent : Nat} {rx : List (RxCall N)}
    (h : joinSubject ops node env subject extent = (.ok, node', rx)) :
    node' = (node.startPublishing (E := E) ops subject (milliseconds 1000) nominal).node ∧
      (node.startPublishing (E := E) ops subject (milliseconds 1000) nominal).answer = .ok ∧
      rx = [.subscribeMessage subject extent (milliseconds 1000)] := by
  unfold joinSubject at h
  simp only at h
  split at h
  · split at h
    · rename_i h1 h2
      injection h with _ h
      injection h with h3 h4
      exact ⟨h3.symm, h2, h4.symm⟩
    all_goals (injection h with h _; cases h)
  all_goals (injection h with h _; cases h)

theorem new_spec {ops : TidOps Tid} (tops : TrackerOps N Tid Trk) {ids : IdOps N} {C mtu : Nat} {node node' : CoreNode N Tid Trk} {env env' : Env E}
    {rx : List (RxCall N)} {s : Server} (h : Server.new ops ids C mtu node env env' = (.ok, node', rx, some s)) :
    C = (ids.toU16 ids.max).toNat ∧ s = List.replicate C .unassigned ∧ Publishes node' Version.one.subject (milliseconds 1000) nominal ∧
      (18 ≤ mtu → Publishes node' Version.two.subject (milliseconds 1000) nominal) ∧
      rx = [.subscribeMessage Version.one.subject 9 (milliseconds 1000)] ++
        (if 18 ≤ mtu then [.subscribeMessage Version.two.subject 18 (milliseconds 1000)] else []) := by
  unfold Server.new at h
  split at h
  · rename_i hC
    refine ⟨hC, ?_⟩
    split at h
    · rename_i n1 rx1 h1
      obtain ⟨rfl, g2, rfl⟩ := join_ok h1
      have p1 := start_publishes g2
      have hx : (version2 ids).payloadSizeMax = 18 := rfl
      rw [hx] at h
      by_cases hm : 18 ≤ mtu
      · rw [if_pos hm] at h
        split at h
        · rename_i n2 rx2 h2
          obtain ⟨rfl, k2, rfl⟩ := join_ok h2
          injection h with _ h
          injection h with h3 h
          injection h with h4 h5
          injection h5 with h5
          subst h3 h4 h5
          refine ⟨rfl, ?_, fun _ => start_publishes k2, by rw [if_pos hm]; rfl⟩
          exact Publishes.step (tops := tops) p1 (.startPublishing env (version2 ids).subject (milliseconds 1000) nominal) (by simp [Op.stopsPublishing])
        · injection h with _ h
          injection h with _ h
          injection h with _ h
          cases h
      · rw [if_neg hm] at h
        injection h with _ h
        injection h with h3 h
        injection h with h4 h5
        injection h5 with h5
        subst h3 h4 h5
        exact ⟨rfl, p1, fun h => absurd h hm, by rw [if_neg hm]; rfl⟩
    · injection h with _ h
      injection h with _ h
      injection h with _ h
      cases h
  · injection h with _ h
    injection h with _ h
    injection h with _ h
    cases h

end Verif.Pnp
