import Mathlib.Order.Basic
import Verif.Node.Spec
import Verif.Can.TidProps
import Mathlib.Logic.Function.Iterate
import Mathlib.Data.List.Perm.Basic

/-!
Lemmas about bounded maps and about one call of a node function.
-/

namespace Verif.Node

open List (Perm)
open scoped List

namespace IMap
variable {K V : Type} [DecidableEq K]

theorem get?_nil (k : K) : IMap.get? ([] : IMap K V) k = none := rfl

theorem get?_cons (e : K × V) (m : IMap K V) (k : K) : IMap.get? (e :: m) k = if e.1 = k then some e.2 else IMap.get? m k := by
  unfold get?
  rw [List.find?_cons]
  by_cases h : e.1 = k <;> simp [h]

theorem contains_eq (m : IMap K V) (k : K) : m.contains k = (m.get? k).isSome := by
  induction m with
  | nil => rfl
  | cons e m ih =>
    rw [get?_cons]
    have : IMap.contains (e :: m) k = (decide (e.1 = k) || IMap.contains m k) := rfl
    rw [this, ih]
    by_cases h : e.1 = k <;> simp [h]

theorem get?_put (m : IMap K V) (k k' : K) (v : V) :
    IMap.get? (m.put k v) k' = if k' = k then (m.get? k').map (fun _ => v) else m.get? k' := by
  induction m with
  | nil => simp [put, get?]
  | cons e m ih =>
    have : IMap.put (e :: m) k v = (if e.1 = k then (k, v) else e) :: IMap.put m k v := rfl
    rw [this, get?_cons, get?_cons, ih]
    by_cases h : e.1 = k
    · by_cases h' : k' = k
      · simp [h, h']
      · have : ¬ k = k' := fun h => h' h.symm
        simp [h, h', this]
    · by_cases h' : k' = k
      · subst h'; simp [h]
      · simp [h, h']

theorem get?_append (m m' : IMap K V) (k : K) : IMap.get? (m ++ m' : IMap K V) k = (m.get? k).or (IMap.get? m' k) := by
  induction m with
  | nil => simp [get?]
  | cons e m ih =>
    rw [List.cons_append, get?_cons, get?_cons, ih]
    by_cases h : e.1 = k <;> simp [h]

theorem get?_insert {m m' : IMap K V} {cap : Nat} {k : K} {v : V} (h : m.insert cap k v = some m') (k' : K) :
    m'.get? k' = if k' = k then some v else m.get? k' := by
  unfold insert at h
  rw [contains_eq] at h
  split at h
  · rename_i hc
    injection h with h
    subst h
    rw [get?_put]
    by_cases hk : k' = k
    · subst hk
      obtain ⟨w, hw⟩ := Option.isSome_iff_exists.1 hc
      simp [hw]
    · simp [hk]
  · rename_i hc
    split at h
    · injection h with h
      subst h
      rw [get?_append, get?_cons]
      by_cases hk : k' = k
      · subst hk
        rw [Option.not_isSome_iff_eq_none] at hc
        simp [hc]
      · have : ¬ k = k' := fun h => hk h.symm
        simp [hk, this, get?]
    · exact absurd h (by simp)

theorem get?_remove (m : IMap K V) (k k' : K) : IMap.get? (m.remove k) k' = if k' = k then none else m.get? k' := by
  induction m with
  | nil => simp [remove, get?]
  | cons e m ih =>
    have hr : IMap.remove (e :: m) k = if e.1 = k then IMap.remove m k else e :: IMap.remove m k := by
      unfold remove
      rw [List.filter_cons]
      by_cases h : e.1 = k <;> simp [h]
    rw [hr, get?_cons]
    by_cases h : e.1 = k
    · rw [if_pos h, ih]
      by_cases h' : k' = k
      · simp [h']
      · have : ¬ e.1 = k' := fun h'' => h' (h''.symm.trans h)
        simp [h', this]
    · rw [if_neg h, get?_cons, ih]
      by_cases h' : k' = k
      · subst h'; simp [h]
      · simp [h']

theorem mem_keys (m : IMap K V) (k : K) : k ∈ m.map Prod.fst ↔ (m.get? k).isSome := by
  induction m with
  | nil => simp [get?]
  | cons e m ih =>
    rw [get?_cons, List.map_cons, List.mem_cons, ih]
    by_cases h : e.1 = k
    · simp [h]
    · have : ¬ k = e.1 := fun h' => h h'.symm
      simp [h, this]

theorem keys_put (m : IMap K V) (k : K) (v : V) : (m.put k v).map Prod.fst = m.map Prod.fst := by
  induction m with
  | nil => rfl
  | cons e m ih =>
    have : IMap.put (e :: m) k v = (if e.1 = k then (k, v) else e) :: IMap.put m k v := rfl
    rw [this, List.map_cons, List.map_cons, ih]
    by_cases h : e.1 = k <;> simp [h]

/-- The entries have different keys and there are at most `cap` of them. -/
def Valid (m : IMap K V) (cap : Nat) : Prop := (m.map Prod.fst).Nodup ∧ m.length ≤ cap

theorem Valid.put {m : IMap K V} {cap : Nat} (h : m.Valid cap) (k : K) (v : V) : IMap.Valid (m.put k v) cap := by
  refine ⟨by rw [keys_put]; exact h.1, ?_⟩
  simpa [IMap.put] using h.2

theorem Valid.insert {m m' : IMap K V} {cap : Nat} (h : m.Valid cap) {k : K} {v : V} (hi : m.insert cap k v = some m') : IMap.Valid m' cap := by
  unfold IMap.insert at hi
  split at hi
  · injection hi with hi; subst hi; exact h.put k v
  · rename_i hc
    split at hi
    · rename_i hl
      injection hi with hi
      subst hi
      have hk : k ∉ m.map Prod.fst := by
        rw [mem_keys, ← contains_eq]; exact hc
      refine ⟨?_, by simp; omega⟩
      rw [List.map_append, List.map_cons, List.map_nil]
      rw [List.nodup_append]
      refine ⟨h.1, by simp, ?_⟩
      intro a ha b hb
      rw [List.mem_singleton] at hb
      subst hb
      exact fun he => hk (he ▸ ha)
    · exact absurd hi (by simp)

theorem Valid.remove {m : IMap K V} {cap : Nat} (h : m.Valid cap) (k : K) : IMap.Valid (m.remove k) cap := by
  unfold IMap.remove
  refine ⟨?_, Nat.le_trans (List.length_filter_le _ _) h.2⟩
  exact h.1.sublist (List.filter_sublist.map _)

end IMap

variable {N Tid Trk E : Type}

/-! ### Messages -/

theorem messageIds_append (s : SubjectId) (a b : List (Transfer N Tid)) : messageIds s (a ++ b) = messageIds s a ++ messageIds s b := by
  simp [messageIds]

theorem requestIds_append [DecidableEq N] (s : ServiceId) (d : N) (a b : List (Transfer N Tid)) :
    requestIds s d (a ++ b) = requestIds s d a ++ requestIds s d b := by
  simp [requestIds]

theorem handedOver_cons (o : Out N Tid Trk E) (os : List (Out N Tid Trk E)) : handedOver (o :: os) = o.sent ++ handedOver os := by
  simp [handedOver]

/-- What `Requester::send` may hand over: nothing, or one request with the service and destination of the call. -/
theorem Requester.send_sent (tops : TrackerOps N Tid Trk) (r : Requester Trk) (env : Env E) (source : N) (service : ServiceId)
    (payload : Payload) (destination : N) (loopback : Bool) :
    (r.send tops env source service payload destination loopback).2.2 = [] ∨
      ∃ h b, (r.send tops env source service payload destination loopback).2.2 = [⟨.request h, loopback, b⟩] ∧ h.service = service ∧
        h.destination = destination := by
  unfold Requester.send
  split
  · exact .inl rfl
  · exact .inl rfl
  · split
    · exact .inl rfl
    · exact .inr ⟨_, _, rfl, rfl, rfl⟩

/-- What `Publisher::publish` may hand over. -/
theorem Publisher.publish_sent (ops : TidOps Tid) (p : Publisher Tid) (env : Env E) (source : Option N) (subject : SubjectId)
    (payload : Payload) (loopback : Bool) :
    ((p.publish ops env source subject payload loopback).2.2 = [] ∧ (p.publish ops env source subject payload loopback).2.1 = p) ∨
      ∃ b, (p.publish ops env source subject payload loopback).2.2 =
          [⟨.message ⟨env.now.plus p.timeout, p.nextTransferId, p.priority, subject, source⟩, loopback, b⟩] ∧
        (p.publish ops env source subject payload loopback).2.1 = { p with nextTransferId := ops.increment p.nextTransferId } := by
  unfold Publisher.publish
  split
  · exact .inl ⟨rfl, rfl⟩
  · exact .inl ⟨rfl, rfl⟩
  · exact .inr ⟨_, rfl, rfl⟩

theorem step_publisher (ops : TidOps Tid) (tops : TrackerOps N Tid Trk) (n : CoreNode N Tid Trk) (op : Op N Tid E) (s : SubjectId)
    (p : Publisher Tid) (hp : n.publishers.get? s = some p) (hop : ¬ op.stopsPublishing s) :
    (messageIds s (n.step ops tops op).sent = [] ∧ (n.step ops tops op).node.publishers.get? s = some p) ∨
    (messageIds s (n.step ops tops op).sent = [p.nextTransferId] ∧
      (n.step ops tops op).node.publishers.get? s = some { p with nextTransferId := ops.increment p.nextTransferId }) := by
  cases op with
  | startPublishing env s' t pr =>
    left
    simp only [CoreNode.step, CoreNode.startPublishing]
    split
    · exact ⟨rfl, hp⟩
    · rename_i hc
      split
      · rename_i m hm
        refine ⟨rfl, ?_⟩
        rw [IMap.get?_insert hm]
        have : ¬ s = s' := by
          rintro rfl
          rw [IMap.contains_eq, hp] at hc
          exact hc rfl
        rw [if_neg this]; exact hp
      · exact ⟨rfl, hp⟩
  | stopPublishing env s' =>
    left
    refine ⟨rfl, ?_⟩
    have : ¬ s = s' := fun h => hop h.symm
    show IMap.get? (n.publishers.remove s') s = _
    rw [IMap.get?_remove, if_neg this]; exact hp
  | publish env s' pl l =>
    simp only [CoreNode.step, CoreNode.publish]
    split
    · exact .inl ⟨rfl, hp⟩
    · rename_i q hq
      simp only
      rw [IMap.get?_put]
      by_cases h : s = s'
      · subst h
        rw [hp] at hq
        injection hq with hq
        subst hq
        simp only [if_true, hp, Option.map_some]
        rcases p.publish_sent ops env n.nodeId s pl l with ⟨h1, h2⟩ | ⟨b, h1, h2⟩
        · left; rw [h1, h2]; exact ⟨rfl, rfl⟩
        · right; rw [h1, h2]; simp [messageIds]
      · left
        rw [if_neg h]
        refine ⟨?_, hp⟩
        have hne : ¬ s' = s := fun h' => h h'.symm
        rcases q.publish_sent ops env n.nodeId s' pl l with ⟨h1, h2⟩ | ⟨b, h1, h2⟩
        · rw [h1]; rfl
        · rw [h1]; simp [messageIds, hne]
  | startSendingRequests env s' t x pr =>
    left
    simp only [CoreNode.step, CoreNode.startSendingRequests]
    split
    · exact ⟨rfl, hp⟩
    · split
      · exact ⟨rfl, hp⟩
      · split
        · exact ⟨rfl, hp⟩
        · split <;> exact ⟨rfl, hp⟩
  | stopSendingRequests env s' => exact .inl ⟨rfl, hp⟩
  | sendRequest env s' pl d l =>
    left
    simp only [CoreNode.step, CoreNode.sendRequest]
    split
    · exact ⟨rfl, hp⟩
    · rename_i r hr
      split
      · exact ⟨rfl, hp⟩
      · rename_i id _
        refine ⟨?_, hp⟩
        rcases r.send_sent tops env id s' pl d l with h | ⟨h, b, h1, -, -⟩
        · simp only [h]; rfl
        · simp only [h1]; rfl
  | subscribeMessage env s' x t => exact .inl ⟨rfl, hp⟩
  | unsubscribeMessage env s' => exact .inl ⟨rfl, hp⟩
  | subscribeRequest env s' x t => exact .inl ⟨rfl, hp⟩
  | unsubscribeRequest env s' => exact .inl ⟨rfl, hp⟩
  | sendResponse env k t pl =>
    left
    simp only [CoreNode.step, CoreNode.sendResponse]
    split
    · exact ⟨rfl, hp⟩
    · exact ⟨rfl, hp⟩
    · split
      · exact ⟨rfl, hp⟩
      · exact ⟨rfl, hp⟩
  | setNodeId env id => exact .inl ⟨rfl, hp⟩

theorem run_publisher (ops : TidOps Tid) (tops : TrackerOps N Tid Trk) (s : SubjectId) (history : List (Op N Tid E)) :
    ∀ (n : CoreNode N Tid Trk) (p : Publisher Tid), n.publishers.get? s = some p → (∀ op ∈ history, ¬ op.stopsPublishing s) →
      ∃ k, messageIds s (handedOver (n.run ops tops history).1) = (List.range k).map (fun i => ops.increment^[i] p.nextTransferId) ∧
        (n.run ops tops history).2.publishers.get? s = some { p with nextTransferId := ops.increment^[k] p.nextTransferId } := by
  induction history with
  | nil => intro n p hp _; exact ⟨0, rfl, hp⟩
  | cons op rest ih =>
    intro n p hp hops
    have hrun : n.run ops tops (op :: rest) =
      ((n.step ops tops op) :: ((n.step ops tops op).node.run ops tops rest).1, ((n.step ops tops op).node.run ops tops rest).2) := rfl
    rw [hrun]
    simp only [handedOver_cons, messageIds_append]
    rcases step_publisher ops tops n op s p hp (hops op (by simp)) with ⟨h1, h2⟩ | ⟨h1, h2⟩
    · obtain ⟨k, hk, hk'⟩ := ih _ p h2 (fun o ho => hops o (by simp [ho]))
      exact ⟨k, by rw [h1, hk]; rfl, hk'⟩
    · obtain ⟨k, hk, hk'⟩ := ih _ _ h2 (fun o ho => hops o (by simp [ho]))
      refine ⟨k + 1, ?_, ?_⟩
      · rw [h1, hk, List.range_succ_eq_map]
        simp [Function.iterate_succ_apply]
      · rw [hk']
        simp [Function.iterate_succ_apply]

/-! ### Requests -/

/-- One request: what was handed over and what the tracker then says, in terms of the number of requests for each destination. -/
theorem Requester.send_counts [DecidableEq N] {ops : TidOps Tid} {tops : TrackerOps N Tid Trk} {view : Trk → (N → Nat) → Prop}
    (hv : Counts ops tops view) (r : Requester Trk) (c : N → Nat) (hc : view r.transferIds c) (env : Env E) (source : N) (s : ServiceId)
    (payload : Payload) (d : N) (loopback : Bool) :
    (r.send tops env source s payload d loopback).2.1.priority = r.priority ∧
    (r.send tops env source s payload d loopback).2.1.timeout = r.timeout ∧
    ∃ c', view (r.send tops env source s payload d loopback).2.1.transferIds c' ∧
      ∀ e, requestIds s e (r.send tops env source s payload d loopback).2.2 =
          (List.range (c' e - c e)).map (fun i => ops.increment^[c e + i] ops.dflt) ∧ c e ≤ c' e := by
  unfold Requester.send
  split
  · exact ⟨rfl, rfl, c, hc, fun e => by simp [requestIds]⟩
  · exact ⟨rfl, rfl, c, hc, fun e => by simp [requestIds]⟩
  · split
    · rename_i trk h
      exact ⟨rfl, rfl, c, hv.refused _ _ _ _ hc h, fun e => by simp [requestIds]⟩
    · rename_i id trk h
      obtain ⟨hid, c', hc', h1, h2⟩ := hv.given _ _ _ _ _ hc h
      refine ⟨rfl, rfl, c', hc', fun e => ?_⟩
      by_cases he : e = d
      · subst he
        rw [h1]
        simp [requestIds, hid]
      · rw [h2 e he]
        have : ¬ d = e := fun h => he h.symm
        simp [requestIds, this]

theorem step_requester [DecidableEq N] {ops : TidOps Tid} {tops : TrackerOps N Tid Trk} {view : Trk → (N → Nat) → Prop}
    (hv : Counts ops tops view) (n : CoreNode N Tid Trk) (op : Op N Tid E) (s : ServiceId) (r : Requester Trk) (c : N → Nat)
    (hr : n.requesters.get? s = some r) (hc : view r.transferIds c) (hop : ¬ op.stopsRequests s) :
    ∃ r' c', (n.step ops tops op).node.requesters.get? s = some r' ∧ view r'.transferIds c' ∧ r'.priority = r.priority ∧
      r'.timeout = r.timeout ∧ ∀ e, requestIds s e (n.step ops tops op).sent =
        (List.range (c' e - c e)).map (fun i => ops.increment^[c e + i] ops.dflt) ∧ c e ≤ c' e := by
  have same : ∀ o : Out N Tid Trk E, o.node.requesters.get? s = some r → (∀ e, requestIds s e o.sent = []) →
      ∃ r' c', o.node.requesters.get? s = some r' ∧ view r'.transferIds c' ∧ r'.priority = r.priority ∧
      r'.timeout = r.timeout ∧ ∀ e, requestIds s e o.sent = (List.range (c' e - c e)).map (fun i => ops.increment^[c e + i] ops.dflt) ∧ c e ≤ c' e :=
    fun o h1 h2 => ⟨r, c, h1, hc, rfl, rfl, fun e => ⟨by rw [h2 e]; simp, Nat.le_refl _⟩⟩
  cases op with
  | startPublishing env s' t pr =>
    simp only [CoreNode.step, CoreNode.startPublishing]
    split
    · exact same _ hr fun e => rfl
    · split <;> exact same _ hr fun e => rfl
  | stopPublishing env s' => exact same _ hr fun e => rfl
  | publish env s' pl l =>
    simp only [CoreNode.step, CoreNode.publish]
    split
    · exact same _ hr fun e => rfl
    · rename_i q hq
      refine same _ hr fun e => ?_
      rcases q.publish_sent ops env n.nodeId s' pl l with ⟨h1, h2⟩ | ⟨b, h1, h2⟩
      · simp only [h1]; rfl
      · simp only [h1]; rfl
  | startSendingRequests env s' t x pr =>
    simp only [CoreNode.step, CoreNode.startSendingRequests]
    split
    · exact same _ hr fun e => rfl
    · split
      · exact same _ hr fun e => rfl
      · rename_i hcon
        have hne : ¬ s = s' := by
          rintro rfl
          rw [IMap.contains_eq, hr] at hcon
          exact hcon rfl
        split
        · exact same _ hr fun e => rfl
        · rename_i m hm
          have hm' : IMap.get? m s = some r := by rw [IMap.get?_insert hm, if_neg hne]; exact hr
          split
          · exact same _ hm' fun e => rfl
          · exact same _ (by show IMap.get? (IMap.remove m s') s = _; rw [IMap.get?_remove, if_neg hne]; exact hm') fun e => rfl
          · exact same _ (by show IMap.get? (IMap.remove m s') s = _; rw [IMap.get?_remove, if_neg hne]; exact hm') fun e => rfl
  | stopSendingRequests env s' =>
    have : ¬ s = s' := fun h => hop h.symm
    refine same _ ?_ fun e => rfl
    show IMap.get? (n.requesters.remove s') s = _
    rw [IMap.get?_remove, if_neg this]; exact hr
  | sendRequest env s' pl d l =>
    simp only [CoreNode.step, CoreNode.sendRequest]
    split
    · exact same _ hr fun e => rfl
    · rename_i q hq
      split
      · exact same _ hr fun e => rfl
      · rename_i id _
        by_cases h : s = s'
        · subst h
          rw [hr] at hq
          injection hq with hq
          subst hq
          obtain ⟨hp, ht, c', hc', he⟩ := Requester.send_counts hv r c hc env id s pl d l
          refine ⟨_, c', ?_, hc', hp, ht, he⟩
          simp only
          rw [IMap.get?_put, if_pos rfl, hr]
          rfl
        · refine same _ (by simp only; rw [IMap.get?_put, if_neg h]; exact hr) fun e => ?_
          have hne : ¬ s' = s := fun h' => h h'.symm
          rcases q.send_sent tops env id s' pl d l with h1 | ⟨hd, b, h1, h2, -⟩
          · simp only [h1]; rfl
          · simp only [h1]; simp [requestIds, h2, hne]
  | subscribeMessage env s' x t => exact same _ hr fun e => rfl
  | unsubscribeMessage env s' => exact same _ hr fun e => rfl
  | subscribeRequest env s' x t => exact same _ hr fun e => rfl
  | unsubscribeRequest env s' => exact same _ hr fun e => rfl
  | sendResponse env k t pl =>
    simp only [CoreNode.step, CoreNode.sendResponse]
    split
    · exact same _ hr fun e => rfl
    · exact same _ hr fun e => rfl
    · split <;> exact same _ hr fun e => rfl
  | setNodeId env id => exact same _ hr fun e => rfl

theorem range_split (f : Nat → Tid) (a b c : Nat) (h1 : a ≤ b) (h2 : b ≤ c) :
    (List.range (b - a)).map (fun i => f (a + i)) ++ (List.range (c - b)).map (fun i => f (b + i)) =
      (List.range (c - a)).map (fun i => f (a + i)) := by
  have : c - a = (b - a) + (c - b) := by omega
  rw [this, List.range_add, List.map_append, List.map_map]
  congr 1
  apply List.map_congr_left
  intro i _
  simp only [Function.comp]
  congr 1
  omega

theorem run_requester [DecidableEq N] {ops : TidOps Tid} {tops : TrackerOps N Tid Trk} {view : Trk → (N → Nat) → Prop}
    (hv : Counts ops tops view) (s : ServiceId) (history : List (Op N Tid E)) :
    ∀ (n : CoreNode N Tid Trk) (r : Requester Trk) (c : N → Nat), n.requesters.get? s = some r → view r.transferIds c →
      (∀ op ∈ history, ¬ op.stopsRequests s) →
      ∃ r' c', (n.run ops tops history).2.requesters.get? s = some r' ∧ view r'.transferIds c' ∧ r'.priority = r.priority ∧
        r'.timeout = r.timeout ∧ ∀ e, requestIds s e (handedOver (n.run ops tops history).1) =
          (List.range (c' e - c e)).map (fun i => ops.increment^[c e + i] ops.dflt) ∧ c e ≤ c' e := by
  induction history with
  | nil => intro n r c hr hc _; exact ⟨r, c, hr, hc, rfl, rfl, fun e => by simp [CoreNode.run, handedOver, requestIds]⟩
  | cons op rest ih =>
    intro n r c hr hc hops
    have hrun : n.run ops tops (op :: rest) =
      ((n.step ops tops op) :: ((n.step ops tops op).node.run ops tops rest).1, ((n.step ops tops op).node.run ops tops rest).2) := rfl
    rw [hrun]
    simp only [handedOver_cons, requestIds_append]
    obtain ⟨r1, c1, h1, h2, h3, h4, h5⟩ := step_requester hv n op s r c hr hc (hops op (by simp))
    obtain ⟨r2, c2, g1, g2, g3, g4, g5⟩ := ih _ r1 c1 h1 h2 (fun o ho => hops o (by simp [ho]))
    refine ⟨r2, c2, g1, g2, g3.trans h3, g4.trans h4, fun e => ⟨?_, Nat.le_trans (h5 e).2 (g5 e).2⟩⟩
    rw [(h5 e).1, (g5 e).1]
    exact range_split (fun i => ops.increment^[i] ops.dflt) _ _ _ (h5 e).2 (g5 e).2

/-! ### Which ports are started -/

/-- The maps of a node have different keys and keep within their capacities. -/
def CoreNode.Valid (n : CoreNode N Tid Trk) : Prop := n.publishers.Valid n.pubCap ∧ n.requesters.Valid n.reqCap

/-- What one call does to the two maps, as sets of keys. -/
theorem step_ports (ops : TidOps Tid) (tops : TrackerOps N Tid Trk) (n : CoreNode N Tid Trk) (op : Op N Tid E) (hn : n.Valid)
    (tr : List (Op N Tid E × Answer Tid E)) (hp : ∀ s, (n.publishers.get? s).isSome = publishing s tr)
    (hr : ∀ s, (n.requesters.get? s).isSome = requesting s tr) :
    (n.step ops tops op).node.Valid ∧ (n.step ops tops op).node.pubCap = n.pubCap ∧ (n.step ops tops op).node.reqCap = n.reqCap ∧
    (∀ s, ((n.step ops tops op).node.publishers.get? s).isSome = publishing s ((op, (n.step ops tops op).answer) :: tr)) ∧
    (∀ s, ((n.step ops tops op).node.requesters.get? s).isSome = requesting s ((op, (n.step ops tops op).answer) :: tr)) := by
  cases op with
  | startPublishing env s' t pr =>
    simp only [CoreNode.step, CoreNode.startPublishing]
    split
    · rename_i hc
      refine ⟨hn, rfl, rfl, fun s => ?_, hr⟩
      simp only [publishing]
      split
      · exact hp s
      · exact hp s
    · rename_i hc
      split
      · rename_i m hm
        refine ⟨⟨hn.1.insert hm, hn.2⟩, rfl, rfl, fun s => ?_, hr⟩
        simp only [publishing]
        rw [IMap.get?_insert hm]
        by_cases h : s = s'
        · subst h; simp
        · have : ¬ s' = s := fun h' => h h'.symm
          rw [if_neg h, if_neg this]; exact hp s
      · refine ⟨hn, rfl, rfl, fun s => ?_, hr⟩
        simp only [publishing]
        split
        · exact hp s
        · exact hp s
  | stopPublishing env s' =>
    refine ⟨⟨hn.1.remove _, hn.2⟩, rfl, rfl, fun s => ?_, hr⟩
    simp only [publishing, CoreNode.step, CoreNode.stopPublishing]
    rw [IMap.get?_remove]
    by_cases h : s = s'
    · subst h; simp
    · have : ¬ s' = s := fun h' => h h'.symm
      rw [if_neg h, if_neg this]; exact hp s
  | publish env s' pl l =>
    simp only [CoreNode.step, CoreNode.publish]
    split
    · exact ⟨hn, rfl, rfl, hp, hr⟩
    · refine ⟨⟨hn.1.put _ _, hn.2⟩, rfl, rfl, fun s => ?_, hr⟩
      simp only [publishing]
      rw [IMap.get?_put, ← hp s]
      split <;> simp
  | startSendingRequests env s' t x pr =>
    simp only [CoreNode.step, CoreNode.startSendingRequests]
    have same : ∀ (a : Answer Tid E), a ≠ .token → ∀ s, (n.requesters.get? s).isSome =
        requesting s ((Op.startSendingRequests env s' t x pr, a) :: tr) := by
      intro a ha s
      simp only [requesting]
      cases a <;> simp_all
    split
    · exact ⟨hn, rfl, rfl, hp, same _ (by simp)⟩
    · split
      · exact ⟨hn, rfl, rfl, hp, same _ (by simp)⟩
      · rename_i hc
        split
        · exact ⟨hn, rfl, rfl, hp, same _ (by simp)⟩
        · rename_i m hm
          have hback : ∀ s, (IMap.get? (IMap.remove m s') s).isSome = (n.requesters.get? s).isSome := by
            intro s
            rw [IMap.get?_remove, IMap.get?_insert hm]
            by_cases h : s = s'
            · subst h
              rw [IMap.contains_eq] at hc
              simp at hc
              simp [hc]
            · simp [h]
          split
          · refine ⟨⟨hn.1, hn.2.insert hm⟩, rfl, rfl, hp, fun s => ?_⟩
            simp only [requesting]
            rw [IMap.get?_insert hm]
            by_cases h : s = s'
            · subst h; simp
            · have : ¬ s' = s := fun h' => h h'.symm
              rw [if_neg h, if_neg this]; exact hr s
          · exact ⟨⟨hn.1, (hn.2.insert hm).remove _⟩, rfl, rfl, hp, fun s => (hback s).trans (same _ (by simp) s)⟩
          · exact ⟨⟨hn.1, (hn.2.insert hm).remove _⟩, rfl, rfl, hp, fun s => (hback s).trans (same _ (by simp) s)⟩
  | stopSendingRequests env s' =>
    refine ⟨⟨hn.1, hn.2.remove _⟩, rfl, rfl, hp, fun s => ?_⟩
    simp only [requesting, CoreNode.step, CoreNode.stopSendingRequests]
    rw [IMap.get?_remove]
    by_cases h : s = s'
    · subst h; simp
    · have : ¬ s' = s := fun h' => h h'.symm
      rw [if_neg h, if_neg this]; exact hr s
  | sendRequest env s' pl d l =>
    simp only [CoreNode.step, CoreNode.sendRequest]
    split
    · exact ⟨hn, rfl, rfl, hp, hr⟩
    · split
      · exact ⟨hn, rfl, rfl, hp, hr⟩
      · refine ⟨⟨hn.1, hn.2.put _ _⟩, rfl, rfl, hp, fun s => ?_⟩
        simp only [requesting]
        rw [IMap.get?_put, ← hr s]
        split <;> simp
  | subscribeMessage env s' x t => exact ⟨hn, rfl, rfl, hp, hr⟩
  | unsubscribeMessage env s' => exact ⟨hn, rfl, rfl, hp, hr⟩
  | subscribeRequest env s' x t => exact ⟨hn, rfl, rfl, hp, hr⟩
  | unsubscribeRequest env s' => exact ⟨hn, rfl, rfl, hp, hr⟩
  | sendResponse env k t pl =>
    simp only [CoreNode.step, CoreNode.sendResponse]
    split
    · exact ⟨hn, rfl, rfl, hp, hr⟩
    · exact ⟨hn, rfl, rfl, hp, hr⟩
    · split <;> exact ⟨hn, rfl, rfl, hp, hr⟩
  | setNodeId env id => exact ⟨hn, rfl, rfl, hp, hr⟩

theorem run_ports (ops : TidOps Tid) (tops : TrackerOps N Tid Trk) (history : List (Op N Tid E)) :
    ∀ (n : CoreNode N Tid Trk) (tr : List (Op N Tid E × Answer Tid E)), n.Valid →
      (∀ s, (n.publishers.get? s).isSome = publishing s tr) → (∀ s, (n.requesters.get? s).isSome = requesting s tr) →
      (n.run ops tops history).2.Valid ∧ (n.run ops tops history).2.pubCap = n.pubCap ∧ (n.run ops tops history).2.reqCap = n.reqCap ∧
      (∀ s, ((n.run ops tops history).2.publishers.get? s).isSome =
        publishing s ((history.zip ((n.run ops tops history).1.map (·.answer))).reverse ++ tr)) ∧
      (∀ s, ((n.run ops tops history).2.requesters.get? s).isSome =
        requesting s ((history.zip ((n.run ops tops history).1.map (·.answer))).reverse ++ tr)) := by
  induction history with
  | nil => intro n tr hn hp hr; exact ⟨hn, rfl, rfl, hp, hr⟩
  | cons op rest ih =>
    intro n tr hn hp hr
    have hrun : n.run ops tops (op :: rest) =
      ((n.step ops tops op) :: ((n.step ops tops op).node.run ops tops rest).1, ((n.step ops tops op).node.run ops tops rest).2) := rfl
    rw [hrun]
    obtain ⟨h1, h2, h3, h4, h5⟩ := step_ports ops tops n op hn tr hp hr
    obtain ⟨g1, g2, g3, g4, g5⟩ := ih _ _ h1 h4 h5
    refine ⟨g1, g2.trans h2, g3.trans h3, fun s => ?_, fun s => ?_⟩
    · rw [g4 s]; simp
    · rw [g5 s]; simp

/-! ### Trackers -/

/-- The table of a `TransferIdFixedMap` that has given out `c d` IDs for `d`. -/
def FixedMapView [DecidableEq N] (ops : TidOps Tid) (m : IMap N Tid) (c : N → Nat) : Prop :=
  ∀ d, m.get? d = if c d = 0 then none else some (ops.increment^[c d] ops.dflt)

theorem fixedMap_counts [DecidableEq N] (ops : TidOps Tid) (cap : Nat) : Counts ops (fixedMapTracker (N := N) ops cap) (FixedMapView ops) where
  start := fun d => rfl
  given := by
    intro t c d id t' hv h
    have hd := hv d
    simp only [fixedMapTracker, fixedMapNext] at h
    split at h
    · rename_i cur hcur
      rw [hcur] at hd
      injection h with h1 h2
      injection h1 with h1
      by_cases h0 : c d = 0
      · rw [if_pos h0] at hd; exact absurd hd (by simp)
      · rw [if_neg h0] at hd
        injection hd with hd
        refine ⟨by rw [← h1, hd], fun e => if e = d then c d + 1 else c e, ?_, by simp, fun e he => by simp [he]⟩
        intro e
        rw [← h2, IMap.get?_put]
        by_cases he : e = d
        · subst he
          simp [hcur, hd, Function.iterate_succ_apply']
        · simp only [if_neg he]; exact hv e
    · rename_i hcur
      rw [hcur] at hd
      have h0 : c d = 0 := by
        by_cases h0 : c d = 0
        · exact h0
        · rw [if_neg h0] at hd; exact absurd hd (by simp)
      split at h
      · rename_i m' hm'
        injection h with h1 h2
        injection h1 with h1
        refine ⟨by rw [← h1, h0]; rfl, fun e => if e = d then c d + 1 else c e, ?_, by simp, fun e he => by simp [he]⟩
        intro e
        rw [← h2, IMap.get?_insert hm']
        by_cases he : e = d
        · subst he; simp [h0]
        · simp only [if_neg he]; exact hv e
      · exact absurd h (by simp)
  refused := by
    intro t c d t' hv h
    simp only [fixedMapTracker, fixedMapNext] at h
    split at h
    · exact absurd h (by simp)
    · split at h
      · exact absurd h (by simp)
      · injection h with h1 h2
        rw [← h2]; exact hv

theorem fixedMap_counts_valid [DecidableEq N] (ops : TidOps Tid) (cap : Nat) :
    Counts ops (fixedMapTracker (N := N) ops cap) (fun m c => FixedMapView ops m c ∧ m.Valid cap) where
  start := ⟨(fixedMap_counts ops cap).start, by simp [fixedMapTracker, IMap.Valid]⟩
  given := by
    intro t c d id t' hv h
    obtain ⟨hid, c', h1, h2⟩ := (fixedMap_counts ops cap).given t c d id t' hv.1 h
    refine ⟨hid, c', ⟨h1, ?_⟩, h2⟩
    simp only [fixedMapTracker, fixedMapNext] at h
    split at h
    · injection h with _ h; subst h; exact hv.2.put _ _
    · split at h
      · rename_i hm; injection h with _ h; subst h; exact hv.2.insert hm
      · exact absurd h (by simp)
  refused := by
    intro t c d t' hv h
    refine ⟨(fixedMap_counts ops cap).refused t c d t' hv.1 h, ?_⟩
    simp only [fixedMapTracker, fixedMapNext] at h
    split at h
    · exact absurd h (by simp)
    · split at h
      · exact absurd h (by simp)
      · injection h with _ h; subst h; exact hv.2

/-- When the table refuses a destination. -/
theorem fixedMap_refuses [DecidableEq N] (ops : TidOps Tid) (cap : Nat) (m : IMap N Tid) (c : N → Nat) (hv : FixedMapView ops m c)
    (hm : m.Valid cap) (ds : List N) (hnd : ds.Nodup) (hds : ∀ d, d ∈ ds ↔ c d ≠ 0) (d : N) :
    ((fixedMapTracker ops cap).next m d).1 = none ↔ d ∉ ds ∧ cap ≤ ds.length := by
  have hperm : m.map Prod.fst ~ ds := by
    rw [List.perm_ext_iff_of_nodup hm.1 hnd]
    intro a
    rw [IMap.mem_keys, hds, hv a]
    by_cases h : c a = 0 <;> simp [h]
  have hlen : m.length = ds.length := by
    have := hperm.length_eq
    simpa using this
  have hd := hv d
  simp only [fixedMapTracker, fixedMapNext]
  rw [hds]
  split
  · rename_i cur hcur
    rw [hcur] at hd
    by_cases h0 : c d = 0
    · rw [if_pos h0] at hd; exact absurd hd (by simp)
    · simp [h0]
  · rename_i hcur
    have h0 : c d = 0 := by
      by_cases h0 : c d = 0
      · exact h0
      · rw [hcur, if_neg h0] at hd; exact absurd hd (by simp)
    unfold IMap.insert
    rw [IMap.contains_eq, hcur]
    by_cases hl : m.length < cap
    · simp [hl, h0]; omega
    · simp [hl, h0]; omega

theorem canTid_iterate (k : Nat) : canTid.increment^[k] canTid.dflt = BitVec.ofNat 5 k := by
  induction k with
  | zero => rfl
  | succ k ih =>
    rw [Function.iterate_succ_apply', ih]
    show Can.Tid.increment (BitVec.ofNat 5 k) = _
    unfold Can.Tid.increment
    apply BitVec.eq_of_toNat_eq
    split
    · rename_i h
      simp at h ⊢
      omega
    · rename_i h
      simp at h ⊢

theorem tid64_iterate (k : Nat) : tid64.increment^[k] tid64.dflt = BitVec.ofNat 64 k := by
  induction k with
  | zero => rfl
  | succ k ih =>
    rw [Function.iterate_succ_apply', ih]
    show BitVec.ofNat 64 k + 1#64 = _
    apply BitVec.eq_of_toNat_eq
    simp

theorem canTracker_counts : Counts canTid canTracker Can.CanTransferIdTracker.Stores where
  start := Can.default_stores
  given := by
    intro t c d id t' hv h
    obtain ⟨t1, h1, h2⟩ := Can.tracker_step t c hv d
    simp only [canTracker, h1] at h
    injection h with h3 h4
    injection h3 with h3
    rw [canTid_iterate]
    subst h4
    exact ⟨h3.symm, _, h2, by simp, fun e he => by simp [he]⟩
  refused := by
    intro t c d t' hv h
    obtain ⟨t1, h1, h2⟩ := Can.tracker_step t c hv d
    simp only [canTracker, h1] at h
    exact absurd h (by simp)

end Verif.Node
