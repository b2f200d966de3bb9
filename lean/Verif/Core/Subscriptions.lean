import Verif.Core.Transfer

/-!
Model of `DynamicSubscriptionManager` (`canadensis_core/src/subscription.rs`), the subscription table used by the serial and
UDP receivers. The three sets of methods (message, request, response) are textually the same; they are modelled by one
definition with a `Kind` parameter. Ports are numbers, as in the CAN model.
-/

namespace Verif

/-- `DynamicSubscriptionManager` (`canadensis_core/src/subscription.rs` L100-104). -/
structure SubManager (S : Type) where
  messages : List (Nat × S)
  requests : List (Nat × S)
  responses : List (Nat × S)

namespace SubManager
variable {S : Type}

/-- `Default::default` (`canadensis_core/src/subscription.rs` L254-262). -/
def empty : SubManager S := { messages := [], requests := [], responses := [] }

/-- The list of one kind (field access in `canadensis_core/src/subscription.rs` L106-252). -/
def get (m : SubManager S) : Kind → List (Nat × S)
  | .message => m.messages
  | .request => m.requests
  | .response => m.responses

/-- Writing the list of one kind (field access in `canadensis_core/src/subscription.rs` L106-252). -/
def set (m : SubManager S) (k : Kind) (l : List (Nat × S)) : SubManager S :=
  match k with
  | .message => { m with messages := l }
  | .request => { m with requests := l }
  | .response => { m with responses := l }

/-- `Vec::swap_remove` after `position`: the first entry with the port is replaced by the last entry of the list
(`canadensis_core/src/subscription.rs` L117-128, L140-151, L163-174). -/
def swapRemove (port : Nat) : List (Nat × S) → List (Nat × S)
  | [] => []
  | e :: l =>
    if e.1 = port then
      match l.getLast? with
      | none => []
      | some last => last :: l.dropLast
    else e :: swapRemove port l

/-- `unsubscribe_message`, `unsubscribe_request`, `unsubscribe_response`
(`canadensis_core/src/subscription.rs` L117-128, L140-151, L163-174). The removed subscription is not used by any caller and
not returned here. -/
def unsubscribe (m : SubManager S) (k : Kind) (port : Nat) : SubManager S := m.set k (swapRemove port (m.get k))

/-- `subscribe_message`, `subscribe_request`, `subscribe_response`
(`canadensis_core/src/subscription.rs` L107-115, L130-138, L153-161). `oom` tells that the allocator fails; `try_push` does not
allocate if there is the place of a subscription that was just removed. The result tells whether the call succeeded. -/
def subscribe (m : SubManager S) (oom : Bool) (k : Kind) (port : Nat) (s : S) : SubManager S × Bool :=
  let m' := m.unsubscribe k port
  let reuse := decide ((m'.get k).length < (m.get k).length)
  if oom && !reuse then (m', false) else (m'.set k (m'.get k ++ [(port, s)]), true)

/-- `find_message_subscription` etc. (`canadensis_core/src/subscription.rs` L176-181, L190-195, L204-209). -/
def find (m : SubManager S) (k : Kind) (port : Nat) : Option S :=
  ((m.get k).find? (fun e => e.1 == port)).map (fun e => e.2)

/-- Writing `f s` through the reference from `find_message_subscription_mut` etc.
(`canadensis_core/src/subscription.rs` L183-188, L197-202, L211-216), on the list. -/
def updateList (port : Nat) (f : S → S) : List (Nat × S) → List (Nat × S)
  | [] => []
  | e :: l => if e.1 = port then (e.1, f e.2) :: l else e :: updateList port f l

/-- Writing through the reference from `find_message_subscription_mut` etc.
(`canadensis_core/src/subscription.rs` L183-188, L197-202, L211-216). -/
def update (m : SubManager S) (k : Kind) (port : Nat) (f : S → S) : SubManager S := m.set k (updateList port f (m.get k))

/-- `for_each_message_subscription_mut` etc. for all three kinds (`canadensis_core/src/subscription.rs` L218-243). -/
def mapAll (m : SubManager S) (f : S → S) : SubManager S :=
  { messages := m.messages.map (fun e => (e.1, f e.2))
    requests := m.requests.map (fun e => (e.1, f e.2))
    responses := m.responses.map (fun e => (e.1, f e.2)) }

/-- `subscribers` and `servers` (`canadensis_core/src/subscription.rs` L245-251). -/
def ports (m : SubManager S) (k : Kind) : List Nat := (m.get k).map (fun e => e.1)

/-- No port twice. -/
def Distinct (m : SubManager S) : Prop := ∀ k, (m.ports k).Nodup

/-! ### The table is a map from kind and port -/

@[simp] theorem get_set (m : SubManager S) (k k' : Kind) (l : List (Nat × S)) :
    (m.set k l).get k' = if k' = k then l else m.get k' := by
  cases k <;> cases k' <;> simp [set, get]

theorem find_list_update (port p : Nat) (f : S → S) (l : List (Nat × S)) :
    ((updateList port f l).find? (fun e => e.1 == p)).map (fun e => e.2) =
      if p = port then ((l.find? (fun e => e.1 == p)).map (fun e => e.2)).map f
      else (l.find? (fun e => e.1 == p)).map (fun e => e.2) := by
  induction l with
  | nil => simp [updateList]
  | cons e l ih =>
    unfold updateList
    by_cases he : e.1 = port
    · rw [if_pos he]
      by_cases hp : p = port
      · subst hp; simp [he]
      · rw [if_neg hp]
        have : ¬ e.1 = p := by omega
        simp [this]
    · rw [if_neg he]
      by_cases hep : e.1 = p
      · have hp : ¬ p = port := by omega
        simp [hep, hp]
      · simp only [List.find?_cons, show (e.1 == p) = false by simp [hep]]
        exact ih

theorem find_update (m : SubManager S) (k k' : Kind) (port p : Nat) (f : S → S) :
    (m.update k port f).find k' p = if k' = k ∧ p = port then (m.find k' p).map f else m.find k' p := by
  unfold update find
  rw [get_set]
  by_cases hk : k' = k
  · subst hk
    simp only [if_true, true_and]
    exact find_list_update port p f _
  · simp [hk]

theorem find_mapAll (m : SubManager S) (k : Kind) (p : Nat) (f : S → S) : (m.mapAll f).find k p = (m.find k p).map f := by
  have h : ∀ l : List (Nat × S), ((l.map (fun e => (e.1, f e.2))).find? (fun e => e.1 == p)).map (fun e => e.2) =
      ((l.find? (fun e => e.1 == p)).map (fun e => e.2)).map f := by
    intro l
    induction l with
    | nil => rfl
    | cons e l ih =>
      simp only [List.map_cons, List.find?_cons]
      cases e.1 == p
      · exact ih
      · rfl
  cases k <;> exact h _

theorem ports_mapAll (m : SubManager S) (k : Kind) (f : S → S) : (m.mapAll f).ports k = m.ports k := by
  cases k <;> simp [ports, mapAll, get]

theorem ports_update (m : SubManager S) (k k' : Kind) (port : Nat) (f : S → S) :
    (m.update k port f).ports k' = m.ports k' := by
  unfold update ports
  rw [get_set]
  by_cases hk : k' = k
  · subst hk
    rw [if_pos rfl]
    induction m.get k' with
    | nil => rfl
    | cons e l ih =>
      unfold updateList
      split
      · rfl
      · simp only [List.map_cons, ih]
  · rw [if_neg hk]

theorem swapRemove_perm (port : Nat) (l : List (Nat × S)) :
    (swapRemove port l).Perm (l.eraseP (fun e => e.1 == port)) := by
  induction l with
  | nil => exact .refl _
  | cons e l ih =>
    unfold swapRemove
    by_cases he : e.1 = port
    · rw [if_pos he, List.eraseP_cons_of_pos (by simp [he])]
      cases hl : l.getLast? with
      | none => rw [List.getLast?_eq_none_iff.mp hl]
      | some last =>
        obtain ⟨ys, rfl⟩ := List.getLast?_eq_some_iff.mp hl
        simp only [List.dropLast_concat]
        exact List.perm_append_comm (l₁ := [last])
    · rw [if_neg he, List.eraseP_cons_of_neg (by simp [he])]
      exact ih.cons _

theorem find_perm {p : Nat} {l l' : List (Nat × S)} (hp : l.Perm l') (hn : (l.map (fun e => e.1)).Nodup) :
    l.find? (fun e => e.1 == p) = l'.find? (fun e => e.1 == p) := by
  induction hp with
  | nil => rfl
  | cons x _ ih =>
    simp only [List.find?_cons]
    cases x.1 == p
    · exact ih (List.nodup_cons.mp hn).2
    · rfl
  | swap x y l =>
    simp only [List.find?_cons]
    cases hx : x.1 == p
    · rfl
    · cases hy : y.1 == p
      · rfl
      · simp only [List.map_cons, List.nodup_cons, List.mem_cons, not_or] at hn
        simp only [beq_iff_eq] at hx hy
        omega
  | trans h1 _ ih1 ih2 => rw [ih1 hn, ih2 ((h1.map _).nodup_iff.mp hn)]

theorem find_eraseP (port p : Nat) (l : List (Nat × S)) (hn : (l.map (fun e => e.1)).Nodup) :
    (l.eraseP (fun e => e.1 == port)).find? (fun e => e.1 == p) = if p = port then none else l.find? (fun e => e.1 == p) := by
  induction l with
  | nil => simp
  | cons e l ih =>
    simp only [List.map_cons, List.nodup_cons] at hn
    by_cases he : e.1 = port
    · rw [List.eraseP_cons_of_pos (by simp [he])]
      by_cases hp : p = port
      · rw [if_pos hp, List.find?_eq_none]
        intro x hx
        have : e.1 ∉ l.map (fun e => e.1) := hn.1
        simp only [List.mem_map, not_exists, not_and] at this
        have := this x hx
        simp only [beq_iff_eq]
        omega
      · have : ¬ e.1 = p := by omega
        simp [hp, this]
    · rw [List.eraseP_cons_of_neg (by simp [he])]
      simp only [List.find?_cons]
      cases hep : e.1 == p
      · exact ih hn.2
      · simp only [beq_iff_eq] at hep
        have : ¬ p = port := by omega
        simp [this]

theorem distinct_empty : (empty : SubManager S).Distinct := by intro k; cases k <;> exact List.nodup_nil

theorem distinct_update {m : SubManager S} (h : m.Distinct) (k : Kind) (port : Nat) (f : S → S) : (m.update k port f).Distinct := by
  intro k'; rw [ports_update]; exact h k'

theorem distinct_mapAll {m : SubManager S} (h : m.Distinct) (f : S → S) : (m.mapAll f).Distinct := by
  intro k'; rw [ports_mapAll]; exact h k'

theorem mem_swapRemove {port : Nat} {l : List (Nat × S)} {e : Nat × S} (hn : (l.map (fun e => e.1)).Nodup)
    (h : e ∈ swapRemove port l) : e ∈ l ∧ e.1 ≠ port := by
  have h1 := (swapRemove_perm port l).mem_iff.mp h
  refine ⟨List.mem_of_mem_eraseP h1, ?_⟩
  intro he
  have h2 := find_eraseP port port l hn
  rw [if_pos rfl, List.find?_eq_none] at h2
  exact h2 e h1 (by simp [he])

theorem distinct_unsubscribe {m : SubManager S} (h : m.Distinct) (k : Kind) (port : Nat) : (m.unsubscribe k port).Distinct := by
  intro k'
  unfold unsubscribe ports
  rw [get_set]
  by_cases hk : k' = k
  · subst hk
    rw [if_pos rfl]
    exact ((swapRemove_perm port _).map _).nodup_iff.mpr (((List.eraseP_sublist).map _).nodup (h k'))
  · rw [if_neg hk]; exact h k'

theorem find_unsubscribe {m : SubManager S} (h : m.Distinct) (k k' : Kind) (port p : Nat) :
    (m.unsubscribe k port).find k' p = if k' = k ∧ p = port then none else m.find k' p := by
  have hd := distinct_unsubscribe h k port
  unfold unsubscribe find
  rw [get_set]
  by_cases hk : k' = k
  · subst hk
    rw [if_pos rfl]
    have h1 : ((swapRemove port (m.get k')).map (fun e => e.1)).Nodup := by
      have := hd k'
      unfold unsubscribe ports at this
      rwa [get_set, if_pos rfl] at this
    rw [find_perm (swapRemove_perm port _) h1, find_eraseP _ _ _ (h k')]
    by_cases hp : p = port <;> simp [hp]
  · simp [hk]

theorem swapRemove_length (port : Nat) (l : List (Nat × S)) :
    (swapRemove port l).length < l.length ↔ (l.find? (fun e => e.1 == port)).isSome := by
  induction l with
  | nil => simp [swapRemove]
  | cons e l ih =>
    unfold swapRemove
    by_cases he : e.1 = port
    · rw [if_pos he]
      cases hl : l.getLast? with
      | none => simp [he]
      | some last =>
        have : l ≠ [] := by rintro rfl; simp at hl
        have := List.length_pos_iff.2 this
        simp [he]
        omega
    · rw [if_neg he]
      simp [he, ih]

/-- There is a place to use again exactly if the port was subscribed. -/
theorem reuse_iff (m : SubManager S) (k : Kind) (port : Nat) :
    decide (((m.unsubscribe k port).get k).length < (m.get k).length) = (m.find k port).isSome := by
  have := swapRemove_length port (m.get k)
  simp only [unsubscribe, get_set, if_true, find, Option.isSome_map]
  cases hf : ((m.get k).find? (fun e => e.1 == port)).isSome <;> simp_all

theorem distinct_subscribe {m : SubManager S} (h : m.Distinct) (oom : Bool) (k : Kind) (port : Nat) (s : S) :
    (m.subscribe oom k port s).1.Distinct := by
  unfold subscribe
  have hd := distinct_unsubscribe h k port
  simp only []
  generalize (oom && !decide (((m.unsubscribe k port).get k).length < (m.get k).length)) = fails
  cases fails with
  | true => exact hd
  | false =>
    intro k'
    simp only [Bool.false_eq_true, if_false]
    unfold ports
    rw [get_set]
    by_cases hk : k' = k
    · subst hk
      rw [if_pos rfl, List.map_append, List.nodup_append]
      refine ⟨hd k', by simp, ?_⟩
      intro a ha b hb
      simp only [List.map_cons, List.map_nil, List.mem_singleton] at hb
      subst hb
      simp only [unsubscribe, get_set, if_true, List.mem_map] at ha
      obtain ⟨e, he, rfl⟩ := ha
      exact (mem_swapRemove (h k') he).2
    · rw [if_neg hk]; exact hd k'

theorem find_subscribe {m : SubManager S} (h : m.Distinct) (oom : Bool) (k k' : Kind) (port p : Nat) (s : S) :
    (m.subscribe oom k port s).1.find k' p =
      if k' = k ∧ p = port then (if (m.subscribe oom k port s).2 then some s else none) else m.find k' p := by
  have hu := find_unsubscribe h k k' port p
  unfold subscribe
  simp only []
  by_cases hf : (oom && !decide (((m.unsubscribe k port).get k).length < (m.get k).length)) = true
  · simp only [if_pos hf]
    simpa using hu
  · simp only [if_neg hf]
    have : ((m.unsubscribe k port).set k ((m.unsubscribe k port).get k ++ [(port, s)])).find k' p =
        ((m.unsubscribe k port).find k' p).or (if k' = k ∧ p = port then some s else none) := by
      unfold find
      rw [get_set]
      by_cases hk : k' = k
      · subst hk
        simp only [if_true, List.find?_append, true_and]
        cases ((m.unsubscribe k' port).get k').find? (fun e => e.1 == p) with
        | some e => rfl
        | none =>
          by_cases hp : p = port
          · simp [hp]
          · simp [hp, show ¬ port = p by omega]
      · simp [hk]
    rw [this, hu]
    by_cases hc : k' = k ∧ p = port <;> simp [hc]

theorem subscribe_snd (m : SubManager S) (oom : Bool) (k : Kind) (port : Nat) (s : S) :
    (m.subscribe oom k port s).2 = (!oom || (m.find k port).isSome) := by
  unfold subscribe
  simp only [reuse_iff]
  cases oom <;> cases (m.find k port).isSome <;> simp

end SubManager
end Verif
