import Verif.Can.FilterModel
import Verif.Can.IdProps
import Verif.Can.RxTableProps
import Verif.FilterConfig.Props

/-!
Property C20: the filters requested from the hardware let every frame through that the receiver would use.
-/

namespace Verif.Can

open Verif.FilterConfig (Filter accepts_iff new_mask_bit new_id_bit)

theorem bit_of_field (id : BitVec 32) (o w j : Nat) (hj : j < w) :
    (BitVec.ofNat w (id.toNat / 2 ^ o)).getLsbD j = id.getLsbD (o + j) := by
  rw [BitVec.getLsbD_ofNat, BitVec.getLsbD, Nat.testBit_div_two_pow, Nat.add_comm]
  simp [hj]

theorem field_eq_iff {w : Nat} (id : BitVec 32) (o : Nat) (x : BitVec w) :
    BitVec.ofNat w (id.toNat / 2 ^ o) = x ↔ ∀ j, j < w → id.getLsbD (o + j) = x.getLsbD j := by
  constructor
  · rintro rfl j hj
    rw [bit_of_field _ _ _ _ hj]
  · intro h
    apply BitVec.eq_of_getLsbD_eq
    intro j hj
    rw [bit_of_field _ _ _ _ hj, h j hj]

/-- The subject filter checks bits 25, 23 and 7 and the subject. -/
theorem subjectFilter_accepts (subject : SubjectId) (id : BitVec 32) :
    (subjectFilter subject).accepts id = true ↔
      id.getLsbD 25 = false ∧ id.getLsbD 23 = false ∧ id.getLsbD 7 = false ∧
      BitVec.ofNat 13 (id.toNat / 2 ^ 8) = subject := by
  rw [accepts_iff, field_eq_iff]
  unfold subjectFilter
  simp only [new_mask_bit, new_id_bit, BitVec.getLsbD_or, BitVec.getLsbD_shiftLeft, BitVec.getLsbD_setWidth]
  have hm : ∀ k, k < 32 → (0b00010100111111111111110000000#32).getLsbD k =
      decide (k = 25 ∨ k = 23 ∨ k = 7 ∨ 8 ≤ k ∧ k < 21) := by decide
  have hc : ∀ k, k < 32 → (0b00000011000000000000000000000#32).getLsbD k = decide (k = 22 ∨ k = 21) := by decide
  constructor
  · intro h
    refine ⟨?_, ?_, ?_, ?_⟩
    · have := h 25 (by omega) (by decide)
      rw [this, hc _ (by omega)]
      simp [BitVec.getLsbD_of_ge]
    · have := h 23 (by omega) (by decide)
      rw [this, hc _ (by omega)]
      simp [BitVec.getLsbD_of_ge]
    · have := h 7 (by omega) (by decide)
      rw [this, hc _ (by omega)]
      simp
    · intro j hj
      have := h (8 + j) (by omega) (by rw [hm _ (by omega)]; simp; omega)
      rw [this, hc _ (by omega)]
      have e1 : ¬ (8 + j = 22 ∨ 8 + j = 21) := by omega
      have e2 : 8 + j < 32 := by omega
      have e3 : ¬ 8 + j < 8 := by omega
      have e4 : 8 + j < 29 := by omega
      have e5 : j < 32 := by omega
      simp only [e1, e2, e3, e4, e5, decide_true, decide_false, Bool.false_or, Bool.not_false, Bool.true_and, Bool.and_true,
        Nat.add_sub_cancel_left]
  · rintro ⟨h25, h23, h7, hs⟩ k hk hmask
    rw [hm k hk] at hmask
    simp only [Bool.and_eq_true, decide_eq_true_eq] at hmask
    rw [hc k hk]
    obtain ⟨hmask, h29⟩ := hmask
    rcases hmask with rfl | rfl | rfl | ⟨h8, h21⟩
    · rw [h25]; simp [BitVec.getLsbD_of_ge]
    · rw [h23]; simp [BitVec.getLsbD_of_ge]
    · rw [h7]; simp
    · have := hs (k - 8) (by omega)
      rw [show 8 + (k - 8) = k by omega] at this
      rw [this]
      have e1 : ¬ (k = 22 ∨ k = 21) := by omega
      have e3 : ¬ k < 8 := by omega
      have e5 : k - 8 < 32 := by omega
      simp [e1, hk, e3, h29, e5]

/-- The bits checked by both service filters. -/
theorem serviceFilter_accepts (c : BitVec 32) (hc : ∀ k, k < 24 → c.getLsbD k = false)
    (service : ServiceId) (destination : NodeId) (id : BitVec 32) :
    (Filter.new 0b00011111111111111111110000000#32
      (c ||| ((service.setWidth 32 <<< 14) ||| (destination.setWidth 32 <<< 7)))).accepts id = true ↔
      id.getLsbD 25 = c.getLsbD 25 ∧ id.getLsbD 24 = c.getLsbD 24 ∧ id.getLsbD 23 = false ∧
      BitVec.ofNat 9 (id.toNat / 2 ^ 14) = service ∧ BitVec.ofNat 7 (id.toNat / 2 ^ 7) = destination := by
  rw [accepts_iff, field_eq_iff, field_eq_iff]
  simp only [new_mask_bit, new_id_bit, BitVec.getLsbD_or, BitVec.getLsbD_shiftLeft, BitVec.getLsbD_setWidth]
  have hm : ∀ k, k < 32 → (0b00011111111111111111110000000#32).getLsbD k = decide (7 ≤ k ∧ k < 26) := by decide
  have bits : ∀ k, 7 ≤ k → k < 26 →
      ((c.getLsbD k || (decide (k < 32) && !decide (k < 14) && (decide (k - 14 < 32) && service.getLsbD (k - 14)) ||
        decide (k < 32) && !decide (k < 7) && (decide (k - 7 < 32) && destination.getLsbD (k - 7)))) && decide (k < 29)) =
      if k < 14 then destination.getLsbD (k - 7) else if k < 23 then service.getLsbD (k - 14) else c.getLsbD k := by
    intro k h1 h2
    have e1 : k < 32 := by omega
    have e2 : k - 14 < 32 := by omega
    have e3 : k - 7 < 32 := by omega
    have e4 : k < 29 := by omega
    have e5 : ¬ k < 7 := by omega
    by_cases h3 : k < 14
    · simp [-BitVec.getLsbD_eq_getElem, e1, e3, e4, e5, h3, hc k (by omega)]
    · have e6 : destination.getLsbD (k - 7) = false := BitVec.getLsbD_of_ge _ _ (by omega)
      by_cases h4 : k < 23
      · simp [-BitVec.getLsbD_eq_getElem, e1, e2, e4, e5, h3, h4, e6, hc k (by omega)]
      · have e7 : service.getLsbD (k - 14) = false := BitVec.getLsbD_of_ge _ _ (by omega)
        simp [e4, h3, h4, e6, e7]
  constructor
  · intro h
    have get : ∀ k, 7 ≤ k → k < 26 → id.getLsbD k =
        if k < 14 then destination.getLsbD (k - 7) else if k < 23 then service.getLsbD (k - 14) else c.getLsbD k := by
      intro k h1 h2
      rw [← bits k h1 h2]
      exact h k (by omega) (by rw [hm k (by omega)]; simp; omega)
    refine ⟨?_, ?_, ?_, ?_, ?_⟩
    · simpa using get 25 (by omega) (by omega)
    · simpa using get 24 (by omega) (by omega)
    · rw [get 23 (by omega) (by omega), if_neg (by omega), if_neg (by omega)]
      exact hc 23 (by omega)
    · intro j hj
      rw [get (14 + j) (by omega) (by omega), if_neg (by omega), if_pos (by omega), Nat.add_sub_cancel_left]
    · intro j hj
      rw [get (7 + j) (by omega) (by omega), if_pos (by omega), Nat.add_sub_cancel_left]
  · rintro ⟨h25, h24, h23, hs, hd⟩ k hk hmask
    rw [hm k hk] at hmask
    simp only [Bool.and_eq_true, decide_eq_true_eq] at hmask
    rw [bits k hmask.1.1 hmask.1.2]
    by_cases h1 : k < 14
    · rw [if_pos h1, ← hd (k - 7) (by omega)]
      congr 1; omega
    · rw [if_neg h1]
      by_cases h2 : k < 23
      · rw [if_pos h2, ← hs (k - 14) (by omega)]
        congr 1; omega
      · rw [if_neg h2]
        have : k = 23 ∨ k = 24 ∨ k = 25 := by omega
        rcases this with rfl | rfl | rfl
        · rw [h23, hc 23 (by omega)]
        · exact h24
        · exact h25

theorem requestFilter_accepts (service : ServiceId) (destination : NodeId) (id : BitVec 32) :
    (requestFilter service destination).accepts id = true ↔
      id.getLsbD 25 = true ∧ id.getLsbD 24 = true ∧ id.getLsbD 23 = false ∧
      BitVec.ofNat 9 (id.toNat / 2 ^ 14) = service ∧ BitVec.ofNat 7 (id.toNat / 2 ^ 7) = destination :=
  serviceFilter_accepts _ (by decide) service destination id

theorem responseFilter_accepts (service : ServiceId) (destination : NodeId) (id : BitVec 32) :
    (responseFilter service destination).accepts id = true ↔
      id.getLsbD 25 = true ∧ id.getLsbD 24 = false ∧ id.getLsbD 23 = false ∧
      BitVec.ofNat 9 (id.toNat / 2 ^ 14) = service ∧ BitVec.ofNat 7 (id.toNat / 2 ^ 7) = destination :=
  serviceFilter_accepts _ (by decide) service destination id

theorem bit_decide (id : BitVec 32) (o : Nat) : id.getLsbD o = decide (id.toNat / 2 ^ o % 2 = 1) := by
  rw [BitVec.getLsbD, Nat.testBit_eq_decide_div_mod_eq]

/-- **C20**, one filter: the filter made for a subscription accepts exactly the identifiers that parse as a transfer of that
kind and port and, for services, are addressed to the given node. It checks nothing else (any priority, any source). -/
theorem C20_filter_is_exact (k : Kind) (p : Nat) (localNode : Option NodeId)
    (hp : p < portBound k) (id : BitVec 32) (hid : id.toNat < 2 ^ 29) (ts : Instant) (tid : Tid) :
    (∃ f, makeFilter (k, p) localNode = some f ∧ f.accepts id = true) ↔
      ∃ h, parseCanId id ts tid = some (.ok h) ∧ h.kind = k ∧ h.port = p ∧
        (h.destination = none ∨ h.destination = localNode) := by
  rw [parseCanId_eq id ts tid hid]
  have eq9 : ∀ n : Nat, p < 2 ^ 9 → (BitVec.ofNat 9 n = BitVec.ofNat 9 p ↔ (BitVec.ofNat 9 n).toNat = p) := by
    intro n hp
    rw [← BitVec.toNat_inj, BitVec.toNat_ofNat p 9, Nat.mod_eq_of_lt hp]
  have eq13 : ∀ n : Nat, p < 2 ^ 13 → (BitVec.ofNat 13 n = BitVec.ofNat 13 p ↔ (BitVec.ofNat 13 n).toNat = p) := by
    intro n hp
    rw [← BitVec.toNat_inj, BitVec.toNat_ofNat p 13, Nat.mod_eq_of_lt hp]
  cases k with
  | message =>
    simp only [makeFilter, Option.some.injEq, exists_eq_left', subjectFilter_accepts, bit_decide, decide_eq_false_iff_not]
    rw [eq13 _ hp]
    constructor
    · rintro ⟨h25, h23, h7, hs⟩
      rw [if_neg h23, if_neg h25, if_neg h7]
      exact ⟨_, rfl, rfl, hs, Or.inl rfl⟩
    · rintro ⟨h, hh, hk, hpp, -⟩
      split at hh
      · cases hh
      rename_i h23
      split at hh
      · split at hh <;> cases hh <;> cases hk
      rename_i h25
      split at hh
      · cases hh
      rename_i h7
      cases hh
      exact ⟨h25, h23, h7, hpp⟩
  | request =>
    cases localNode with
    | none =>
      simp only [makeFilter, Option.map_none]
      constructor
      · rintro ⟨f, hf, -⟩; cases hf
      · rintro ⟨h, -, hk, -, hd⟩
        exfalso
        cases h <;> simp [Header.kind, Header.destination] at hk hd
    | some n =>
      simp only [makeFilter, Option.map_some, Option.some.injEq, exists_eq_left', requestFilter_accepts, bit_decide,
        decide_eq_false_iff_not, decide_eq_true_eq]
      rw [eq9 _ hp]
      constructor
      · rintro ⟨h25, h24, h23, hs, hd⟩
        rw [if_neg h23, if_pos h25]
        rw [if_pos h24]
        exact ⟨_, rfl, rfl, hs, Or.inr (congrArg some hd)⟩
      · rintro ⟨h, hh, hk, hpp, hd⟩
        split at hh
        · cases hh
        rename_i h23
        split at hh
        · rename_i h25
          split at hh
          · rename_i h24
            cases hh
            simp only [Header.destination, reduceCtorEq, Option.some.injEq, false_or] at hd
            exact ⟨h25, h24, h23, hpp, hd⟩
          · cases hh; cases hk
        split at hh
        · cases hh
        · cases hh; cases hk
  | response =>
    cases localNode with
    | none =>
      simp only [makeFilter, Option.map_none]
      constructor
      · rintro ⟨f, hf, -⟩; cases hf
      · rintro ⟨h, -, hk, -, hd⟩
        exfalso
        cases h <;> simp [Header.kind, Header.destination] at hk hd
    | some n =>
      simp only [makeFilter, Option.map_some, Option.some.injEq, exists_eq_left', responseFilter_accepts, bit_decide,
        decide_eq_false_iff_not, decide_eq_true_eq]
      rw [eq9 _ hp]
      constructor
      · rintro ⟨h25, h24, h23, hs, hd⟩
        rw [if_neg h23, if_pos h25]
        rw [if_neg h24]
        exact ⟨_, rfl, rfl, hs, Or.inr (congrArg some hd)⟩
      · rintro ⟨h, hh, hk, hpp, hd⟩
        split at hh
        · cases hh
        rename_i h23
        split at hh
        · rename_i h25
          split at hh
          · cases hh; cases hk
          · rename_i h24
            cases hh
            simp only [Header.destination, reduceCtorEq, Option.some.injEq, false_or] at hd
            exact ⟨h25, h24, h23, hpp, hd⟩
        split at hh
        · cases hh
        · cases hh; cases hk

/-- A message filter and a service filter at work. -/
example : (makeFilter (.message, 100) none).map (fun f => (f.accepts 0x10606409#32, f.accepts 0x1f606480#32,
    f.accepts 0x10606500#32)) = some (true, false, false) := by decide

theorem mem_filterCall {r : Receiver} {k : Kind} {p : Nat} :
    (k, p) ∈ r.filterCall.subscriptions ↔ (r.find k p).isSome := by
  rw [← mem_ports_iff]
  cases k <;> simp [Receiver.filterCall, Receiver.subs]

/-- **C20.** In any history, for the filters computed from the receiver's current subscriptions and node ID and reduced to
any positive number of hardware filters: `optimize_filters` does not panic, passes on at most that number of filters, and at
least one of them accepts the identifier of every frame that the receiver would deliver something from or use as a part of a
transfer (any frame that is not looped back, parses, and whose kind, port and destination are wanted). -/
theorem C20_filters_no_false_negatives {checks debug : Bool} {id : Option NodeId} {ops : List Op} {r : Receiver}
    (hist : History checks id ops r) (maxFilters : Nat) (hmax : 0 < maxFilters) :
    ∃ out, optimizeFilters debug false r.filterCall maxFilters = some (.ok out) ∧ out.length ≤ maxFilters ∧
      ∀ (f : Frame) (h : CanHeader) (t : TailByte), f.id.toNat < 2 ^ 29 → readFrame f = some (h, t) →
        ((Config.after id ops).table h.kind h.port).isSome →
        (∀ d, h.destination = some d → (Config.after id ops).id = some d) → FilterConfig.Accepted out f.id := by
  have hag := history_agrees hist
  have hcons : ∀ f ∈ idealFilters r.filterCall, FilterConfig.Constructed f := by
    intro f hf
    unfold idealFilters at hf
    obtain ⟨⟨k, p⟩, -, hm⟩ := List.mem_filterMap.mp hf
    unfold makeFilter at hm
    cases k with
    | message => cases hm; exact ⟨_, _, rfl⟩
    | request =>
      simp only [Option.map_eq_some_iff] at hm
      obtain ⟨n, -, rfl⟩ := hm
      exact ⟨_, _, rfl⟩
    | response =>
      simp only [Option.map_eq_some_iff] at hm
      obtain ⟨n, -, rfl⟩ := hm
      exact ⟨_, _, rfl⟩
  obtain ⟨out, slice, h1, h2, h3, -⟩ :=
    FilterConfig.C21_optimize_bounded_superset_partial debug (idealFilters r.filterCall) maxFilters hmax hcons
  refine ⟨out, by simp [optimizeFilters, h1], by omega, ?_⟩
  intro f h t hv hr htab hdest
  apply h3
  obtain ⟨_, _, _, _, hparse⟩ := readFrame_data hr
  have hfind : (r.find h.kind h.port).isSome := by
    rw [← hag.find, Option.isSome_map] at htab
    exact htab
  have hport : h.port < portBound h.kind := (hag.ports h.kind).2 _ ((mem_ports_iff ..).mpr hfind)
  have hd : h.destination = none ∨ h.destination = r.filterCall.localNode := by
    cases hd : h.destination with
    | none => exact Or.inl rfl
    | some d =>
      right
      rw [← hdest d hd, ← hag.id]
      rfl
  obtain ⟨g, hg, hacc⟩ := (C20_filter_is_exact h.kind h.port r.filterCall.localNode hport f.id hv _ _).mpr
    ⟨h, hparse, rfl, rfl, hd⟩
  exact ⟨g, List.mem_filterMap.mpr ⟨(h.kind, h.port), mem_filterCall.mpr hfind, hg⟩, hacc⟩

/-- **C20**, what this means for the user: whatever a receiver delivers from a frame on the bus, the filters computed for its
current configuration let that frame through. -/
theorem C20_delivered_frames_pass_filters {checks debug oom : Bool} {id : Option NodeId} {ops : List Op} {r r' : Receiver}
    {f : Frame} {tr : CanTransfer} (hist : History checks id ops r) (maxFilters : Nat) (hmax : 0 < maxFilters)
    (hv : f.id.toNat < 2 ^ 29) (hl : f.loopback = false) (hs : r.step checks (.frame f oom) = some (r', .transfer tr)) :
    ∃ out, optimizeFilters debug false r.filterCall maxFilters = some (.ok out) ∧ FilterConfig.Accepted out f.id := by
  obtain ⟨out, h1, -, h3⟩ := C20_filters_no_false_negatives (debug := debug) hist maxFilters hmax
  obtain ⟨e1, e2, e3, h, t, hr, hh⟩ := C11_only_subscribed_and_addressed hist hv hs
  refine ⟨out, h1, h3 f h t hv hr ?_ ?_⟩
  · rw [hh] at e1; simpa using e1
  · intro d hd
    exact e2 d (by rw [hh]; simpa using hd) (by rw [e3]; exact hl)

/-- A configuration with a subject and a service reduced to one filter. -/
example : ((Receiver.new (some 5#7)).exec true [.subscribeMessage false 100#13 8 1#32, .subscribeRequest false 430#9 4 1#32]).map
    (fun p => (optimizeFilters true false p.1.filterCall 1).map (fun x => match x with
      | .ok l => l.map (fun f => (f.accepts demoRequest.id, f.accepts 0x10606409#32, f.accepts 0x10800000#32))
      | .error _ => [])) = some (some [(true, true, false)]) := by decide +kernel

/-- **C20, counterexample for a change of node ID.** `set_id` does not reapply the filters: after subscribing to a service
as node 5 (which applied the filters given here) and changing the ID to 6, a request addressed to node 6 would be delivered,
but is rejected by the applied filters. -/
theorem C20_set_id_counterexample :
    ∃ (r1 r2 r3 : Receiver) (call : FilterCall) (f : Frame) (tr : CanTransfer) (out : List Filter),
      History true (some 5#7) [.subscribeRequest false 430#9 4 1#32] r1 ∧
      ((Receiver.new (some 5#7)).subscribeService false .request 430#9 4 1#32).2.2 = some call ∧
      r1.step true (.setId (some 6#7)) = some (r2, .nothing) ∧ f.id.toNat < 2 ^ 29 ∧ f.loopback = false ∧
      r2.step true (.frame f false) = some (r3, .transfer tr) ∧
      optimizeFilters true false call 8 = some (.ok out) ∧ ¬ FilterConfig.Accepted out f.id := by
  refine ⟨_, _, _, _, { timestamp := 77#32, id := 0x136b8309#32, loopback := false, data := [1#8, 0xe0#8] }, _,
    [requestFilter 430#9 5#7], .ofExec (ts := []) rfl (by decide), rfl, rfl, by decide, rfl, rfl, ?_, ?_⟩
  · rfl
  · rintro ⟨g, hg, hacc⟩
    simp only [List.mem_singleton] at hg
    subst hg
    revert hacc
    decide

end Verif.Can
