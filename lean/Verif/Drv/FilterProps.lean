import Verif.Can.FilterProps
import Verif.Drv.FilterModel
import Mathlib.Data.List.Nodup
import Mathlib.Data.List.Perm.Subperm

/-!
C107: the hardware filters of the drivers let through what a receiver wants.
-/

namespace Verif.Drv

open Verif.Can
open Verif.FilterConfig (Filter merge mergeOnce mergeLoop bubble compact optimize countValid)

/-! ### Masks have 29 bits -/

def Masked (fs : List Filter) : Prop := ∀ f ∈ fs, f.mask.toNat < 2 ^ 29

theorem and_ext_lt (x : BitVec 32) : (x &&& FilterConfig.extendedIdMask).toNat < 2 ^ 29 := by
  rw [BitVec.toNat_and]
  exact Nat.lt_of_le_of_lt Nat.and_le_right (by decide)

theorem new_masked (m i : BitVec 32) : (Filter.new m i).mask.toNat < 2 ^ 29 := and_ext_lt m

theorem getD_masked {fs : List Filter} (h : Masked fs) (i : Nat) : (fs.getD i Filter.invalid).mask.toNat < 2 ^ 29 := by
  rw [List.getD_eq_getElem?_getD]
  cases hi : fs[i]? with
  | none => decide
  | some f => exact h f (List.mem_of_getElem? hi)

theorem set_masked {fs : List Filter} (h : Masked fs) {f : Filter} (hf : f.mask.toNat < 2 ^ 29) (i : Nat) : Masked (fs.set i f) := by
  intro g hg
  rcases List.mem_or_eq_of_mem_set hg with hg | rfl
  · exact h g hg
  · exact hf

theorem mergeLoop_masked {debug : Bool} {max : Nat} : ∀ {n : Nat} {fs out : List Filter}, Masked fs → mergeLoop debug max n fs = some out → Masked out
  | 0, fs, out, h, hm => by cases hm; exact h
  | n + 1, fs, out, h, hm => by
    unfold mergeLoop at hm
    split at hm
    · dsimp only at hm
      split at hm
      · cases hm
      · exact mergeLoop_masked (set_masked (set_masked h (new_masked _ _) _) (by decide) _) hm
    · cases hm
      exact h

theorem bubble_masked : ∀ (j : Nat) {fs : List Filter}, Masked fs → Masked (bubble fs j)
  | 0, fs, h => h
  | j + 1, fs, h => by
    unfold bubble
    dsimp only
    split
    · exact bubble_masked j (set_masked (set_masked h (getD_masked h _) _) (getD_masked h _) _)
    · exact h

theorem foldl_masked (js : List Nat) : ∀ {fs : List Filter}, Masked fs → Masked (js.foldl bubble fs) := by
  induction js with
  | nil => exact fun h => h
  | cons j js ih => exact fun h => ih (bubble_masked j h)

theorem optimize_masked {debug : Bool} {max : Nat} {ideal out slice : List Filter} (h : Masked ideal) (ho : optimize debug ideal max = some (out, slice)) : Masked out := by
  unfold optimize at ho
  split at ho
  · cases ho
    intro f hf
    cases hf
  · split at ho
    · cases ho
    · rename_i fs hm
      split at ho
      · cases ho
      · dsimp only at ho
        split at ho
        · cases ho
        · cases ho
          intro f hf
          exact foldl_masked _ (mergeLoop_masked h hm) f ((List.takeWhile_sublist _).subset hf)

theorem idealFilters_constructed (call : FilterCall) : ∀ f ∈ idealFilters call, FilterConfig.Constructed f := by
  intro f hf
  obtain ⟨⟨k, p⟩, -, hm⟩ := List.mem_filterMap.mp hf
  unfold makeFilter at hm
  cases k with
  | message => cases hm; exact ⟨_, _, rfl⟩
  | request =>
    simp only [Option.map_eq_some_iff] at hm
    obtain ⟨n, -, rfl⟩ := hm
    exact ⟨_, _, rfl⟩
  | response =>
    simp only [Option.map_eq_some_iff] at hm
    obtain ⟨n, -, rfl⟩ := hm
    exact ⟨_, _, rfl⟩

theorem idealFilters_masked (call : FilterCall) : Masked (idealFilters call) := by
  intro f hf
  obtain ⟨m, i, rfl⟩ := idealFilters_constructed call f hf
  exact new_masked m i

theorem optimizeFilters_masked {debug oom : Bool} {max : Nat} {call : FilterCall} {out : List Filter} (h : optimizeFilters debug oom call max = some (.ok out)) : Masked out := by
  unfold optimizeFilters at h
  split at h
  · cases h
  · split at h
    · cases h
    · rename_i o s ho
      cases h
      exact optimize_masked (idealFilters_masked call) ho

/-! ### bxCAN -/

theorem enableBanks_ok {banks : Nat} (hb : banks ≤ 255) : ∀ {fs : List Filter} {i : Nat}, Masked fs → i + fs.length ≤ banks →
    enableBanks banks i fs = some (fs.map fun f => .ext (f.id.setWidth 29) (f.mask.setWidth 29))
  | [], i, _, _ => rfl
  | f :: fs, i, h, hi => by
    simp only [List.length_cons] at hi
    unfold enableBanks
    rw [if_pos ⟨and_ext_lt _, h f List.mem_cons_self, by omega⟩, enableBanks_ok hb (fun g hg => h g (List.mem_cons_of_mem _ hg)) (by omega)]
    rfl

theorem passes_of_accepts {f : Filter} (x : BitVec 32) (h : f.accepts x = true) : (BankFilter.ext (f.id.setWidth 29) (f.mask.setWidth 29)).passes (.extended (x.setWidth 29)) = true := by
  simp only [Filter.accepts, beq_iff_eq] at h
  simp only [BankFilter.passes, beq_iff_eq]
  rw [← BitVec.setWidth_and, ← BitVec.setWidth_and, BitVec.and_comm x, BitVec.and_comm f.id, h]

/-- A frame that the receiver with this history would use: it parses, there is a subscription, and it is for everyone or for this node. -/
def Wanted (id : Option NodeId) (ops : List Op) (f : Frame) : Prop :=
  ∃ h t, readFrame f = some (h, t) ∧ ((Config.after id ops).table h.kind h.port).isSome ∧ ∀ d, h.destination = some d → (Config.after id ops).id = some d

/-- **C107.** For a bxCAN controller with any number of filter banks: applying the filters for the subscriptions of a receiver does not panic, and the enabled banks let every frame through that the
receiver would use, also if memory runs out. -/
theorem C107_bxcan {checks debug oom : Bool} {id : Option NodeId} {ops : List Op} {r : Receiver} (hist : History checks id ops r) {banks : Nat} (h0 : 0 < banks) (h1 : banks ≤ 255) :
    ∃ hw, bxApplyFilters debug oom banks r.filterCall = some hw ∧ hw.length ≤ banks ∧
      ∀ (f : Frame) (b : BxFrame), toBx f = some b → Wanted id ops f → ∃ k ∈ hw, k.passes b.id = true := by
  obtain ⟨out, e1, e2, e3⟩ := C20_filters_no_false_negatives (debug := debug) hist banks h0
  unfold bxApplyFilters
  by_cases ho : (oom && !(idealFilters r.filterCall).isEmpty) = true
  · have : optimizeFilters debug oom r.filterCall banks = some (.error ()) := by unfold optimizeFilters; rw [if_pos ho]
    rw [this]
    exact ⟨[.all], by simp [h0], h0, fun f b _ _ => ⟨.all, List.mem_singleton.2 rfl, rfl⟩⟩
  · have : optimizeFilters debug oom r.filterCall banks = some (.ok out) := by
      rw [← e1]
      unfold optimizeFilters
      rw [if_neg ho, if_neg (by simp)]
    rw [this]
    refine ⟨_, enableBanks_ok h1 (optimizeFilters_masked this) (by omega), by simpa using e2, ?_⟩
    rintro f b hb ⟨h, t, w1, w2, w3⟩
    unfold toBx at hb
    split at hb
    · rename_i hv
      cases hb
      obtain ⟨g, hg, ha⟩ := e3 f h t hv.1 w1 w2 w3
      exact ⟨_, List.mem_map.2 ⟨g, hg, rfl⟩, passes_of_accepts _ ha⟩
    · cases hb

/-! ### Linux -/

theorem socket_of_accepts {f : Filter} (hm : f.mask.toNat < 2 ^ 29) {x : BitVec 32} (h : f.accepts x = true) : effId x &&& f.mask = f.id &&& f.mask := by
  simp only [Filter.accepts, beq_iff_eq] at h
  have hz : 0x80000000#32 &&& f.mask = 0#32 := by
    apply BitVec.eq_of_getLsbD_eq
    intro k hk
    rw [BitVec.getLsbD_and]
    by_cases h31 : k = 31
    · have : f.mask.getLsbD 31 = false := by
        rw [BitVec.getLsbD, Nat.testBit_lt_two_pow (Nat.lt_of_lt_of_le hm (by decide))]
      rw [h31, this]
      simp
    · have : ∀ k : Fin 32, k.val ≠ 31 → (0x80000000#32).getLsbD k.val = false := by decide
      rw [this ⟨k, hk⟩ h31]
      simp
  unfold effId
  rw [BitVec.and_comm, BitVec.and_or_distrib_left, BitVec.and_comm f.mask 0x80000000#32, hz, h, BitVec.and_comm f.id]
  simp

/-- **C107.** For a Linux socket that takes as many filters as there are subscriptions: if memory does not run out, applying the filters does not panic, and the socket receives every frame that the
receiver would use. Missing: more filters than the socket takes, see the counterexample. -/
theorem C107_linux_partial {checks debug : Bool} {id : Option NodeId} {ops : List Op} {r : Receiver} (hist : History checks id ops r) {limit : Nat}
    (hl : r.filterCall.subscriptions.length ≤ limit) :
    ∃ fs, linuxApplyFilters debug false limit r.filterCall = some fs ∧ ∀ f : Frame, f.id.toNat < 2 ^ 29 → Wanted id ops f → socketPasses fs (effId f.id) = true := by
  obtain ⟨out, e1, -, e3⟩ := C20_filters_no_false_negatives (debug := debug) hist usizeMax (by decide)
  have hlen : out.length ≤ limit := by
    have hle : (idealFilters r.filterCall).length ≤ r.filterCall.subscriptions.length := List.length_filterMap_le ..
    obtain ⟨o, s, g1, g2, -, -⟩ := FilterConfig.C21_optimize_bounded_superset_partial debug (idealFilters r.filterCall) usizeMax (by decide) (idealFilters_constructed _)
    unfold optimizeFilters at e1
    rw [if_neg (by simp), g1] at e1
    cases e1
    omega
  refine ⟨out.map fun f => (f.id, f.mask), by simp [linuxApplyFilters, e1, hlen], ?_⟩
  rintro f hv ⟨h, t, w1, w2, w3⟩
  obtain ⟨g, hg, ha⟩ := e3 f h t hv w1 w2 w3
  unfold socketPasses
  rw [List.any_map, List.any_eq_true]
  exact ⟨g, hg, by simpa using socket_of_accepts (optimizeFilters_masked e1 g hg) ha⟩

/-- A receiver with `n` subscriptions to the first subjects. -/
def manySubjects (n : Nat) : List Op := (List.range n).map fun i => .subscribeMessage false (BitVec.ofNat 13 i) 8 1#32

theorem manySubjects_history : ∀ n : Nat, n ≤ 2 ^ 13 →
    ∃ r, History true none (manySubjects n) r ∧ ∀ i < n, ((Config.after none (manySubjects n)).table .message i).isSome = true
  | 0, _ => ⟨_, .new, fun i hi => by omega⟩
  | n + 1, hn => by
    obtain ⟨r, h1, h2⟩ := manySubjects_history n (by omega)
    have he : manySubjects (n + 1) = manySubjects n ++ [.subscribeMessage false (BitVec.ofNat 13 n) 8 1#32] := by
      simp [manySubjects, List.range_succ]
    rw [he]
    refine ⟨_, .call h1 trivial rfl, fun i hi => ?_⟩
    unfold Config.after at h2 ⊢
    rw [List.foldl_append]
    have hmod : (BitVec.ofNat 13 n).toNat = n := by
      rw [BitVec.toNat_ofNat]
      exact Nat.mod_eq_of_lt (by omega)
    simp only [List.foldl_cons, List.foldl_nil, Config.apply, Config.subscribe, Bool.false_eq_true, false_and, if_false, hmod, true_and]
    split
    · rfl
    · exact h2 i (by omega)

/-- **C107.** That the Linux driver can always apply the filters is false: with more subscriptions than the socket takes filters (512) it panics, since the number of filters is not limited. -/
theorem C107_linux_counterexample :
    ¬ ∀ (id : Option NodeId) (ops : List Op) (r : Receiver), History true id ops r → (linuxApplyFilters false false rawFilterMax r.filterCall).isSome = true := by
  intro h
  obtain ⟨r, h1, h2⟩ := manySubjects_history 513 (by decide)
  have h3 := h _ _ _ h1
  have hag := history_agrees h1
  -- there is a filter for each subject
  have hsub : (List.range 513).map (fun i => (Kind.message, i)) ⊆ r.filterCall.subscriptions := by
    intro p hp
    obtain ⟨i, hi, rfl⟩ := List.mem_map.1 hp
    rw [mem_filterCall]
    have := h2 i (List.mem_range.1 hi)
    rw [← hag.find, Option.isSome_map] at this
    exact this
  have hlen : 513 ≤ (idealFilters r.filterCall).length := by
    have e1 : ((List.range 513).map fun i => (Kind.message, i)).Subperm r.filterCall.subscriptions :=
      List.subperm_of_subset (List.Nodup.map (fun a b h => by cases h; rfl) List.nodup_range) hsub
    obtain ⟨l, e2, e3⟩ := e1
    have e4 := (e3.filterMap (fun s => makeFilter s r.filterCall.localNode)).length_le
    have e5 := (e2.filterMap (fun s => makeFilter s r.filterCall.localNode)).length_eq
    have e6 : (((List.range 513).map fun i => (Kind.message, i)).filterMap (fun s => makeFilter s r.filterCall.localNode)).length = 513 := by
      have : (fun s => makeFilter s r.filterCall.localNode) ∘ (fun i : Nat => (Kind.message, i)) = some ∘ fun i => subjectFilter (BitVec.ofNat 13 i) := rfl
      rw [List.filterMap_map, this, List.filterMap_eq_map, List.length_map, List.length_range]
    unfold idealFilters
    omega
  obtain ⟨o, s, g1, g2, -, -⟩ := FilterConfig.C21_optimize_bounded_superset_partial false (idealFilters r.filterCall) usizeMax (by decide) (idealFilters_constructed _)
  have e1 : optimizeFilters false false r.filterCall usizeMax = some (.ok o) := by
    unfold optimizeFilters
    rw [if_neg (by simp), g1]
  have e2 : ¬ o.length ≤ rawFilterMax := by
    have : usizeMax = 18446744073709551615 := by decide
    have : rawFilterMax = 512 := rfl
    omega
  unfold linuxApplyFilters at h3
  rw [e1] at h3
  dsimp only at h3
  rw [if_neg e2] at h3
  cases h3

/-- Two subjects and a service, on a controller with two banks: both banks are used, and they let the wanted frames through. -/
example : ((Receiver.new (some 5#7)).exec true [.subscribeMessage false 100#13 8 1#32, .subscribeMessage false 101#13 8 1#32, .subscribeRequest false 430#9 4 1#32]).map
    (fun p => ((bxApplyFilters true false 2 p.1.filterCall).map fun hw => (hw.length, hw.any fun k => k.passes (.extended (demoRequest.id.setWidth 29)),
        hw.any fun k => k.passes (.extended 0x10606409#29), hw.any fun k => k.passes (.extended 0x10800000#29), hw.any fun k => k.passes (.standard 0#11)))) =
    some (some (2, true, true, false, false)) := by decide +kernel

example : ((Receiver.new (some 5#7)).exec true [.subscribeMessage false 100#13 8 1#32, .subscribeRequest false 430#9 4 1#32]).map
    (fun p => ((linuxApplyFilters true false rawFilterMax p.1.filterCall).map fun fs => (fs.length, socketPasses fs (effId demoRequest.id), socketPasses fs (effId 0x10606409#32),
      socketPasses fs (effId 0x10800000#32)))) = some (some (2, true, true, false)) := by decide +kernel

end Verif.Drv
