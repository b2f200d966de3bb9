import Verif.Bls.Lemmas
import Mathlib.Data.Finset.Card
import Mathlib.Data.Finset.Union
import Mathlib.Data.Nat.ModEq
import Mathlib.Order.Monotone.Basic
/- Helper lemmas for the remainders of repeated sets. -/
namespace Verif.Bls

/-- The remainders of the sums of `k` elements of `M`. -/
def sums (d : Nat) (M : Finset Nat) : Nat → Finset Nat
  | 0 => {0 % d}
  | k + 1 => M.biUnion fun m => (sums d M k).image fun r => (r + m) % d

theorem mem_sums {d : Nat} {M : Finset Nat} {k r : Nat} :
    r ∈ sums d M k ↔ ∃ ms : List Nat, ms.length = k ∧ (∀ m ∈ ms, m ∈ M) ∧ ms.sum % d = r := by
  induction k generalizing r with
  | zero =>
    simp only [sums, Finset.mem_singleton]
    constructor
    · rintro rfl; exact ⟨[], rfl, by simp, rfl⟩
    · rintro ⟨ms, h1, _, h3⟩
      rw [List.length_eq_zero_iff] at h1
      subst h1
      exact h3.symm
  | succ k ih =>
    simp only [sums, Finset.mem_biUnion, Finset.mem_image]
    constructor
    · rintro ⟨m, hm, r', hr, rfl⟩
      obtain ⟨ms, h1, h2, rfl⟩ := ih.1 hr
      refine ⟨m :: ms, by simp [h1], ?_, ?_⟩
      · intro x hx
        rcases List.mem_cons.1 hx with rfl | hx
        · exact hm
        · exact h2 x hx
      · rw [List.sum_cons, Nat.mod_add_mod, Nat.add_comm]
    · rintro ⟨ms, h1, h2, rfl⟩
      cases ms with
      | nil => simp at h1
      | cons m ms =>
        refine ⟨m, h2 m (by simp), ms.sum % d, ih.2 ⟨ms, by simpa using h1, fun x hx => h2 x (List.mem_cons_of_mem _ hx), rfl⟩, ?_⟩
        rw [List.sum_cons, Nat.mod_add_mod, Nat.add_comm]

theorem sums_lt {d : Nat} (hd : 0 < d) {M : Finset Nat} {k r : Nat} (h : r ∈ sums d M k) : r < d := by
  obtain ⟨ms, _, _, rfl⟩ := mem_sums.1 h
  exact Nat.mod_lt _ hd

theorem sums_subset_range {d : Nat} (hd : 0 < d) (M : Finset Nat) (k : Nat) : sums d M k ⊆ Finset.range d :=
  fun _ h => Finset.mem_range.2 (sums_lt hd h)

theorem card_sums_le {d : Nat} (hd : 0 < d) (M : Finset Nat) (k : Nat) : (sums d M k).card ≤ d := by
  have := Finset.card_le_card (sums_subset_range hd M k)
  rwa [Finset.card_range] at this

theorem shift_injOn {d : Nat} (m : Nat) {s : Finset Nat} (hs : s ⊆ Finset.range d) :
    Set.InjOn (fun r => (r + m) % d) (s : Set Nat) := by
  intro a ha b hb h
  have ha := Finset.mem_range.1 (hs ha)
  have hb := Finset.mem_range.1 (hs hb)
  have : a ≡ b [MOD d] := Nat.ModEq.add_right_cancel' m h
  have h2 : a % d = b % d := this
  rwa [Nat.mod_eq_of_lt ha, Nat.mod_eq_of_lt hb] at h2

theorem card_shift {d : Nat} (m : Nat) {s : Finset Nat} (hs : s ⊆ Finset.range d) :
    (s.image fun r => (r + m) % d).card = s.card := Finset.card_image_of_injOn (shift_injOn m hs)

theorem shift_subset {d : Nat} {M : Finset Nat} {m : Nat} (hm : m ∈ M) (k : Nat) :
    ((sums d M k).image fun r => (r + m) % d) ⊆ sums d M (k + 1) := by
  intro r hr
  simp only [sums, Finset.mem_biUnion]
  exact ⟨m, hm, hr⟩

/-- The number of remainders grows until it stops growing. -/
theorem card_sums_stable {d : Nat} (hd : 0 < d) {M : Finset Nat} (hM : M.Nonempty) {n : Nat} (hn : d ≤ n) :
    (sums d M n).card = (sums d M d).card := by
  obtain ⟨m, hm⟩ := hM
  refine Nat.stabilises_of_monotone (f := fun k => (sums d M k).card) ?_ (card_sums_le hd M) ?_ hn
  · refine monotone_nat_of_le_succ fun k => ?_
    rw [← card_shift m (sums_subset_range hd M k)]
    exact Finset.card_le_card (shift_subset hm k)
  · intro k hk
    have e : ((sums d M k).image fun r => (r + m) % d) = sums d M (k + 1) := by
      refine Finset.eq_of_subset_of_card_le (shift_subset hm k) ?_
      rw [card_shift m (sums_subset_range hd M k)]
      exact Nat.le_of_eq hk.symm
    have e2 : sums d M (k + 2) = (sums d M (k + 1)).image fun r => (r + m) % d := by
      show (M.biUnion fun m' => (sums d M (k + 1)).image fun r => (r + m') % d) = _
      ext r
      simp only [Finset.mem_biUnion, Finset.mem_image]
      constructor
      · rintro ⟨m', hm', r', hr', rfl⟩
        rw [← e, Finset.mem_image] at hr'
        obtain ⟨q, hq, rfl⟩ := hr'
        refine ⟨(q + m') % d, shift_subset hm' k (Finset.mem_image.2 ⟨q, hq, rfl⟩), ?_⟩
        rw [Nat.mod_add_mod, Nat.mod_add_mod, Nat.add_assoc, Nat.add_comm m' m, ← Nat.add_assoc]
      · rintro ⟨r', hr', rfl⟩
        exact ⟨m, hm, r', hr', rfl⟩
    show (sums d M (k + 1)).card = (sums d M (k + 2)).card
    rw [e2, card_shift m (sums_subset_range hd M (k + 1))]

/-- From `d` repetitions on, `d` more of them make no difference. -/
theorem sums_add_period {d : Nat} (hd : 0 < d) {M : Finset Nat} (hM : M.Nonempty) {n : Nat} (hn : d ≤ n) (t : Nat) :
    sums d M (n + t * d) = sums d M n := by
  symm
  refine Finset.eq_of_subset_of_card_le ?_ ?_
  · intro r hr
    obtain ⟨m, hm⟩ := hM
    obtain ⟨ms, h1, h2, rfl⟩ := mem_sums.1 hr
    refine mem_sums.2 ⟨ms ++ List.replicate (t * d) m, by simp [h1], ?_, ?_⟩
    · intro x hx
      rcases List.mem_append.1 hx with hx | hx
      · exact h2 x hx
      · rw [(List.mem_replicate.1 hx).2]; exact hm
    · rw [List.sum_append, List.sum_replicate_nat, Nat.mul_assoc, Nat.mul_comm d m, ← Nat.mul_assoc, Nat.add_mul_mod_self_right]
  · rw [card_sums_stable hd hM hn, card_sums_stable hd hM (Nat.le_trans hn (Nat.le_add_right _ _))]

theorem sums_equivalentCount {d : Nat} (hd : 0 < d) {M : Finset Nat} (hM : M.Nonempty) (count : Nat) :
    sums d M (Operator.equivalentCount count d) = sums d M count := by
  unfold Operator.equivalentCount
  rcases Nat.le_total count (d + count % d) with h | h
  · rw [show Nat.min count (d + count % d) = count from Nat.min_eq_left h]
  · rw [show Nat.min count (d + count % d) = d + count % d from Nat.min_eq_right h]
    have h1 := Nat.div_add_mod count d
    have h2 : 0 < count / d := by
      apply Nat.div_pos _ hd
      omega
    have e : count = (d + count % d) + (count / d - 1) * d := by
      rw [Nat.sub_mul, Nat.mul_comm (count / d) d]
      have : d * 1 ≤ d * (count / d) := Nat.mul_le_mul_left _ h2
      omega
    conv => rhs; rw [e]
    exact (sums_add_period hd hM (Nat.le_add_right _ _) _).symm

/-- The remainders of the sums of at most `k` elements of `M`. -/
def upTo (d : Nat) (M : Finset Nat) (k : Nat) : Finset Nat := (Finset.range (k + 1)).biUnion fun j => sums d M j

theorem mem_upTo {d : Nat} {M : Finset Nat} {k r : Nat} : r ∈ upTo d M k ↔ ∃ j, j ≤ k ∧ r ∈ sums d M j := by
  simp only [upTo, Finset.mem_biUnion, Finset.mem_range, Nat.lt_succ_iff]

theorem upTo_mono {d : Nat} {M : Finset Nat} {k l : Nat} (h : k ≤ l) : upTo d M k ⊆ upTo d M l := by
  intro r hr
  obtain ⟨j, hj, hr⟩ := mem_upTo.1 hr
  exact mem_upTo.2 ⟨j, by omega, hr⟩

theorem mem_upTo_succ {d : Nat} {M : Finset Nat} {k r : Nat} :
    r ∈ upTo d M (k + 1) ↔ r = 0 % d ∨ ∃ m ∈ M, ∃ q ∈ upTo d M k, (q + m) % d = r := by
  rw [mem_upTo]
  constructor
  · rintro ⟨j, hj, hr⟩
    cases j with
    | zero => left; simpa [sums] using hr
    | succ j =>
      right
      simp only [sums, Finset.mem_biUnion, Finset.mem_image] at hr
      obtain ⟨m, hm, q, hq, e⟩ := hr
      exact ⟨m, hm, q, mem_upTo.2 ⟨j, by omega, hq⟩, e⟩
  · rintro (rfl | ⟨m, hm, q, hq, rfl⟩)
    · exact ⟨0, by omega, by simp [sums]⟩
    · obtain ⟨j, hj, hq⟩ := mem_upTo.1 hq
      exact ⟨j + 1, by omega, shift_subset hm j (Finset.mem_image.2 ⟨q, hq, rfl⟩)⟩

theorem upTo_stable {d : Nat} (hd : 0 < d) (M : Finset Nat) {n : Nat} (hn : d ≤ n) : upTo d M n = upTo d M d := by
  have hsub : ∀ k, upTo d M k ⊆ Finset.range d := by
    intro k r hr
    obtain ⟨j, _, hr⟩ := mem_upTo.1 hr
    exact sums_subset_range hd M j hr
  have hc : (upTo d M n).card = (upTo d M d).card := by
    refine Nat.stabilises_of_monotone (f := fun k => (upTo d M k).card) ?_ ?_ ?_ hn
    · exact fun a b h => Finset.card_le_card (upTo_mono h)
    · intro k
      have := Finset.card_le_card (hsub k)
      rwa [Finset.card_range] at this
    · intro k hk
      have e : upTo d M k = upTo d M (k + 1) :=
        Finset.eq_of_subset_of_card_le (upTo_mono (by omega)) (Nat.le_of_eq hk.symm)
      have : upTo d M (k + 1) = upTo d M (k + 2) := by
        ext r
        rw [mem_upTo_succ, mem_upTo_succ (k := k + 1), e]
      show (upTo d M (k + 1)).card = (upTo d M (k + 2)).card
      rw [this]
  exact (Finset.eq_of_subset_of_card_le (upTo_mono hn) (Nat.le_of_eq hc)).symm

theorem upTo_equivalentCount {d : Nat} (hd : 0 < d) (M : Finset Nat) (count : Nat) :
    upTo d M (Operator.equivalentCount count d) = upTo d M count := by
  unfold Operator.equivalentCount
  rcases Nat.le_total count (d + count % d) with h | h
  · rw [show Nat.min count (d + count % d) = count from Nat.min_eq_left h]
  · rw [show Nat.min count (d + count % d) = d + count % d from Nat.min_eq_right h,
      upTo_stable hd M (Nat.le_add_right _ _), upTo_stable hd M (n := count) (by omega)]

/-! ### From remainders to lengths -/

/-- Sums of remainders have the same remainders as sums of lengths. -/
theorem sums_of_residues {d : Nat} {M : Finset Nat} {L : Nat → Prop} (h : ∀ r, r ∈ M ↔ ∃ n, L n ∧ n % d = r) (k r : Nat) :
    r ∈ sums d M k ↔ ∃ n, (∃ ms : List Nat, ms.length = k ∧ (∀ m ∈ ms, L m) ∧ ms.sum = n) ∧ n % d = r := by
  rw [mem_sums]
  constructor
  · rintro ⟨ms, rfl, h2, rfl⟩
    suffices ∃ ns : List Nat, ns.length = ms.length ∧ (∀ m ∈ ns, L m) ∧ ns.sum % d = ms.sum % d by
      obtain ⟨ns, a, b, c⟩ := this
      exact ⟨_, ⟨ns, a, b, rfl⟩, c⟩
    induction ms with
    | nil => exact ⟨[], rfl, by simp, rfl⟩
    | cons m ms ih =>
      obtain ⟨ns, a, b, c⟩ := ih fun x hx => h2 x (List.mem_cons_of_mem _ hx)
      obtain ⟨n, hn, rfl⟩ := (h m).1 (h2 m (by simp))
      refine ⟨n :: ns, by simp [a], ?_, ?_⟩
      · intro x hx
        rcases List.mem_cons.1 hx with rfl | hx
        · exact hn
        · exact b x hx
      · rw [List.sum_cons, List.sum_cons, Nat.add_mod, c, ← Nat.add_mod, Nat.mod_add_mod]
  · rintro ⟨_, ⟨ms, rfl, h2, rfl⟩, rfl⟩
    refine ⟨ms.map (· % d), by simp, ?_, ?_⟩
    · intro x hx
      obtain ⟨m, hm, rfl⟩ := List.mem_map.1 hx
      exact (h _).2 ⟨m, h2 m hm, rfl⟩
    · clear h2
      induction ms with
      | nil => rfl
      | cons m ms ih => rw [List.map_cons, List.sum_cons, List.sum_cons, Nat.mod_add_mod, Nat.add_mod, ih, ← Nat.add_mod]

/-- The remainders computed from combinations are the remainders of sums. -/
theorem mem_combos_sums {d : Nat} {pool : List Nat} {k r : Nat} :
    r ∈ (combos pool k).map (fun values => values.sum % d) ↔ r ∈ sums d pool.toFinset k := by
  rw [List.mem_map, mem_sums]
  constructor
  · rintro ⟨ms, hm, rfl⟩
    obtain ⟨h1, h2⟩ := combos_sound hm
    exact ⟨ms, h1, fun m hm => List.mem_toFinset.2 (h2 m hm), rfl⟩
  · rintro ⟨ms, rfl, h2, rfl⟩
    obtain ⟨t, ht, e⟩ := combos_complete ms (fun m hm => List.mem_toFinset.1 (h2 m hm))
    exact ⟨t, ht, by rw [e]⟩

/-- Rounding up commutes with taking remainders when one of alignment and divisor divides the other. -/
theorem alignUp_mod {a d n : Nat} (ha : 0 < a) (h : a ∣ d ∨ d ∣ a) : alignUp (n % d) a % d = alignUp n a % d := by
  rcases h with ⟨q, rfl⟩ | h
  · have e : alignUp n a = alignUp (n % (a * q)) a + (n / (a * q)) * (a * q) := by
      obtain ⟨h1, h2, h3⟩ := (alignUp_iff (l := alignUp (n % (a * q)) a) ha).1 rfl
      symm
      rw [alignUp_iff ha]
      have hn := Nat.div_add_mod n (a * q)
      rw [Nat.mul_comm (a * q)] at hn
      refine ⟨Nat.dvd_add h1 (Nat.dvd_mul_left_of_dvd (Nat.dvd_mul_right a q) _), by omega, by omega⟩
    rw [e, Nat.add_mul_mod_self_right]
  · have : ∀ m, alignUp m a % d = 0 := fun m =>
      Nat.mod_eq_zero_of_dvd (Nat.dvd_trans h ((alignUp_iff ha).1 rfl).1)
    rw [this, this]

theorem modulo_sorted {s : BitLengthSet} (d : Nat) : (s.operator.modulo d).Pairwise (· < ·) := by
  cases s with
  | mk o => cases o <;> exact sorted_collectSet _

theorem modulo_leaf {values : List Nat} {d r : Nat} : r ∈ (Operator.leaf values).modulo d ↔ ∃ n, n ∈ values ∧ n % d = r := by
  simp [Operator.modulo, mem_collectSet]

/-- Every expression has some remainder, and every remainder computed is below the divisor. -/
theorem modulo_nonempty {s : BitLengthSet} {L : Nat → Prop} (h : Denotes s L) {d : Nat} (hd : 0 < d) :
    (∃ r, r ∈ s.operator.modulo d) ∧ ∀ r ∈ s.operator.modulo d, r < d := by
  induction h with
  | single n =>
    refine ⟨⟨n % d, modulo_leaf.2 ⟨n, by simp [insertSet], rfl⟩⟩, fun r hr => ?_⟩
    obtain ⟨m, _, rfl⟩ := modulo_leaf.1 hr
    exact Nat.mod_lt _ hd
  | @ofLengths values s h =>
    unfold BitLengthSet.fromLengths at h
    split at h
    · cases h
    · rename_i hne
      cases h
      obtain ⟨x, hx⟩ := List.exists_mem_of_ne_nil _ (show collectSet values ≠ [] by simpa using hne)
      refine ⟨⟨x % d, modulo_leaf.2 ⟨x, hx, rfl⟩⟩, fun r hr => ?_⟩
      obtain ⟨m, _, rfl⟩ := modulo_leaf.1 hr
      exact Nat.mod_lt _ hd
  | @ofSet values s hs h =>
    unfold BitLengthSet.fromLengthSet at h
    split at h
    · cases h
    · rename_i hne
      cases h
      obtain ⟨x, hx⟩ := List.exists_mem_of_ne_nil _ (show values ≠ [] by simpa using hne)
      refine ⟨⟨x % d, modulo_leaf.2 ⟨x, hx, rfl⟩⟩, fun r hr => ?_⟩
      obtain ⟨m, _, rfl⟩ := modulo_leaf.1 hr
      exact Nat.mod_lt _ hd
  | @pad s L a ha _ ih =>
    simp only [BitLengthSet.padToAlignment, Operator.modulo, mem_collectSet, List.mem_map]
    obtain ⟨⟨r, hr⟩, _⟩ := ih
    refine ⟨⟨_, r, hr, rfl⟩, ?_⟩
    rintro _ ⟨_, _, rfl⟩
    exact Nat.mod_lt _ hd
  | @repeated s L k _ ih =>
    simp only [BitLengthSet.repeatTimes, Operator.modulo, mem_collectSet, mem_combos_sums]
    obtain ⟨⟨r, hr⟩, _⟩ := ih
    refine ⟨⟨_, mem_sums.2 ⟨List.replicate (Operator.equivalentCount k d) r, by simp, fun m hm => ?_, rfl⟩⟩, fun r hr => sums_lt hd hr⟩
    rw [(List.mem_replicate.1 hm).2]; exact List.mem_toFinset.2 hr
  | @ranged s L k _ ih =>
    simp only [BitLengthSet.repeatRange, Operator.modulo, mem_collectSet, List.mem_flatMap, mem_combos_sums, List.mem_range]
    refine ⟨⟨0 % d, 0, by omega, by simp [sums]⟩, ?_⟩
    rintro r ⟨_, _, hr⟩
    exact sums_lt hd hr
  | @concat s L parts _ hps ih ihs =>
    simp only [BitLengthSet.concatenate, Operator.modulo, mem_collectSet, List.mem_map, moduloAll_eq, mem_product]
    refine ⟨?_, ?_⟩
    · obtain ⟨⟨r, hr⟩, _⟩ := ih
      have : ∃ ms, List.Forall₂ (· ∈ ·) ms (((parts.map (·.1)).map (·.operator)).map (Operator.modulo d)) := by
        clear hps
        induction parts with
        | nil => exact ⟨[], List.Forall₂.nil⟩
        | cons p ps ihp =>
          obtain ⟨ms, hms⟩ := ihp fun q hq => ihs q (List.mem_cons_of_mem _ hq)
          obtain ⟨⟨x, hx⟩, _⟩ := ihs p (by simp)
          exact ⟨x :: ms, List.Forall₂.cons hx hms⟩
      obtain ⟨ms, hms⟩ := this
      exact ⟨_, r :: ms, List.Forall₂.cons hr hms, rfl⟩
    · rintro _ ⟨_, _, rfl⟩
      exact Nat.mod_lt _ hd
  | @united s L parts _ _ ih ihs =>
    simp only [BitLengthSet.unite, Operator.modulo, mem_collectSet, moduloAll_eq, List.map_cons, List.flatten_cons, List.mem_append]
    obtain ⟨⟨r, hr⟩, hlt⟩ := ih
    refine ⟨⟨r, Or.inl hr⟩, ?_⟩
    rintro r (hr | hr)
    · exact hlt r hr
    · simp only [List.mem_flatten, List.mem_map] at hr
      obtain ⟨l, ⟨o, ⟨b, ⟨p, hp, rfl⟩, rfl⟩, rfl⟩, hl⟩ := hr
      exact (ihs p hp).2 r hl

theorem modulo_mem {s : BitLengthSet} {L : Nat → Prop} (h : Denotes s L) {d : Nat} (hd : 0 < d)
    (hp : ∀ a, PadsTo a s.operator → a ∣ d ∨ d ∣ a) (r : Nat) : r ∈ s.operator.modulo d ↔ ∃ n, L n ∧ n % d = r := by
  induction h generalizing r with
  | single n =>
    show r ∈ (Operator.leaf _).modulo d ↔ _
    rw [modulo_leaf]
    simp [insertSet]
  | @ofLengths values s h =>
    unfold BitLengthSet.fromLengths at h
    split at h
    · cases h
    · cases h
      rw [modulo_leaf]
      simp only [mem_collectSet]
  | @ofSet values s hs h =>
    unfold BitLengthSet.fromLengthSet at h
    split at h
    · cases h
    · cases h
      rw [modulo_leaf]
  | @pad s L a ha _ ih =>
    replace ih := ih fun b hb => hp b (PadsTo.padding hb)
    show r ∈ collectSet ((s.operator.modulo d).map _) ↔ _
    rw [mem_collectSet, List.mem_map]
    have hc := hp a (PadsTo.here _)
    constructor
    · rintro ⟨v, hv, rfl⟩
      obtain ⟨n, hn, rfl⟩ := (ih v).1 hv
      exact ⟨alignUp n a, ⟨n, hn, (alignUp_iff ha).1 rfl⟩, (alignUp_mod ha hc).symm⟩
    · rintro ⟨l, ⟨n, hn, hl⟩, rfl⟩
      refine ⟨n % d, (ih _).2 ⟨n, hn, rfl⟩, ?_⟩
      rw [alignUp_mod ha hc, (alignUp_iff ha).2 hl]
  | @repeated s L k hs ih =>
    replace ih := ih fun b hb => hp b (PadsTo.repeated hb)
    show r ∈ collectSet ((combos (s.operator.modulo d) _).map _) ↔ _
    obtain ⟨⟨x, hx⟩, _⟩ := modulo_nonempty hs hd
    rw [mem_collectSet, mem_combos_sums, sums_equivalentCount hd ⟨x, List.mem_toFinset.2 hx⟩]
    exact sums_of_residues (fun r => by rw [List.mem_toFinset, ih r]) k r
  | @ranged s L k hs ih =>
    replace ih := ih fun b hb => hp b (PadsTo.ranged hb)
    show r ∈ collectSet ((List.range (Operator.equivalentCount k d + 1)).flatMap fun j =>
      (combos (s.operator.modulo d) j).map fun values => values.sum % d) ↔ _
    rw [mem_collectSet, List.mem_flatMap]
    simp only [mem_combos_sums, List.mem_range, Nat.lt_succ_iff]
    rw [← mem_upTo, upTo_equivalentCount hd, mem_upTo]
    simp only [sums_of_residues (M := (s.operator.modulo d).toFinset) (L := L) (fun r => by rw [List.mem_toFinset, ih r])]
    constructor
    · rintro ⟨j, hj, n, ⟨ms, h1, h2, h3⟩, h4⟩
      exact ⟨n, ⟨ms, by omega, h2, h3⟩, h4⟩
    · rintro ⟨n, ⟨ms, h1, h2, h3⟩, h4⟩
      exact ⟨ms.length, h1, n, ⟨ms, rfl, h2, h3⟩, h4⟩
  | @concat s L parts _ hps ih ihs =>
    replace ih := ih fun b hb => hp b (PadsTo.concat (by simp) hb)
    replace ihs : ∀ p ∈ parts, ∀ r, r ∈ p.1.operator.modulo d ↔ ∃ n, p.2 n ∧ n % d = r := fun p hp' =>
      ihs p hp' fun b hb => hp b (PadsTo.concat (List.mem_cons_of_mem _ (List.mem_map.2 ⟨p.1, List.mem_map.2 ⟨p, hp', rfl⟩, rfl⟩)) hb)
    show r ∈ collectSet ((product (Operator.moduloAll d (s.operator :: (parts.map (·.1)).map (·.operator)))).map _) ↔ _
    rw [mem_collectSet, List.mem_map, moduloAll_eq]
    have key : ∀ r, (∃ ms, List.Forall₂ (· ∈ ·) ms (((parts.map (·.1)).map (·.operator)).map (Operator.modulo d)) ∧ ms.sum % d = r)
        ↔ ∃ ms, List.Forall₂ (fun n (p : BitLengthSet × (Nat → Prop)) => p.2 n) ms parts ∧ ms.sum % d = r := by
      clear hp ih
      clear hps
      induction parts with
      | nil => intro r; simp
      | cons p ps ihp =>
        have ihp := ihp fun q hq => ihs q (List.mem_cons_of_mem _ hq)
        intro r
        simp only [List.map_cons]
        constructor
        · rintro ⟨ms, hms, rfl⟩
          cases hms with
          | @cons x _ xs _ h1 h2 =>
            obtain ⟨n, hn, rfl⟩ := (ihs p (by simp) _).1 h1
            obtain ⟨ns, hns, e⟩ := (ihp (xs.sum % d)).1 ⟨xs, h2, rfl⟩
            refine ⟨n :: ns, List.Forall₂.cons hn hns, ?_⟩
            rw [List.sum_cons, List.sum_cons, Nat.mod_add_mod, Nat.add_mod, e, ← Nat.add_mod]
        · rintro ⟨ms, hms, rfl⟩
          cases hms with
          | @cons n _ ns _ h1 h2 =>
            obtain ⟨xs, hxs, e⟩ := (ihp (ns.sum % d)).2 ⟨ns, h2, rfl⟩
            refine ⟨(n % d) :: xs, List.Forall₂.cons ((ihs p (by simp) _).2 ⟨n, h1, rfl⟩) hxs, ?_⟩
            rw [List.sum_cons, List.sum_cons, Nat.mod_add_mod, Nat.add_mod, e, ← Nat.add_mod]
    constructor
    · rintro ⟨ms, hm, rfl⟩
      rw [mem_product, List.map_cons] at hm
      cases hm with
      | @cons x _ xs _ h1 h2 =>
        obtain ⟨n, hn, rfl⟩ := (ih _).1 h1
        obtain ⟨ns, hns, e⟩ := (key (xs.sum % d)).1 ⟨xs, h2, rfl⟩
        refine ⟨_, ⟨n, hn, ns, hns, rfl⟩, ?_⟩
        rw [List.sum_cons, Nat.mod_add_mod, Nat.add_mod, e, ← Nat.add_mod]
    · rintro ⟨_, ⟨n, hn, ns, hns, rfl⟩, rfl⟩
      obtain ⟨xs, hxs, e⟩ := (key (ns.sum % d)).2 ⟨ns, hns, rfl⟩
      refine ⟨(n % d) :: xs, ?_, ?_⟩
      · rw [mem_product, List.map_cons]
        exact List.Forall₂.cons ((ih _).2 ⟨n, hn, rfl⟩) hxs
      · rw [List.sum_cons, Nat.mod_add_mod, Nat.add_mod, e, ← Nat.add_mod]
  | @united s L parts _ _ ih ihs =>
    replace ih := ih fun b hb => hp b (PadsTo.united (by simp) hb)
    replace ihs : ∀ p ∈ parts, ∀ r, r ∈ p.1.operator.modulo d ↔ ∃ n, p.2 n ∧ n % d = r := fun p hp' =>
      ihs p hp' fun b hb => hp b (PadsTo.united (List.mem_cons_of_mem _ (List.mem_map.2 ⟨p.1, List.mem_map.2 ⟨p, hp', rfl⟩, rfl⟩)) hb)
    show r ∈ collectSet (Operator.moduloAll d (s.operator :: (parts.map (·.1)).map (·.operator))).flatten ↔ _
    rw [mem_collectSet, moduloAll_eq, List.map_cons, List.flatten_cons, List.mem_append, ih r]
    constructor
    · rintro (⟨n, hn, e⟩ | h)
      · exact ⟨n, Or.inl hn, e⟩
      · simp only [List.mem_flatten, List.mem_map] at h
        obtain ⟨l, ⟨o, ⟨b, ⟨p, hp, rfl⟩, rfl⟩, rfl⟩, hl⟩ := h
        obtain ⟨n, hn, e⟩ := (ihs p hp r).1 hl
        exact ⟨n, Or.inr ⟨p, hp, hn⟩, e⟩
    · rintro ⟨n, hn | ⟨p, hp, hn⟩, e⟩
      · exact Or.inl ⟨n, hn, e⟩
      · right
        simp only [List.mem_flatten, List.mem_map]
        exact ⟨_, ⟨_, ⟨_, ⟨p, hp, rfl⟩, rfl⟩, rfl⟩, (ihs p hp r).2 ⟨n, hn, e⟩⟩

end Verif.Bls
