import Verif.Bls.Wide
import Verif.Bls.Props
/-
C138: bit length sets with the arithmetic of `u64`.
-/
namespace Verif.Bls

open BitLengthSet

/-! ### Specification vocabulary -/

/-- `o` is the expression `s` or a part of it. -/
inductive Part (o : Operator) : Operator → Prop
  | whole : Part o o
  | padding {c a} : Part o c → Part o (.padding c a)
  | repeated {c k} : Part o c → Part o (.repeat c k)
  | ranged {c k} : Part o c → Part o (.rangeRepeat c k)
  | concat {c cs} : c ∈ cs → Part o c → Part o (.concatenate cs)
  | united {c cs} : c ∈ cs → Part o c → Part o (.union cs)

/-- All lengths of the set and of the sets it is made from fit into `u64`, and alignments into `u32`. -/
structure Fits (s : BitLengthSet) : Prop where
  lengths : ∀ o, Part o s.operator → ∀ n ∈ (BitLengthSet.mk o).expand, n < 2 ^ 64
  alignments : ∀ a, PadsTo a s.operator → a < 2 ^ 32

/-! ### Arithmetic -/

theorem fit_eq (checks : Bool) {n : Nat} (h : n < 2 ^ 64) : fit checks n = some n := if_pos h

theorem foldlM_fit (checks : Bool) : ∀ (ns : List Nat) (t : Nat), t + ns.sum < 2 ^ 64 → ns.foldlM (fun total n => fit checks (total + n)) t = some (t + ns.sum)
  | [], t, _ => by simp
  | n :: ns, t, h => by
    rw [List.sum_cons] at h
    rw [List.foldlM_cons, fit_eq checks (by omega)]
    show List.foldlM _ _ _ = _
    rw [foldlM_fit checks ns (t + n) (by omega), List.sum_cons, Nat.add_assoc]

theorem sumW_eq (checks : Bool) {ns : List Nat} (h : ns.sum < 2 ^ 64) : sumW checks ns = some ns.sum := by
  unfold sumW
  rw [foldlM_fit checks ns 0 (by omega), Nat.zero_add]

theorem alignUpW_eq (checks : Bool) {m a : Nat} (ha : 0 < a) (h : alignUp m a < 2 ^ 64) : alignUpW checks m a = some (alignUp m a) := by
  unfold alignUpW
  rw [if_neg (by omega), fit_eq checks h]

theorem mapM_some {α β : Type} {f : α → Option β} {g : α → β} : ∀ {l : List α}, (∀ x ∈ l, f x = some (g x)) → l.mapM f = some (l.map g)
  | [], _ => rfl
  | x :: l, h => by
    rw [List.mapM_cons, h x List.mem_cons_self, mapM_some (l := l) fun y hy => h y (List.mem_cons_of_mem _ hy)]
    rfl

theorem minAllW_eq (checks : Bool) : ∀ {cs : List Operator}, (∀ c ∈ cs, c.minW checks = some c.min) → Operator.minAllW checks cs = some (Operator.minAll cs)
  | [], _ => by rw [Operator.minAllW, Operator.minAll]
  | c :: cs, h => by
    rw [Operator.minAllW, Operator.minAll, h c List.mem_cons_self, minAllW_eq checks fun y hy => h y (List.mem_cons_of_mem _ hy)]
    rfl

theorem maxAllW_eq (checks : Bool) : ∀ {cs : List Operator}, (∀ c ∈ cs, c.maxW checks = some c.max) → Operator.maxAllW checks cs = some (Operator.maxAll cs)
  | [], _ => by rw [Operator.maxAllW, Operator.maxAll]
  | c :: cs, h => by
    rw [Operator.maxAllW, Operator.maxAll, h c List.mem_cons_self, maxAllW_eq checks fun y hy => h y (List.mem_cons_of_mem _ hy)]
    rfl

theorem moduloAllW_eq (checks debug : Bool) (d : Nat) : ∀ {cs : List Operator}, (∀ c ∈ cs, c.moduloW checks debug d = some (c.modulo d)) →
    Operator.moduloAllW checks debug d cs = some (Operator.moduloAll d cs)
  | [], _ => by rw [Operator.moduloAllW, Operator.moduloAll]
  | c :: cs, h => by
    rw [Operator.moduloAllW, Operator.moduloAll, h c List.mem_cons_self, moduloAllW_eq checks debug d fun y hy => h y (List.mem_cons_of_mem _ hy)]
    rfl

theorem expandAllW_eq (checks : Bool) : ∀ {cs : List Operator}, (∀ c ∈ cs, c.expandW checks = some c.expand) →
    Operator.expandAllW checks cs = some (Operator.expandAll cs)
  | [], _ => by rw [Operator.expandAllW, Operator.expandAll]
  | c :: cs, h => by
    rw [Operator.expandAllW, Operator.expandAll, h c List.mem_cons_self, expandAllW_eq checks fun y hy => h y (List.mem_cons_of_mem _ hy)]
    rfl

/-! ### What fits -/

theorem Fits.max {s : BitLengthSet} {L : Nat → Prop} (h : Denotes s L) (hf : Fits s) : s.maxValue < 2 ^ 64 :=
  hf.lengths _ .whole _ ((expand_mem h _).2 (max_spec h).1)

theorem Fits.min {s : BitLengthSet} {L : Nat → Prop} (h : Denotes s L) (hf : Fits s) : s.minValue < 2 ^ 64 :=
  hf.lengths _ .whole _ ((expand_mem h _).2 (min_spec h).1)

theorem Fits.pad {s : BitLengthSet} {a : Nat} (hf : Fits (s.padToAlignment a)) : Fits s ∧ a < 2 ^ 32 :=
  ⟨⟨fun o ho => hf.lengths o (.padding ho), fun b hb => hf.alignments b (.padding hb)⟩, hf.alignments a (.here _)⟩

theorem Fits.repeated {s : BitLengthSet} {k : Nat} (hf : Fits (s.repeatTimes k)) : Fits s :=
  ⟨fun o ho => hf.lengths o (.repeated ho), fun b hb => hf.alignments b (.repeated hb)⟩

theorem Fits.ranged {s : BitLengthSet} {k : Nat} (hf : Fits (s.repeatRange k)) : Fits s :=
  ⟨fun o ho => hf.lengths o (.ranged ho), fun b hb => hf.alignments b (.ranged hb)⟩

theorem Fits.concat {s : BitLengthSet} {os : List BitLengthSet} (hf : Fits (s.concatenate os)) : Fits s ∧ ∀ o ∈ os, Fits o := by
  refine ⟨⟨fun o ho => hf.lengths o (.concat List.mem_cons_self ho), fun b hb => hf.alignments b (.concat List.mem_cons_self hb)⟩, fun t ht => ?_⟩
  have hm : t.operator ∈ s.operator :: os.map (·.operator) := List.mem_cons_of_mem _ (List.mem_map_of_mem ht)
  exact ⟨fun o ho => hf.lengths o (.concat hm ho), fun b hb => hf.alignments b (.concat hm hb)⟩

theorem Fits.united {s : BitLengthSet} {os : List BitLengthSet} (hf : Fits (s.unite os)) : Fits s ∧ ∀ o ∈ os, Fits o := by
  refine ⟨⟨fun o ho => hf.lengths o (.united List.mem_cons_self ho), fun b hb => hf.alignments b (.united List.mem_cons_self hb)⟩, fun t ht => ?_⟩
  have hm : t.operator ∈ s.operator :: os.map (·.operator) := List.mem_cons_of_mem _ (List.mem_map_of_mem ht)
  exact ⟨fun o ho => hf.lengths o (.united hm ho), fun b hb => hf.alignments b (.united hm hb)⟩

/-- An operator of a list of sets that all have a property. -/
theorem forall_operators {P : Operator → Prop} {s : BitLengthSet} {parts : List (BitLengthSet × (Nat → Prop))} (hs : P s.operator) (hp : ∀ p ∈ parts, P p.1.operator) :
    ∀ c ∈ s.operator :: (parts.map (·.1)).map (·.operator), P c := by
  intro c hc
  rcases List.mem_cons.1 hc with rfl | hc
  · exact hs
  · obtain ⟨t, ht, rfl⟩ := List.mem_map.1 hc
    obtain ⟨p, hp', rfl⟩ := List.mem_map.1 ht
    exact hp p hp'

/-- A leaf has a first and a last element. -/
theorem leaf_ends {values : List Nat} (h : values ≠ []) : values.head? = some (values.headD 0) ∧ values.getLast? = some (values.getLastD 0) := by
  cases values with
  | nil => exact absurd rfl h
  | cons x xs => exact ⟨rfl, by rw [List.getLast?_cons, List.getLastD_cons]; cases xs <;> simp [List.getLastD_eq_getLast?, List.getLast?_cons]⟩

theorem fromLengths_leaf {values : List Nat} {s : BitLengthSet} (h : fromLengths values = some s) : ∃ vs, s = ⟨.leaf vs⟩ ∧ vs ≠ [] := by
  unfold fromLengths at h
  split at h
  · cases h
  · rename_i hne
    cases h
    exact ⟨_, rfl, by simpa using hne⟩

theorem fromLengthSet_leaf {values : List Nat} {s : BitLengthSet} (h : fromLengthSet values = some s) : ∃ vs, s = ⟨.leaf vs⟩ ∧ vs ≠ [] := by
  unfold fromLengthSet at h
  split at h
  · cases h
  · rename_i hne
    cases h
    exact ⟨_, rfl, by simpa using hne⟩

/-! ### Least and greatest lengths -/

theorem minW_eq {s : BitLengthSet} {L : Nat → Prop} (h : Denotes s L) (hf : Fits s) (checks : Bool) : s.minValueW checks = some s.minValue := by
  have hmin := Fits.min h hf
  unfold minValueW minValue at *
  induction h with
  | single n => rfl
  | ofLengths h => obtain ⟨vs, rfl, hv⟩ := fromLengths_leaf h; rw [Operator.minW, (leaf_ends hv).1, Operator.min]
  | ofSet _ h => obtain ⟨vs, rfl, hv⟩ := fromLengthSet_leaf h; rw [Operator.minW, (leaf_ends hv).1, Operator.min]
  | pad a ha h ih =>
    simp only [padToAlignment, Operator.minW, Operator.min] at hmin ⊢
    rw [ih hf.pad.1 (Fits.min h hf.pad.1), Option.bind_some, alignUpW_eq checks ha hmin]
  | repeated k h ih =>
    simp only [repeatTimes, Operator.minW, Operator.min] at hmin ⊢
    rw [ih hf.repeated (Fits.min h hf.repeated), Option.bind_some, fit_eq checks hmin]
  | ranged k h ih => simp only [repeatRange, Operator.minW, Operator.min]
  | concat parts h hp ih ihp =>
    simp only [concatenate, Operator.minW, Operator.min] at hmin ⊢
    rw [minAllW_eq checks (forall_operators (ih hf.concat.1 (Fits.min h hf.concat.1)) fun p hm =>
      ihp p hm (hf.concat.2 _ (List.mem_map_of_mem hm)) (Fits.min (hp p hm) (hf.concat.2 _ (List.mem_map_of_mem hm)))), Option.bind_some, sumW_eq checks hmin]
  | united parts h hp ih ihp =>
    simp only [unite, Operator.minW, Operator.min]
    rw [minAllW_eq checks (forall_operators (ih hf.united.1 (Fits.min h hf.united.1)) fun p hm =>
      ihp p hm (hf.united.2 _ (List.mem_map_of_mem hm)) (Fits.min (hp p hm) (hf.united.2 _ (List.mem_map_of_mem hm)))), Option.bind_some, if_neg (by rw [Operator.minAll]; simp)]

theorem maxW_eq {s : BitLengthSet} {L : Nat → Prop} (h : Denotes s L) (hf : Fits s) (checks : Bool) : s.maxValueW checks = some s.maxValue := by
  have hmax := Fits.max h hf
  unfold maxValueW maxValue at *
  induction h with
  | single n => rfl
  | ofLengths h => obtain ⟨vs, rfl, hv⟩ := fromLengths_leaf h; rw [Operator.maxW, (leaf_ends hv).2, Operator.max]
  | ofSet _ h => obtain ⟨vs, rfl, hv⟩ := fromLengthSet_leaf h; rw [Operator.maxW, (leaf_ends hv).2, Operator.max]
  | pad a ha h ih =>
    simp only [padToAlignment, Operator.maxW, Operator.max] at hmax ⊢
    rw [ih hf.pad.1 (Fits.max h hf.pad.1), Option.bind_some, alignUpW_eq checks ha hmax]
  | repeated k h ih =>
    simp only [repeatTimes, Operator.maxW, Operator.max] at hmax ⊢
    rw [ih hf.repeated (Fits.max h hf.repeated), Option.bind_some, fit_eq checks hmax]
  | ranged k h ih =>
    simp only [repeatRange, Operator.maxW, Operator.max] at hmax ⊢
    rw [ih hf.ranged (Fits.max h hf.ranged), Option.bind_some, fit_eq checks hmax]
  | concat parts h hp ih ihp =>
    simp only [concatenate, Operator.maxW, Operator.max] at hmax ⊢
    rw [maxAllW_eq checks (forall_operators (ih hf.concat.1 (Fits.max h hf.concat.1)) fun p hm =>
      ihp p hm (hf.concat.2 _ (List.mem_map_of_mem hm)) (Fits.max (hp p hm) (hf.concat.2 _ (List.mem_map_of_mem hm)))), Option.bind_some, sumW_eq checks hmax]
  | united parts h hp ih ihp =>
    simp only [unite, Operator.maxW, Operator.max]
    rw [maxAllW_eq checks (forall_operators (ih hf.united.1 (Fits.max h hf.united.1)) fun p hm =>
      ihp p hm (hf.united.2 _ (List.mem_map_of_mem hm)) (Fits.max (hp p hm) (hf.united.2 _ (List.mem_map_of_mem hm)))), Option.bind_some, if_neg (by rw [Operator.maxAll]; simp)]

/-! ### Expansion -/

theorem expandW_eq {s : BitLengthSet} {L : Nat → Prop} (h : Denotes s L) (hf : Fits s) (checks : Bool) : s.expandW checks = some s.expand := by
  have hall := hf.lengths _ .whole
  unfold BitLengthSet.expandW BitLengthSet.expand at *
  induction h with
  | single n => rfl
  | ofLengths h => obtain ⟨vs, rfl, hv⟩ := fromLengths_leaf h; rw [Operator.expandW, Operator.expand]
  | ofSet _ h => obtain ⟨vs, rfl, hv⟩ := fromLengthSet_leaf h; rw [Operator.expandW, Operator.expand]
  | pad a ha h ih =>
    simp only [padToAlignment, Operator.expandW, Operator.expand] at hall ⊢
    rw [ih hf.pad.1 (hf.pad.1.lengths _ .whole), Option.bind_some, mapM_some fun x hx => alignUpW_eq checks ha (hall _ (mem_collectSet.2 (List.mem_map_of_mem hx)))]
    rfl
  | repeated k h ih =>
    simp only [repeatTimes, Operator.expandW, Operator.expand] at hall ⊢
    rw [ih hf.repeated (hf.repeated.lengths _ .whole), Option.bind_some, mapM_some fun x hx => sumW_eq checks (hall _ (mem_collectSet.2 (List.mem_map_of_mem hx)))]
    rfl
  | ranged k h ih =>
    simp only [repeatRange, Operator.expandW, Operator.expand] at hall ⊢
    rw [← List.map_flatMap] at hall ⊢
    rw [ih hf.ranged (hf.ranged.lengths _ .whole), Option.bind_some, mapM_some fun x hx => sumW_eq checks (hall _ (mem_collectSet.2 (List.mem_map_of_mem hx)))]
    rfl
  | concat parts h hp ih ihp =>
    simp only [concatenate, Operator.expandW, Operator.expand] at hall ⊢
    rw [expandAllW_eq checks (forall_operators (ih hf.concat.1 (hf.concat.1.lengths _ .whole)) fun p hm =>
      ihp p hm (hf.concat.2 _ (List.mem_map_of_mem hm)) ((hf.concat.2 _ (List.mem_map_of_mem hm)).lengths _ .whole)), Option.bind_some,
      mapM_some fun x hx => sumW_eq checks (hall _ (mem_collectSet.2 (List.mem_map_of_mem hx)))]
    rfl
  | united parts h hp ih ihp =>
    simp only [unite, Operator.expandW, Operator.expand]
    rw [expandAllW_eq checks (forall_operators (ih hf.united.1 (hf.united.1.lengths _ .whole)) fun p hm =>
      ihp p hm (hf.united.2 _ (List.mem_map_of_mem hm)) ((hf.united.2 _ (List.mem_map_of_mem hm)).lengths _ .whole))]
    rfl

/-! ### Remainders -/

theorem sum_le_of_forall₂ {ms ns : List Nat} (h : List.Forall₂ (· ≤ ·) ms ns) : ms.sum ≤ ns.sum := by
  induction h with
  | nil => rfl
  | cons h _ ih => rw [List.sum_cons, List.sum_cons]; omega

theorem equivalentCount_le (count d : Nat) : Operator.equivalentCount count d ≤ count := Nat.min_le_left _ _

theorem combos_sum_le {values : List Nat} {k b n : Nat} (hk : k ≤ n) (hb : ∀ v ∈ values, v ≤ b) : ∀ ms ∈ combos values k, ms.sum ≤ b * n := by
  intro ms hms
  obtain ⟨h1, h2⟩ := combos_sound hms
  refine (sum_le_length_mul fun m hm => hb m (h2 m hm)).trans ?_
  rw [h1]
  exact Nat.mul_le_mul_left b hk

theorem forall₂_of_mem {α : Type} {f : α → List Nat} {g : α → Nat} {vs : List Nat} {cs : List α} (h : List.Forall₂ (fun v c => v ∈ f c) vs cs)
    (hle : ∀ c ∈ cs, ∀ v ∈ f c, v ≤ g c) : List.Forall₂ (fun v c => v ≤ g c) vs cs := by
  induction h with
  | nil => exact .nil
  | cons h _ ih => exact .cons (hle _ List.mem_cons_self _ h) (ih fun c hc => hle c (List.mem_cons_of_mem _ hc))

/-- No remainder is greater than the greatest length, and the sums they are made from are not, either. -/
theorem modulo_le {s : BitLengthSet} {L : Nat → Prop} (h : Denotes s L) (d : Nat) : ∀ r ∈ s.operator.modulo d, r ≤ s.operator.max := by
  induction h with
  | single n =>
    intro r hr
    obtain ⟨m, hm, rfl⟩ := modulo_leaf.1 hr
    rw [List.mem_singleton.1 hm]
    exact Nat.mod_le _ _
  | ofLengths h =>
    have hd := Denotes.ofLengths h
    obtain ⟨vs, rfl, hv⟩ := fromLengths_leaf h
    intro r hr
    obtain ⟨m, hm, rfl⟩ := modulo_leaf.1 hr
    exact (Nat.mod_le _ _).trans ((max_spec hd).2 m ((expand_mem hd m).1 hm))
  | ofSet h1 h =>
    have hd := Denotes.ofSet h1 h
    obtain ⟨vs, rfl, hv⟩ := fromLengthSet_leaf h
    intro r hr
    obtain ⟨m, hm, rfl⟩ := modulo_leaf.1 hr
    exact (Nat.mod_le _ _).trans ((max_spec hd).2 m ((expand_mem hd m).1 hm))
  | pad a ha h ih =>
    intro r hr
    simp only [padToAlignment, Operator.modulo, Operator.max] at hr ⊢
    obtain ⟨v, hv, rfl⟩ := List.mem_map.1 (mem_collectSet.1 hr)
    exact (Nat.mod_le _ _).trans (alignUp_mono (ih v hv))
  | repeated k h ih =>
    intro r hr
    simp only [repeatTimes, Operator.modulo, Operator.max] at hr ⊢
    obtain ⟨v, hv, rfl⟩ := List.mem_map.1 (mem_collectSet.1 hr)
    exact (Nat.mod_le _ _).trans (combos_sum_le (equivalentCount_le _ _) ih v hv)
  | ranged k h ih =>
    intro r hr
    simp only [repeatRange, Operator.modulo, Operator.max] at hr ⊢
    obtain ⟨j, hj, hr⟩ := List.mem_flatMap.1 (mem_collectSet.1 hr)
    obtain ⟨v, hv, rfl⟩ := List.mem_map.1 hr
    have := equivalentCount_le k d
    rw [List.mem_range] at hj
    exact (Nat.mod_le _ _).trans (combos_sum_le (by omega) ih v hv)
  | concat parts h hp ih ihp =>
    intro r hr
    simp only [concatenate, Operator.modulo, Operator.max] at hr ⊢
    obtain ⟨v, hv, rfl⟩ := List.mem_map.1 (mem_collectSet.1 hr)
    refine (Nat.mod_le _ _).trans (sum_le_of_forall₂ ?_)
    rw [mem_product, moduloAll_eq] at hv
    rw [maxAll_eq]
    have := forall_operators (P := fun c => ∀ r ∈ c.modulo d, r ≤ c.max) ih ihp
    generalize _ :: _ = cs at hv this
    rw [List.forall₂_map_right_iff] at hv ⊢
    exact forall₂_of_mem hv this
  | united parts h hp ih ihp =>
    intro r hr
    simp only [unite, Operator.modulo, Operator.max] at hr ⊢
    obtain ⟨l, hl, hr⟩ := List.mem_flatten.1 (mem_collectSet.1 hr)
    rw [moduloAll_eq] at hl
    obtain ⟨c, hc, rfl⟩ := List.mem_map.1 hl
    have := forall_operators (P := fun c => ∀ r ∈ c.modulo d, r ≤ c.max) ih ihp c hc r hr
    refine this.trans ?_
    rw [maxAll_eq, List.map_cons]
    rw [← List.map_cons (f := Operator.max)] 
    exact (maxOf_cons _ _).2 _ (by rw [← List.map_cons (f := Operator.max)]; exact List.mem_map_of_mem hc)

theorem equivalentCountW_eq (checks debug : Bool) {d : Nat} (hd : 0 < d) (hd' : d ≤ 2 ^ 32) (count : Nat) :
    Operator.equivalentCountW checks debug count d = some (Operator.equivalentCount count d) := by
  have h1 := Nat.mod_lt count hd
  unfold Operator.equivalentCountW
  rw [fit_eq checks (by omega), Option.bind_some, if_neg]
  · rfl
  · have : Nat.min count (d + count % d) % d = count % d := by
      rcases Nat.le_total count (d + count % d) with h | h
      · rw [show Nat.min count (d + count % d) = count from Nat.min_eq_left h]
      · rw [show Nat.min count (d + count % d) = d + count % d from Nat.min_eq_right h, Nat.add_mod_left, Nat.mod_mod]
    simp [this]

theorem moduloW_eq {s : BitLengthSet} {L : Nat → Prop} (h : Denotes s L) (hf : Fits s) (checks debug : Bool) {d : Nat} (hd : 0 < d) (hd' : d ≤ 2 ^ 32) :
    s.operator.moduloW checks debug d = some (s.operator.modulo d) := by
  have hmax := Fits.max h hf
  have hle := modulo_le h d
  unfold maxValue at hmax
  induction h with
  | single n => simp only [single, Operator.moduloW, Operator.modulo]; rw [if_neg (by omega)]
  | ofLengths h => obtain ⟨vs, rfl, hv⟩ := fromLengths_leaf h; rw [Operator.moduloW, Operator.modulo, if_neg (by omega)]
  | ofSet _ h => obtain ⟨vs, rfl, hv⟩ := fromLengthSet_leaf h; rw [Operator.moduloW, Operator.modulo, if_neg (by omega)]
  | @pad t _ a ha h ih =>
    have hm := maxW_eq (.pad a ha h) hf checks
    simp only [padToAlignment, maxValueW, maxValue] at hm hmax hle ⊢
    have hfp := hf.pad.1
    have ha' := hf.pad.2
    have hlcm : Nat.lcm a d < 2 ^ 64 := lt_of_le_of_lt (Nat.lcm_le_mul ha hd) (lt_of_le_of_lt (Nat.mul_le_mul_left a hd') (by omega))
    have hdl : d ≤ Nat.lcm a d := Nat.le_of_dvd (Nat.lcm_pos ha hd) (Nat.dvd_lcm_right a d)
    rw [Operator.moduloW, hm, Option.bind_some, fit_eq checks hlcm, Option.bind_some, ih hfp (Fits.max h hfp) (modulo_le h d), Option.bind_some,
      mapM_some (g := fun v => alignUp v a % d), Operator.modulo]
    · rfl
    · intro v hv
      have h1 := modulo_le h d v hv
      have h2 := (modulo_nonempty h hd).2 v hv
      have h3 : alignUp v a ≤ alignUp t.operator.max a := alignUp_mono h1
      have h4 : t.operator.max ≤ alignUp t.operator.max a := ((alignUp_iff ha).1 rfl).2.1
      rw [Operator.max] at hmax ⊢
      unfold Operator.padModW
      rw [alignUpW_eq checks ha (by omega), if_neg]
      · rfl
      · simp only [Bool.and_eq_true, Bool.or_eq_true, decide_eq_true_eq, not_and, not_or]
        intro _
        omega
  | repeated k h ih =>
    simp only [repeatTimes, Operator.max] at hmax ⊢
    rw [Operator.moduloW, Operator.modulo, equivalentCountW_eq checks debug hd hd', Option.bind_some,
      ih hf.repeated (Fits.max h hf.repeated) (modulo_le h d), Option.bind_some, mapM_some (g := fun v => v.sum % d)]
    · rfl
    · intro v hv
      have := combos_sum_le (equivalentCount_le k d) (modulo_le h d) v hv
      rw [Operator.sumModW, sumW_eq checks (by omega)]
      rfl
  | ranged k h ih =>
    simp only [repeatRange, Operator.max] at hmax ⊢
    rw [Operator.moduloW, Operator.modulo, equivalentCountW_eq checks debug hd hd', 
      ih hf.ranged (Fits.max h hf.ranged) (modulo_le h d), Option.bind_some, Option.bind_some, ← List.map_flatMap, mapM_some (g := fun v => v.sum % d)]
    · rfl
    · intro v hv
      obtain ⟨j, hj, hv⟩ := List.mem_flatMap.1 hv
      have h1 := equivalentCount_le k d
      rw [List.mem_range] at hj
      have := combos_sum_le (n := k) (by omega) (modulo_le h d) v hv
      rw [Operator.sumModW, sumW_eq checks (by omega)]
      rfl
  | @concat t _ parts h hp ih ihp =>
    simp only [concatenate, Operator.max] at hmax ⊢
    rw [Operator.moduloW, Operator.modulo, moduloAllW_eq checks debug d (forall_operators (ih hf.concat.1 (Fits.max h hf.concat.1) (modulo_le h d)) fun p hm =>
      ihp p hm (hf.concat.2 _ (List.mem_map_of_mem hm)) (Fits.max (hp p hm) (hf.concat.2 _ (List.mem_map_of_mem hm))) (modulo_le (hp p hm) d)), Option.bind_some,
      mapM_some (g := fun v => v.sum % d)]
    · rfl
    · intro v hv
      have : v.sum ≤ (Operator.maxAll (t.operator :: (parts.map (·.1)).map (·.operator))).sum := by
        rw [mem_product, moduloAll_eq, List.forall₂_map_right_iff] at hv
        rw [maxAll_eq]
        refine sum_le_of_forall₂ ?_
        rw [List.forall₂_map_right_iff]
        exact forall₂_of_mem hv (forall_operators (P := fun c => ∀ r ∈ c.modulo d, r ≤ c.max) (modulo_le h d) fun p hm => modulo_le (hp p hm) d)
      rw [Operator.sumModW, sumW_eq checks (by omega)]
      rfl
  | united parts h hp ih ihp =>
    simp only [unite]
    rw [Operator.moduloW, Operator.modulo, moduloAllW_eq checks debug d (forall_operators (ih hf.united.1 (Fits.max h hf.united.1) (modulo_le h d)) fun p hm =>
      ihp p hm (hf.united.2 _ (List.mem_map_of_mem hm)) (Fits.max (hp p hm) (hf.united.2 _ (List.mem_map_of_mem hm))) (modulo_le (hp p hm) d))]
    rfl

/-! ### The property -/

/-- **C138.** With the arithmetic of `u64`, a set whose lengths and whose parts' lengths are below 2^64 has the least and the greatest length, the expansion, and the
answer to `is_fixed_size` that it has with numbers of any size (those of C48), in every build, and none of these functions panics. -/
theorem C138_exact_partial {s : BitLengthSet} {L : Nat → Prop} (h : Denotes s L) (hf : Fits s) (checks : Bool) :
    s.expandW checks = some s.expand ∧ s.minValueW checks = some s.minValue ∧ s.maxValueW checks = some s.maxValue ∧
      s.isFixedSizeW checks = some s.isFixedSize := by
  refine ⟨expandW_eq h hf checks, minW_eq h hf checks, maxW_eq h hf checks, ?_⟩
  unfold isFixedSizeW
  rw [minW_eq h hf checks, maxW_eq h hf checks]
  rfl

/-- **C138**, remainders: for divisors up to 2^32 the remainders and the answer to `is_aligned` are those with numbers of any size (C49), no debug assertion fails
and nothing panics. -/
theorem C138_modulo_partial {s : BitLengthSet} {L : Nat → Prop} (h : Denotes s L) (hf : Fits s) (checks debug : Bool) {d : Nat} (hd : 0 < d) (hd' : d ≤ 2 ^ 32) :
    s.remW checks debug d = some (s.rem d) ∧ s.isAlignedW checks debug d = some (s.isAligned d) := by
  have h1 := moduloW_eq h hf checks debug hd hd'
  obtain ⟨r, hr⟩ := (modulo_nonempty h hd).1
  have hne : s.operator.modulo d ≠ [] := List.ne_nil_of_mem hr
  have h2 : s.remW checks debug d = some (s.rem d) := by
    unfold remW rem
    rw [h1, Option.bind_some, if_neg (by simp [hne])]
  refine ⟨h2, ?_⟩
  have h3 : (s.rem d).minValueW checks = some (s.rem d).minValue := by
    unfold minValueW minValue rem
    rw [Operator.minW, Operator.min, (leaf_ends hne).1]
  have h4 : (s.rem d).maxValueW checks = some (s.rem d).maxValue := by
    unfold maxValueW maxValue rem
    rw [Operator.maxW, Operator.max, (leaf_ends hne).2]
  unfold isAlignedW isFixedSizeW isAligned isFixedSize
  rw [h2, Option.bind_some, h3, h4]
  simp only [Option.bind_some, Option.map_some]
  cases (s.rem d).minValue == (s.rem d).maxValue <;> rfl

/-- The lengths of `uint64[<=2^58]`. -/
def huge : BitLengthSet := (single 64).repeatRange (2 ^ 58)

/-- **C138** fails above: a list of up to 2^58 elements of 64 bits has lengths up to 2^64. With overflow checks `max_value` panics; without, it is 0, and the set is
said to have one length. -/
theorem C138_overflow_counterexample : (∃ L, Denotes huge L) ∧ huge.maxValue = 2 ^ 64 ∧ huge.isFixedSize = false ∧
    huge.maxValueW true = none ∧ huge.maxValueW false = some 0 ∧ huge.isFixedSizeW false = some true :=
  ⟨⟨_, .ranged _ (.single 64)⟩, by decide +kernel, by decide +kernel, by decide +kernel, by decide +kernel, by decide +kernel⟩

/-- **C138** fails for large divisors: the remainders of 2^63 by 2^63 + 1 panic with overflow checks. -/
theorem C138_divisor_counterexample : (∃ L, Denotes ((single 1).repeatTimes (2 ^ 63)) L) ∧ ((single 1).repeatTimes (2 ^ 63)).maxValue < 2 ^ 64 ∧
    (((single 1).repeatTimes (2 ^ 63)).remW true false (2 ^ 63 + 1)).isNone = true :=
  ⟨⟨_, .repeated _ (.single 1)⟩, by decide +kernel, by decide +kernel⟩

/-! ### Example -/

mutual
/-- The parts of an expression. -/
def partsOf : Operator → List Operator
  | .leaf values => [.leaf values]
  | .padding c a => .padding c a :: partsOf c
  | .concatenate cs => .concatenate cs :: partsOfAll cs
  | .repeat c k => .repeat c k :: partsOf c
  | .rangeRepeat c k => .rangeRepeat c k :: partsOf c
  | .union cs => .union cs :: partsOfAll cs
/-- The parts of several expressions. -/
def partsOfAll : List Operator → List Operator
  | [] => []
  | c :: cs => partsOf c ++ partsOfAll cs
end

theorem partsOfAll_mem {o c : Operator} : ∀ {cs : List Operator}, c ∈ cs → o ∈ partsOf c → o ∈ partsOfAll cs
  | d :: cs, hc, ho => by
    rw [partsOfAll, List.mem_append]
    rcases List.mem_cons.1 hc with rfl | hc
    · exact .inl ho
    · exact .inr (partsOfAll_mem hc ho)

theorem partsOf_mem {o s : Operator} (h : Part o s) : o ∈ partsOf s := by
  induction h with
  | whole => cases o <;> simp [partsOf]
  | padding _ ih => rw [partsOf]; exact List.mem_cons_of_mem _ ih
  | repeated _ ih => rw [partsOf]; exact List.mem_cons_of_mem _ ih
  | ranged _ ih => rw [partsOf]; exact List.mem_cons_of_mem _ ih
  | concat hc _ ih => rw [partsOf]; exact List.mem_cons_of_mem _ (partsOfAll_mem hc ih)
  | united hc _ ih => rw [partsOf]; exact List.mem_cons_of_mem _ (partsOfAll_mem hc ih)

theorem pads_part {a : Nat} {s : Operator} (h : PadsTo a s) : ∃ c, Part (.padding c a) s := by
  induction h with
  | here c => exact ⟨c, .whole⟩
  | padding _ ih => exact ih.imp fun _ => .padding
  | repeated _ ih => exact ih.imp fun _ => .repeated
  | ranged _ ih => exact ih.imp fun _ => .ranged
  | concat hc _ ih => exact ih.imp fun _ => .concat hc
  | united hc _ ih => exact ih.imp fun _ => .united hc

/-- A test for `Fits`. -/
theorem fits_of {s : BitLengthSet} (h : ((partsOf s.operator).all fun o => o.expand.all (· < 2 ^ 64) && match o with | .padding _ a => decide (a < 2 ^ 32) | _ => true) = true) :
    Fits s := by
  rw [List.all_eq_true] at h
  refine ⟨fun o ho n hn => ?_, fun a ha => ?_⟩
  · have := (Bool.and_eq_true _ _ ▸ h o (partsOf_mem ho)).1
    exact of_decide_eq_true (List.all_eq_true.1 this n hn)
  · obtain ⟨c, hc⟩ := pads_part ha
    have := (Bool.and_eq_true _ _ ▸ h _ (partsOf_mem hc)).2
    exact of_decide_eq_true this

example : Fits demo ∧ demo.isAlignedW true true 8 = some true ∧ demo.expandW true = some [8, 16, 24] ∧ demo.maxValueW true = some 24 :=
  ⟨fits_of (by decide +kernel), by decide +kernel, by decide +kernel, by decide +kernel⟩

end Verif.Bls
