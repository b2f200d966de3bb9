import Verif.Can.BusesSpec
import Verif.Can.StreamProps

/-!
C139: the same transfers over several interfaces.
-/

namespace Verif.Can

/-! ### Lemmas -/

/-- Whether a frame is passed on, in terms of the clock that does not wrap. -/
def mayPass (timeout : Nat) (last : Option Arrival) (a : Arrival) : Bool :=
  match last with
  | none => true
  | some l => a.interface == l.interface || decide (l.time + timeout < a.time)

/-- The frames passed on after `last` was. -/
def keep (timeout : Nat) : Option Arrival → List Arrival → List Arrival
  | _, [] => []
  | last, a :: rest => if mayPass timeout last a then a :: keep timeout (some a) rest else keep timeout last rest

theorem mayTake_eq {timeout : Nat} (ht : timeout < 2 ^ 31) {l a : Arrival} (hl : l.frame.timestamp = BitVec.ofNat 32 l.time)
    (ha : a.frame.timestamp = BitVec.ofNat 32 a.time) (h1 : l.time ≤ a.time) (h2 : a.time < l.time + 2 ^ 31) :
    mayTake (BitVec.ofNat 32 timeout) (some (l.frame, l.interface)) a.frame a.interface = mayPass timeout (some l) a := by
  have e : a.frame.timestamp = l.frame.timestamp + BitVec.ofNat 32 (a.time - l.time) := by
    rw [hl, ha, ← BitVec.ofNat_add]
    congr 1
    omega
  have h := C22_timeout_passed l.frame.timestamp (a.time - l.time) timeout (by omega) ht
  unfold mayTake mayPass
  dsimp only
  rw [e]
  congr 1
  rw [Bool.eq_iff_iff, h, decide_eq_true_eq]
  omega

theorem run_keep {N timeout : Nat} (ht : timeout < 2 ^ 31) (arrivals : List Arrival) (hi : ∀ a ∈ arrivals, a.interface < N)
    (hts : ∀ a ∈ arrivals, a.frame.timestamp = BitVec.ofNat 32 a.time) :
    ∀ (d : Deduplicator N) (last : Option Arrival),
      d.Knows (BitVec.ofNat 32 timeout) (last.map fun l => (l.frame, l.interface)) →
      (∀ l, last = some l → l.frame.timestamp = BitVec.ofNat 32 l.time ∧
        ∃ p : Arrival, l.time ≤ p.time ∧ p.time ≤ l.time + timeout ∧ List.IsChain (fun a b : Arrival => a.time ≤ b.time ∧ b.time + timeout < a.time + 2 ^ 31) (p :: arrivals)) →
      List.IsChain (fun a b : Arrival => a.time ≤ b.time ∧ b.time + timeout < a.time + 2 ^ 31) arrivals →
      ∃ d' answers, d.run (arrivals.map fun a => (a.frame, a.interface)) = some (d', answers) ∧
        ((arrivals.zip answers).filter fun x => x.2).map (fun x => x.1) = keep timeout last arrivals := by
  induction arrivals with
  | nil => intro d last _ _ _; exact ⟨d, [], rfl, rfl⟩
  | cons a rest ih =>
    intro d last hk hl hc
    obtain ⟨d1, h1, h2⟩ := dedup_accept d _ _ hk a.frame a.interface (hi a List.mem_cons_self)
    have hm : mayTake (BitVec.ofNat 32 timeout) (last.map fun l => (l.frame, l.interface)) a.frame a.interface = mayPass timeout last a := by
      cases last with
      | none => rfl
      | some l =>
        obtain ⟨hlt, p, hp1, hp2, hp3⟩ := hl l rfl
        have := (List.isChain_cons_cons.1 hp3).1
        exact mayTake_eq ht hlt (hts a List.mem_cons_self) (by omega) (by omega)
    rw [hm] at h1 h2
    have hc' : List.IsChain (fun a b : Arrival => a.time ≤ b.time ∧ b.time + timeout < a.time + 2 ^ 31) rest := by
      cases rest with
      | nil => exact .nil
      | cons b rest => exact (List.isChain_cons_cons.1 hc).2
    cases hb : mayPass timeout last a with
    | true =>
      rw [hb] at h1 h2
      obtain ⟨d', answers, h3, h4⟩ := ih (fun x hx => hi x (List.mem_cons_of_mem _ hx)) (fun x hx => hts x (List.mem_cons_of_mem _ hx)) d1 (some a) h2
        (fun l e => by cases e; exact ⟨hts a List.mem_cons_self, a, Nat.le_refl _, by omega, hc⟩) hc'
      refine ⟨d', true :: answers, ?_, ?_⟩
      · simp [Deduplicator.run, h1, h3]
      · simp [keep, hb, h4]
    | false =>
      rw [hb] at h1 h2
      obtain ⟨d', answers, h3, h4⟩ := ih (fun x hx => hi x (List.mem_cons_of_mem _ hx)) (fun x hx => hts x (List.mem_cons_of_mem _ hx)) d1 last h2
        (fun l e => by
          subst e
          obtain ⟨hlt, p, hp1, hp2, hp3⟩ := hl l rfl
          refine ⟨hlt, a, ?_, ?_, hc⟩
          · have := (List.isChain_cons_cons.1 hp3).1; omega
          · simp [mayPass] at hb; exact hb.2) hc'
      refine ⟨d', false :: answers, ?_, ?_⟩
      · simp [Deduplicator.run, h1, h3]
      · simp [keep, hb, h4]

theorem passed_eq {N timeout : Nat} (hN : N ≠ 0) (ht : timeout < 2 ^ 31) {arrivals : List Arrival} (h : Timed N timeout arrivals) :
    passed N timeout arrivals = some (keep timeout none arrivals) := by
  have hk : Deduplicator.Knows (N := N) { states := List.replicate N none, activeIndex := 0, timeout := BitVec.ofNat 32 timeout } (BitVec.ofNat 32 timeout)
      ((none : Option Arrival).map fun l => (l.frame, l.interface)) :=
    ⟨by simp, rfl, Nat.pos_of_ne_zero hN, rfl⟩
  obtain ⟨d', answers, h1, h2⟩ := run_keep ht arrivals h.interface h.timestamp _ none hk (fun l e => by cases e) h.chain
  simp [passed, Deduplicator.new, hN, h1, h2]

theorem keep_sublist (timeout : Nat) (arrivals : List Arrival) : ∀ last, (keep timeout last arrivals).Sublist arrivals := by
  induction arrivals with
  | nil => intro last; exact List.Sublist.refl _
  | cons a rest ih =>
    intro last
    unfold keep
    split
    · exact (ih _).cons_cons a
    · exact (ih _).cons a

theorem timed_sorted {N timeout : Nat} {arrivals : List Arrival} (h : Timed N timeout arrivals) : arrivals.Pairwise fun a b => a.time ≤ b.time := by
  have hc : List.IsChain (fun a b : Arrival => a.time ≤ b.time) arrivals := h.chain.imp fun _ _ h => h.1
  have : IsTrans Arrival fun a b => a.time ≤ b.time := ⟨fun _ _ _ h1 h2 => Nat.le_trans h1 h2⟩
  exact List.isChain_iff_pairwise.1 hc

theorem keep_apart (timeout : Nat) (arrivals : List Arrival) (hs : arrivals.Pairwise fun a b => a.time ≤ b.time) :
    ∀ l : Arrival, (∀ a ∈ arrivals, l.time ≤ a.time) → ∀ b ∈ keep timeout (some l) arrivals, l.interface ≠ b.interface → l.time + timeout < b.time := by
  induction arrivals with
  | nil => intro l _ b hb; cases hb
  | cons a rest ih =>
    intro l hl b hb hne
    obtain ⟨ha, hs'⟩ := List.pairwise_cons.1 hs
    have hla := hl a List.mem_cons_self
    unfold keep at hb
    split at hb
    · rename_i hm
      simp only [mayPass, Bool.or_eq_true, beq_iff_eq, decide_eq_true_eq] at hm
      rcases List.mem_cons.1 hb with rfl | hb
      · rcases hm with hm | hm
        · exact absurd hm.symm hne
        · exact hm
      · by_cases hab : a.interface = b.interface
        · have := ha b ((keep_sublist timeout rest _).subset hb)
          rcases hm with hm | hm
          · exact absurd (hm.symm.trans hab) hne
          · omega
        · have := ih hs' a ha b hb hab
          omega
    · exact ih hs' l (fun x hx => hl x (List.mem_cons_of_mem _ hx)) b hb hne

theorem keep_pairwise (timeout : Nat) (arrivals : List Arrival) (hs : arrivals.Pairwise fun a b => a.time ≤ b.time) :
    ∀ last, (keep timeout last arrivals).Pairwise fun a b => a.interface ≠ b.interface → a.time + timeout < b.time := by
  induction arrivals with
  | nil => intro last; exact .nil
  | cons a rest ih =>
    intro last
    obtain ⟨ha, hs'⟩ := List.pairwise_cons.1 hs
    unfold keep
    split
    · exact List.pairwise_cons.2 ⟨fun b hb hne => keep_apart timeout rest hs' a ha b hb hne, ih hs' _⟩
    · exact ih hs' _

theorem keep_increasing {N timeout : Nat} {arrivals : List Arrival} (h : Timed N timeout arrivals) (ho : InOrder arrivals) (ha : Abreast timeout arrivals) :
    (keep timeout none arrivals).Pairwise fun a b => ∀ n m, a.number = some n → b.number = some m → n < m := by
  have h1 := keep_pairwise timeout arrivals (timed_sorted h) none
  have h2 := List.Pairwise.sublist (keep_sublist timeout arrivals none) ho
  have h3 := List.Pairwise.sublist (keep_sublist timeout arrivals none) ha
  refine ((h1.and h2).and h3).imp ?_
  rintro a b ⟨⟨h1, h2⟩, h3⟩ n m hn hm
  by_cases e : a.interface = b.interface
  · exact h2 e n m hn hm
  · by_contra hlt
    have := h3 e n m hn hm (by omega)
    have := h1 e
    omega

/-- A list with increasing numbers falls into those below a bound and the others. -/
theorem split_numbers (k : Nat) (l : List Arrival) (hs : ∀ a ∈ l, a.number.isSome)
    (hp : l.Pairwise fun a b => ∀ n m, a.number = some n → b.number = some m → n < m) :
    l = (l.filter fun a => a.number.any fun n => decide (n < k)) ++ l.filter fun a => a.number.any fun n => decide (k ≤ n) := by
  induction l with
  | nil => rfl
  | cons a l ih =>
    obtain ⟨ha, hp'⟩ := List.pairwise_cons.1 hp
    obtain ⟨n, hn⟩ := Option.isSome_iff_exists.1 (hs a List.mem_cons_self)
    have ih' := ih (fun x hx => hs x (List.mem_cons_of_mem _ hx)) hp'
    by_cases hk : n < k
    · rw [List.filter_cons_of_pos (by simp [hn, hk]), List.filter_cons_of_neg (by simp [hn]; omega), List.cons_append, ← ih']
    · have hnil : (l.filter fun a => a.number.any fun n => decide (n < k)) = [] := by
        rw [List.filter_eq_nil_iff]
        intro b hb
        cases hm : b.number with
        | none => simp
        | some m => have := ha b hb n m hn hm; simp; omega
      rw [hnil, List.nil_append] at ih'
      rw [List.filter_cons_of_neg (by simp [hn]; omega), List.filter_cons_of_pos (by simp [hn]; omega), hnil, List.nil_append, ← ih']

theorem itemsOf_congr (l l' : List Arrival) (start : Nat) (sent : List (CanTransfer × List Frame))
    (h : ∀ s e, start ≤ s → (l.filter fun a => a.number.any fun n => decide (s ≤ n) && decide (n < e)) = l'.filter fun a => a.number.any fun n => decide (s ≤ n) && decide (n < e)) :
    itemsOf l start sent = itemsOf l' start sent := by
  induction sent generalizing start with
  | nil => rfl
  | cons x sent ih =>
    obtain ⟨t, fs⟩ := x
    unfold itemsOf
    rw [h start _ (Nat.le_refl _), ih _ (fun s e hs => h s e (by omega))]

/-- The arrivals of the session are those of its transfers, in turn. -/
theorem itemsOf_flat (sent : List (CanTransfer × List Frame)) : ∀ (start : Nat) (l : List Arrival),
    (∀ a ∈ l, ∃ n, a.number = some n ∧ start ≤ n ∧ n < start + (sent.flatMap fun x => x.2).length) →
    (l.Pairwise fun a b => ∀ n m, a.number = some n → b.number = some m → n < m) →
    l.map (fun a => a.frame) = (itemsOf l start sent).flatMap fun it => it.arrived := by
  induction sent with
  | nil =>
    intro start l h _
    cases l with
    | nil => rfl
    | cons a l => obtain ⟨n, -, h1, h2⟩ := h a List.mem_cons_self; simp at h2; omega
  | cons x sent ih =>
    obtain ⟨t, fs⟩ := x
    intro start l h hp
    have hsplit := split_numbers (start + fs.length) l (fun a ha => by obtain ⟨n, hn, -⟩ := h a ha; simp [hn]) hp
    unfold itemsOf
    rw [List.flatMap_cons]
    dsimp only
    have e1 : (l.filter fun a => a.number.any fun n => decide (start ≤ n) && decide (n < start + fs.length)) =
        l.filter fun a => a.number.any fun n => decide (n < start + fs.length) := by
      apply List.filter_congr
      intro a ha
      obtain ⟨n, hn, h1, -⟩ := h a ha
      simp [hn, h1]
    rw [e1, itemsOf_congr l (l.filter fun a => a.number.any fun n => decide (start + fs.length ≤ n)) _ sent ?_, ← ih, ← List.map_append, ← hsplit]
    · intro a ha
      obtain ⟨ha, hn⟩ := List.mem_filter.1 ha
      obtain ⟨n, hn', h1, h2⟩ := h a ha
      rw [hn'] at hn
      simp at hn h2
      exact ⟨n, hn', hn, by simp; omega⟩
    · exact hp.filter _
    · intro s e hs
      rw [List.filter_filter]
      apply List.filter_congr
      intro a _
      cases a.number with
      | none => rfl
      | some n =>
        simp only [Option.any_some]
        by_cases h1 : s ≤ n
        · have : start + fs.length ≤ n := by omega
          simp [h1, this]
        · simp [h1]

/-- Increasing numbers pick a sublist. -/
theorem pick_sublist (fs : List Frame) : ∀ (start : Nat) (ns : List Nat), (∀ n ∈ ns, start ≤ n) → ns.Pairwise (· < ·) →
    (ns.filterMap fun n => fs[n - start]?).Sublist fs := by
  induction fs with
  | nil => intro start ns _ _; simp
  | cons f fs ih =>
    intro start ns h hp
    have tail : ∀ ns : List Nat, (∀ n ∈ ns, start + 1 ≤ n) → ns.Pairwise (· < ·) → (ns.filterMap fun n => (f :: fs)[n - start]?).Sublist fs := by
      intro ns h hp
      have : (ns.filterMap fun n => (f :: fs)[n - start]?) = ns.filterMap fun n => fs[n - (start + 1)]? := by
        apply List.filterMap_congr
        intro n hn
        have := h n hn
        have e : n - start = n - (start + 1) + 1 := by omega
        rw [e, List.getElem?_cons_succ]
      rw [this]
      exact ih (start + 1) ns h hp
    cases ns with
    | nil => simp
    | cons n ns =>
      obtain ⟨h1, h2⟩ := List.pairwise_cons.1 hp
      by_cases e : n = start
      · subst e
        rw [List.filterMap_cons_some (b := f) (by simp)]
        exact (tail ns (fun m hm => h1 m hm) h2).cons_cons f
      · have := h n List.mem_cons_self
        exact (tail (n :: ns) (fun m hm => by
          rcases List.mem_cons.1 hm with rfl | hm
          · omega
          · have := h1 m hm; omega) hp).cons f

theorem numbers_pairwise {l : List Arrival} (hp : l.Pairwise fun a b => ∀ n m, a.number = some n → b.number = some m → n < m) :
    (l.filterMap fun a => a.number).Pairwise (· < ·) :=
  List.Pairwise.filterMap _ (fun _ _ h n hn m hm => h n m hn hm) hp

theorem pick_eq (fs : List Frame) (start : Nat) (k : List Arrival)
    (hall : ∀ a ∈ k, ∃ n f, a.number = some n ∧ fs[n - start]? = some f ∧ a.frame.id = f.id ∧ a.frame.data = f.data) :
    (k.map fun a => a.frame).map (fun g => (g.id, g.data)) =
      ((k.filterMap fun a => a.number).filterMap fun n => fs[n - start]?).map fun f => (f.id, f.data) := by
  induction k with
  | nil => rfl
  | cons a k ih =>
    obtain ⟨n, f, h1, h2, h3, h4⟩ := hall a List.mem_cons_self
    rw [List.map_cons, List.map_cons, List.filterMap_cons_some h1, List.filterMap_cons_some (f := fun n => fs[n - start]?) h2, List.map_cons, ih fun x hx => hall x (List.mem_cons_of_mem _ hx), h3, h4]

theorem numbers_filter (p : Nat → Bool) (l : List Arrival) :
    ((l.filterMap fun a => a.number).filter p).map some = (l.filter fun a => a.number.any p).map fun a => a.number := by
  induction l with
  | nil => rfl
  | cons a l ih =>
    cases hna : a.number with
    | none =>
      rw [List.filterMap_cons_none hna, List.filter_cons_of_neg (by rw [hna]; simp), ih]
    | some n =>
      rw [List.filterMap_cons_some hna]
      by_cases hc : p n = true
      · rw [List.filter_cons_of_pos hc, List.filter_cons_of_pos (by rw [hna]; exact hc), List.map_cons, List.map_cons, ih, hna]
      · rw [List.filter_cons_of_neg hc, List.filter_cons_of_neg (by rw [hna]; exact hc), ih]

theorem itemsOf_sound {cap mtu : Nat} {key : Key} {lb : Bool} {l : List Arrival} (hp : l.Pairwise fun a b => ∀ n m, a.number = some n → b.number = some m → n < m)
    (sent : List (CanTransfer × List Frame)) : ∀ (before : List Frame), Numbered key lb (before ++ sent.flatMap fun x => x.2) l → (∀ x ∈ sent, SentAs cap mtu x.1 x.2) →
    ∀ it ∈ itemsOf l before.length sent, it.Sound cap mtu lb := by
  induction sent with
  | nil => intro before _ _ it hit; cases hit
  | cons x sent ih =>
    obtain ⟨t, fs⟩ := x
    intro before hn hs it hit
    unfold itemsOf at hit
    rcases List.mem_cons.1 hit with rfl | hit
    · refine ⟨hs (t, fs) List.mem_cons_self, _, pick_sublist fs before.length
        ((l.filter fun a => a.number.any fun n => decide (before.length ≤ n) && decide (n < before.length + fs.length)).filterMap fun a => a.number) ?_ ?_, ?_, ?_⟩
      · intro n hmem
        obtain ⟨a, ha, hn'⟩ := List.mem_filterMap.1 hmem
        have := (List.mem_filter.1 ha).2
        rw [hn'] at this
        simp at this
        exact this.1
      · exact numbers_pairwise (hp.filter _)
      · dsimp only
        have hall : ∀ a ∈ (l.filter fun a => a.number.any fun n => decide (before.length ≤ n) && decide (n < before.length + fs.length)),
            ∃ n f, a.number = some n ∧ fs[n - before.length]? = some f ∧ a.frame.id = f.id ∧ a.frame.data = f.data := by
          intro a ha
          obtain ⟨ha, hb⟩ := List.mem_filter.1 ha
          cases hn' : a.number with
          | none => rw [hn'] at hb; simp at hb
          | some n =>
            rw [hn'] at hb
            simp only [Option.any_some, Bool.and_eq_true, decide_eq_true_eq] at hb
            obtain ⟨f, hf, h1, h2, -⟩ := hn.same a ha n hn'
            rw [List.getElem?_append_right hb.1, List.flatMap_cons, List.getElem?_append_left (by dsimp only; omega)] at hf
            exact ⟨n, f, rfl, hf, h1, h2⟩
        exact pick_eq fs before.length _ hall
      · intro g hg
        dsimp only at hg
        obtain ⟨a, ha, rfl⟩ := List.mem_map.1 hg
        obtain ⟨ha, hb⟩ := List.mem_filter.1 ha
        cases hn' : a.number with
        | none => rw [hn'] at hb; simp at hb
        | some n => obtain ⟨f, -, -, -, h, -⟩ := hn.same a ha n hn'; exact h
    · have := ih (before ++ fs) (by rw [List.append_assoc]; exact hn) (fun x hx => hs x (List.mem_cons_of_mem _ hx)) it
      rw [List.length_append] at this
      exact this hit

theorem itemsOf_map (l : List Arrival) (sent : List (CanTransfer × List Frame)) : ∀ start, (itemsOf l start sent).map (fun it => (it.transfer, it.frames)) = sent := by
  induction sent with
  | nil => intro start; rfl
  | cons x sent ih => intro start; obtain ⟨t, fs⟩ := x; simp [itemsOf, ih]

theorem itemsOf_filter (l : List Arrival) (start : Nat) (sent : List (CanTransfer × List Frame)) :
    itemsOf (l.filter fun a => a.number.isSome) start sent = itemsOf l start sent := by
  apply itemsOf_congr
  intro s e _
  rw [List.filter_filter]
  apply List.filter_congr
  intro a _
  cases a.number <;> simp

theorem relevant_ops {key : Key} {lb : Bool} {frames : List Frame} {kept : List Arrival} (hn : Numbered key lb frames kept) :
    (kept.map fun a => Op.frame a.frame false).filter key.relevant = (kept.filter fun a => a.number.isSome).map fun a => Op.frame a.frame false := by
  rw [List.filter_map]
  congr 1
  apply List.filter_congr
  intro a ha
  show key.relevant (.frame a.frame false) = _
  cases h : a.number with
  | none => rw [hn.other a ha h]; rfl
  | some n => obtain ⟨f, -, -, -, -, h⟩ := hn.same a ha n h; rw [h]; rfl

theorem Numbered.sublist {key : Key} {lb : Bool} {frames : List Frame} {l l' : List Arrival} (h : Numbered key lb frames l) (hs : l'.Sublist l) : Numbered key lb frames l' :=
  ⟨fun a ha => h.valid a (hs.subset ha), fun a ha => h.other a (hs.subset ha), fun a ha => h.same a (hs.subset ha)⟩

theorem mem_itemsOf {l : List Arrival} {start : Nat} {sent : List (CanTransfer × List Frame)} {it : Item} (h : it ∈ itemsOf l start sent) : (it.transfer, it.frames) ∈ sent := by
  have := List.mem_map_of_mem (f := fun it : Item => (it.transfer, it.frames)) h
  rwa [itemsOf_map] at this

theorem itemsOf_consecutive {l : List Arrival} {start : Nat} {sent : List (CanTransfer × List Frame)} (h : ConsecutiveIds sent) : Consecutive (itemsOf l start sent) := by
  intro i hi
  have hm := itemsOf_map l sent start
  have hlen : (itemsOf l start sent).length = sent.length := by rw [← congrArg List.length hm, List.length_map]
  have e : ∀ j (hj : j < (itemsOf l start sent).length), ((itemsOf l start sent)[j]).transfer = (sent[j]'(by omega)).1 := by
    intro j hj
    have h1 : ((itemsOf l start sent).map fun it => (it.transfer, it.frames))[j]? = sent[j]? := by rw [hm]
    rw [List.getElem?_map, List.getElem?_eq_getElem hj, List.getElem?_eq_getElem (by omega)] at h1
    simp only [Option.map_some, Option.some.injEq] at h1
    rw [← h1]
  rw [e, e]
  exact h i (by omega)

/-- What reaches the receiver of the session is what `itemsOf` says. -/
theorem buses_ops {key : Key} {lb : Bool} {sent : List (CanTransfer × List Frame)} {kept : List Arrival}
    (hn : Numbered key lb (sent.flatMap fun x => x.2) kept) (hp : kept.Pairwise fun a b => ∀ n m, a.number = some n → b.number = some m → n < m) :
    (kept.map fun a => Op.frame a.frame false).filter key.relevant = (itemsOf kept 0 sent).flatMap fun it => it.arrived.map fun g => .frame g false := by
  have h := itemsOf_flat sent 0 (kept.filter fun a => a.number.isSome) (by
    intro a ha
    obtain ⟨ha, hs⟩ := List.mem_filter.1 ha
    obtain ⟨n, hn'⟩ := Option.isSome_iff_exists.1 hs
    obtain ⟨f, hf, -⟩ := hn.same a ha n hn'
    have := (List.getElem?_eq_some_iff.1 hf).1
    exact ⟨n, hn', by omega, by omega⟩) (hp.filter _)
  rw [itemsOf_filter] at h
  rw [relevant_ops hn, ← List.map_flatMap, ← h, List.map_map]
  rfl

theorem keep_active (timeout i : Nat) (arrivals : List Arrival) : ∀ (l : Arrival), l.interface = i →
    (∀ before b after, arrivals = before ++ b :: after → b.interface ≠ i → ∃ a ∈ l :: before, a.interface = i ∧ b.time ≤ a.time + timeout) →
    (l :: arrivals).Pairwise (fun a b => a.time ≤ b.time) →
    keep timeout (some l) arrivals = arrivals.filter fun a => a.interface == i := by
  induction arrivals with
  | nil => intro l _ _ _; rfl
  | cons b rest ih =>
    intro l hl ha hs
    obtain ⟨hs1, hs2⟩ := List.pairwise_cons.1 hs
    obtain ⟨hs3, hs4⟩ := List.pairwise_cons.1 hs2
    unfold keep
    by_cases hb : b.interface = i
    · rw [if_pos (by simp [mayPass, hb, hl]), List.filter_cons_of_pos (by simp [hb])]
      congr 1
      refine ih b hb ?_ hs2
      intro before c after e hc
      obtain ⟨a, hmem, h1, h2⟩ := ha (b :: before) c after (by rw [e]; rfl) hc
      rcases List.mem_cons.1 hmem with rfl | hmem
      · refine ⟨b, List.mem_cons_self, hb, ?_⟩
        have := hs1 b List.mem_cons_self
        omega
      · exact ⟨a, hmem, h1, h2⟩
    · have hno : mayPass timeout (some l) b = false := by
        obtain ⟨a, hmem, h1, h2⟩ := ha [] b rest rfl hb
        rw [List.mem_singleton] at hmem
        subst hmem
        simp [mayPass, hl, hb, h2]
      rw [if_neg (by simp [hno]), List.filter_cons_of_neg (by simp [hb])]
      refine ih l hl ?_ (List.pairwise_cons.2 ⟨fun x hx => hs1 x (List.mem_cons_of_mem _ hx), hs4⟩)
      intro before c after e hc
      obtain ⟨a, hmem, h1, h2⟩ := ha (b :: before) c after (by rw [e]; rfl) hc
      rcases List.mem_cons.1 hmem with rfl | hmem
      · exact ⟨a, List.mem_cons_self, h1, h2⟩
      · rcases List.mem_cons.1 hmem with rfl | hmem
        · exact absurd h1 hb
        · exact ⟨a, List.mem_cons_of_mem _ hmem, h1, h2⟩

theorem keep_alive {timeout i : Nat} {arrivals : List Arrival} (hs : arrivals.Pairwise fun a b => a.time ≤ b.time) (ha : Alive timeout i arrivals) :
    keep timeout none arrivals = arrivals.filter fun a => a.interface == i := by
  cases arrivals with
  | nil => rfl
  | cons b rest =>
    have hb : b.interface = i := by
      by_contra h
      obtain ⟨a, hmem, -⟩ := ha [] b rest rfl h
      cases hmem
    rw [keep, if_pos (show mayPass timeout none b = true from rfl), List.filter_cons_of_pos (by simp [hb])]
    congr 1
    refine keep_active timeout i rest b hb ?_ hs
    intro before c after e hc
    exact ha (b :: before) c after (by rw [e]; rfl) hc

theorem itemsOf_whole {key : Key} {lb : Bool} {l : List Arrival} (sent : List (CanTransfer × List Frame)) : ∀ (before : List Frame),
    Numbered key lb (before ++ sent.flatMap fun x => x.2) l → (l.filterMap fun a => a.number) = List.range (before ++ sent.flatMap fun x => x.2).length →
    ∀ it ∈ itemsOf l before.length sent, it.Whole lb := by
  induction sent with
  | nil => intro before _ _ it hit; cases hit
  | cons x sent ih =>
    obtain ⟨t, fs⟩ := x
    intro before hn hr it hit
    unfold itemsOf at hit
    rcases List.mem_cons.1 hit with rfl | hit
    · have hnum : (l.filter fun a => a.number.any fun n => decide (before.length ≤ n) && decide (n < before.length + fs.length)).map (fun a => a.number) =
          (List.range' before.length fs.length).map some := by
        have h1 := numbers_filter (fun n => decide (before.length ≤ n) && decide (n < before.length + fs.length)) l
        rw [← h1, hr]
        congr 1
        have e : (before ++ List.flatMap (fun x => x.2) ((t, fs) :: sent)).length = before.length + (fs.length + (sent.flatMap fun x => x.2).length) := by
          simp
        rw [e, List.range_eq_range', ← List.range'_append_1, ← List.range'_append_1, List.filter_append, List.filter_append, Nat.zero_add]
        rw [List.filter_eq_nil_iff.2, List.filter_eq_self.2, List.filter_eq_nil_iff.2]
        · simp
        all_goals
          intro n hn
          rw [List.mem_range'_1] at hn
          simp
          omega
      have hall : ∀ a ∈ (l.filter fun a => a.number.any fun n => decide (before.length ≤ n) && decide (n < before.length + fs.length)),
          (a.number.bind fun n => fs[n - before.length]?).map (fun f => (f.id, f.data)) = some (a.frame.id, a.frame.data) := by
        intro a ha
        obtain ⟨ha, hb⟩ := List.mem_filter.1 ha
        cases hn' : a.number with
        | none => rw [hn'] at hb; simp at hb
        | some n =>
          rw [hn'] at hb
          simp only [Option.any_some, Bool.and_eq_true, decide_eq_true_eq] at hb
          obtain ⟨f, hf, h1, h2, -⟩ := hn.same a ha n hn'
          rw [List.getElem?_append_right hb.1, List.flatMap_cons, List.getElem?_append_left (by dsimp only; omega)] at hf
          dsimp only at hf
          simp [hf, h1, h2]
      constructor
      · dsimp only
        have h2 : ((l.filter fun a => a.number.any fun n => decide (before.length ≤ n) && decide (n < before.length + fs.length)).map fun a => some (a.frame.id, a.frame.data)) =
            fs.map fun f => some (f.id, f.data) := by
          rw [← List.map_congr_left hall]
          have h3 := congrArg (List.map fun o : Option Nat => (o.bind fun n => fs[n - before.length]?).map fun f => (f.id, f.data)) hnum
          rw [List.map_map, List.map_map] at h3
          refine h3.trans ?_
          apply List.ext_getElem
          · simp
          · intro j h1 h2
            simp at h2
            simp [h2]
        have h3 := congrArg (List.filterMap id) h2
        simpa [List.filterMap_map, Function.comp_def] using h3
      · intro g hg
        dsimp only at hg
        obtain ⟨a, ha, rfl⟩ := List.mem_map.1 hg
        obtain ⟨ha, hb⟩ := List.mem_filter.1 ha
        cases hn' : a.number with
        | none => rw [hn'] at hb; simp at hb
        | some n => obtain ⟨f, -, -, -, h, -⟩ := hn.same a ha n hn'; exact h
    · have := ih (before ++ fs) (by rw [List.append_assoc]; exact hn) (by rw [List.append_assoc]; exact hr) it
      rw [List.length_append] at this
      exact this hit

/-! ### C139 -/

/-- **C139.** Frames passed on from different interfaces are more than the timeout apart, and the frames passed on are some of those that arrived, in the order of arrival. -/
theorem C139_apart {N timeout : Nat} (hN : N ≠ 0) (ht : timeout < 2 ^ 31) {arrivals : List Arrival} (h : Timed N timeout arrivals) :
    ∃ kept, passed N timeout arrivals = some kept ∧ kept.Sublist arrivals ∧
      kept.Pairwise fun a b => a.interface ≠ b.interface → a.time + timeout < b.time :=
  ⟨_, passed_eq hN ht h, keep_sublist _ _ _, keep_pairwise _ _ (timed_sorted h) _⟩

/-- **C139** (part: which transfers are delivered depends on which frames are passed on; `C139_takeover_counterexample` shows that it need not be all, although each interface
receives all). A node sends transfers of one session over several interfaces. Each interface receives some of the frames, in their order, none is more than the timeout behind
another one, and all kinds of other frames arrive in between. Then each frame is passed on at most once and in order, and the receiver delivers for each transfer in turn what
`Outcome` says: at most one transfer, and the transfer if all its frames are passed on. -/
theorem C139_once_partial {checks : Bool} {cap mtu : Nat} {lb : Bool} {key : Key} (hm : 1 < mtu) (hl : LegalLength mtu) (hcap : mtu ≤ cap)
    {sent : List (CanTransfer × List Frame)} (hsent : ∀ x ∈ sent, SentAs cap mtu x.1 x.2) (hkey : ∀ x ∈ sent, key.Matches x.1.header) (hc : ConsecutiveIds sent)
    {N timeout : Nat} (hN : N ≠ 0) (ht : timeout < 2 ^ 31) {arrivals : List Arrival} (h : Timed N timeout arrivals)
    (hn : Numbered key lb (sent.flatMap fun x => x.2) arrivals) (ho : InOrder arrivals) (ha : Abreast timeout arrivals) :
    ∃ kept, passed N timeout arrivals = some kept ∧ (kept.filterMap fun a => a.number).Pairwise (· < ·) ∧
      ∀ {r r' : Receiver} {v : View} {ops : List Op} {ts : List CanTransfer}, NotAllLost (itemsOf kept 0 sent) → r.view key = some v →
        v.state.session = none ∧ v.state.lastTransferTime = none → (∀ x ∈ sent, ∀ d, x.1.header.destination = some d → lb = false → r.id = some d) →
        (∀ op ∈ ops, op.Valid) → ops.filter key.relevant = (kept.map fun a => Op.frame a.frame false).filter key.relevant → r.exec checks ops = some (r', ts) →
        ∃ outs, transfersOf key ts = outs.flatten ∧ List.Forall₂ (Outcome mtu lb v.extent) (itemsOf kept 0 sent) outs := by
  have hinc := keep_increasing h ho ha
  have hnk := hn.sublist (keep_sublist timeout arrivals none)
  refine ⟨_, passed_eq hN ht h, numbers_pairwise hinc, ?_⟩
  intro r r' v ops ts hg hview hfresh hdest hv hops he
  rw [buses_ops hnk hinc] at hops
  exact C100_stream hm hl hcap (itemsOf_sound hinc sent [] hnk hsent) (fun it hit => hkey (it.transfer, it.frames) (mem_itemsOf hit)) (itemsOf_consecutive hc) hg hview hfresh
    (fun it hit => hdest (it.transfer, it.frames) (mem_itemsOf hit)) hv hops he

/-- **C139** (part: for an interface that is never silent for longer than the timeout). If all frames of the session arrive on that interface, the receiver delivers every transfer
exactly once, in order, whatever arrives on the other interfaces: copies, late copies, parts of them, or nothing. -/
theorem C139_active_partial {checks : Bool} {cap mtu : Nat} {lb : Bool} {key : Key} (hm : 1 < mtu) (hl : LegalLength mtu) (hcap : mtu ≤ cap)
    {sent : List (CanTransfer × List Frame)} (hsent : ∀ x ∈ sent, SentAs cap mtu x.1 x.2) (hkey : ∀ x ∈ sent, key.Matches x.1.header) (hc : ConsecutiveIds sent)
    {N timeout i : Nat} (ht : timeout < 2 ^ 31) (hiN : i < N) {arrivals : List Arrival} (h : Timed N timeout arrivals)
    (hn : Numbered key lb (sent.flatMap fun x => x.2) arrivals) (ha : Alive timeout i arrivals)
    (hall : ((arrivals.filter fun a => a.interface == i).filterMap fun a => a.number) = List.range (sent.flatMap fun x => x.2).length) :
    passed N timeout arrivals = some (arrivals.filter fun a => a.interface == i) ∧
      ∀ {r r' : Receiver} {v : View} {ops : List Op} {ts : List CanTransfer}, r.view key = some v →
        v.state.session = none ∧ v.state.lastTransferTime = none → (∀ x ∈ sent, ∀ d, x.1.header.destination = some d → lb = false → r.id = some d) →
        (∀ op ∈ ops, op.Valid) → ops.filter key.relevant = ((arrivals.filter fun a => a.interface == i).map fun a => Op.frame a.frame false).filter key.relevant →
        r.exec checks ops = some (r', ts) →
        List.Forall₂ (fun x out => ∃ now padding, padding < mtu ∧
          out = { header := x.1.header.setTimestamp now, loopback := lb, payload := (x.1.payload ++ List.replicate padding 0#8).take v.extent }) sent (transfersOf key ts) := by
  refine ⟨by rw [passed_eq (by omega) ht h, keep_alive (timed_sorted h) ha], ?_⟩
  intro r r' v ops ts hview hfresh hdest hv hops he
  have hnk := hn.sublist (List.filter_sublist (p := fun a => a.interface == i) (l := arrivals))
  have hinc : (arrivals.filter fun a => a.interface == i).Pairwise fun a b => ∀ n m, a.number = some n → b.number = some m → n < m := by
    have : ((arrivals.filter fun a => a.interface == i).filterMap fun a => a.number).Pairwise (· < ·) := by rw [hall]; exact List.pairwise_lt_range
    rw [List.pairwise_filterMap] at this
    exact this.imp fun h n m hn hm => h n hn m hm
  rw [buses_ops hnk hinc] at hops
  have := C100_no_loss hm hl hcap (items := itemsOf (arrivals.filter fun a => a.interface == i) 0 sent) (fun it hit => hsent (it.transfer, it.frames) (mem_itemsOf hit)) (itemsOf_whole sent [] hnk hall)
    (fun it hit => hkey (it.transfer, it.frames) (mem_itemsOf hit)) (itemsOf_consecutive hc) hview hfresh (fun it hit => hdest (it.transfer, it.frames) (mem_itemsOf hit)) hv hops he
  conv in sent => rw [← itemsOf_map (arrivals.filter fun a => a.interface == i) sent 0]
  exact List.forall₂_map_left_iff.2 this

/-! ### Cases: three transfers of two frames each over two interfaces -/

/-- The transfers of C100's case with their frames. -/
def busesSent : List (CanTransfer × List Frame) := (List.range 3).map fun i => (streamTransfer i, streamFrames i)

/-- Frame number `n` arrives on an interface. -/
def arrive (interface time n : Nat) : Arrival :=
  { frame := { ((busesSent.flatMap fun x => x.2)[n]?).getD { timestamp := 0#32, id := 0#32, loopback := false, data := [] } with timestamp := BitVec.ofNat 32 time }
    interface, time, number := some n }

/-- The session. -/
def busesKey : Key := Key.mk .message 100 9#7

/-- A frame of another node on interface 1. -/
def otherArrival (time : Nat) : Arrival :=
  { frame := { timestamp := BitVec.ofNat 32 time, id := 0x10606408#32, loopback := false, data := [5#8, 0xe0#8] }, interface := 1, time, number := none }

/-- Interface 1 is 5 µs behind interface 0, which fails after two transfers. -/
def failing : List Arrival :=
  [arrive 0 0 0, arrive 1 5 0, arrive 0 10 1, otherArrival 12, arrive 1 15 1, arrive 0 1000 2, arrive 1 1005 2, arrive 0 1010 3, arrive 1 1015 3, arrive 1 2005 4, arrive 1 2015 5]

/-- Both interfaces receive all frames, interface 1 is two frames ahead after a pause as long as the timeout. -/
def pausing : List Arrival :=
  [arrive 0 0 0, arrive 0 1 1, arrive 1 2 0, arrive 1 3 1, arrive 1 101 2, arrive 1 102 3, arrive 0 103 2, arrive 0 104 3, arrive 1 105 4, arrive 1 106 5, arrive 0 107 4, arrive 0 108 5]

/-- Both interfaces receive all frames, interface 1 twice the timeout later. -/
def lagging : List Arrival :=
  [arrive 0 0 0, arrive 0 1 1, arrive 0 2 2, arrive 0 3 3, arrive 0 4 4, arrive 0 5 5, arrive 1 200 0, arrive 1 201 1, arrive 1 202 2, arrive 1 203 3, arrive 1 204 4, arrive 1 205 5]

theorem busesSent_sent : ∀ x ∈ busesSent, SentAs 8 8 x.1 x.2 := by
  intro x hx
  obtain ⟨i, -, rfl⟩ := List.mem_map.1 hx
  exact streamFrames_sent i

theorem busesSent_consecutive : ConsecutiveIds busesSent := by
  intro i hi
  have : i = 0 ∨ i = 1 := by simp [busesSent] at hi; omega
  rcases this with rfl | rfl <;> rfl

theorem inOrder_of {l : List Arrival} (h : l.Pairwise fun a b => a.interface = b.interface → ∀ n ∈ a.number, ∀ m ∈ b.number, n < m) : InOrder l :=
  h.imp fun h e n m hn hm => h e n hn m hm

theorem abreast_of {timeout : Nat} {l : List Arrival}
    (h : l.Pairwise fun a b => a.interface ≠ b.interface → ∀ n ∈ a.number, ∀ m ∈ b.number, m ≤ n → b.time ≤ a.time + timeout) : Abreast timeout l :=
  h.imp fun h e n m hn hm => h e n hn m hm

theorem numbered_of {key : Key} {lb : Bool} {frames : List Frame} {l : List Arrival} (h1 : ∀ a ∈ l, a.frame.id.toNat < 2 ^ 29)
    (h2 : ∀ a ∈ l, a.number = none → key.relevant (.frame a.frame false) = false)
    (h3 : ∀ a ∈ l, ∀ n ∈ a.number, ∃ f ∈ frames[n]?, a.frame.id = f.id ∧ a.frame.data = f.data ∧ a.frame.loopback = lb ∧ key.relevant (.frame a.frame false) = true) :
    Numbered key lb frames l :=
  ⟨h1, h2, fun a ha n hn => by obtain ⟨f, hf, h⟩ := h3 a ha n hn; exact ⟨f, hf, h⟩⟩

theorem alive_of {timeout i : Nat} {l : List Arrival}
    (h : ∀ k, (hk : k < l.length) → l[k].interface ≠ i → ∃ a ∈ l.take k, a.interface = i ∧ l[k].time ≤ a.time + timeout) : Alive timeout i l := by
  rintro before b after rfl hb
  have := h before.length (by simp) (by simpa using hb)
  simpa using this

example : (∀ x ∈ busesSent, SentAs 8 8 x.1 x.2) ∧ (∀ x ∈ busesSent, busesKey.Matches x.1.header) ∧ ConsecutiveIds busesSent ∧ Timed 2 500 failing ∧
    Numbered busesKey false (busesSent.flatMap fun x => x.2) failing ∧ InOrder failing ∧ Abreast 500 failing ∧
    (passed 2 500 failing).map (fun kept => (kept.map fun a => (a.interface, a.number))) =
      some [(0, some 0), (0, some 1), (0, some 2), (0, some 3), (1, some 4), (1, some 5)] ∧
    NotAllLost (itemsOf ((passed 2 500 failing).getD []) 0 busesSent) ∧
    (demoSubscribed.exec true (((passed 2 500 failing).getD []).map fun a => .frame a.frame false)).map (fun p => (transfersOf busesKey p.2).map fun t => t.header.transferId) =
      some [30#5, 31#5, 0#5] := by
  refine ⟨busesSent_sent, by decide +kernel, busesSent_consecutive, ⟨by decide +kernel, by decide +kernel, by decide +kernel⟩,
    numbered_of (by decide +kernel) (by decide +kernel) (by decide +kernel), inOrder_of (by decide +kernel), abreast_of (by decide +kernel), by decide +kernel, ?_, by decide +kernel⟩
  intro i hi
  simp [itemsOf, busesSent, List.range_succ] at hi

example : Timed 2 500 (failing.take 9) ∧ Numbered busesKey false ((busesSent.take 2).flatMap fun x => x.2) (failing.take 9) ∧ Alive 500 0 (failing.take 9) ∧
    (((failing.take 9).filter fun a => a.interface == 0).filterMap fun a => a.number) = List.range ((busesSent.take 2).flatMap fun x => x.2).length := by
  refine ⟨⟨by decide +kernel, by decide +kernel, by decide +kernel⟩, numbered_of (by decide +kernel) (by decide +kernel) (by decide +kernel), alive_of (by decide +kernel),
    by decide +kernel⟩

/-- **C139.** Transfers can be lost although both interfaces receive all their frames, in order and within the timeout of each other: after a pause as long as the timeout, another
interface takes over in the middle of a transfer whose beginning was not passed on. -/
theorem C139_takeover_counterexample : ∃ (sent : List (CanTransfer × List Frame)) (arrivals : List Arrival), (∀ x ∈ sent, SentAs 8 8 x.1 x.2) ∧
    (∀ x ∈ sent, busesKey.Matches x.1.header) ∧ ConsecutiveIds sent ∧ Timed 2 100 arrivals ∧ Numbered busesKey false (sent.flatMap fun x => x.2) arrivals ∧ InOrder arrivals ∧
    Abreast 100 arrivals ∧
    (∀ i < 2, ((arrivals.filter fun a => a.interface == i).filterMap fun a => a.number) = List.range (sent.flatMap fun x => x.2).length) ∧
    sent.map (fun x => x.1.header.transferId) = [30#5, 31#5, 0#5] ∧
    (passed 2 100 arrivals).bind (fun kept => (demoSubscribed.exec true (kept.map fun a => .frame a.frame false)).map fun p => p.2.map fun t => t.header.transferId) =
      some [30#5, 0#5] := by
  refine ⟨busesSent, pausing, busesSent_sent, by decide +kernel, busesSent_consecutive, ⟨by decide +kernel, by decide +kernel, by decide +kernel⟩,
    numbered_of (by decide +kernel) (by decide +kernel) (by decide +kernel), inOrder_of (by decide +kernel), abreast_of (by decide +kernel), by decide +kernel, by decide +kernel,
    by decide +kernel⟩

/-- **C139.** If one interface is further behind than the timeout, transfers are delivered twice and out of order, although each interface receives the frames in order. -/
theorem C139_lag_counterexample : ∃ (sent : List (CanTransfer × List Frame)) (arrivals : List Arrival), (∀ x ∈ sent, SentAs 8 8 x.1 x.2) ∧
    (∀ x ∈ sent, busesKey.Matches x.1.header) ∧ ConsecutiveIds sent ∧ Timed 2 100 arrivals ∧ Numbered busesKey false (sent.flatMap fun x => x.2) arrivals ∧ InOrder arrivals ∧
    sent.map (fun x => x.1.header.transferId) = [30#5, 31#5, 0#5] ∧
    (passed 2 100 arrivals).bind (fun kept => (demoSubscribed.exec true (kept.map fun a => .frame a.frame false)).map fun p => p.2.map fun t => t.header.transferId) =
      some [30#5, 31#5, 0#5, 30#5, 31#5, 0#5] := by
  refine ⟨busesSent, lagging, busesSent_sent, by decide +kernel, busesSent_consecutive, ⟨by decide +kernel, by decide +kernel, by decide +kernel⟩,
    numbered_of (by decide +kernel) (by decide +kernel) (by decide +kernel), inOrder_of (by decide +kernel), by decide +kernel, by decide +kernel⟩

end Verif.Can
