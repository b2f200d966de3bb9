import Verif.Crc.Model

/-! Helper lemmas about the CRC model: the one-bit steps are linear and injective. -/

namespace Verif.Crc

/-! ### Most-significant-bit-first registers of any width -/

/-- One-bit step of a most-significant-bit-first register. -/
def gstep {w : Nat} (p v : BitVec w) : BitVec w :=
  (v <<< 1) ^^^ (if v.msb then p else 0#w)

/-- Feed a single message bit. -/
def gfeed {w : Nat} (p s : BitVec w) (b : Bool) : BitVec w :=
  gstep p (s ^^^ (if b then BitVec.twoPow w (w - 1) else 0#w))

/-- Put the message bits into a word, the first one in the most significant place. -/
def gplace (w : Nat) : List Bool → BitVec w
  | [] => 0#w
  | b :: bs => (if b then BitVec.twoPow w (w - 1) else 0#w) ^^^ (gplace w bs >>> 1)

theorem bv_xor_left_comm {w : Nat} (a b c : BitVec w) : a ^^^ (b ^^^ c) = b ^^^ (a ^^^ c) := by
  rw [← BitVec.xor_assoc, BitVec.xor_comm a b, BitVec.xor_assoc]

theorem bv_xor_cancel {w : Nat} (a b : BitVec w) : a ^^^ (a ^^^ b) = b := by
  rw [← BitVec.xor_assoc, BitVec.xor_self, BitVec.zero_xor]

theorem gstep_xor {w : Nat} (p a b : BitVec w) : gstep p (a ^^^ b) = gstep p a ^^^ gstep p b := by
  unfold gstep
  rw [BitVec.shiftLeft_xor_distrib, BitVec.msb_xor]
  rcases a.msb <;> rcases b.msb <;> simp [BitVec.xor_comm, bv_xor_left_comm, bv_xor_cancel]

theorem gstep_zero {w : Nat} (p : BitVec w) : gstep p 0#w = 0#w := by
  simp [gstep]

theorem iter_gstep_xor {w : Nat} (p : BitVec w) (n : Nat) : ∀ a b : BitVec w,
    iter (gstep p) n (a ^^^ b) = iter (gstep p) n a ^^^ iter (gstep p) n b := by
  induction n with
  | zero => intro a b; rfl
  | succ n ih => intro a b; simp only [iter, gstep_xor, ih]

theorem xor_eq_zero_iff {w : Nat} {a b : BitVec w} : a ^^^ b = 0#w ↔ a = b := by
  constructor
  · intro h
    have : a ^^^ b ^^^ b = 0#w ^^^ b := by rw [h]
    simpa [BitVec.xor_assoc] using this
  · rintro rfl; simp

theorem gstep_eq_zero {w : Nat} {p v : BitVec w} (hp : p.getLsbD 0 = true)
    (h : gstep p v = 0#w) : v = 0#w := by
  unfold gstep at h
  have h0 := congrArg (fun x => x.getLsbD 0) h
  have hw : 0 < w := by
    rcases Nat.eq_zero_or_pos w with rfl | h
    · simp at hp
    · exact h
  have hm : v.msb = false := by
    rcases hv : v.msb with _ | _
    · rfl
    · simp only [hv, if_true, BitVec.getLsbD_xor, BitVec.getLsbD_shiftLeft, hp] at h0
      simp at h0
  rw [hm] at h
  simp only [Bool.false_eq_true, if_false, BitVec.xor_zero] at h
  apply BitVec.eq_of_getLsbD_eq
  intro i hi
  rcases Nat.lt_or_ge (i + 1) w with h1 | h1
  · have := congrArg (fun x => x.getLsbD (i + 1)) h
    simpa only [BitVec.getLsbD_shiftLeft, h1, decide_true, Bool.true_and,
      show ¬ i + 1 < 1 by omega, decide_false, Bool.not_false, Nat.add_sub_cancel,
      BitVec.getLsbD_zero] using this
  · have : i = w - 1 := by omega
    subst this
    rw [BitVec.msb_eq_getLsbD_last] at hm
    simpa using hm

theorem gstep_inj {w : Nat} {p : BitVec w} (hp : p.getLsbD 0 = true) {a b : BitVec w}
    (h : gstep p a = gstep p b) : a = b := by
  apply xor_eq_zero_iff.mp
  apply gstep_eq_zero hp
  rw [gstep_xor, h, BitVec.xor_self]

theorem iter_gstep_inj {w : Nat} {p : BitVec w} (hp : p.getLsbD 0 = true) (n : Nat) :
    ∀ {a b : BitVec w}, iter (gstep p) n a = iter (gstep p) n b → a = b := by
  induction n with
  | zero => intro a b h; exact h
  | succ n ih => intro a b h; exact gstep_inj hp (ih h)

theorem iter_gstep_zero {w : Nat} (p : BitVec w) (n : Nat) : iter (gstep p) n 0#w = 0#w := by
  induction n with
  | zero => rfl
  | succ n ih => simp only [iter, gstep_zero, ih]

theorem gplace_low {w : Nat} (bs : List Bool) (i : Nat) (h : i + bs.length < w) :
    (gplace w bs).getLsbD i = false := by
  induction bs generalizing i with
  | nil => simp [gplace]
  | cons b bs ih =>
    simp only [List.length_cons] at h
    simp only [gplace, BitVec.getLsbD_xor, BitVec.getLsbD_ushiftRight]
    have := ih (1 + i) (by omega)
    rw [this]
    rcases b with _ | _
    · simp
    · simp only [if_true, BitVec.getLsbD_twoPow, Bool.xor_false]
      have : w - 1 ≠ i := by omega
      simp [this]

/-- Feeding at most `w` bits is `xor`-ing them in place and stepping. -/
theorem gfeed_all {w : Nat} (p : BitVec w) (bs : List Bool) (h : bs.length ≤ w) : ∀ s : BitVec w,
    bs.foldl (gfeed p) s = iter (gstep p) bs.length (s ^^^ gplace w bs) := by
  induction bs with
  | nil => intro s; simp [gplace, iter]
  | cons b bs ih =>
    intro s
    simp only [List.length_cons] at h
    simp only [List.foldl_cons, List.length_cons, iter]
    rw [ih (by omega), gplace, ← BitVec.xor_assoc, gstep_xor]
    congr 2
    unfold gstep
    have hm : (gplace w bs >>> 1).msb = false := by
      rw [BitVec.msb_eq_getLsbD_last]
      simp only [BitVec.getLsbD_ushiftRight]
      apply BitVec.getLsbD_of_ge
      omega
    rw [hm]
    apply BitVec.eq_of_getLsbD_eq
    intro i hi
    rcases Nat.eq_zero_or_pos i with rfl | hpos
    · simp
      exact gplace_low bs 0 (by omega)
    · have h1 : 1 + (i - 1) = i := by omega
      simp [hi, h1]
      omega

/-- The word determines the fed bits. -/
theorem gplace_inj {w : Nat} : ∀ (as bs : List Bool), as.length = bs.length → as.length ≤ w →
    gplace w as = gplace w bs → as = bs := by
  intro as
  induction as with
  | nil => intro bs h _ _; simpa using h.symm
  | cons a as ih =>
    intro bs h hw heq
    rcases bs with _ | ⟨b, bs⟩
    · simp at h
    · simp only [List.length_cons] at h hw
      have hab : a = b := by
        have := congrArg (fun x => x.getLsbD (w - 1)) heq
        simp only [gplace, BitVec.getLsbD_xor, BitVec.getLsbD_ushiftRight] at this
        rw [BitVec.getLsbD_of_ge _ _ (by omega : w ≤ 1 + (w - 1)),
          BitVec.getLsbD_of_ge _ _ (by omega : w ≤ 1 + (w - 1))] at this
        have h1 : ¬ w ≤ w - 1 := by omega
        rcases a <;> rcases b <;> simp_all
      subst hab
      have : gplace w as = gplace w bs := by
        simp only [gplace] at heq
        have heq' : gplace w as >>> 1 = gplace w bs >>> 1 := by
          have := congrArg (fun x => (if a then BitVec.twoPow w (w - 1) else 0#w) ^^^ x) heq
          simpa [← BitVec.xor_assoc] using this
        apply BitVec.eq_of_getLsbD_eq
        intro i hi
        rcases Nat.eq_zero_or_pos i with rfl | hpos
        · rw [gplace_low as 0 (by omega), gplace_low bs 0 (by omega)]
        · have := congrArg (fun x => x.getLsbD (i - 1)) heq'
          simpa [show 1 + (i - 1) = i by omega] using this
      rw [ih bs (by omega) (by omega) this]

theorem gfeed_state_inj {w : Nat} {p : BitVec w} (hp : p.getLsbD 0 = true) (bs : List Bool) :
    ∀ {a b : BitVec w}, bs.foldl (gfeed p) a = bs.foldl (gfeed p) b → a = b := by
  induction bs with
  | nil => intro a b h; exact h
  | cons x xs ih =>
    intro a b h
    have h1 := gstep_inj hp (ih h)
    have h2 := congrArg (fun v => v ^^^ (if x then BitVec.twoPow w (w - 1) else 0#w)) h1
    simpa [BitVec.xor_assoc] using h2

/-! ### Splitting two lists around a window -/

theorem take_eq_of_agree {α : Type} {n : Nat} {xs ys : List α}
    (h : ∀ k, k < n → xs[k]? = ys[k]?) : xs.take n = ys.take n := by
  apply List.ext_getElem?
  intro k
  simp only [List.getElem?_take]
  split
  · exact h k ‹_›
  · rfl

theorem drop_eq_of_agree {α : Type} {n : Nat} {xs ys : List α}
    (h : ∀ k, n ≤ k → xs[k]? = ys[k]?) : xs.drop n = ys.drop n := by
  apply List.ext_getElem?
  intro k
  simp only [List.getElem?_drop]
  exact h _ (by omega)

/-- Two lists that agree outside of a window. -/
theorem window_split {α : Type} {xs ys : List α} (hlen : xs.length = ys.length) {i n : Nat}
    (h : ∀ k, k < i ∨ i + n ≤ k → xs[k]? = ys[k]?) :
    ∃ p a b q, xs = p ++ a ++ q ∧ ys = p ++ b ++ q ∧ a.length = b.length ∧ a.length ≤ n := by
  refine ⟨xs.take i, (xs.drop i).take n, (ys.drop i).take n, xs.drop (i + n), ?_, ?_, ?_, ?_⟩
  · rw [List.append_assoc, ← List.drop_drop, List.take_append_drop, List.take_append_drop]
  · rw [take_eq_of_agree (fun k hk => h k (Or.inl hk)), drop_eq_of_agree (fun k hk => h k (Or.inr hk))]
    rw [List.append_assoc, ← List.drop_drop, List.take_append_drop, List.take_append_drop]
  · simp [hlen]
  · simp; omega

theorem gfeed_burst {w : Nat} {p : BitVec w} (hp : p.getLsbD 0 = true) {xs ys : List Bool}
    (hlen : xs.length = ys.length) (hne : xs ≠ ys) {i : Nat}
    (h : ∀ k, k < i ∨ i + w ≤ k → xs[k]? = ys[k]?) (s : BitVec w) :
    xs.foldl (gfeed p) s ≠ ys.foldl (gfeed p) s := by
  obtain ⟨pre, a, b, q, hx, hy, hab, haw⟩ := window_split hlen h
  subst hx hy
  intro heq
  simp only [List.foldl_append] at heq
  have h1 := gfeed_state_inj hp q heq
  rw [gfeed_all p a haw, gfeed_all p b (by omega), hab] at h1
  have h2 := iter_gstep_inj hp _ h1
  have h3 : gplace w a = gplace w b := by
    have := congrArg (fun v => pre.foldl (gfeed p) s ^^^ v) h2
    simpa [← BitVec.xor_assoc] using this
  have := gplace_inj a b hab haw h3
  subst this
  exact hne rfl

/-! ### Least-significant-bit-first (reflected) registers of any width -/

/-- One-bit step of a least-significant-bit-first register. -/
def rstep {w : Nat} (p v : BitVec w) : BitVec w :=
  (v >>> 1) ^^^ (if v.getLsbD 0 then p else 0#w)

/-- Feed a single message bit. -/
def rfeed {w : Nat} (p s : BitVec w) (b : Bool) : BitVec w :=
  rstep p (s ^^^ (if b then BitVec.twoPow w 0 else 0#w))

/-- Put the message bits into a word, the first one in the least significant place. -/
def rplace (w : Nat) : List Bool → BitVec w
  | [] => 0#w
  | b :: bs => (if b then BitVec.twoPow w 0 else 0#w) ^^^ (rplace w bs <<< 1)

theorem rstep_xor {w : Nat} (p a b : BitVec w) : rstep p (a ^^^ b) = rstep p a ^^^ rstep p b := by
  unfold rstep
  rw [BitVec.ushiftRight_xor_distrib, BitVec.getLsbD_xor]
  rcases a.getLsbD 0 <;> rcases b.getLsbD 0 <;>
    simp [BitVec.xor_comm, bv_xor_left_comm, bv_xor_cancel]

theorem rstep_eq_zero {w : Nat} {p v : BitVec w} (hp : p.msb = true)
    (h : rstep p v = 0#w) : v = 0#w := by
  unfold rstep at h
  have hw : 0 < w := by
    rcases Nat.eq_zero_or_pos w with rfl | h
    · exact absurd hp (by simp [BitVec.msb_eq_getLsbD_last])
    · exact h
  rw [BitVec.msb_eq_getLsbD_last] at hp
  have h0 := congrArg (fun x => x.getLsbD (w - 1)) h
  have hm : v.getLsbD 0 = false := by
    rcases hv : v.getLsbD 0 with _ | _
    · rfl
    · rw [hv] at h0
      simp only [if_true, BitVec.getLsbD_xor, BitVec.getLsbD_ushiftRight, hp] at h0
      rw [BitVec.getLsbD_of_ge _ _ (by omega : w ≤ 1 + (w - 1))] at h0
      simp at h0
  rw [hm] at h
  simp only [Bool.false_eq_true, if_false, BitVec.xor_zero] at h
  apply BitVec.eq_of_getLsbD_eq
  intro i hi
  rcases Nat.eq_zero_or_pos i with rfl | h1
  · simpa using hm
  · have := congrArg (fun x => x.getLsbD (i - 1)) h
    simpa [show 1 + (i - 1) = i by omega] using this

theorem rstep_inj {w : Nat} {p : BitVec w} (hp : p.msb = true) {a b : BitVec w}
    (h : rstep p a = rstep p b) : a = b := by
  apply xor_eq_zero_iff.mp
  apply rstep_eq_zero hp
  rw [rstep_xor, h, BitVec.xor_self]

theorem iter_rstep_inj {w : Nat} {p : BitVec w} (hp : p.msb = true) (n : Nat) :
    ∀ {a b : BitVec w}, iter (rstep p) n a = iter (rstep p) n b → a = b := by
  induction n with
  | zero => intro a b h; exact h
  | succ n ih => intro a b h; exact rstep_inj hp (ih h)

theorem rplace_high {w : Nat} (bs : List Bool) (i : Nat) (h : bs.length ≤ i) :
    (rplace w bs).getLsbD i = false := by
  induction bs generalizing i with
  | nil => simp [rplace]
  | cons b bs ih =>
    simp only [List.length_cons] at h
    simp only [rplace, BitVec.getLsbD_xor, BitVec.getLsbD_shiftLeft]
    rw [ih (i - 1) (by omega)]
    rcases b with _ | _
    · simp
    · simp only [if_true, BitVec.getLsbD_twoPow]
      have : 0 ≠ i := by omega
      simp [this]

/-- Feeding at most `w` bits is `xor`-ing them in place and stepping. -/
theorem rfeed_all {w : Nat} (p : BitVec w) (bs : List Bool) (h : bs.length ≤ w) : ∀ s : BitVec w,
    bs.foldl (rfeed p) s = iter (rstep p) bs.length (s ^^^ rplace w bs) := by
  induction bs with
  | nil => intro s; simp [rplace, iter]
  | cons b bs ih =>
    intro s
    simp only [List.length_cons] at h
    simp only [List.foldl_cons, List.length_cons, iter]
    rw [ih (by omega), rplace, ← BitVec.xor_assoc, rstep_xor]
    congr 2
    unfold rstep
    have hm : (rplace w bs <<< 1).getLsbD 0 = false := by simp
    rw [hm]
    apply BitVec.eq_of_getLsbD_eq
    intro i hi
    simp only [Bool.false_eq_true, if_false, BitVec.xor_zero, BitVec.getLsbD_ushiftRight,
      BitVec.getLsbD_shiftLeft]
    rcases Nat.lt_or_ge (1 + i) w with h1 | h1
    · simp [h1]
    · rw [rplace_high bs i (by omega)]
      simp
      omega

theorem rplace_inj {w : Nat} : ∀ (as bs : List Bool), as.length = bs.length → as.length ≤ w →
    rplace w as = rplace w bs → as = bs := by
  intro as
  induction as with
  | nil => intro bs h _ _; simpa using h.symm
  | cons a as ih =>
    intro bs h hw heq
    rcases bs with _ | ⟨b, bs⟩
    · simp at h
    · simp only [List.length_cons] at h hw
      have hab : a = b := by
        have := congrArg (fun x => x.getLsbD 0) heq
        have h1 : 0 < w := by omega
        simp only [rplace, BitVec.getLsbD_xor, BitVec.getLsbD_shiftLeft] at this
        rcases a <;> rcases b <;> simp [h1] at this ⊢
      subst hab
      have : rplace w as = rplace w bs := by
        simp only [rplace] at heq
        have heq' : rplace w as <<< 1 = rplace w bs <<< 1 := by
          have := congrArg (fun x => (if a then BitVec.twoPow w 0 else 0#w) ^^^ x) heq
          simpa [← BitVec.xor_assoc] using this
        apply BitVec.eq_of_getLsbD_eq
        intro i hi
        rcases Nat.lt_or_ge (1 + i) w with h1 | h1
        · have := congrArg (fun x => x.getLsbD (1 + i)) heq'
          simpa only [BitVec.getLsbD_shiftLeft, h1, decide_true, Bool.true_and,
            show ¬ 1 + i < 1 by omega, decide_false, Bool.not_false, Nat.add_sub_cancel_left] using this
        · rw [rplace_high as i (by omega), rplace_high bs i (by omega)]
      rw [ih bs (by omega) (by omega) this]

theorem rfeed_state_inj {w : Nat} {p : BitVec w} (hp : p.msb = true) (bs : List Bool) :
    ∀ {a b : BitVec w}, bs.foldl (rfeed p) a = bs.foldl (rfeed p) b → a = b := by
  induction bs with
  | nil => intro a b h; exact h
  | cons x xs ih =>
    intro a b h
    have h1 := rstep_inj hp (ih h)
    have h2 := congrArg (fun v => v ^^^ (if x then BitVec.twoPow w 0 else 0#w)) h1
    simpa [BitVec.xor_assoc] using h2

theorem rfeed_burst {w : Nat} {p : BitVec w} (hp : p.msb = true) {xs ys : List Bool}
    (hlen : xs.length = ys.length) (hne : xs ≠ ys) {i : Nat}
    (h : ∀ k, k < i ∨ i + w ≤ k → xs[k]? = ys[k]?) (s : BitVec w) :
    xs.foldl (rfeed p) s ≠ ys.foldl (rfeed p) s := by
  obtain ⟨pre, a, b, q, hx, hy, hab, haw⟩ := window_split hlen h
  subst hx hy
  intro heq
  simp only [List.foldl_append] at heq
  have h1 := rfeed_state_inj hp q heq
  rw [rfeed_all p a haw, rfeed_all p b (by omega), hab] at h1
  have h2 := iter_rstep_inj hp _ h1
  have h3 : rplace w a = rplace w b := by
    have := congrArg (fun v => pre.foldl (rfeed p) s ^^^ v) h2
    simpa [← BitVec.xor_assoc] using this
  have := rplace_inj a b hab haw h3
  subst this
  exact hne rfl

end Verif.Crc
