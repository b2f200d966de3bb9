import Verif.Can.TxSpec

/-! Helper lemmas about the CAN transmitter. -/

namespace Verif.Can

open Verif.Crc (crc16 be16)

/-- What the breakdown has done after the bytes `bs`: it emitted the frames `es`. -/
structure Progress (mtu : Nat) (tid : Tid) (bs : List Byte) (es : List (List Byte)) (b : Breakdown) : Prop where
  hmtu : b.mtu = mtu
  htid : b.transferId = tid
  start : b.start = decide (es.length = 0)
  toggle : b.toggle = decide (es.length % 2 = 0)
  short : b.frame.length ≤ mtu - 1
  pending : es ≠ [] → b.frame ≠ []
  content : es.flatMap (fun e => e.take (e.length - 1)) ++ b.frame = bs
  full : ∀ e ∈ es, e.length = mtu
  tails : ∀ i (hi : i < es.length), (es[i]).getLast? = some (makeTailByte (decide (i = 0)) false (decide (i % 2 = 0)) tid)

theorem progress_new (mtu : Nat) (tid : Tid) : Progress mtu tid [] [] (Breakdown.new mtu tid) := by
  constructor <;> simp [Breakdown.new]

theorem progress_add {mtu : Nat} {tid : Tid} {bs : List Byte} {es : List (List Byte)} {b : Breakdown}
    (hm : 1 < mtu) (hm64 : mtu ≤ 64) (h : Progress mtu tid bs es b) (byte : Byte) :
    ∃ b' out, b.add byte = some (b', out) ∧ Progress mtu tid (bs ++ [byte]) (es ++ out.toList) b' := by
  unfold Breakdown.add
  have hs := h.short
  by_cases hf : b.frame.length = b.mtu - 1
  · rw [if_pos hf]
    have hlt : b.frame.length < 64 := by omega
    rw [h.hmtu] at hf
    simp only [push64, hlt, if_true, List.length_nil, Nat.zero_lt_succ, List.nil_append]
    refine ⟨_, _, rfl, ?_⟩
    constructor
    · exact h.hmtu
    · exact h.htid
    · simp
    · simp only [h.toggle, Option.toList_some, List.length_append, List.length_cons, List.length_nil]
      by_cases hp : es.length % 2 = 0
      · simp [hp]; omega
      · simp [hp]; omega
    · simp; omega
    · intro _; simp
    · simp only [Option.toList_some, List.flatMap_append, List.flatMap_cons, List.flatMap_nil, List.append_nil]
      rw [List.length_append, List.length_singleton, Nat.add_sub_cancel, List.take_left, h.content]
    · intro e he
      rcases List.mem_append.mp he with he | he
      · exact h.full e he
      · simp at he; subst he; simp; omega
    · intro i hi
      by_cases h1 : i < es.length
      · rw [List.getElem_append_left h1]; exact h.tails i h1
      · have hi2 : i = es.length := by simp at hi; omega
        subst hi2
        rw [List.getElem_append_right (Nat.le_refl _)]
        simp [h.start, h.toggle, h.htid]
  · rw [if_neg hf]
    rw [h.hmtu] at hf
    have hlt : b.frame.length < 64 := by omega
    simp only [push64, hlt, if_true]
    refine ⟨_, _, rfl, ?_⟩
    simp only [Option.toList_none, List.append_nil]
    constructor
    · exact h.hmtu
    · exact h.htid
    · exact h.start
    · exact h.toggle
    · simp; omega
    · intro _; simp
    · rw [← h.content]; simp
    · exact h.full
    · exact h.tails

variable {σ E : Type}

/-- What the loops in `push_inner` make of the answer of the driver. -/
def loopResult (b : Breakdown) (n : Nat) : Option (σ × PushResult E) → Option (σ × Except (PushResult E) (Breakdown × Nat))
  | none => none
  | some (s, .ok) => some (s, .ok (b, n))
  | some (s, e) => some (s, .error e)

theorem loopResult_ok (b : Breakdown) (n : Nat) (s : σ) :
    loopResult b n (some (s, (.ok : PushResult E))) = some (s, .ok (b, n)) := rfl

theorem pushBytes_eq {mtu : Nat} {tid : Tid} (hm : 1 < mtu) (hm64 : mtu ≤ 64) (mk : List Byte → Option Frame)
    (mk' : List Byte → Frame) (hmk : ∀ e, e.length ≤ mtu → mk e = some (mk' e)) (more : List Byte) :
    ∀ {bs : List Byte} {es : List (List Byte)} {b : Breakdown}, Progress mtu tid bs es b →
      ∃ new b', Progress mtu tid (bs ++ more) (es ++ new) b' ∧
        ∀ {σ E : Type} (d : TxDriver σ E) (n : Nat) (s : σ), pushBytes d mk more b n s =
          loopResult b' (n + new.length) (transmitAll d (new.map mk') s) := by
  induction more with
  | nil =>
    intro bs es b h
    exact ⟨[], b, by simpa using h, fun {σ E} d n s => rfl⟩
  | cons byte rest ih =>
    intro bs es b h
    obtain ⟨b1, out, h1, h2⟩ := progress_add hm hm64 h byte
    obtain ⟨new, b', h3, h4⟩ := ih h2
    refine ⟨out.toList ++ new, b', by simpa using h3, ?_⟩
    intro σ E d n s
    unfold pushBytes
    rw [h1]
    cases out with
    | none => simpa using h4 d n s
    | some data =>
      have hl : data.length = mtu := h2.full data (by simp)
      simp only [Option.toList_some, List.cons_append, List.nil_append, List.map_cons, transmitAll, pushFrame,
        hmk data (by omega)]
      cases hd : d.transmit s (mk' data) with
      | none => rfl
      | some p =>
        obtain ⟨s', res⟩ := p
        cases res with
        | ok x => simp only [h4, List.length_cons, Nat.add_assoc, Nat.add_comm 1]
        | wouldBlock => rfl
        | other e => rfl

theorem pushBytes_append_transmit (d : TxDriver σ E) (f g : List Frame) (s : σ) :
    transmitAll d (f ++ g) s =
      match transmitAll d f s with
      | none => none
      | some (s, .ok) => transmitAll d g s
      | some (s, e) => some (s, e) := by
  induction f generalizing s with
  | nil => rfl
  | cons a f ih =>
    simp only [List.cons_append, transmitAll]
    cases d.transmit s a with
    | none => rfl
    | some p => obtain ⟨s', res⟩ := p; cases res <;> simp [ih]

theorem divCeil_spec {a b : Nat} (hb : 0 < b) (ha : 0 < a) : divCeil a b ≥ 1 ∧ (divCeil a b - 1) * b < a ∧ a ≤ divCeil a b * b := by
  unfold divCeil
  have hd := Nat.div_add_mod a b
  have hm := Nat.mod_lt a hb
  have hc : b * (a / b) = a / b * b := Nat.mul_comm ..
  split
  · rename_i h0
    have hq : 1 ≤ a / b := by
      rcases Nat.eq_zero_or_pos (a / b) with h | h
      · rw [h] at hd; omega
      · exact h
    obtain ⟨q, hq'⟩ : ∃ q, a / b = q + 1 := ⟨a / b - 1, by omega⟩
    rw [hq'] at hd hc ⊢
    rw [Nat.add_mul] at hc ⊢
    simp only [Nat.add_sub_cancel]
    omega
  · simp only [Nat.add_sub_cancel, Nat.add_mul]
    refine ⟨Nat.le_add_left _ _, ?_, ?_⟩ <;> omega

theorem divCeil_unique {a b q : Nat} (hb : 0 < b) (hq : 1 ≤ q) (h1 : (q - 1) * b < a) (h2 : a ≤ q * b) : divCeil a b = q := by
  obtain ⟨h3, h4, h5⟩ := divCeil_spec (a := a) hb (by omega)
  rcases Nat.lt_trichotomy (divCeil a b) q with h | h | h
  · have : divCeil a b * b ≤ (q - 1) * b := Nat.mul_le_mul_right _ (by omega)
    omega
  · exact h
  · have : q * b ≤ (divCeil a b - 1) * b := Nat.mul_le_mul_right _ (by omega)
    omega

theorem roundUp_spec {n : Nat} (hn : n ≤ 64) : ∃ r, roundUpFrameLength n = some r ∧ n ≤ r ∧ LegalLength r ∧
    ∀ m, LegalLength m → n ≤ m → r ≤ m := by
  unfold roundUpFrameLength LegalLength
  simp only [List.mem_cons, List.not_mem_nil, or_false]
  split
  · exact ⟨_, rfl, by omega, by omega, by omega⟩
  split
  · exact ⟨_, rfl, by omega, by omega, by omega⟩
  split
  · exact ⟨_, rfl, by omega, by omega, by omega⟩
  split
  · exact ⟨_, rfl, by omega, by omega, by omega⟩
  split
  · exact ⟨_, rfl, by omega, by omega, by omega⟩
  split
  · exact ⟨_, rfl, by omega, by omega, by omega⟩
  split
  · exact ⟨_, rfl, by omega, by omega, by omega⟩
  exact ⟨_, rfl, by omega, by omega, by omega⟩

/-- The frame statistics: `k` full frames and a last frame with `last` bytes (including the tail byte) before padding. -/
theorem frameStats_spec (len mtu : Nat) (hm : 1 < mtu) (hm64 : mtu ≤ 64) (hl : LegalLength mtu) :
    ∃ k last pad, calculateFrameStats len mtu = some { frames := k + 1, lastFramePadding := pad } ∧
      len + (if len ≤ mtu - 1 then 0 else 2) = k * (mtu - 1) + (last - 1) ∧ 1 ≤ last ∧ (k ≠ 0 → 2 ≤ last) ∧
      last + pad ≤ mtu ∧ LegalLength (last + pad) ∧ (∀ n, LegalLength n → last ≤ n → last + pad ≤ n) := by
  unfold calculateFrameStats
  rw [if_neg (by omega), if_neg (by omega)]
  simp only
  generalize hL : len + (if len ≤ mtu - 1 then 0 else 2) = L
  have key : ∀ t last : Nat, 1 ≤ t → L = (t - 1) * (mtu - 1) + (last - 1) → 1 ≤ last → (t ≠ 1 → 2 ≤ last) → last ≤ mtu →
      max 1 (divCeil L (mtu - 1)) = t →
      ∃ k last pad, (match roundUpFrameLength ((L + max 1 (divCeil L (mtu - 1))) % mtu) with
        | none => none
        | some rounded => some ({ frames := divCeil (L + max 1 (divCeil L (mtu - 1))) mtu, lastFramePadding := rounded - (L + max 1 (divCeil L (mtu - 1))) % mtu } : FrameStats)) =
          some { frames := k + 1, lastFramePadding := pad } ∧
      L = k * (mtu - 1) + (last - 1) ∧ 1 ≤ last ∧ (k ≠ 0 → 2 ≤ last) ∧
      last + pad ≤ mtu ∧ LegalLength (last + pad) ∧ (∀ n, LegalLength n → last ≤ n → last + pad ≤ n) := by
    intro t last ht hLe h1 h2 h3 hmax
    rw [hmax]
    have hT : L + t = (t - 1) * mtu + last := by
      have : (t - 1) * mtu = (t - 1) * (mtu - 1) + (t - 1) := by
        obtain ⟨m, rfl⟩ : ∃ m, mtu = m + 1 := ⟨mtu - 1, by omega⟩
        rw [Nat.mul_add]; simp
      omega
    have hdc : divCeil (L + t) mtu = t := by
      apply divCeil_unique (by omega) ht
      · omega
      · have : t * mtu = (t - 1) * mtu + mtu := by
          obtain ⟨q, rfl⟩ : ∃ q, t = q + 1 := ⟨t - 1, by omega⟩
          rw [Nat.add_mul]; simp
        omega
    have hmod : (L + t) % mtu = last % mtu := by
      rw [hT, Nat.add_comm, Nat.add_mul_mod_self_right]
    rw [hdc, hmod]
    by_cases hlm : last = mtu
    · rw [hlm, Nat.mod_self]
      refine ⟨t - 1, mtu, 0, ?_, hlm ▸ hLe, by omega, by omega, by omega, by simpa using hl, by omega⟩
      simp [roundUpFrameLength]; omega
    · rw [Nat.mod_eq_of_lt (by omega)]
      obtain ⟨r, hr, hr1, hr2, hr3⟩ := roundUp_spec (n := last) (by omega)
      rw [hr]
      have e : last + (r - last) = r := by omega
      refine ⟨t - 1, last, r - last, ?_, hLe, h1, by omega, ?_, ?_, ?_⟩
      · simp; omega
      · rw [e]; exact hr3 _ hl h3
      · rw [e]; exact hr2
      · rw [e]; exact hr3
  rcases Nat.eq_zero_or_pos L with h0 | hpos
  · apply key 1 1 (by omega) (by omega) (by omega) (by omega) (by omega)
    rw [h0]
    simp [divCeil]
  · obtain ⟨h1, h2, h3⟩ := divCeil_spec (a := L) (b := mtu - 1) (by omega) hpos
    apply key (divCeil L (mtu - 1)) (L - (divCeil L (mtu - 1) - 1) * (mtu - 1) + 1) h1 (by omega) (by omega) (by omega) ?_ (by omega)
    have : divCeil L (mtu - 1) * (mtu - 1) = (divCeil L (mtu - 1) - 1) * (mtu - 1) + (mtu - 1) := by
      obtain ⟨q, hq⟩ : ∃ q, divCeil L (mtu - 1) = q + 1 := ⟨divCeil L (mtu - 1) - 1, by omega⟩
      rw [hq, Nat.add_mul]; simp
    omega

end Verif.Can
