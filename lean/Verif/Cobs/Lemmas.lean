import Verif.Cobs.Model

/-! Helper lemmas about COBS: the in-place buffer algorithm equals a list function. -/

namespace Verif.Cobs

/-- The code byte of a block. -/
def codeOf (block : List Byte) : Byte := BitVec.ofNat 8 (block.length + 1)

/-- List form of the encoder; `block` is the current unfinished block. -/
def enc (block : List Byte) : List Byte → List Byte
  | [] => codeOf block :: block
  | x :: xs =>
    if x = 0#8 then codeOf block :: (block ++ enc [] xs)
    else if block.length = 254 then codeOf block :: (block ++ enc [x] xs)
    else enc (block ++ [x]) xs

theorem enc_length_ge (block src : List Byte) : block.length + 1 ≤ (enc block src).length := by
  induction src generalizing block with
  | nil => simp [enc]
  | cons x xs ih =>
    unfold enc
    split
    · simp
    · split
      · simp
      · have := ih (block ++ [x]); simp at this; omega

theorem enc_length_le (block src : List Byte) (h : block.length ≤ 254) :
    (enc block src).length ≤ 1 + block.length + src.length + (block.length + src.length - 1) / 254 := by
  induction src generalizing block with
  | nil => simp [enc]; omega
  | cons x xs ih =>
    unfold enc
    split
    · have := ih [] (by simp)
      simp only [List.length_cons, List.length_append, List.length_nil] at this ⊢
      omega
    · split
      · have := ih [x] (by simp)
        simp only [List.length_cons, List.length_append, List.length_nil] at this ⊢
        omega
      · have := ih (block ++ [x]) (by simp; omega)
        simp only [List.length_cons, List.length_append, List.length_nil] at this ⊢
        omega

theorem codeOf_ne_zero (block : List Byte) (h : block.length ≤ 254) : codeOf block ≠ 0#8 := by
  intro hc
  have := congrArg BitVec.toNat hc
  simp [codeOf] at this
  omega

theorem codeOf_eq_ff (block : List Byte) (h : block.length ≤ 254) :
    codeOf block = 0xff#8 ↔ block.length = 254 := by
  constructor
  · intro hc
    have := congrArg BitVec.toNat hc
    simp [codeOf] at this
    omega
  · intro h; simp [codeOf, h]

theorem enc_no_zero (block src : List Byte) (h : block.length ≤ 254) (hb : 0#8 ∉ block) :
    0#8 ∉ enc block src := by
  induction src generalizing block with
  | nil =>
    simp only [enc, List.mem_cons, not_or]
    exact ⟨fun hc => codeOf_ne_zero block h hc.symm, hb⟩
  | cons x xs ih =>
    unfold enc
    split
    · simp only [List.mem_cons, List.mem_append, not_or]
      exact ⟨fun hc => codeOf_ne_zero block h hc.symm, hb, ih [] (by simp) (by simp)⟩
    · rename_i hx
      split
      · simp only [List.mem_cons, List.mem_append, not_or]
        exact ⟨fun hc => codeOf_ne_zero block h hc.symm, hb,
          ih [x] (by simp) (by simpa using fun hc => hx hc.symm)⟩
      · exact ih (block ++ [x]) (by simp; omega) (by simp [hb]; exact fun hc => hx hc.symm)

/-! ### The buffer algorithm -/

/-- The loop state that corresponds to finished output `done` and unfinished block `block`:
the cell for the code byte exists only if the buffer is long enough. -/
def Rel (n : Nat) (done block : List Byte) (s : EscState) : Prop :=
  s.dest.length = n ∧ s.destCode = done.length ∧ s.destCurrent = done.length + 1 + block.length ∧
  s.code = codeOf block ∧
  (∀ i, i < done.length → s.dest[i]? = done[i]?) ∧
  (∀ i, i < block.length → s.dest[done.length + 1 + i]? = block[i]?)

theorem rel_done_le {n : Nat} {done block : List Byte} {s : EscState} (h : Rel n done block s) :
    done.length ≤ n := by
  obtain ⟨h1, _, _, _, h5, _⟩ := h
  rcases Nat.eq_zero_or_pos done.length with h0 | h0
  · omega
  · have := h5 (done.length - 1) (by omega)
    rcases Nat.lt_or_ge (done.length - 1) s.dest.length with h' | h'
    · omega
    · rw [List.getElem?_eq_none h', List.getElem?_eq_getElem (by omega)] at this
      simp at this

theorem rel_block_lt {n : Nat} {done block : List Byte} {s : EscState} (h : Rel n done block s)
    (hb : block ≠ []) : done.length + 1 + block.length ≤ n := by
  obtain ⟨h1, _, _, _, _, h6⟩ := h
  have hpos : 0 < block.length := List.length_pos_iff.mpr hb
  have := h6 (block.length - 1) (by omega)
  rcases Nat.lt_or_ge (done.length + 1 + (block.length - 1)) s.dest.length with h' | h'
  · omega
  · rw [List.getElem?_eq_none h', List.getElem?_eq_getElem (by omega)] at this
    simp at this

/-- Finishing a block. -/
theorem rel_finish {n : Nat} {done block : List Byte} {s : EscState} (h : Rel n done block s)
    (hn : done.length < n) :
    ∃ d, put s.dest s.destCode s.code = some d ∧
      Rel n (done ++ codeOf block :: block) []
        { dest := d, code := 1#8, destCode := s.destCurrent, destCurrent := s.destCurrent + 1 } := by
  obtain ⟨h1, h2, h3, h4, h5, h6⟩ := h
  refine ⟨s.dest.set s.destCode s.code, ?_, ?_, ?_, ?_, ?_, ?_, ?_⟩
  · simp [put, h1, h2, hn]
  · simpa using h1
  · simp [h3]; omega
  · simp [h3]; omega
  · rfl
  · intro i hi
    simp only [List.length_append, List.length_cons] at hi
    simp only [h2, h4, List.getElem?_set]
    split
    · rename_i he
      subst he
      simp [h1, hn]
    · rcases Nat.lt_or_ge i done.length with hl | hl
      · rw [h5 i hl, List.getElem?_append_left hl]
      · rw [List.getElem?_append_right hl]
        have e : i - done.length = (i - done.length - 1) + 1 := by omega
        rw [e, List.getElem?_cons_succ, ← h6 _ (by omega)]
        congr 1
        omega
  · simp

/-- Copying a byte. -/
theorem rel_copy {n : Nat} {done block : List Byte} {s : EscState} (h : Rel n done block s) (b : Byte)
    (hn : done.length + 1 + block.length < n) :
    ∃ d, put s.dest s.destCurrent b = some d ∧
      Rel n done (block ++ [b])
        { s with dest := d, destCurrent := s.destCurrent + 1, code := s.code + 1#8 } := by
  obtain ⟨h1, h2, h3, h4, h5, h6⟩ := h
  refine ⟨s.dest.set s.destCurrent b, ?_, ?_, ?_, ?_, ?_, ?_, ?_⟩
  · simp [put, h1, h3, hn]
  · simpa using h1
  · exact h2
  · simp [h3]; omega
  · simp only [h4, codeOf]
    apply BitVec.eq_of_toNat_eq
    simp
  · intro i hi
    simp only [h3, List.getElem?_set]
    rw [if_neg (by omega)]
    exact h5 i hi
  · intro i hi
    simp only [List.length_append, List.length_cons, List.length_nil] at hi
    simp only [h3, List.getElem?_set]
    rcases Nat.lt_or_ge i block.length with hl | hl
    · rw [if_neg (by omega), h6 i hl, List.getElem?_append_left hl]
    · have : i = block.length := by omega
      subst this
      simp [h1, hn]

theorem escLoop_spec (src : List Byte) : ∀ (n : Nat) (done block : List Byte) (s : EscState),
    Rel n done block s → block.length ≤ 254 →
    (do
      let s ← escLoop s src
      let d ← put s.dest s.destCode s.code
      some (s.destCurrent, d.take s.destCurrent)) =
    if done.length + (enc block src).length ≤ n then
      some (done.length + (enc block src).length, done ++ enc block src) else none := by
  induction src with
  | nil =>
    intro n done block s h hb
    simp only [escLoop, Option.bind_eq_bind, Option.bind_some]
    rw [show enc block [] = codeOf block :: block from rfl, List.length_cons]
    by_cases hn : done.length + (block.length + 1) ≤ n
    · rw [if_pos hn]
      obtain ⟨d, hd, hr⟩ := rel_finish h (by omega)
      rw [hd]
      obtain ⟨g1, g2, g3, g4, g5, g6⟩ := hr
      simp only [Option.bind_some, Option.some.injEq, Prod.mk.injEq]
      simp only at g1 g2 g3
      have hlen : s.destCurrent = done.length + (block.length + 1) := by
        rw [h.2.2.1]; omega
      refine ⟨hlen, ?_⟩
      apply List.ext_getElem?
      intro i
      rw [List.getElem?_take]
      split
      · rename_i hi
        exact g5 i (by simp; omega)
      · rw [List.getElem?_eq_none]
        simp; omega
    · rw [if_neg hn]
      rcases Nat.lt_or_ge done.length n with hl | hl
      · rcases block with _ | ⟨b, bs⟩
        · exact absurd (by simp; omega) hn
        · have := rel_block_lt h (by simp)
          exact absurd (by simp at this ⊢; omega) hn
      · simp [put, h.1, h.2.1, show ¬ done.length < n by omega]
  | cons x xs ih =>
    intro n done block s h hb
    simp only [escLoop, Option.bind_eq_bind]
    unfold enc escStep
    by_cases hx : x = 0#8
    · simp only [hx, if_true, Option.bind_eq_bind]
      rcases Nat.lt_or_ge done.length n with hl | hl
      · obtain ⟨d, hd, hr⟩ := rel_finish h hl
        rw [hd]
        simp only [Option.bind_some]
        have := ih n _ [] _ hr (by simp)
        simp only [Option.bind_eq_bind] at this
        rw [this]
        simp only [List.length_append, List.length_cons, List.append_assoc, List.cons_append]
        have e : done.length + (block.length + 1) + (enc [] xs).length =
          done.length + (block.length + (enc [] xs).length + 1) := by omega
        rw [e]
      · have : put s.dest s.destCode s.code = none := by
          simp [put, h.1, h.2.1, show ¬ done.length < n by omega]
        rw [this]
        simp only [Option.bind_none, List.length_cons, List.length_append]
        rw [if_neg (by omega)]
    · simp only [hx, if_false]
      rw [h.2.2.2.1]
      by_cases h254 : block.length = 254
      · rw [if_pos ((codeOf_eq_ff block hb).mpr h254), if_pos h254]
        have hne : block ≠ [] := by rintro rfl; simp at h254
        have hn1 := rel_block_lt h hne
        obtain ⟨d, hd, hr⟩ := rel_finish h (by omega)
        rw [h.2.2.2.1] at hd
        rw [hd]
        simp only [Option.bind_eq_bind, Option.bind_some]
        rcases Nat.lt_or_ge ((done ++ codeOf block :: block).length + 1 + ([] : List Byte).length) n with hl | hl
        · obtain ⟨d2, hd2, hr2⟩ := rel_copy hr x hl
          simp only at hd2 hr2
          rw [hd2]
          simp only [Option.bind_some]
          have := ih n _ _ _ hr2 (by simp)
          simp only [Option.bind_eq_bind, List.nil_append] at this
          rw [this]
          simp only [List.length_append, List.length_cons, List.append_assoc, List.cons_append]
          have e : done.length + (block.length + 1) + (enc [x] xs).length =
            done.length + (block.length + (enc [x] xs).length + 1) := by omega
          rw [e]
        · have hput : put d (s.destCurrent + 1) x = none := by
            have h1 : d.length = n := hr.1
            have h2 := h.2.2.1
            simp only [List.length_append, List.length_cons, List.length_nil] at hl
            simp only [put, h1, h2]
            rw [if_neg (by omega)]
          rw [hput]
          have hge := enc_length_ge [x] xs
          simp only [List.length_append, List.length_cons, List.length_nil, Option.bind_none] at hl hge ⊢
          rw [if_neg (by omega)]
      · rw [if_neg (fun hc => h254 ((codeOf_eq_ff block hb).mp hc)), if_neg h254]
        simp only [Option.bind_eq_bind, Option.bind_some]
        rcases Nat.lt_or_ge (done.length + 1 + block.length) n with hl | hl
        · obtain ⟨d, hd, hr⟩ := rel_copy h x hl
          rw [hd]
          simp only [Option.bind_some]
          have := ih n _ _ _ hr (by simp; omega)
          simp only [Option.bind_eq_bind] at this
          exact this
        · have hput : put s.dest s.destCurrent x = none := by
            simp [put, h.1, h.2.2.1, show ¬ done.length + 1 + block.length < n by omega]
          rw [hput]
          have hge := enc_length_ge (block ++ [x]) xs
          simp only [List.length_append, List.length_cons, List.length_nil] at hge
          simp only [Option.bind_none]
          rw [if_neg (by omega)]

end Verif.Cobs
