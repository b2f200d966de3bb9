import Verif.Cobs.Lemmas

/-!
Properties C27, C28: consistent-overhead byte stuffing.
-/

namespace Verif.Cobs

/-! ### Specification vocabulary -/

/-- `src` contains a zero byte directly preceded by a maximal run of non-zero bytes whose length is a positive multiple of
254. -/
def ZeroAfterFullRun (src : List Byte) : Prop :=
  ∃ pre run post, src = pre ++ run ++ 0#8 :: post ∧ (pre = [] ∨ pre.getLast? = some 0#8) ∧
    0#8 ∉ run ∧ ∃ k, 0 < k ∧ run.length = 254 * k

/-- What a receiver recovers from an escaped frame: the bytes a new `Unescaper` produces, `none` if it reports an error. -/
def decoded (bytes : List Byte) : Option (List Byte) := (Unescaper.new.run bytes).map (·.1)

/-! ### The encoder -/

theorem escapeFromIter_spec (src dest : List Byte) :
    (escapeFromIter src dest).map (fun r => (r.1, r.2.take r.1)) =
      if (enc [] src).length ≤ dest.length then some ((enc [] src).length, enc [] src) else none := by
  have h := escLoop_spec src dest.length [] [] ⟨1, 0, 1#8, dest⟩
    ⟨rfl, rfl, rfl, rfl, by simp, by simp⟩ (by simp)
  simp only [List.length_nil, Nat.zero_add, List.nil_append] at h
  rw [← h]
  simp only [escapeFromIter, Option.bind_eq_bind, Option.map_bind]
  congr 1
  funext s
  simp only [Function.comp_apply, Option.map_bind]
  rcases put s.dest s.destCode s.code <;> rfl

/-- The escaped form computed by the code, in a buffer of sufficient size. -/
def escaped (src : List Byte) : Option (List Byte) :=
  (escapeFromIter src (List.replicate (escapedSize src.length) 0#8)).map (fun r => r.2.take r.1)

theorem enc_fits (src : List Byte) : (enc [] src).length ≤ escapedSize src.length := by
  have := enc_length_le [] src (by simp)
  simp only [List.length_nil] at this
  unfold escapedSize
  split <;> omega

/-- **C27.** Escaping into a destination of at least the computed size always succeeds, whatever the destination held before,
and the escaped bytes contain no zero. -/
theorem C27_escape_fits_and_has_no_zero (src dest : List Byte) (h : escapedSize src.length ≤ dest.length) :
    ∃ n dest', escapeFromIter src dest = some (n, dest') ∧ n ≤ escapedSize src.length ∧
      dest'.length = dest.length ∧ 0#8 ∉ dest'.take n := by
  have h1 := escapeFromIter_spec src dest
  have h2 := enc_fits src
  rw [if_pos (by omega)] at h1
  rcases hr : escapeFromIter src dest with _ | ⟨n, dest'⟩
  · rw [hr] at h1; simp at h1
  · rw [hr] at h1
    simp only [Option.map_some, Option.some.injEq, Prod.mk.injEq] at h1
    obtain ⟨rfl, h1⟩ := h1
    refine ⟨_, _, rfl, h2, ?_, ?_⟩
    · exact escape_length hr
    · rw [h1]
      exact enc_no_zero [] src (by simp) (by simp)
where
  put_length {d d' : List Byte} {i : Nat} {v : Byte} (h : put d i v = some d') : d'.length = d.length := by
    unfold put at h
    split at h
    · simp only [Option.some.injEq] at h; subst h; simp
    · simp at h
  step_length {s s' : EscState} {b : Byte} (h : escStep s b = some s') : s'.dest.length = s.dest.length := by
    unfold escStep at h
    split at h
    · simp only [Option.bind_eq_bind, Option.bind_eq_some_iff] at h
      obtain ⟨d, hd, h⟩ := h
      simp only [Option.some.injEq] at h; subst h
      exact put_length hd
    · split at h
      · simp only [Option.bind_eq_bind, Option.bind_eq_some_iff, Option.bind_some] at h
        obtain ⟨d, hd, d2, hd2, h⟩ := h
        simp only [Option.some.injEq] at h; subst h
        have e1 := put_length hd
        have e2 := put_length hd2
        simp only at e2 ⊢
        omega
      · simp only [Option.bind_eq_bind, Option.bind_eq_some_iff, Option.bind_some] at h
        obtain ⟨d2, hd2, h⟩ := h
        simp only [Option.some.injEq] at h; subst h
        exact put_length hd2
  loop_length {src : List Byte} : ∀ {s s' : EscState}, escLoop s src = some s' → s'.dest.length = s.dest.length := by
    induction src with
    | nil => intro s s' h; simp only [escLoop, Option.some.injEq] at h; subst h; rfl
    | cons x xs ih =>
      intro s s' h
      simp only [escLoop, Option.bind_eq_bind, Option.bind_eq_some_iff] at h
      obtain ⟨s1, hs1, h⟩ := h
      rw [ih h, step_length hs1]
  escape_length {src dest dest' : List Byte} {n : Nat} (h : escapeFromIter src dest = some (n, dest')) :
      dest'.length = dest.length := by
    simp only [escapeFromIter, Option.bind_eq_bind, Option.bind_eq_some_iff] at h
    obtain ⟨s1, hs1, d, hd, h⟩ := h
    simp only [Option.some.injEq, Prod.mk.injEq] at h
    obtain ⟨_, rfl⟩ := h
    rw [put_length hd, loop_length hs1]

/-- **C27**, exactness: the number of bytes written does not depend on the destination, and a destination that is too short for
them is reported as an error instead of being overrun. -/
theorem C27_escape_succeeds_iff (src dest : List Byte) :
    (escapeFromIter src dest).isSome ↔
      ∃ bytes, escaped src = some bytes ∧ bytes.length ≤ dest.length := by
  have h1 := escapeFromIter_spec src dest
  have h2 := escapeFromIter_spec src (List.replicate (escapedSize src.length) 0#8)
  rw [if_pos (by simpa using enc_fits src)] at h2
  have h3 : escaped src = some (enc [] src) := by
    have := congrArg (Option.map Prod.snd) h2
    simpa [escaped, Function.comp_def] using this
  constructor
  · intro hs
    refine ⟨_, h3, ?_⟩
    split at h1
    · assumption
    · rcases hr : escapeFromIter src dest with _ | r
      · simp [hr] at hs
      · simp [hr] at h1
  · rintro ⟨b, hb, hl⟩
    rw [h3, Option.some.injEq] at hb
    subst hb
    rw [if_pos hl] at h1
    rcases hr : escapeFromIter src dest with _ | r
    · simp [hr] at h1
    · rfl

example : escaped [0x45#8, 0x00#8, 0x00#8, 0x2c#8] = some [0x02#8, 0x45#8, 0x01#8, 0x02#8, 0x2c#8] := by decide

/-- A full run of 254 bytes needs exactly the computed 255 bytes. -/
example : (escaped (List.replicate 254 7#8)).map List.length = some 255 ∧ escapedSize 254 = 255 := by decide +kernel

/-! ### The round trip -/

/-- What the decoder gets back, given the length of the current block. -/
def back (n : Nat) : List Byte → List Byte
  | [] => []
  | x :: xs =>
    if x = 0#8 then (if n < 254 then [0#8] else []) ++ back 0 xs
    else x :: back (if n = 254 then 1 else n + 1) xs

theorem run_copy (block rest : List Byte) (hb : 0#8 ∉ block) (h : block.length ≤ 254) (p : Bool) :
    Unescaper.run ⟨BitVec.ofNat 8 block.length, p⟩ (block ++ rest) =
      (Unescaper.run ⟨0#8, p⟩ rest).map (fun r => (block ++ r.1, r.2)) := by
  induction block with
  | nil => simp
  | cons x xs ih =>
    simp only [List.mem_cons, not_or] at hb
    have h1 : BitVec.ofNat 8 (x :: xs).length ≠ 0#8 := by
      intro hc
      have := congrArg BitVec.toNat hc
      simp at this h
      omega
    have h2 : BitVec.ofNat 8 (x :: xs).length - 1#8 = BitVec.ofNat 8 xs.length := by
      apply BitVec.eq_of_toNat_eq
      simp at h ⊢
      omega
    rw [List.cons_append, Unescaper.run, Unescaper.accept, if_neg (fun hc => hb.1 hc.symm), if_neg h1]
    simp only [h2, Option.bind_eq_bind, Option.bind_some]
    rw [ih hb.2 (by simp at h; omega)]
    rcases Unescaper.run ⟨0#8, p⟩ rest with _ | r <;> simp

theorem run_code (block rest : List Byte) (hb : 0#8 ∉ block) (h : block.length ≤ 254) (p : Bool) :
    Unescaper.run ⟨0#8, p⟩ (codeOf block :: (block ++ rest)) =
      (Unescaper.run ⟨0#8, decide (block.length < 254)⟩ rest).map
        (fun r => ((if p then [0#8] else []) ++ block ++ r.1, r.2)) := by
  have h1 : codeOf block - 1#8 = BitVec.ofNat 8 block.length := by
    apply BitVec.eq_of_toNat_eq
    simp [codeOf]
    omega
  have h2 : decide (codeOf block < 0xff#8) = decide (block.length < 254) := by
    simp only [codeOf, BitVec.lt_def, BitVec.toNat_ofNat, decide_eq_decide]
    omega
  rw [Unescaper.run, Unescaper.accept, if_neg (codeOf_ne_zero block h), if_pos rfl]
  simp only [h1, h2, Option.bind_eq_bind, Option.bind_some]
  rw [run_copy block rest hb h]
  rcases Unescaper.run ⟨0#8, decide (block.length < 254)⟩ rest with _ | r <;> rcases p <;> simp

theorem run_enc (src : List Byte) : ∀ (block : List Byte) (p : Bool), 0#8 ∉ block → block.length ≤ 254 →
    (Unescaper.run ⟨0#8, p⟩ (enc block src)).map (·.1) =
      some ((if p then [0#8] else []) ++ block ++ back block.length src) := by
  induction src with
  | nil =>
    intro block p hb h
    have := run_code block [] hb h p
    rw [List.append_nil] at this
    rw [enc, this]
    simp [Unescaper.run, back]
  | cons x xs ih =>
    intro block p hb h
    unfold enc back
    by_cases hx : x = 0#8
    · rw [if_pos hx, if_pos hx, run_code block _ hb h]
      have := ih [] (decide (block.length < 254)) (by simp) (by simp)
      rw [Option.map_map]
      rcases hr : Unescaper.run ⟨0#8, decide (block.length < 254)⟩ (enc [] xs) with _ | r
      · simp [hr] at this
      · rw [hr] at this
        simp only [Option.map_some, Option.some.injEq] at this ⊢
        simp [this]
    · rw [if_neg hx, if_neg hx]
      by_cases h254 : block.length = 254
      · rw [if_pos h254, if_pos h254, run_code block _ hb h]
        have := ih [x] (decide (block.length < 254)) (by simpa using fun hc => hx hc.symm) (by simp)
        rw [Option.map_map]
        rcases hr : Unescaper.run ⟨0#8, decide (block.length < 254)⟩ (enc [x] xs) with _ | r
        · simp [hr] at this
        · rw [hr] at this
          simp only [Option.map_some, Option.some.injEq] at this ⊢
          simp [this, h254]
      · rw [if_neg h254, if_neg h254]
        have := ih (block ++ [x]) p (by simp [hb]; exact fun hc => hx hc.symm) (by simp; omega)
        rw [this]
        simp

theorem escaped_eq (src : List Byte) : escaped src = some (enc [] src) := by
  have h2 := escapeFromIter_spec src (List.replicate (escapedSize src.length) 0#8)
  rw [if_pos (by simpa using enc_fits src)] at h2
  have := congrArg (Option.map Prod.snd) h2
  simpa [escaped, Function.comp_def] using this

theorem decoded_escaped (src : List Byte) : (escaped src).bind decoded = some (back 0 src) := by
  rw [escaped_eq]
  have := run_enc src [] false (by simp) (by simp)
  simpa [decoded, Unescaper.new] using this

/-- No zero arrives while the block is full. -/
def good (n : Nat) : List Byte → Bool
  | [] => true
  | x :: xs =>
    if x = 0#8 then decide (n < 254) && good 0 xs
    else good (if n = 254 then 1 else n + 1) xs

theorem back_length (src : List Byte) : ∀ n, (back n src).length ≤ src.length := by
  induction src with
  | nil => intro n; simp [back]
  | cons x xs ih =>
    intro n
    unfold back
    split
    · have := ih 0
      split <;> simp <;> omega
    · have := ih (if n = 254 then 1 else n + 1)
      simp; exact this

theorem back_eq_iff (src : List Byte) : ∀ n, back n src = src ↔ good n src = true := by
  induction src with
  | nil => intro n; simp [back, good]
  | cons x xs ih =>
    intro n
    unfold back good
    by_cases hx : x = 0#8
    · rw [if_pos hx, if_pos hx]
      by_cases hn : n < 254
      · simp [hn, hx, ih]
      · have := back_length xs 0
        simp only [hn, if_false, List.nil_append, decide_false, Bool.false_and, Bool.false_eq_true, iff_false]
        intro hc
        have := congrArg List.length hc
        simp at this
        omega
    · rw [if_neg hx, if_neg hx]
      simp [ih]

theorem mod_step (r : Nat) : (if (if r = 0 then 0 else (r - 1) % 254 + 1) = 254 then 1
    else (if r = 0 then 0 else (r - 1) % 254 + 1) + 1) = (if r + 1 = 0 then 0 else (r + 1 - 1) % 254 + 1) := by
  rcases Nat.eq_zero_or_pos r with rfl | h
  · rfl
  · rw [if_neg (by omega : ¬ r = 0), if_neg (by omega : ¬ r + 1 = 0)]
    split <;> omega

theorem fullRun_split (run : List Byte) (hr : 0#8 ∉ run) (xs : List Byte) :
    ZeroAfterFullRun (run ++ 0#8 :: xs) ↔ (∃ k, 0 < k ∧ run.length = 254 * k) ∨ ZeroAfterFullRun xs := by
  constructor
  · rintro ⟨pre, run2, post, heq, hpre, hrun2, hk⟩
    rcases hpre with rfl | hlast
    · left
      rw [List.nil_append] at heq
      rcases List.append_eq_append_iff.mp heq with ⟨c, h1, h2⟩ | ⟨c, h1, h2⟩
      · rcases c with _ | ⟨y, c⟩
        · have : run2 = run := by simpa using h1
          subst this; exact hk
        · simp only [List.cons_append, List.cons.injEq] at h2
          exact absurd (by rw [h1, ← h2.1]; simp) hrun2
      · rcases c with _ | ⟨y, c⟩
        · have : run = run2 := by simpa using h1
          subst this; exact hk
        · simp only [List.cons_append, List.cons.injEq] at h2
          exact absurd (by rw [h1, ← h2.1]; simp) hr
    · right
      -- `pre` ends with a zero, so it reaches beyond `run`
      rw [List.append_assoc] at heq
      rcases List.append_eq_append_iff.mp heq with ⟨c, h1, h2⟩ | ⟨c, h1, h2⟩
      · rcases c with _ | ⟨y, c⟩
        · have : pre = run := by simpa using h1
          subst this
          exact absurd (List.mem_of_getLast? hlast) hr
        · simp only [List.cons_append, List.cons.injEq] at h2
          refine ⟨c, run2, post, by rw [List.append_assoc]; exact h2.2, ?_, hrun2, hk⟩
          rcases c with _ | ⟨z, c⟩
          · left; rfl
          · right
            rw [h1] at hlast
            simp only [List.getLast?_append, List.getLast?_cons_cons] at hlast
            rw [List.getLast?_cons] at hlast ⊢
            simpa using hlast
      · exfalso
        apply hr
        rw [h1]
        exact List.mem_append_left _ (List.mem_of_getLast? hlast)
  · rintro (hk | ⟨pre, run2, post, heq, hpre, hrun2, hk⟩)
    · exact ⟨[], run, xs, rfl, Or.inl rfl, hr, hk⟩
    · refine ⟨run ++ 0#8 :: pre, run2, post, by rw [heq]; simp, Or.inr ?_, hrun2, hk⟩
      rcases hpre with rfl | hlast
      · simp
      · rw [List.getLast?_append, List.getLast?_cons]
        simp [hlast]

theorem good_iff (src : List Byte) : ∀ run : List Byte, 0#8 ∉ run →
    (good (if run.length = 0 then 0 else (run.length - 1) % 254 + 1) src = true ↔
      ¬ ZeroAfterFullRun (run ++ src)) := by
  induction src with
  | nil =>
    intro run hr
    simp only [good, List.append_nil, true_iff]
    rintro ⟨pre, run2, post, rfl, _⟩
    exact hr (by simp)
  | cons x xs ih =>
    intro run hr
    unfold good
    by_cases hx : x = 0#8
    · subst hx
      rw [if_pos rfl, fullRun_split run hr xs]
      have := ih [] (by simp)
      simp only [List.length_nil, if_true, List.nil_append] at this
      rw [Bool.and_eq_true, this, not_or]
      have h2 : decide ((if run.length = 0 then 0 else (run.length - 1) % 254 + 1) < 254) = true ↔
          ¬ ∃ k, 0 < k ∧ run.length = 254 * k := by
        rw [decide_eq_true_eq]
        constructor
        · rintro h ⟨k, hk, he⟩
          split at h <;> omega
        · intro h
          split
          · omega
          · rename_i h0
            apply Nat.lt_of_not_le
            intro h1
            exact h ⟨(run.length - 1) / 254 + 1, by omega, by omega⟩
      rw [h2]
    · rw [if_neg hx, mod_step]
      have := ih (run ++ [x]) (by simp [hr]; exact fun hc => hx hc.symm)
      simp only [List.length_append, List.length_cons, List.length_nil, Nat.zero_add, List.append_assoc,
        List.cons_append, List.nil_append] at this
      exact this

/-- **C28 (partial).** The full claim "unescaping the escaped form of any byte string gives back the string" is false for this code
(see `C28_cobs_roundtrip_counterexample`).  Exactly the strings that contain no zero directly after a maximal run of
254, 508, ... non-zero bytes survive the round trip. -/
theorem C28_cobs_roundtrip_iff_partial (src : List Byte) :
    (escaped src).bind decoded = some src ↔ ¬ ZeroAfterFullRun src := by
  rw [decoded_escaped, Option.some.injEq, back_eq_iff]
  have := good_iff src [] (by simp)
  simpa using this

/-- In particular every byte string of at most 254 bytes survives. -/
theorem C28_cobs_roundtrip_short_partial (src : List Byte) (h : src.length ≤ 254) :
    (escaped src).bind decoded = some src := by
  rw [C28_cobs_roundtrip_iff_partial]
  rintro ⟨pre, run, post, rfl, _, _, k, hk, he⟩
  simp at h
  omega

/-- **C28** is false in full: 254 ones followed by a zero lose the zero. -/
theorem C28_cobs_roundtrip_counterexample :
    ¬ ∀ src, (escaped src).bind decoded = some src := by
  intro h
  have := h (List.replicate 254 1#8 ++ [0#8])
  revert this
  decide +kernel

/-- What is lost: the decoder never invents or reorders bytes, it only loses such zeros. -/
theorem C28_cobs_decode_sublist (src : List Byte) :
    ∃ out, (escaped src).bind decoded = some out ∧ out.Sublist src ∧
      out.filter (· ≠ 0#8) = src.filter (· ≠ 0#8) := by
  refine ⟨back 0 src, decoded_escaped src, ?_, ?_⟩
  · exact sub src 0
  · exact fil src 0
where
  sub (src : List Byte) : ∀ n, (back n src).Sublist src := by
    induction src with
    | nil => intro n; simp [back]
    | cons x xs ih =>
      intro n
      unfold back
      by_cases hx : x = 0#8
      · rw [if_pos hx]
        split
        · rw [hx]; exact (ih 0).cons_cons _
        · exact (ih 0).cons _
      · rw [if_neg hx]; exact (ih _).cons_cons _
  fil (src : List Byte) : ∀ n, (back n src).filter (· ≠ 0#8) = src.filter (· ≠ 0#8) := by
    induction src with
    | nil => intro n; simp [back]
    | cons x xs ih =>
      intro n
      unfold back
      by_cases hx : x = 0#8
      · rw [if_pos hx]
        split <;> simp [hx] <;> simpa using ih 0
      · rw [if_neg hx]
        have := ih (if n = 254 then 1 else n + 1)
        simp [hx] at this ⊢
        exact this

example : ¬ ZeroAfterFullRun [0x45#8, 0x00#8, 0x00#8, 0x2c#8, 0x00#8] := by
  rintro ⟨pre, run, post, h, _, _, k, hk, he⟩
  have := congrArg List.length h
  simp at this
  omega

example : (escaped [0x45#8, 0x00#8, 0x00#8, 0x2c#8, 0x00#8]).bind decoded =
    some [0x45#8, 0x00#8, 0x00#8, 0x2c#8, 0x00#8] := by decide

/-- A long run that is not a multiple of 254 survives too. -/
example : (escaped (List.replicate 300 9#8 ++ [0#8, 5#8])).bind decoded = some (List.replicate 300 9#8 ++ [0#8, 5#8]) := by
  decide +kernel

end Verif.Cobs
