import Verif.Dsdl.ReadsEnd

/-!
How long the values of a type can be, and which types are read back whatever the values. These are predicates and functions on types in the
words of the DSDL specification; nothing here depends on the generated code.
-/

namespace Verif.Dsdl

open Verif.Enc

/-! ### The least and the greatest length -/

/-- The position where a value of the type starts: composites start at a whole byte. -/
def Scalar.start (s : Scalar) (p : Nat) : Nat := if s.alignment = 8 then roundUp p else p

/-- The least and greatest position after a field, from the least and greatest position before it and the least and greatest number of bits of one
value. -/
def fieldSpan (s : Scalar) (unit p : Nat × Nat) : Arity → Nat × Nat
  | .scalar => (s.start p.1 + unit.1, s.start p.2 + unit.2)
  | .fixed len => (s.start p.1 + len * unit.1, s.start p.2 + len * unit.2)
  | .var maxLen => (s.start p.1 + widthFor maxLen, s.start p.2 + widthFor maxLen + maxLen * unit.2)

mutual
/-- The least and greatest number of bits of a value, from its start: composites are a whole number of bytes, with a header of 32 bits if delimited. -/
def Scalar.unit : Scalar → Nat × Nat
  | .prim p => (p.bits, p.bits)
  | .composite m =>
    ((if m.extent.isSome then 32 else 0) + roundUp m.span.1, (if m.extent.isSome then 32 else 0) + roundUp m.span.2)
/-- The least and greatest position after the fields. -/
def Fields.span : Fields → Nat × Nat → Nat × Nat
  | .nil, p => p
  | .padding bits rest, p => rest.span (p.1 + bits, p.2 + bits)
  | .data s a rest, p => rest.span (fieldSpan s s.unit p a)
/-- The least and greatest position after one of the variants (without any, there is no value). -/
def Variants.span : Variants → Nat × Nat → Nat × Nat
  | .nil, p => p
  | .cons s a .nil, p => fieldSpan s s.unit p a
  | .cons s a rest, p => (min (fieldSpan s s.unit p a).1 (rest.span p).1, max (fieldSpan s s.unit p a).2 (rest.span p).2)
/-- The least and greatest number of bits of a value of the type. -/
def Message.span : Message → Nat × Nat
  | .struct _ _ fields => fields.span (0, 0)
  | .union _ _ variants => variants.span (widthFor (variants.count - 1), widthFor (variants.count - 1))
  | .enum _ _ bits _ => (bits, bits)
end

/-! ### Numbers in the range of their fields -/

/-- The number is in the range of its DSDL type, whether that is saturated or truncated. -/
def Prim.inRange : Prim → Val → Bool
  | .int bits, .int z => decide (-2 ^ (bits - 1) ≤ z ∧ z < 2 ^ (bits - 1))
  | .uint bits _, .num n => decide (n < 2 ^ bits)
  | _, _ => true

mutual
/-- Every number is in the range of its DSDL type, and no bit array is longer than its type allows. -/
def Scalar.inRange : Scalar → Val → Bool
  | .prim p, v => p.inRange v
  | .composite m, v => m.inRange v
/-- Every number is in the range of its DSDL type, and no bit array is longer than its type allows. -/
def Fields.inRange : Fields → List Val → Bool
  | .padding _ rest, vs => rest.inRange vs
  | .data s a rest, v :: vs => fitsField s.inRange v a && rest.inRange vs
  | _, _ => true
/-- Every number is in the range of its DSDL type, and no bit array is longer than its type allows. -/
def Variants.inRange : Variants → Nat → Val → Bool
  | .nil, _, _ => true
  | .cons s a _, 0, v => fitsField s.inRange v a
  | .cons _ _ rest, i + 1, v => rest.inRange i v
/-- Every number is in the range of its DSDL type, and no bit array is longer than its type allows. -/
def Message.inRange : Message → Val → Bool
  | .struct _ _ fields, .record vs => fields.inRange vs
  | .union _ _ variants, .variant i v => variants.inRange i v
  | _, _ => true
end

/-! ### Types that are read back -/

/-- A signed integer has a width that Rust has. -/
def Prim.readable : Prim → Bool
  | .int bits => decide (roundUpIntegerSize bits = bits)
  | _ => true

/-- No bit array of variable length, and less than 2^31 elements. -/
def Arity.readable (isBool : Bool) : Arity → Bool
  | .var maxLen => !isBool && decide (maxLen < 2 ^ 31)
  | _ => true

mutual
/-- Every value in range is read back: there is no sealed composite with padding at its end. -/
def Scalar.readable : Scalar → Bool
  | .prim p => p.readable
  | .composite m => m.readable && (m.extent.isSome || decide (m.tail = 0))
/-- Every value in range is read back. -/
def Fields.readable : Fields → Bool
  | .nil => true
  | .padding _ rest => rest.readable
  | .data s a rest => s.readable && a.readable s.isBool && rest.readable
/-- Every value in range is read back. -/
def Variants.readable : Variants → Bool
  | .nil => true
  | .cons s a rest => s.readable && a.readable s.isBool && rest.readable
/-- Every value in range is read back. -/
def Message.readable : Message → Bool
  | .struct _ _ fields => fields.readable
  | .union _ _ variants => variants.readable
  | .enum _ _ _ _ => true
end

/-- Every value in range is read back if nothing comes after it: a bit array can have any length. -/
def readableEndField (one each isBool : Bool) : Arity → Bool
  | .scalar => one
  | .fixed _ => each
  | .var maxLen => isBool || (each && decide (maxLen < 2 ^ 31))

mutual
/-- Every value in range is read back if nothing comes after it. -/
def Scalar.readableEnd : Scalar → Bool
  | .prim p => p.readable
  | .composite m => m.readableEnd
/-- Every value in range is read back if nothing comes after it. -/
def Fields.readableEnd : Fields → Bool
  | .nil => true
  | .padding _ rest => rest.readableEnd
  | .data s a rest =>
    if rest.noData then readableEndField s.readableEnd s.readable s.isBool a else s.readable && a.readable s.isBool && rest.readableEnd
/-- Every value in range is read back if nothing comes after it. -/
def Variants.readableEnd : Variants → Bool
  | .nil => true
  | .cons s a rest => readableEndField s.readableEnd s.readable s.isBool a && rest.readableEnd
/-- Every value in range is read back if nothing comes after it. -/
def Message.readableEnd : Message → Bool
  | .struct _ _ fields => fields.readableEnd
  | .union _ _ variants => variants.readableEnd
  | .enum _ _ _ _ => true
end

/-! ### Lemmas -/

theorem roundUp_mono {a b : Nat} (h : a ≤ b) : roundUp a ≤ roundUp b := by unfold roundUp; omega

theorem le_roundUp (a : Nat) : a ≤ roundUp a := by unfold roundUp; omega

theorem roundUp_idem {a : Nat} (h : a % 8 = 0) : roundUp a = a := by unfold roundUp; omega

theorem length_align (s : Scalar) (acc : List Bool) : (s.align acc).length = s.start acc.length := by
  unfold Scalar.align Scalar.start
  split
  · exact length_padByte acc
  · rfl

theorem start_mono (s : Scalar) {a b : Nat} (h : a ≤ b) : s.start a ≤ s.start b := by
  unfold Scalar.start
  split
  · exact roundUp_mono h
  · exact h

/-- What a list of elements adds. -/
theorem foldl_span (s : Scalar) (one : List Bool → Val → List Bool) (unit : Nat × Nat) (vs : List Val)
    (hone : ∀ v ∈ vs, ∀ acc, s.start acc.length + unit.1 ≤ (one acc v).length ∧ (one acc v).length ≤ s.start acc.length + unit.2)
    (hu : s.alignment = 8 → unit.2 % 8 = 0) (acc : List Bool) (lo hi : Nat) (h1 : lo ≤ acc.length) (h2 : acc.length ≤ hi) (h8 : s.alignment = 8 → hi % 8 = 0) :
    lo + vs.length * unit.1 ≤ (vs.foldl one acc).length ∧ (vs.foldl one acc).length ≤ hi + vs.length * unit.2 := by
  induction vs generalizing acc lo hi with
  | nil => simpa using ⟨h1, h2⟩
  | cons v vs ih =>
    obtain ⟨a, b⟩ := hone v (by simp) acc
    have hs1 : acc.length ≤ s.start acc.length := by
      unfold Scalar.start
      split
      · exact le_roundUp _
      · exact Nat.le_refl _
    have hs2 : s.start acc.length ≤ hi := by
      unfold Scalar.start
      split
      next h =>
        have := roundUp_mono h2
        rw [roundUp_idem (h8 h)] at this
        exact this
      next => exact h2
    obtain ⟨c, d⟩ := ih (fun w hw => hone w (by simp [hw])) (one acc v) (lo + unit.1) (hi + unit.2) (by omega) (by omega)
      (fun h => by have := hu h; have := h8 h; omega)
    rw [List.foldl_cons, List.length_cons, Nat.succ_mul, Nat.succ_mul]
    omega

theorem widthFor_mod (n : Nat) : widthFor n % 8 = 0 := by unfold widthFor; split <;> (try split) <;> (try split) <;> rfl

theorem start_mod (s : Scalar) (p : Nat) (h : s.alignment = 8) : s.start p % 8 = 0 := by
  unfold Scalar.start roundUp
  rw [if_pos h]
  omega

theorem unit_bool (s : Scalar) (h : s.isBool = true) : s.unit = (1, 1) ∧ ∀ p, s.start p = p := by
  cases s with
  | composite m => simp [Scalar.isBool] at h
  | prim q =>
    cases q <;> simp [Scalar.isBool] at h
    exact ⟨rfl, fun p => rfl⟩

theorem unit_mod (s : Scalar) (h : s.alignment = 8) : s.unit.2 % 8 = 0 := by
  cases s with
  | prim p => simp [Scalar.alignment] at h
  | composite m =>
    simp only [Scalar.unit]
    unfold roundUp
    split <;> omega

theorem appendField_span (s : Scalar)
    (hone : ∀ v, s.has v = true → s.fits v = true → ∀ acc,
      s.start acc.length + s.unit.1 ≤ (s.append acc v).length ∧ (s.append acc v).length ≤ s.start acc.length + s.unit.2)
    (v : Val) (a : Arity) (hh : hasField s.isBool s.has v a = true) (hf : fitsField s.fits v a = true) (acc : List Bool) (p : Nat × Nat)
    (h1 : p.1 ≤ acc.length) (h2 : acc.length ≤ p.2) :
    (fieldSpan s s.unit p a).1 ≤ (appendField s s.append acc v a).length ∧ (appendField s s.append acc v a).length ≤ (fieldSpan s s.unit p a).2 := by
  have m1 := start_mono s h1
  have m2 := start_mono s h2
  cases a with
  | scalar =>
    obtain ⟨x, y⟩ := hone v hh hf acc
    simp only [fieldSpan, appendField]
    omega
  | fixed len =>
    cases v <;> simp only [hasField, Bool.false_eq_true] at hh
    case bits b =>
      simp only [Bool.and_eq_true, decide_eq_true_eq] at hh
      obtain ⟨u, st⟩ := unit_bool s hh.1
      simp only [fieldSpan, appendField, List.length_append, length_bitsA, u, st]
      omega
    case list vs =>
      simp only [Bool.and_eq_true, decide_eq_true_eq, List.all_eq_true] at hh
      simp only [fitsField, List.all_eq_true] at hf
      have := foldl_span s s.append s.unit vs (fun w hw acc => hone w (hh.2 w hw) (hf w hw) acc) (unit_mod s) (s.align acc) (s.start p.1) (s.start p.2)
        (by rw [length_align]; exact m1) (by rw [length_align]; exact m2) (start_mod s p.2)
      rw [hh.1.2] at this
      exact this
  | var maxLen =>
    cases v <;> simp only [hasField, Bool.false_eq_true] at hh
    case bits b =>
      simp only [Bool.and_eq_true, decide_eq_true_eq] at hh
      simp only [fitsField, decide_eq_true_eq] at hf
      obtain ⟨u, st⟩ := unit_bool s hh.1
      simp only [fieldSpan, appendField, List.length_append, length_bitsA, length_bitsOf, u, st]
      omega
    case list vs =>
      simp only [Bool.and_eq_true, decide_eq_true_eq, List.all_eq_true] at hh
      simp only [fitsField, List.all_eq_true] at hf
      have := foldl_span s s.append s.unit vs (fun w hw acc => hone w (hh.2 w hw) (hf w hw) acc) (unit_mod s)
        (s.align acc ++ bitsOf (widthFor maxLen) vs.length) (s.start p.1 + widthFor maxLen) (s.start p.2 + widthFor maxLen)
        (by rw [List.length_append, length_align, length_bitsOf]; omega) (by rw [List.length_append, length_align, length_bitsOf]; omega)
        (fun h => by have := start_mod s p.2 h; have := widthFor_mod maxLen; omega)
      simp only [fieldSpan, appendField]
      have hle : vs.length * s.unit.2 ≤ maxLen * s.unit.2 := Nat.mul_le_mul_right _ hh.1.2
      omega

mutual
theorem Scalar.append_span : ∀ (s : Scalar) (v : Val), s.has v = true → s.fits v = true → ∀ acc : List Bool,
    s.start acc.length + s.unit.1 ≤ (s.append acc v).length ∧ (s.append acc v).length ≤ s.start acc.length + s.unit.2
  | .prim p, v, _, _, acc => by simp [Scalar.append, Scalar.unit, Scalar.start, Scalar.alignment]
  | .composite m, v, hh, hf, acc => by
    simp only [Scalar.has] at hh
    simp only [Scalar.fits] at hf
    obtain ⟨h1, h2⟩ := m.bits_span v hh hf
    have r1 := roundUp_mono h1
    have r2 := roundUp_mono h2
    simp only [Scalar.append, Scalar.unit, Scalar.start, Scalar.alignment, if_true, List.length_append, length_padByte]
    split <;> simp only [length_bitsOf, List.length_nil] <;> omega
theorem Fields.append_span : ∀ (fields : Fields) (vs : List Val), fields.has vs = true → fields.fits vs = true → ∀ (acc : List Bool) (p : Nat × Nat),
    p.1 ≤ acc.length → acc.length ≤ p.2 → (fields.span p).1 ≤ (fields.append acc vs).length ∧ (fields.append acc vs).length ≤ (fields.span p).2
  | .nil, vs, _, _, acc, p, h1, h2 => by
    simp only [Fields.span, Fields.append]
    exact ⟨h1, h2⟩
  | .padding bits rest, vs, hh, hf, acc, p, h1, h2 => by
    simp only [Fields.has] at hh
    simp only [Fields.fits] at hf
    simp only [Fields.span, Fields.append]
    exact rest.append_span vs hh hf _ _ (by simpa using h1) (by simpa using h2)
  | .data s a rest, [], hh, _, _, _, _, _ => by simp [Fields.has] at hh
  | .data s a rest, v :: vs, hh, hf, acc, p, h1, h2 => by
    simp only [Fields.has, Bool.and_eq_true] at hh
    simp only [Fields.fits, Bool.and_eq_true] at hf
    simp only [Fields.span, Fields.append]
    obtain ⟨x, y⟩ := appendField_span s s.append_span v a hh.1 hf.1 acc p h1 h2
    exact rest.append_span vs hh.2 hf.2 _ _ x y
theorem Variants.append_span : ∀ (variants : Variants) (i : Nat) (v : Val), variants.has i v = true → variants.fits i v = true →
    ∀ (acc : List Bool) (p : Nat × Nat), p.1 ≤ acc.length → acc.length ≤ p.2 →
      (variants.span p).1 ≤ (variants.append i acc v).length ∧ (variants.append i acc v).length ≤ (variants.span p).2
  | .nil, _, _, hh, _, _, _, _, _ => by simp [Variants.has] at hh
  | .cons s a .nil, 0, v, hh, hf, acc, p, h1, h2 => by
    simp only [Variants.has] at hh
    simp only [Variants.fits] at hf
    simp only [Variants.span, Variants.append]
    exact appendField_span s s.append_span v a hh hf acc p h1 h2
  | .cons s a (.cons s' a' rest), 0, v, hh, hf, acc, p, h1, h2 => by
    simp only [Variants.has] at hh
    simp only [Variants.fits] at hf
    simp only [Variants.append]
    rw [Variants.span]
    · obtain ⟨x, y⟩ := appendField_span s s.append_span v a hh hf acc p h1 h2
      dsimp only
      omega
    · intro e
      cases e
  | .cons s a .nil, i + 1, v, hh, _, _, _, _, _ => by simp [Variants.has] at hh
  | .cons s a (.cons s' a' rest), i + 1, v, hh, hf, acc, p, h1, h2 => by
    simp only [Variants.has] at hh
    rw [Variants.fits] at hf
    rw [Variants.append, Variants.span]
    · obtain ⟨x, y⟩ := (Variants.cons s' a' rest).append_span i v hh hf acc p h1 h2
      dsimp only
      omega
    · intro e
      cases e
theorem Message.bits_span : ∀ (m : Message) (v : Val), m.has v = true → m.fits v = true → m.span.1 ≤ (m.bits v).length ∧ (m.bits v).length ≤ m.span.2
  | .struct e r fields, v, hh, hf => by
    cases v <;> simp only [Message.has, Bool.false_eq_true] at hh
    simp only [Message.fits] at hf
    simp only [Message.span, Message.bits]
    exact fields.append_span _ hh hf [] (0, 0) (by simp) (by simp)
  | .union e r variants, v, hh, hf => by
    cases v <;> simp only [Message.has, Bool.false_eq_true] at hh
    simp only [Message.fits] at hf
    simp only [Message.span, Message.bits]
    exact variants.append_span _ _ hh hf _ _ (by simp) (by simp)
  | .enum e r bits values, v, hh, _ => by
    cases v <;> simp only [Message.has, Bool.false_eq_true] at hh
    simp [Message.span, Message.bits]
end

theorem fitsField_mono {f g : Val → Bool} (h : ∀ v, f v = true → g v = true) (v : Val) (a : Arity) (hf : fitsField f v a = true) : fitsField g v a = true := by
  cases a <;> cases v <;> simp_all [fitsField]

theorem Prim.fits_of_inRange (p : Prim) (v : Val) (h : p.inRange v = true) : p.fits v = true := by
  cases p <;> cases v <;> simp_all [Prim.inRange, Prim.fits]
  rename_i t n
  cases t <;> simp_all

mutual
theorem Scalar.fits_of_inRange : ∀ (s : Scalar) (v : Val), s.inRange v = true → s.fits v = true
  | .prim p, v, h => by
    simp only [Scalar.inRange] at h
    simp only [Scalar.fits]
    exact p.fits_of_inRange v h
  | .composite m, v, h => by
    simp only [Scalar.inRange] at h
    simp only [Scalar.fits]
    exact m.fits_of_inRange v h
theorem Fields.fits_of_inRange : ∀ (fields : Fields) (vs : List Val), fields.inRange vs = true → fields.fits vs = true
  | .nil, vs, _ => by simp [Fields.fits]
  | .padding bits rest, vs, h => by
    simp only [Fields.inRange] at h
    simp only [Fields.fits]
    exact rest.fits_of_inRange vs h
  | .data s a rest, [], _ => by simp [Fields.fits]
  | .data s a rest, v :: vs, h => by
    simp only [Fields.inRange, Bool.and_eq_true] at h
    simp only [Fields.fits, Bool.and_eq_true]
    exact ⟨fitsField_mono s.fits_of_inRange v a h.1, rest.fits_of_inRange vs h.2⟩
theorem Variants.fits_of_inRange : ∀ (variants : Variants) (i : Nat) (v : Val), variants.inRange i v = true → variants.fits i v = true
  | .nil, _, _, _ => by simp [Variants.fits]
  | .cons s a rest, 0, v, h => by
    simp only [Variants.inRange] at h
    simp only [Variants.fits]
    exact fitsField_mono s.fits_of_inRange v a h
  | .cons s a rest, i + 1, v, h => by
    simp only [Variants.inRange] at h
    simp only [Variants.fits]
    exact rest.fits_of_inRange i v h
theorem Message.fits_of_inRange : ∀ (m : Message) (v : Val), m.inRange v = true → m.fits v = true
  | .struct e r fields, v, h => by
    cases v <;> simp only [Message.fits]
    simp only [Message.inRange] at h
    exact fields.fits_of_inRange _ h
  | .union e r variants, v, h => by
    cases v <;> simp only [Message.fits]
    simp only [Message.inRange] at h
    exact variants.fits_of_inRange _ _ h
  | .enum e r bits values, v, _ => by cases v <;> simp [Message.fits]
end

theorem Prim.safe_of_readable (p : Prim) (v : Val) (hr : p.readable = true) (h : p.inRange v = true) : p.safe v = true := by
  cases p <;> cases v <;> simp_all [Prim.inRange, Prim.safe, Prim.readable]

theorem safeField_of_readable {isBool : Bool} {has inRange safe : Val → Bool} (h : ∀ v, has v = true → inRange v = true → safe v = true) (v : Val) (a : Arity)
    (hr : a.readable isBool = true) (hh : hasField isBool has v a = true) (hi : fitsField inRange v a = true) : safeField safe v a = true := by
  cases a with
  | scalar => exact h v hh hi
  | fixed len =>
    cases v <;> simp only [hasField, Bool.false_eq_true] at hh <;> simp only [safeField]
    simp only [Bool.and_eq_true, List.all_eq_true] at hh
    simp only [fitsField, List.all_eq_true] at hi
    rw [List.all_eq_true]
    exact fun w hw => h w (hh.2 w hw) (hi w hw)
  | var maxLen =>
    simp only [Arity.readable, Bool.and_eq_true, Bool.not_eq_true', decide_eq_true_eq] at hr
    cases v <;> simp only [hasField, Bool.false_eq_true] at hh <;> simp only [safeField]
    · simp [hr.1] at hh
    · simp only [Bool.and_eq_true, List.all_eq_true, decide_eq_true_eq] at hh
      simp only [fitsField, List.all_eq_true] at hi
      rw [Bool.and_eq_true, List.all_eq_true, decide_eq_true_eq]
      exact ⟨by omega, fun w hw => h w (hh.2 w hw) (hi w hw)⟩

mutual
theorem Scalar.safe_of_readable : ∀ (s : Scalar), s.readable = true → ∀ v, s.has v = true → s.inRange v = true → s.safe v = true
  | .prim p, hr, v, _, h => by
    simp only [Scalar.inRange] at h
    simp only [Scalar.readable] at hr
    simp only [Scalar.safe]
    exact p.safe_of_readable v hr h
  | .composite m, hr, v, hh, h => by
    simp only [Scalar.readable, Bool.and_eq_true] at hr
    simp only [Scalar.has] at hh
    simp only [Scalar.inRange] at h
    simp only [Scalar.safe, Bool.and_eq_true]
    refine ⟨m.safe_of_readable hr.1 v hh h, ?_⟩
    have h2 := hr.2
    rw [Bool.or_eq_true] at h2 ⊢
    rcases h2 with h2 | h2
    · exact .inl h2
    · right
      rw [decide_eq_true_eq] at h2 ⊢
      rw [h2, length_padByte]
      unfold roundUp
      omega
theorem Fields.safe_of_readable : ∀ (fields : Fields), fields.readable = true → ∀ vs, fields.has vs = true → fields.inRange vs = true →
    fields.safe vs = true
  | .nil, _, vs, _, _ => by simp [Fields.safe]
  | .padding bits rest, hr, vs, hh, h => by
    simp only [Fields.readable] at hr
    simp only [Fields.has] at hh
    simp only [Fields.inRange] at h
    simp only [Fields.safe]
    exact rest.safe_of_readable hr vs hh h
  | .data s a rest, _, [], hh, _ => by simp [Fields.has] at hh
  | .data s a rest, hr, v :: vs, hh, h => by
    simp only [Fields.readable, Bool.and_eq_true] at hr
    simp only [Fields.has, Bool.and_eq_true] at hh
    simp only [Fields.inRange, Bool.and_eq_true] at h
    simp only [Fields.safe, Bool.and_eq_true]
    exact ⟨safeField_of_readable (s.safe_of_readable hr.1.1) v a hr.1.2 hh.1 h.1, rest.safe_of_readable hr.2 vs hh.2 h.2⟩
theorem Variants.safe_of_readable : ∀ (variants : Variants), variants.readable = true → ∀ i v, variants.has i v = true → variants.inRange i v = true →
    variants.safe i v = true
  | .nil, _, _, _, _, _ => by simp [Variants.safe]
  | .cons s a rest, hr, 0, v, hh, h => by
    simp only [Variants.readable, Bool.and_eq_true] at hr
    simp only [Variants.has] at hh
    simp only [Variants.inRange] at h
    simp only [Variants.safe]
    exact safeField_of_readable (s.safe_of_readable hr.1.1) v a hr.1.2 hh h
  | .cons s a rest, hr, i + 1, v, hh, h => by
    simp only [Variants.readable, Bool.and_eq_true] at hr
    simp only [Variants.has] at hh
    simp only [Variants.inRange] at h
    simp only [Variants.safe]
    exact rest.safe_of_readable hr.2 i v hh h
theorem Message.safe_of_readable : ∀ (m : Message), m.readable = true → ∀ v, m.has v = true → m.inRange v = true → m.safe v = true
  | .struct e r fields, hr, v, hh, h => by
    cases v <;> simp only [Message.has, Bool.false_eq_true] at hh
    simp only [Message.readable] at hr
    simp only [Message.inRange] at h
    simp only [Message.safe]
    exact fields.safe_of_readable hr _ hh h
  | .union e r variants, hr, v, hh, h => by
    cases v <;> simp only [Message.has, Bool.false_eq_true] at hh
    simp only [Message.readable] at hr
    simp only [Message.inRange] at h
    simp only [Message.safe]
    exact variants.safe_of_readable hr _ _ hh h
  | .enum e r bits values, _, v, _, _ => by cases v <;> simp [Message.safe]
end

theorem safeEndField_of_readable {isBool : Bool} {one each : Bool} {has inRange safe safeEnd : Val → Bool}
    (h1 : one = true → ∀ v, has v = true → inRange v = true → safeEnd v = true)
    (h2 : each = true → ∀ v, has v = true → inRange v = true → safe v = true) (v : Val) (a : Arity)
    (hr : readableEndField one each isBool a = true) (hh : hasField isBool has v a = true) (hi : fitsField inRange v a = true) :
    safeEndField safeEnd safe v a = true := by
  cases a with
  | scalar => exact h1 hr v hh hi
  | fixed len => exact safeField_of_readable (isBool := isBool) (h2 hr) v (.fixed len) rfl hh hi
  | var maxLen =>
    simp only [readableEndField, Bool.or_eq_true, Bool.and_eq_true, decide_eq_true_eq] at hr
    cases v <;> simp only [hasField, Bool.false_eq_true] at hh <;> simp only [safeEndField]
    simp only [Bool.and_eq_true, Bool.not_eq_true'] at hh
    rcases hr with hr | hr
    · rw [hr] at hh; simp at hh
    · exact safeField_of_readable (isBool := isBool) (h2 hr.1) _ (.var maxLen) (by
        simp only [Arity.readable, hh.1.1, Bool.not_false, Bool.true_and, decide_eq_true_eq]; exact hr.2) (by
        simp only [hasField, Bool.and_eq_true, Bool.not_eq_true']; exact hh) hi

mutual
theorem Scalar.safeEnd_of_readable : ∀ (s : Scalar), s.readableEnd = true → ∀ v, s.has v = true → s.inRange v = true → s.safeEnd v = true
  | .prim p, hr, v, _, h => by
    simp only [Scalar.inRange] at h
    simp only [Scalar.readableEnd] at hr
    simp only [Scalar.safeEnd]
    exact p.safe_of_readable v hr h
  | .composite m, hr, v, hh, h => by
    simp only [Scalar.readableEnd] at hr
    simp only [Scalar.has] at hh
    simp only [Scalar.inRange] at h
    simp only [Scalar.safeEnd]
    exact m.safeEnd_of_readable hr v hh h
theorem Fields.safeEnd_of_readable : ∀ (fields : Fields), fields.readableEnd = true → ∀ vs, fields.has vs = true → fields.inRange vs = true →
    fields.safeEnd vs = true
  | .nil, _, vs, _, _ => by simp [Fields.safeEnd]
  | .padding bits rest, hr, vs, hh, h => by
    simp only [Fields.readableEnd] at hr
    simp only [Fields.has] at hh
    simp only [Fields.inRange] at h
    simp only [Fields.safeEnd]
    exact rest.safeEnd_of_readable hr vs hh h
  | .data s a rest, _, [], hh, _ => by simp [Fields.has] at hh
  | .data s a rest, hr, v :: vs, hh, h => by
    simp only [Fields.readableEnd] at hr
    simp only [Fields.has, Bool.and_eq_true] at hh
    simp only [Fields.inRange, Bool.and_eq_true] at h
    simp only [Fields.safeEnd]
    by_cases hn : rest.noData = true
    · rw [if_pos hn] at hr ⊢
      exact safeEndField_of_readable s.safeEnd_of_readable s.safe_of_readable v a hr hh.1 h.1
    · rw [if_neg hn, Bool.and_eq_true, Bool.and_eq_true] at hr
      rw [if_neg hn, Bool.and_eq_true]
      exact ⟨safeField_of_readable (s.safe_of_readable hr.1.1) v a hr.1.2 hh.1 h.1, rest.safeEnd_of_readable hr.2 vs hh.2 h.2⟩
theorem Variants.safeEnd_of_readable : ∀ (variants : Variants), variants.readableEnd = true → ∀ i v, variants.has i v = true →
    variants.inRange i v = true → variants.safeEnd i v = true
  | .nil, _, _, _, _, _ => by simp [Variants.safeEnd]
  | .cons s a rest, hr, 0, v, hh, h => by
    simp only [Variants.readableEnd, Bool.and_eq_true] at hr
    simp only [Variants.has] at hh
    simp only [Variants.inRange] at h
    simp only [Variants.safeEnd]
    exact safeEndField_of_readable s.safeEnd_of_readable s.safe_of_readable v a hr.1 hh h
  | .cons s a rest, hr, i + 1, v, hh, h => by
    simp only [Variants.readableEnd, Bool.and_eq_true] at hr
    simp only [Variants.has] at hh
    simp only [Variants.inRange] at h
    simp only [Variants.safeEnd]
    exact rest.safeEnd_of_readable hr.2 i v hh h
theorem Message.safeEnd_of_readable : ∀ (m : Message), m.readableEnd = true → ∀ v, m.has v = true → m.inRange v = true → m.safeEnd v = true
  | .struct e r fields, hr, v, hh, h => by
    cases v <;> simp only [Message.has, Bool.false_eq_true] at hh
    simp only [Message.readableEnd] at hr
    simp only [Message.inRange] at h
    simp only [Message.safeEnd]
    exact fields.safeEnd_of_readable hr _ hh h
  | .union e r variants, hr, v, hh, h => by
    cases v <;> simp only [Message.has, Bool.false_eq_true] at hh
    simp only [Message.readableEnd] at hr
    simp only [Message.inRange] at h
    simp only [Message.safeEnd]
    exact variants.safeEnd_of_readable hr _ _ hh h
  | .enum e r bits values, _, v, _, _ => by cases v <;> simp [Message.safeEnd]
end

end Verif.Dsdl
