import Verif.Enc.Props

/-!
C45 and C47: bit arrays.
-/

namespace Verif.Enc

/-- The arrays that a program can have: made by `new` or `deserialize`, changed by `set`, `fill` and `deserialize_in_place`. -/
inductive Made : BitArray → Prop where
  | new {cap n : Nat} {a : BitArray} (h : BitArray.new cap n = some a) : Made a
  | set {a a' : BitArray} {i : Nat} {v : Bool} (ha : Made a) (h : a.set i v = some a') : Made a'
  | fill {a : BitArray} (v : Bool) (ha : Made a) : Made (a.fill v)
  | deserialize {a a' : BitArray} {c c' : ReadCursor} (ha : Made a) (h : a.deserializeInPlace c = some (a', c')) : Made a'

/-- The bits of an array in order: bit `i` of its bytes for each index below its length. -/
def bitsA (a : BitArray) : List Bool := (List.range a.bitLength).map (bitAt a.bytes)

@[simp] theorem length_bitsA (a : BitArray) : (bitsA a).length = a.bitLength := by simp [bitsA]

theorem set_spec {a a' : BitArray} {i : Nat} {v : Bool} (h : a.set i v = some a') :
    i < a.bitLength ∧ a'.bitLength = a.bitLength ∧ a'.bytes.length = a.bytes.length ∧
      ∀ p, bitAt a'.bytes p = if p = i then v else bitAt a.bytes p := by
  unfold BitArray.set at h
  split at h
  case isFalse => cases h
  rename_i hi
  split at h
  case h_1 => cases h
  rename_i byte hb
  injection h with h
  subst h
  have hk : i / 8 < a.bytes.length := by
    rcases List.getElem?_eq_some_iff.1 hb with ⟨h, -⟩
    exact h
  refine ⟨hi, rfl, by simp, ?_⟩
  intro p
  dsimp only
  rw [bitAt_set _ _ _ _ hk]
  have hm : ∀ j, j < 8 → (1#8 <<< (i % 8)).getLsbD j = decide (j = i % 8) := by
    have h : ∀ k : Fin 8, ∀ j : Fin 8, (1#8 <<< k.val).getLsbD j.val = decide (j.val = k.val) := by decide
    intro j hj
    exact h ⟨i % 8, by omega⟩ ⟨j, hj⟩
  have hbyte : ∀ p, p / 8 = i / 8 → byte.getLsbD (p % 8) = bitAt a.bytes p := by
    intro p hp
    unfold bitAt
    rw [hp, List.getD_eq_getElem?_getD, hb, Option.getD_some]
  by_cases hp : p / 8 = i / 8
  · rw [if_pos hp]
    have hjm := hm (p % 8) (by omega)
    cases v
    · simp only [Bool.false_eq_true, if_false, BitVec.getLsbD_and, BitVec.getLsbD_not, hjm]
      by_cases hpi : p = i
      · subst hpi
        simp
      · have : ¬ p % 8 = i % 8 := by omega
        rw [hbyte p hp, if_neg hpi]
        have h8 : p % 8 < 8 := by omega
        simp [this, h8]
    · simp only [if_true, BitVec.getLsbD_or, hjm]
      by_cases hpi : p = i
      · subst hpi
        simp
      · have : ¬ p % 8 = i % 8 := by omega
        rw [hbyte p hp, if_neg hpi]
        simp [this]
  · rw [if_neg hp, if_neg (by intro h; subst h; exact hp rfl)]

theorem set_some {a : BitArray} (hv : a.bitLength ≤ 8 * a.bytes.length) {i : Nat} (hi : i < a.bitLength) (v : Bool) :
    ∃ a', a.set i v = some a' := by
  unfold BitArray.set
  rw [if_pos hi, List.getElem?_eq_getElem (by omega)]
  exact ⟨_, rfl⟩

theorem get_eq {a : BitArray} (hv : a.bitLength ≤ 8 * a.bytes.length) (i : Nat) :
    a.get i = if i < a.bitLength then some (bitAt a.bytes i) else none := by
  unfold BitArray.get
  split
  · rename_i hi
    have hk : i / 8 < a.bytes.length := by omega
    rw [List.getElem?_eq_getElem hk]
    dsimp only
    congr 1
    unfold bitAt
    rw [List.getD_eq_getElem?_getD, List.getElem?_eq_getElem hk, Option.getD_some]
    generalize a.bytes[i / 8] = b
    have h : ∀ k : Fin 8, ((b >>> k.val) &&& 1 == 1) = b.getLsbD k.val := by
      intro k
      rw [Bool.eq_iff_iff, beq_iff_eq]
      constructor
      · intro h
        have := congrArg (fun x : Byte => x.getLsbD 0) h
        simpa using this
      · intro h
        apply BitVec.eq_of_getLsbD_eq
        intro j hj
        rw [BitVec.getLsbD_and, BitVec.getLsbD_ushiftRight]
        by_cases hj0 : j = 0
        · subst hj0
          simp [h]
        · have : (1 : Byte).getLsbD j = false := by
            rw [show (1 : Byte) = 1#8 from rfl, BitVec.getLsbD_one]
            simp [hj0]
          rw [this]
          simp
    exact h ⟨i % 8, by omega⟩
  · rfl

theorem fillBytes_rcur (bs : List Byte) (n : Nat) : ∀ p, p % 8 = 0 →
    ∃ l, BitArray.fillBytes n (rcur bs p) = some (l, rcur bs (p + 8 * n)) ∧ l.length = n ∧ ∀ i, i < 8 * n → bitAt l i = bitAt bs (p + i) := by
  induction n with
  | zero => intro p _; exact ⟨[], rfl, rfl, fun i hi => absurd hi (by omega)⟩
  | succ n ih =>
    intro p hp
    obtain ⟨l, hl, hlen, hbits⟩ := ih (p + 8) (by omega)
    unfold BitArray.fillBytes ReadCursor.readAlignedU8
    rw [if_pos (by simpa [ReadCursor.isAligned, rcur] using hp), advanceBytes_rcur]
    dsimp only
    rw [show p + 8 * 1 = p + 8 by omega, hl]
    refine ⟨(rcur bs p).readCurrent :: l, ?_, by simp [hlen], ?_⟩
    · rw [show p + 8 + 8 * n = p + 8 * (n + 1) by omega]
      rfl
    · intro i hi
      by_cases h8 : i < 8
      · have := getD_drop_bit bs p 0 i h8
        unfold bitAt
        rw [Nat.div_eq_of_lt h8, Nat.mod_eq_of_lt h8]
        rw [show 8 * (p / 8 + 0) + i = p + i by omega] at this
        exact this
      · have e : bitAt ((rcur bs p).readCurrent :: l) i = bitAt l (i - 8) := by
          unfold bitAt
          have e1 : i / 8 = (i - 8) / 8 + 1 := by omega
          have e2 : i % 8 = (i - 8) % 8 := by omega
          rw [e1, e2]
          simp
        rw [e, hbits _ (by omega)]
        congr 1; omega

theorem deserializeLoop_rcur (bs : List Byte) (k : Nat) : ∀ (a : BitArray) (i p : Nat), a.bitLength ≤ 8 * a.bytes.length → i + k ≤ a.bitLength →
    ∃ a', BitArray.deserializeLoop (List.range' i k) a (rcur bs p) = some (a', rcur bs (p + k)) ∧ a'.bitLength = a.bitLength ∧
      a'.bytes.length = a.bytes.length ∧
      ∀ q, bitAt a'.bytes q = if i ≤ q ∧ q < i + k then bitAt bs (p + (q - i)) else bitAt a.bytes q := by
  induction k with
  | zero =>
    intro a i p _ _
    refine ⟨a, rfl, rfl, rfl, ?_⟩
    intro q
    rw [if_neg (by omega)]
  | succ k ih =>
    intro a i p hv hik
    rw [List.range'_succ]
    unfold BitArray.deserializeLoop
    rw [readBool_rcur]
    dsimp only
    obtain ⟨a1, ha1⟩ := set_some hv (show i < a.bitLength by omega) (bitAt bs p)
    obtain ⟨-, hbl, hlen, hbits⟩ := set_spec ha1
    rw [ha1]
    dsimp only
    obtain ⟨a', h1, h2, h3, h4⟩ := ih a1 (i + 1) (p + 1) (by omega) (by omega)
    refine ⟨a', ?_, by omega, by omega, ?_⟩
    · rw [h1, show p + 1 + k = p + (k + 1) by omega]
    · intro q
      rw [h4, hbits]
      by_cases hq : q = i
      · subst hq
        rw [if_neg (by omega), if_pos rfl, if_pos (by omega)]
        congr 1; omega
      · by_cases hr : i + 1 ≤ q ∧ q < i + 1 + k
        · rw [if_pos hr, if_pos (by omega)]
          congr 1; omega
        · rw [if_neg hr, if_neg hq, if_neg (by omega)]

/-- What `deserialize_in_place` does at any position. -/
theorem deserializeInPlace_rcur (bs : List Byte) (a : BitArray) (p : Nat) (hv : a.bitLength ≤ 8 * a.bytes.length) :
    ∃ a', a.deserializeInPlace (rcur bs p) =
        some (a', rcur bs (p + if a.bitLength % 8 = 0 ∧ p % 8 = 0 then 8 * a.bytes.length else a.bitLength)) ∧
      a'.bitLength = a.bitLength ∧ a'.bytes.length = a.bytes.length ∧ ∀ i, i < a.bitLength → bitAt a'.bytes i = bitAt bs (p + i) := by
  unfold BitArray.deserializeInPlace
  have hal : ((rcur bs p).isAligned = true) ↔ p % 8 = 0 := by simp [ReadCursor.isAligned, rcur]
  by_cases h : a.bitLength % 8 = 0 ∧ p % 8 = 0
  · rw [if_pos ⟨h.1, hal.2 h.2⟩, if_pos h]
    obtain ⟨l, h1, h2, h3⟩ := fillBytes_rcur bs a.bytes.length p h.2
    rw [h1]
    exact ⟨{ a with bytes := l }, rfl, rfl, h2, fun i hi => h3 i (by omega)⟩
  · rw [if_neg (by rw [hal]; exact h), if_neg h, List.range_eq_range']
    obtain ⟨a', h1, h2, h3, h4⟩ := deserializeLoop_rcur bs a.bitLength a 0 p hv (by omega)
    refine ⟨a', h1, h2, h3, ?_⟩
    intro i hi
    rw [h4, if_pos (by omega)]
    congr 1

theorem set_none {a : BitArray} {i : Nat} {v : Bool} (h : a.bitLength ≤ i) : a.set i v = none := by
  unfold BitArray.set
  rw [if_neg (by omega)]

theorem deserializeLoop_valid : ∀ (is : List Nat) (a a' : BitArray) (c c' : ReadCursor), BitArray.deserializeLoop is a c = some (a', c') →
    a'.bitLength = a.bitLength ∧ a'.bytes.length = a.bytes.length := by
  intro is
  induction is with
  | nil => intro a a' c c' h; injection h with h; injection h with h1 h2; subst h1; exact ⟨rfl, rfl⟩
  | cons i is ih =>
    intro a a' c c' h
    unfold BitArray.deserializeLoop at h
    split at h
    case h_1 => cases h
    split at h
    case h_1 => cases h
    rename_i a1 ha1
    obtain ⟨-, h2, h3, -⟩ := set_spec ha1
    have := ih _ _ _ _ h
    omega

theorem fillBytes_length (n : Nat) : ∀ (c c' : ReadCursor) (l : List Byte), BitArray.fillBytes n c = some (l, c') → l.length = n := by
  induction n with
  | zero => intro c c' l h; injection h with h; injection h with h1 h2; subst h1; rfl
  | succ n ih =>
    intro c c' l h
    unfold BitArray.fillBytes at h
    split at h
    case h_1 => cases h
    rename_i b c1 hb
    cases hf : BitArray.fillBytes n c1 with
    | none => rw [hf] at h; cases h
    | some r =>
      rw [hf] at h
      injection h with h
      injection h with h1 h2
      subst h1
      simp [ih c1 r.2 r.1 hf]

/-- The length never exceeds the capacity. -/
theorem Made.valid {a : BitArray} (h : Made a) : a.bitLength ≤ 8 * a.bytes.length := by
  induction h with
  | new h =>
    unfold BitArray.new at h
    split at h
    case isFalse => cases h
    injection h with h
    subst h
    simp
    omega
  | set _ h ih =>
    obtain ⟨-, h1, h2, -⟩ := set_spec h
    omega
  | fill v _ ih => simpa [BitArray.fill] using ih
  | deserialize _ h ih =>
    rename_i a a' c c' _
    unfold BitArray.deserializeInPlace at h
    split at h
    · cases hf : BitArray.fillBytes a.bytes.length c with
      | none => rw [hf] at h; cases h
      | some r =>
        rw [hf] at h
        injection h with h
        injection h with h1 h2
        have := fillBytes_length _ _ _ _ hf
        subst h1
        simp only [this]
        exact ih
    · have := deserializeLoop_valid _ _ _ _ _ h
      omega

theorem iter_eq {a : BitArray} (hv : a.bitLength ≤ 8 * a.bytes.length) : a.iter = some (bitsA a) := by
  unfold BitArray.iter bitsA
  have h : ∀ l : List Nat, (∀ i ∈ l, i < a.bitLength) → l.mapM a.get = some (l.map (bitAt a.bytes)) := by
    intro l
    induction l with
    | nil => intro _; rfl
    | cons i l ih =>
      intro hl
      rw [List.mapM_cons, get_eq hv, if_pos (hl i (by simp)), ih (fun j hj => hl j (by simp [hj]))]
      rfl
  exact h _ (fun i hi => by simpa using hi)

/-! ### C47 -/

/-- **C47.** `get` returns the bit for an index below the length and panics otherwise. -/
theorem C47_get (a : BitArray) (h : Made a) (i : Nat) : a.get i = (bitsA a)[i]? := by
  rw [get_eq h.valid]
  unfold bitsA
  by_cases hi : i < a.bitLength
  · simp [hi]
  · simp [hi]

/-- **C47.** `set` changes exactly the bit at the index, and panics for an index that is not below the length. -/
theorem C47_set (a : BitArray) (h : Made a) (i : Nat) (v : Bool) :
    (a.set i v).map bitsA = if i < a.bitLength then some ((bitsA a).set i v) else none := by
  split
  · rename_i hi
    obtain ⟨a', ha'⟩ := set_some h.valid hi v
    obtain ⟨-, hbl, -, hbits⟩ := set_spec ha'
    rw [ha', Option.map_some]
    congr 1
    apply List.ext_getElem
    · simp [hbl]
    · intro k h1 h2
      simp only [bitsA, List.getElem_map, List.getElem_range, List.getElem_set, hbits]
      by_cases hk : k = i
      · subst hk; simp
      · rw [if_neg hk, if_neg (fun h => hk h.symm)]
  · rename_i hi
    rw [set_none (by omega)]
    rfl

/-- **C47.** `new` makes an array of zeros and panics if the length exceeds the capacity; `fill` sets every bit. -/
theorem C47_new_fill (cap n : Nat) (a : BitArray) (h : Made a) (v : Bool) :
    (BitArray.new cap n).map bitsA = (if n ≤ 8 * cap then some (List.replicate n false) else none) ∧
      bitsA (a.fill v) = List.replicate a.bitLength v := by
  constructor
  · unfold BitArray.new
    by_cases hn : n ≤ 8 * cap
    · rw [if_pos (by omega), if_pos hn, Option.map_some]
      congr 1
      apply List.ext_getElem
      · simp
      · intro k h1 h2
        simp only [bitsA, List.getElem_map, List.getElem_range, List.getElem_replicate, bitAt, List.getD_eq_getElem?_getD, List.getElem?_replicate]
        split <;> simp
    · rw [if_neg (by omega), if_neg hn]
      rfl
  · apply List.ext_getElem
    · simp [BitArray.fill]
    · intro k h1 h2
      have hk : k < a.bitLength := by simpa [BitArray.fill] using h1
      have hv := h.valid
      have hlt : k / 8 < a.bytes.length := by omega
      simp only [bitsA, List.getElem_map, List.getElem_range, List.getElem_replicate, BitArray.fill, bitAt, List.getD_eq_getElem?_getD,
        List.getElem?_map, List.getElem?_eq_getElem hlt, Option.map_some, Option.getD_some]
      have hall : ∀ j : Fin 8, (0xff : Byte).getLsbD j.val = true ∧ (0x00 : Byte).getLsbD j.val = false := by decide
      cases v
      · simp
      · rw [if_pos rfl]
        exact (hall ⟨k % 8, by omega⟩).1

/-- The order of the arrays: shorter first, then the first bit that differs. -/
def listOrder : List Bool → List Bool → Ordering
  | [], [] => .eq
  | [], _ :: _ => .lt
  | _ :: _, [] => .gt
  | a :: as, b :: bs => if a = b then listOrder as bs else if a then .gt else .lt

/-- Shorter arrays are less; arrays of the same length are ordered by the first bit that differs. -/
def bitsOrder (l r : List Bool) : Ordering :=
  if l.length < r.length then .lt else if r.length < l.length then .gt else listOrder l r

theorem zip_all_eq : ∀ l r : List Bool, l.length = r.length → ((l.zip r).all fun p => p.1 == p.2) = decide (l = r) := by
  intro l
  induction l with
  | nil => intro r h; cases r with
    | nil => rfl
    | cons => simp at h
  | cons x l ih =>
    intro r h
    cases r with
    | nil => simp at h
    | cons y r =>
      rw [List.zip_cons_cons, List.all_cons, ih r (by simpa using h)]
      cases x <;> cases y <;> simp

theorem compareBits_zip : ∀ l r : List Bool, l.length = r.length → BitArray.compareBits (l.zip r) = listOrder l r := by
  intro l
  induction l with
  | nil => intro r h; cases r with
    | nil => rfl
    | cons => simp at h
  | cons x l ih =>
    intro r h
    cases r with
    | nil => simp at h
    | cons y r =>
      have := ih r (by simpa using h)
      cases x <;> cases y <;> simp [BitArray.compareBits, listOrder, this]

/-- **C47.** Two arrays, also of different capacities, are equal exactly if they have the same bits. -/
theorem C47_eq (a b : BitArray) (ha : Made a) (hb : Made b) : a.eq b = some (decide (bitsA a = bitsA b)) := by
  unfold BitArray.eq
  split
  · rename_i h
    rw [iter_eq ha.valid, iter_eq hb.valid]
    dsimp only
    rw [zip_all_eq _ _ (by simp [h])]
  · rename_i h
    have : bitsA a ≠ bitsA b := by
      intro e
      have := congrArg List.length e
      simp at this
      exact h this
    simp [this]

/-- **C47.** Arrays are compared by length, then by the first bit that differs. -/
theorem C47_compare (a b : BitArray) (ha : Made a) (hb : Made b) : a.compare b = some (bitsOrder (bitsA a) (bitsA b)) := by
  unfold BitArray.compare bitsOrder
  simp only [length_bitsA]
  rcases Nat.lt_trichotomy a.bitLength b.bitLength with h | h | h
  · have e : Ord.compare a.bitLength b.bitLength = .lt := Nat.compare_eq_lt.2 h
    rw [e, if_pos h]
  · have e : Ord.compare a.bitLength b.bitLength = .eq := Nat.compare_eq_eq.2 h
    rw [e, if_neg (by omega), if_neg (by omega), iter_eq ha.valid, iter_eq hb.valid]
    dsimp only
    rw [compareBits_zip _ _ (by simp [h])]
  · have e : Ord.compare a.bitLength b.bitLength = .gt := Nat.compare_eq_gt.2 h
    rw [e, if_neg (by omega), if_pos h]

theorem listOrder_eq : ∀ l r : List Bool, listOrder l r = .eq ↔ l = r := by
  intro l
  induction l with
  | nil => intro r; cases r <;> simp [listOrder]
  | cons x l ih =>
    intro r
    cases r with
    | nil => simp [listOrder]
    | cons y r =>
      rw [listOrder]
      by_cases h : x = y
      · rw [if_pos h, ih]; simp [h]
      · rw [if_neg h]
        cases x <;> simp [h]

theorem listOrder_swap : ∀ l r : List Bool, listOrder r l = (listOrder l r).swap := by
  intro l
  induction l with
  | nil => intro r; cases r <;> rfl
  | cons x l ih =>
    intro r
    cases r with
    | nil => rfl
    | cons y r =>
      rw [listOrder, listOrder, ih]
      cases x <;> cases y <;> simp

theorem listOrder_trans : ∀ l r s : List Bool, listOrder l r = .lt → listOrder r s = .lt → listOrder l s = .lt := by
  intro l
  induction l with
  | nil =>
    intro r s h1 h2
    cases r with
    | nil => cases h1
    | cons y r =>
      cases s with
      | nil => cases h2
      | cons z s => rfl
  | cons x l ih =>
    intro r s h1 h2
    cases r with
    | nil => cases h1
    | cons y r =>
      cases s with
      | nil => cases h2
      | cons z s =>
        rw [listOrder] at h1 h2 ⊢
        cases x <;> cases y <;> cases z <;> simp_all
        · exact ih r s h1 h2
        · exact ih r s h1 h2

/-- **C47.** The comparison is a total order that agrees with equality: it never panics; `a` and `b` compare equal exactly if they are equal;
swapping the arguments swaps the result; and it is transitive. -/
theorem C47_total_order (a b c : BitArray) (ha : Made a) (hb : Made b) (hc : Made c) :
    (a.compare b = some .eq ↔ a.eq b = some true) ∧
    (b.compare a = (a.compare b).map Ordering.swap) ∧ (∃ o, a.compare b = some o) ∧
    (a.compare b = some .lt → b.compare c = some .lt → a.compare c = some .lt) := by
  rw [C47_compare a b ha hb, C47_compare b a hb ha, C47_compare b c hb hc, C47_compare a c ha hc, C47_eq a b ha hb]
  generalize bitsA a = l
  generalize bitsA b = r
  generalize bitsA c = s
  refine ⟨?_, ?_, ⟨_, rfl⟩, ?_⟩
  · unfold bitsOrder
    simp only [Option.some.injEq, decide_eq_true_eq]
    split
    · constructor
      · intro h; cases h
      · intro h; subst h; omega
    · split
      · constructor
        · intro h; cases h
        · intro h; subst h; omega
      · exact listOrder_eq l r
  · unfold bitsOrder
    rw [Option.map_some]
    congr 1
    rcases Nat.lt_trichotomy l.length r.length with h | h | h
    · rw [if_neg (by omega), if_pos h, if_pos h]; rfl
    · rw [if_neg (by omega), if_neg (by omega), if_neg (by omega), if_neg (by omega)]
      exact listOrder_swap l r
    · rw [if_pos h, if_neg (by omega), if_pos h]; rfl
  · unfold bitsOrder
    simp only [Option.some.injEq]
    intro h1 h2
    by_cases hlt : l.length < s.length
    · rw [if_pos hlt]
    · have hlr : ¬ r.length < l.length := by
        intro h
        rw [if_neg (by omega), if_pos h] at h1
        cases h1
      have hrs : ¬ s.length < r.length := by
        intro h
        rw [if_neg (by omega), if_pos h] at h2
        cases h2
      rw [if_neg (by omega), if_neg hlr] at h1
      rw [if_neg (by omega), if_neg hrs] at h2
      rw [if_neg hlt, if_neg (by omega)]
      exact listOrder_trans l r s h1 h2

/-- A nine-bit array in two bytes with the bits 0 and 8 set. -/
def demoArray : BitArray := ⟨[1, 1], 9⟩

theorem demoArray_made : Made demoArray := by
  have h0 : Made ⟨[0, 0], 9⟩ := .new (cap := 2) (n := 9) (by decide)
  have h1 : Made ⟨[1, 0], 9⟩ := .set (i := 0) (v := true) h0 (by decide)
  exact .set (i := 8) (v := true) h1 (by decide)

example : bitsA demoArray = [true, false, false, false, false, false, false, false, true] ∧ demoArray.get 8 = some true ∧ demoArray.get 9 = none := by
  decide

example : Made demoArray ∧ Made (demoArray.fill true) ∧ demoArray.compare (demoArray.fill true) = some .lt ∧
    demoArray.eq ⟨[1, 1, 0], 9⟩ = some true := ⟨demoArray_made, .fill true demoArray_made, by decide, by decide⟩

/-! ### C45 -/

theorem serialize_wcur (a : BitArray) (hv : a.bitLength ≤ 8 * a.bytes.length) (L : Nat) (B : List Bool) (hfit : B.length ≤ 8 * L) :
    a.serialize (wcur L B) = writeAll ((bitsA a).map Field.bool) (wcur L B) := by
  unfold BitArray.serialize
  have hal : ((wcur L B).isAligned = true) ↔ B.length % 8 = 0 := by simp [WriteCursor.isAligned, wcur]
  have hboolsok : ∀ l : List Bool, ∀ f ∈ l.map Field.bool, f.Ok := by
    intro l f hf
    obtain ⟨b, -, rfl⟩ := List.mem_map.1 hf
    exact True.intro
  have hfold : ∀ (l acc : List Bool), (l.map Field.bool).foldl Field.append acc = acc ++ l := by
    intro l
    induction l with
    | nil => intro acc; simp
    | cons b bits ih =>
      intro acc
      rw [List.map_cons, List.foldl_cons, ih]
      simp [Field.append]
  split
  · rename_i hfull
    rw [writeAlignedBytes_wcur _ _ _ (hal.1 hfull.2) hfit, writeAll_wcur _ _ (hboolsok _) _ hfit, hfold, List.length_append, length_bitsA]
    have e : (a.bytes.flatMap fun b => bitsOf 8 b.toNat) = bitsA a := by
      apply List.ext_getElem
      · rw [length_flatMap_bits, length_bitsA, hfull.1]
        omega
      · intro k h1 h2
        have := flatMap_getD a.bytes k
        rw [List.getD_eq_getElem?_getD, List.getElem?_eq_getElem h1, Option.getD_some] at this
        rw [this]
        simp [bitsA]
    rw [e, hfull.1, Nat.mul_comm a.bytes.length 8]
  · have hloop : ∀ (is : List Nat) (c : WriteCursor), (∀ i ∈ is, i < a.bitLength) →
        BitArray.serializeLoop a is c = writeAll (is.map fun i => Field.bool (bitAt a.bytes i)) c := by
      intro is
      induction is with
      | nil => intro c _; rfl
      | cons i is ih =>
        intro c his
        unfold BitArray.serializeLoop
        rw [get_eq hv, if_pos (his i (by simp)), List.map_cons]
        unfold writeAll
        dsimp only [Field.write]
        cases c.writeBool (bitAt a.bytes i) with
        | none => rfl
        | some c => exact ih c (fun j hj => his j (by simp [hj]))
    rw [hloop _ _ (fun i hi => by simpa using hi), bitsA, List.map_map]
    rfl

/-- **C45**, writing: at any position `serialize` has the same effect as writing the bits of the array one by one (so, by C43, it panics
exactly if they do not fit, and advances by the length of the array). -/
theorem C45_serialize (a : BitArray) (h : Made a) (buf : List Byte) (fs : List Field) (hok : ∀ f ∈ fs, f.Ok) (c : WriteCursor)
    (hc : writeAll fs (WriteCursor.new buf) = some c) : a.serialize c = writeAll ((bitsA a).map Field.bool) c := by
  rw [new_eq_wcur, writeAll_wcur _ _ hok [] (by simp)] at hc
  split at hc
  case isFalse => cases hc
  rename_i hfit
  injection hc with hc
  subst hc
  generalize List.foldl Field.append [] fs = B at *
  exact serialize_wcur a h.valid _ _ hfit

/-- **C45**, reading, the bits: reading an array of length `n` at any position returns the next `n` bits, if `n` does not exceed the capacity
(otherwise it panics). -/
theorem C45_deserialize_bits (bs : List Byte) (before : List Shape) (hb : ∀ s ∈ before, s.Ok) (vs : List Value) (c : ReadCursor)
    (hc : readAll before (ReadCursor.new bs) = some (vs, c)) (cap n : Nat) :
    (BitArray.deserialize cap n c).map (fun r => bitsA r.1) =
      if n ≤ 8 * cap then some ((List.range n).map fun i => bitAt bs ((shapesAt (bitAt bs) 0 before).2 + i)) else none := by
  rw [new_eq_rcur, readAll_rcur bs before hb 0] at hc
  injection hc with hc
  have hc2 : rcur bs (shapesAt (bitAt bs) 0 before).2 = c := congrArg Prod.snd hc
  generalize (shapesAt (bitAt bs) 0 before).2 = p at *
  subst hc2
  unfold BitArray.deserialize BitArray.new
  by_cases hn : n ≤ 8 * cap
  · rw [if_pos (by omega), if_pos hn]
    dsimp only
    obtain ⟨a', h1, h2, h3, h4⟩ := deserializeInPlace_rcur bs ⟨List.replicate cap 0, n⟩ p (by simpa using hn)
    rw [h1, Option.map_some]
    congr 1
    unfold bitsA
    rw [h2]
    apply List.map_congr_left
    intro i hi
    exact h4 i (by simpa using hi)
  · rw [if_neg (by omega), if_neg hn]
    rfl

/-- **C45**, the whole, except for one case: after any fields an array is serialized, then any fields.  Then the fields before are read back,
the array is read back with the same bits, and the fields after are read back; provided that the length is not a multiple of 8, or is the capacity
of the array that is read, or the array is not at a byte boundary.
Missing: a length that is a multiple of 8 and below the capacity, at a byte boundary (`C45_counterexample`). -/
theorem C45_roundtrip_partial (a : BitArray) (h : Made a) (cap : Nat) (hcap : a.bitLength ≤ 8 * cap) (buf : List Byte) (before after : List Field)
    (hb : ∀ f ∈ before, f.Ok) (ha : ∀ f ∈ after, f.Ok) (c1 c2 c3 : WriteCursor) (h1 : writeAll before (WriteCursor.new buf) = some c1)
    (h2 : a.serialize c1 = some c2) (h3 : writeAll after c2 = some c3)
    (hcase : a.bitLength % 8 ≠ 0 ∨ a.bitLength = 8 * cap ∨ c1.bitsWritten % 8 ≠ 0) :
    ∃ (r1 r2 : ReadCursor) (a' : BitArray),
      readAll (before.map Field.shape) (ReadCursor.new c3.bytes) = some (before.map Field.expected, r1) ∧
      BitArray.deserialize cap a.bitLength r1 = some (a', r2) ∧ bitsA a' = bitsA a ∧
      (readAll (after.map Field.shape) r2).map (·.1) = some (after.map Field.expected) := by
  have hshape : ∀ fs : List Field, (∀ f ∈ fs, f.Ok) → ∀ s ∈ fs.map Field.shape, s.Ok := by
    intro fs hfs s hs
    obtain ⟨f, hf, rfl⟩ := List.mem_map.1 hs
    have := hfs f hf
    cases f <;> simp_all [Field.shape, Shape.Ok, Field.Ok]
  have hboolsok : ∀ l : List Bool, ∀ f ∈ l.map Field.bool, f.Ok := by
    intro l f hf
    obtain ⟨b, -, rfl⟩ := List.mem_map.1 hf
    exact True.intro
  have hfold : ∀ (l acc : List Bool), (l.map Field.bool).foldl Field.append acc = acc ++ l := by
    intro l
    induction l with
    | nil => intro acc; simp
    | cons b bits ih =>
      intro acc
      rw [List.map_cons, List.foldl_cons, ih]
      simp [Field.append]
  have hser := C45_serialize a h buf before hb c1 h1
  have h1' := h1
  rw [new_eq_wcur, writeAll_wcur _ _ hb [] (by simp)] at h1'
  split at h1'
  case isFalse => cases h1'
  rename_i hfit1
  injection h1' with h1'
  rw [h2, ← h1', writeAll_wcur _ _ (hboolsok _) _ hfit1, hfold] at hser
  split at hser
  case isFalse => cases hser
  rename_i hfit2
  injection hser with hser
  rw [hser, writeAll_wcur _ _ ha _ hfit2] at h3
  split at h3
  case isFalse => cases h3
  rename_i hfit3
  injection h3 with h3
  generalize hB : before.foldl Field.append [] = B at *
  generalize hT : after.foldl Field.append (B ++ bitsA a) = T at *
  have hc1 : c1.bitsWritten = B.length := by
    rw [← h1']
    simp only [WriteCursor.bitsWritten, wcur]
    omega
  have hbitsT : ∀ p, bitAt c3.bytes p = T.getD p false := by
    intro p
    rw [← h3]
    by_cases hp : p < 8 * buf.length
    · exact bitAt_pack _ _ _ hp
    · simp only [wcur]
      rw [bitAt_of_ge (by simp; omega), getD_of_ge (by omega)]
  have hpre : ∀ (fs : List Field) (acc : List Bool) (p : Nat), p < acc.length → (fs.foldl Field.append acc).getD p false = acc.getD p false := by
    intro fs
    induction fs with
    | nil => intro acc p _; rfl
    | cons y fs ih2 =>
      intro acc p hp
      rw [List.foldl_cons, ih2 _ _ (Nat.lt_of_lt_of_le hp (length_append_field acc y)), (append_getD acc y p).2, if_neg (by omega)]
  have hTpre : ∀ p, p < B.length + a.bitLength → T.getD p false = (B ++ bitsA a).getD p false := by
    intro p hp
    rw [← hT, hpre after _ _ (by simpa using hp)]
  have hread1 := readAll_rcur c3.bytes (before.map Field.shape) (hshape before hb) 0
  have hsh1 := shapesAt_foldl before [] (bitAt c3.bytes) (by
    intro p hp
    rw [hB] at hp ⊢
    rw [hbitsT, hTpre p (by omega), List.getD_eq_getElem?_getD, List.getElem?_append_left hp, ← List.getD_eq_getElem?_getD])
  rw [List.length_nil, hB] at hsh1
  rw [hsh1] at hread1
  obtain ⟨a', g1, g2, g3, g4⟩ := deserializeInPlace_rcur c3.bytes ⟨List.replicate cap 0, a.bitLength⟩ B.length (by simpa using hcap)
  have hpos : (if a.bitLength % 8 = 0 ∧ B.length % 8 = 0 then 8 * (List.replicate cap (0 : Byte)).length else a.bitLength) = a.bitLength := by
    rw [List.length_replicate]
    split
    · rename_i hh
      rcases hcase with h | h | h
      · exact absurd hh.1 h
      · exact h.symm
      · rw [hc1] at h; exact absurd hh.2 h
    · rfl
  dsimp only at g1 g2 g4
  rw [hpos] at g1
  refine ⟨rcur c3.bytes B.length, rcur c3.bytes (B.length + a.bitLength), a', ?_, ?_, ?_, ?_⟩
  · rw [new_eq_rcur]; exact hread1
  · unfold BitArray.deserialize BitArray.new
    rw [if_pos (by omega)]
    exact g1
  · unfold bitsA
    rw [g2]
    apply List.map_congr_left
    intro i hi
    have hi' : i < a.bitLength := by simpa using hi
    rw [g4 i hi', hbitsT, hTpre _ (by omega), List.getD_eq_getElem?_getD, List.getElem?_append_right (by omega)]
    simp [bitsA, hi']
  · rw [readAll_rcur _ _ (hshape after ha)]
    have := shapesAt_foldl after (B ++ bitsA a) (bitAt c3.bytes) (by
      intro p _
      rw [hbitsT, hT])
    rw [List.length_append, length_bitsA] at this
    rw [this]
    rfl

/-- The nine-bit array after a byte, with a byte after it. -/
example : ∃ c1 c2 c3 : WriteCursor, writeAll [.uint 8 0xaa] (WriteCursor.new [0, 0, 0, 0]) = some c1 ∧ demoArray.serialize c1 = some c2 ∧
    writeAll [.uint 8 0x55] c2 = some c3 ∧ demoArray.bitLength % 8 ≠ 0 ∧ demoArray.bitLength ≤ 8 * 5 :=
  ⟨⟨[0xaa, 0, 0, 0], 1, 0⟩, ⟨[0xaa, 1, 1, 0], 2, 1⟩, ⟨[0xaa, 1, 0xab, 0], 3, 1⟩, by decide +kernel, by decide +kernel, by decide +kernel, by decide, by decide⟩

/-- **C45** is false: an array of 8 bits and a capacity of 2 bytes, at a byte boundary, takes 8 bits when it is written but 16 when it is read;
the byte after it is lost (0x55 is written and 0 is read). -/
theorem C45_counterexample :
    ∃ (a : BitArray) (cap : Nat) (c1 c2 : WriteCursor) (a' : BitArray) (r : ReadCursor), Made a ∧ a.bitLength ≤ 8 * cap ∧
      a.serialize (WriteCursor.new [0, 0, 0]) = some c1 ∧ c1.writeU 8 0x55 = some c2 ∧
      BitArray.deserialize cap a.bitLength (ReadCursor.new c2.bytes) = some (a', r) ∧ bitsA a' = bitsA a ∧
      (readAll [.uint 8] r).map (·.1) = some [.uint 0] :=
  ⟨⟨[0, 0], 8⟩, 2, ⟨[0, 0, 0], 1, 0⟩, ⟨[0, 0x55, 0], 2, 0⟩, ⟨[0, 0x55], 8⟩, ⟨[0], 0⟩, .new (cap := 2) (n := 8) (by decide), by decide,
    by decide +kernel, by decide +kernel, by decide +kernel, by decide +kernel, by decide +kernel⟩

end Verif.Enc
