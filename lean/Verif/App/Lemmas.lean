import Verif.App.Spec
import Verif.Dsdl.Props

/-!
Helper lemmas for the properties in `Verif.App.Props`.
-/

namespace Verif.App

open Verif.Enc Verif.Node Verif.Dsdl

variable {N Tid Trk E : Type}

/-! ### Subject lists -/

/-- A mask with space for exactly `n` bits. -/
def MaskOk (n : Nat) (m : BitArray) : Prop := m.bitLength = 8 * n ∧ m.bytes.length = n

theorem mask_set {n : Nat} {m : BitArray} (h : MaskOk n m) {i : Nat} (hi : i < 8 * n) (v : Bool) :
    ∃ m', m.set i v = some m' ∧ MaskOk n m' ∧ ∀ p, bitAt m'.bytes p = if p = i then v else bitAt m.bytes p := by
  obtain ⟨h1, h2⟩ := h
  obtain ⟨m', hm⟩ := set_some (a := m) (by omega) (i := i) (by omega) v
  obtain ⟨-, g1, g2, g3⟩ := set_spec hm
  exact ⟨m', hm, ⟨by omega, by omega⟩, g3⟩

theorem mask_new (n : Nat) : ∃ m, BitArray.new n (8 * n) = some m ∧ MaskOk n m ∧ ∀ p, bitAt m.bytes p = false := by
  refine ⟨⟨List.replicate n 0, 8 * n⟩, by unfold BitArray.new; rw [if_pos (by omega)], ⟨rfl, by simp⟩, fun p => ?_⟩
  simp only [bitAt, List.getD_eq_getElem?_getD, List.getElem?_replicate]
  split <;> simp

theorem mask_foldl {n : Nat} {α : Type} (f : α → Nat) (l : List α) : ∀ m : BitArray, MaskOk n m → (∀ x ∈ l, f x < 8 * n) →
    ∃ m', l.foldlM (fun m x => m.set (f x) true) m = some m' ∧ MaskOk n m' ∧
      ∀ p, bitAt m'.bytes p = (decide (p ∈ l.map f) || bitAt m.bytes p) := by
  induction l with
  | nil => intro m hm _; exact ⟨m, rfl, hm, fun p => by simp⟩
  | cons x l ih =>
    intro m hm hl
    obtain ⟨m₁, h1, h2, h3⟩ := mask_set hm (hl x (by simp)) true
    obtain ⟨m₂, g1, g2, g3⟩ := ih m₁ h2 (fun y hy => hl y (by simp [hy]))
    refine ⟨m₂, by rw [List.foldlM_cons, h1]; exact g1, g2, fun p => ?_⟩
    rw [g3, h3]
    by_cases hp : p = f x <;> simp [hp]

/-- A subject list as a basic node keeps it. -/
def SubjectIdList.Ok : SubjectIdList → Prop
  | .mask m => MaskOk 1024 m
  | .sparse l => l.Nodup ∧ l.length ≤ 255 ∧ ∀ x ∈ l, x.toNat < 8192
  | .total => True

/-- The list names the subject. -/
def SubjectIdList.names (l : SubjectIdList) (s : SubjectId) : Bool :=
  match l with
  | .mask m => bitAt m.bytes s.toNat
  | .sparse l => decide (s.setWidth 16 ∈ l)
  | .total => true

theorem toNat_ne {s t : SubjectId} : t.toNat = s.toNat ↔ t = s := BitVec.toNat_inj

theorem width_inj {s t : SubjectId} : t.setWidth 16 = s.setWidth 16 ↔ t = s := by
  constructor
  · intro h
    have := congrArg BitVec.toNat h
    simp only [BitVec.toNat_setWidth] at this
    apply BitVec.eq_of_toNat_eq
    have h1 := s.isLt
    have h2 := t.isLt
    omega
  · intro h; rw [h]

theorem width_lt (s : SubjectId) : (s.setWidth 16).toNat < 8192 := by
  simp only [BitVec.toNat_setWidth]
  have := s.isLt
  omega

theorem width_toNat (s : SubjectId) : (s.setWidth 16).toNat = s.toNat := by
  simp only [BitVec.toNat_setWidth]
  have := s.isLt
  omega

theorem SubjectIdList.insert_spec (l : SubjectIdList) (h : l.Ok) (s : SubjectId) :
    ∃ l', l.insert s = some l' ∧ l'.Ok ∧ ∀ t, l'.names t = (decide (t = s) || l.names t) := by
  have hs := s.isLt
  cases l with
  | mask m =>
    obtain ⟨m', h1, h2, h3⟩ := mask_set h (i := s.toNat) (by omega) true
    refine ⟨.mask m', by simp only [SubjectIdList.insert, h1, Option.map_some], h2, fun t => ?_⟩
    simp only [SubjectIdList.names, h3]
    by_cases ht : t = s
    · simp [ht]
    · rw [if_neg (by rw [toNat_ne]; exact ht)]; simp [ht]
  | sparse l =>
    obtain ⟨h1, h2, h3⟩ := h
    simp only [SubjectIdList.insert]
    by_cases hc : l.contains (s.setWidth 16)
    · rw [if_pos hc]
      refine ⟨_, rfl, ⟨h1, h2, h3⟩, fun t => ?_⟩
      simp only [SubjectIdList.names]
      by_cases ht : t = s
      · subst ht
        simpa using hc
      · simp [ht]
    · rw [if_neg hc]
      have hc' : s.setWidth 16 ∉ l := by simpa using hc
      by_cases hl : l.length < 255
      · rw [if_pos hl]
        refine ⟨_, rfl, ⟨?_, by simp; omega, ?_⟩, fun t => ?_⟩
        · rw [List.nodup_append]
          refine ⟨h1, by simp, ?_⟩
          intro x hx y hy
          simp only [List.mem_singleton] at hy
          subst hy
          intro he
          exact hc' (he ▸ hx)
        · intro x hx
          simp only [List.mem_append, List.mem_singleton] at hx
          rcases hx with hx | hx
          · exact h3 x hx
          · subst hx; exact width_lt s
        · simp only [SubjectIdList.names, List.mem_append, List.mem_singleton, width_inj]
          by_cases ht : t = s <;> simp [ht]
      · rw [if_neg hl]
        obtain ⟨m, g1, g2, g3⟩ := mask_new 1024
        obtain ⟨m₁, f1, f2, f3⟩ := mask_foldl (n := 1024) (fun x : BitVec 16 => x.toNat) l m g2 (fun x hx => by have := h3 x hx; omega)
        obtain ⟨m₂, e1, e2, e3⟩ := mask_set f2 (i := s.toNat) (by omega) true
        have g1' : BitArray.new 1024 8192 = some m := g1
        simp only [g1', f1, e1, Option.map_some]
        refine ⟨_, rfl, e2, fun t => ?_⟩
        simp only [SubjectIdList.names, e3, f3, g3, Bool.or_false]
        by_cases ht : t = s
        · simp [ht]
        · rw [if_neg (by rw [toNat_ne]; exact ht)]
          simp only [ht, decide_false, Bool.false_or]
          congr 1
          rw [List.mem_map]
          apply propext
          constructor
          · rintro ⟨x, hx, he⟩
            have : x = t.setWidth 16 := BitVec.eq_of_toNat_eq (by rw [width_toNat, he])
            rw [← this]; exact hx
          · intro hm
            exact ⟨_, hm, width_toNat t⟩
  | total => exact ⟨.total, rfl, trivial, fun t => by simp [SubjectIdList.names]⟩

theorem mem_swapRemove {α : Type} (l : List α) (i : Nat) (hi : i < l.length) (hn : l.Nodup) :
    (swapRemove l i).Nodup ∧ (swapRemove l i).length = l.length - 1 ∧ ∀ x, x ∈ swapRemove l i ↔ x ∈ l ∧ x ≠ l[i] := by
  have hne : l ≠ [] := by intro h; subst h; simp at hi
  obtain ⟨init, last, rfl⟩ : ∃ init last, l = init ++ [last] := ⟨l.dropLast, l.getLast hne, (List.dropLast_append_getLast hne).symm⟩
  have hsr : swapRemove (init ++ [last]) i = if i < init.length then init.set i last else init := by
    unfold swapRemove
    rw [List.getLast?_append]
    simp only [List.getLast?_singleton, Option.some_or]
    by_cases hl : i < init.length
    · rw [if_pos hl, List.set_append_left _ _ hl]
      simp
    · rw [if_neg hl, List.set_append_right _ _ (by omega)]
      have : i - init.length = 0 := by simp at hi; omega
      simp [this]
  rw [List.nodup_append] at hn
  obtain ⟨hn1, -, hn2⟩ := hn
  have hlast : last ∉ init := fun h => hn2 last h last (by simp) rfl
  rw [hsr]
  by_cases hl : i < init.length
  · rw [if_pos hl]
    have hgi : (init ++ [last])[i] = init[i] := List.getElem_append_left hl
    have hset : init.set i last = init.take i ++ last :: init.drop (i + 1) := List.set_eq_take_append_cons_drop .. |>.trans (by rw [if_pos hl])
    have hinit : init = init.take i ++ init[i] :: init.drop (i + 1) := by
      rw [← List.drop_eq_getElem_cons hl, List.take_append_drop]
    refine ⟨?_, by simp, fun x => ?_⟩
    · rw [hset]
      have hn1' := hn1
      rw [hinit, List.nodup_append] at hn1'
      obtain ⟨a1, a2, a3⟩ := hn1'
      rw [List.nodup_cons] at a2
      rw [List.nodup_append]
      refine ⟨a1, List.nodup_cons.2 ⟨fun h => hlast (List.mem_of_mem_drop h), a2.2⟩, ?_⟩
      intro x hx y hy
      rw [List.mem_cons] at hy
      rcases hy with rfl | hy
      · intro he; subst he; exact hlast (List.mem_of_mem_take hx)
      · exact a3 x hx y (List.mem_cons_of_mem _ hy)
    · rw [hgi, hset]
      have hn1' := hn1
      rw [hinit, List.nodup_append] at hn1'
      obtain ⟨a1, a2, a3⟩ := hn1'
      rw [List.nodup_cons] at a2
      have hx : x ∈ init ↔ x ∈ init.take i ∨ x = init[i] ∨ x ∈ init.drop (i + 1) := by
        conv => lhs; rw [hinit]
        rw [List.mem_append, List.mem_cons]
      simp only [List.mem_append, List.mem_cons, List.not_mem_nil, or_false, hx]
      constructor
      · rintro (h | h | h)
        · exact ⟨Or.inl (Or.inl h), a3 x h _ List.mem_cons_self⟩
        · subst h; exact ⟨Or.inr rfl, fun he => hlast (by rw [he]; exact List.getElem_mem hl)⟩
        · exact ⟨Or.inl (Or.inr (Or.inr h)), fun he => a2.1 (he ▸ h)⟩
      · rintro ⟨(h | h | h) | h, hne⟩
        · exact Or.inl h
        · exact absurd h hne
        · exact Or.inr (Or.inr h)
        · exact Or.inr (Or.inl h)
  · rw [if_neg hl]
    have hieq : i = init.length := by simp at hi; omega
    subst hieq
    refine ⟨hn1, by simp, fun x => ?_⟩
    rw [List.getElem_append_right (Nat.le_refl _)]
    simp only [Nat.sub_self, List.getElem_cons_zero, List.mem_append, List.mem_singleton]
    constructor
    · intro h; exact ⟨Or.inl h, fun he => hlast (he ▸ h)⟩
    · rintro ⟨h | h, hne⟩
      · exact h
      · exact absurd h hne

theorem SubjectIdList.remove_spec (l : SubjectIdList) (h : l.Ok) (s : SubjectId) :
    ∃ l', l.remove s = some l' ∧ l'.Ok ∧ ∀ t, l'.names t = (!decide (t = s) && l.names t) := by
  have hs := s.isLt
  cases l with
  | mask m =>
    obtain ⟨m', h1, h2, h3⟩ := mask_set h (i := s.toNat) (by omega) false
    refine ⟨.mask m', by simp only [SubjectIdList.remove, h1, Option.map_some], h2, fun t => ?_⟩
    simp only [SubjectIdList.names, h3]
    by_cases ht : t = s
    · simp [ht]
    · rw [if_neg (by rw [toNat_ne]; exact ht)]; simp [ht]
  | sparse l =>
    obtain ⟨h1, h2, h3⟩ := h
    simp only [SubjectIdList.remove]
    cases hf : l.findIdx? (· == s.setWidth 16) with
    | none =>
      refine ⟨_, rfl, ⟨h1, h2, h3⟩, fun t => ?_⟩
      simp only [SubjectIdList.names]
      by_cases ht : t = s
      · subst ht
        simp only [decide_true, Bool.not_true, Bool.false_and, decide_eq_false_iff_not]
        intro hm
        rw [List.findIdx?_eq_none_iff] at hf
        simpa using hf _ hm
      · simp [ht]
    | some i =>
      rw [List.findIdx?_eq_some_iff_getElem] at hf
      obtain ⟨hi, he, -⟩ := hf
      have he' : l[i] = s.setWidth 16 := by simpa using he
      obtain ⟨g1, g2, g3⟩ := mem_swapRemove l i hi h1
      refine ⟨_, rfl, ⟨g1, by omega, fun x hx => h3 x ((g3 x).1 hx).1⟩, fun t => ?_⟩
      simp only [SubjectIdList.names, g3, he', Ne, width_inj]
      by_cases ht : t = s <;> simp [ht]
  | total =>
    obtain ⟨m, g1, g2, g3⟩ := mask_new 1024
    have g1' : BitArray.new 1024 8192 = some m := g1
    have hfill : MaskOk 1024 (m.fill true) := ⟨g2.1, (List.length_map _).trans g2.2⟩
    obtain ⟨m', h1, h2, h3⟩ := mask_set hfill (i := s.toNat) (by omega) false
    refine ⟨.mask m', by simp only [SubjectIdList.remove, g1', h1, Option.map_some], h2, fun t => ?_⟩
    simp only [SubjectIdList.names, h3, Bool.and_true]
    by_cases ht : t = s
    · simp [ht]
    · rw [if_neg (by rw [toNat_ne]; exact ht)]
      have ht' := t.isLt
      have hlt : t.toNat / 8 < m.bytes.length := by rw [g2.2]; omega
      have hall : ∀ j : Fin 8, (0xff : Byte).getLsbD j.val = true := by decide
      simp only [bitAt, BitArray.fill, List.getD_eq_getElem?_getD, List.getElem?_map, List.getElem?_eq_getElem hlt, Option.map_some, if_true,
        Option.getD_some, ht, decide_false, Bool.not_false]
      exact hall ⟨t.toNat % 8, Nat.mod_lt _ (by omega)⟩

/-! ### Port lists on the wire -/

/-- A port list as a basic node keeps it. -/
structure PortList.Ok (l : PortList) : Prop where
  publishers : l.publishers.Ok
  subscribers : l.subscribers.Ok
  clients : MaskOk 64 l.clients
  servers : MaskOk 64 l.servers

/-- The list names the port. -/
def PortList.names (l : PortList) : Port → Bool
  | .publisher s => l.publishers.names s
  | .subscriber s => l.subscribers.names s
  | .client s => bitAt l.clients.bytes s.toNat
  | .server s => bitAt l.servers.bytes s.toNat

theorem getD_bitsA (a : BitArray) (i : Nat) (hi : i < a.bitLength) : (bitsA a).getD i false = bitAt a.bytes i := by
  simp [bitsA, List.getD_eq_getElem?_getD, hi]

theorem SubjectIdList.val_names (l : SubjectIdList) (h : l.Ok) (s : SubjectId) : namesSubject l.val s = l.names s := by
  have hs := s.isLt
  cases l with
  | mask m =>
    have h' : MaskOk 1024 m := h
    exact getD_bitsA m s.toNat (by rw [h'.1]; omega)
  | sparse l =>
    simp only [SubjectIdList.val, namesSubject, SubjectIdList.names, List.any_map, Function.comp_def]
    rw [Bool.eq_iff_iff, List.any_eq_true]
    simp only [decide_eq_true_eq]
    constructor
    · rintro ⟨x, hx, he⟩
      have : x = s.setWidth 16 := BitVec.eq_of_toNat_eq (by rw [width_toNat, he])
      rw [← this]; exact hx
    · intro hm
      exact ⟨_, hm, width_toNat s⟩
  | total => rfl

theorem PortList.val_names (l : PortList) (h : l.Ok) (p : Port) : App.names l.val p = l.names p := by
  cases p with
  | publisher s => exact l.publishers.val_names h.publishers s
  | subscriber s => exact l.subscribers.val_names h.subscribers s
  | client s => exact getD_bitsA l.clients s.toNat (by rw [h.clients.1]; have := s.isLt; omega)
  | server s => exact getD_bitsA l.servers s.toNat (by rw [h.servers.1]; have := s.isLt; omega)

theorem same_num {w : Val} {k : Nat} (h : Same w (.num k)) : w = .num k := by cases h; rfl

theorem same_record {w : Val} {vs : List Val} (h : Same w (.record vs)) : ∃ ws, w = .record ws ∧ List.Forall₂ Same ws vs := by
  cases h with
  | refl => exact ⟨vs, rfl, List.forall₂_same.2 fun v _ => Same.refl v⟩
  | record h => exact ⟨_, rfl, h⟩

theorem same_record_num {w : Val} {k : Nat} (h : Same w (.record [.num k])) : w = .record [.num k] := by
  obtain ⟨ws, rfl, g⟩ := same_record h
  cases g with
  | cons h1 h2 => cases h2; rw [same_num h1]

theorem same_list_records : ∀ (ws : List Val) (l : List (BitVec 16)),
    List.Forall₂ Same ws (l.map fun s => Val.record [.num s.toNat]) → ws = l.map fun s => Val.record [.num s.toNat]
  | [], [], _ => rfl
  | [], _ :: _, h => by cases h
  | _ :: _, [], h => by cases h
  | w :: ws, x :: l, h => by
    cases h with
    | cons h1 h2 =>
      rw [List.map_cons, ← same_list_records ws l h2, same_record_num h1]

theorem SubjectIdList.same_names {w : Val} (l : SubjectIdList) (h : Same w l.val) (s : SubjectId) : namesSubject w s = namesSubject l.val s := by
  cases l with
  | mask m =>
    cases h with
    | refl => rfl
    | variant _ h =>
      cases h with
      | refl => rfl
      | bits h1 h2 => exact congrArg (fun l => List.getD l s.toNat false) h2
  | sparse l =>
    cases h with
    | refl => rfl
    | variant _ h =>
      cases h with
      | refl => rfl
      | list h => rw [same_list_records _ _ h]; rfl
  | total =>
    cases h with
    | refl => rfl
    | variant _ h => rfl

theorem same_mask {w : Val} {m : BitArray} (h : Same w (.record [.bits m])) (s : ServiceId) : namesService w s = namesService (.record [.bits m]) s := by
  obtain ⟨ws, rfl, g⟩ := same_record h
  cases g with
  | cons h1 h2 =>
    cases h2
    cases h1 with
    | refl => rfl
    | bits h1 h2 => exact congrArg (fun l => List.getD l s.toNat false) h2

theorem PortList.same_names {w : Val} (l : PortList) (h : Same w l.val) (p : Port) : App.names w p = App.names l.val p := by
  obtain ⟨ws, rfl, g⟩ := same_record h
  cases g with
  | cons h1 h =>
    cases h with
    | cons h2 h =>
      cases h with
      | cons h3 h =>
        cases h with
        | cons h4 h =>
          cases h
          cases p with
          | publisher s => exact l.publishers.same_names h1 s
          | subscriber s => exact l.subscribers.same_names h2 s
          | client s => exact same_mask h3 s
          | server s => exact same_mask h4 s

theorem subjectId_size (v : Val) : subjectIdListType.sizeBits (.variant 1 v) = 16 + v.len * 16 := by
  have h1 : ¬ subjectIdListType.bitLength.minValue = subjectIdListType.bitLength.maxValue := by decide +kernel
  have h2 : (Scalar.composite subjectIdType).size.minValue = (Scalar.composite subjectIdType).size.maxValue := by decide +kernel
  have h3 : nextMultipleOf (headerBits (Scalar.composite subjectIdType).extent + (Scalar.composite subjectIdType).size.minValue)
    (Scalar.composite subjectIdType).alignment = 16 := by decide +kernel
  have h4 : arrayLengthBits 255 = 8 := by decide +kernel
  have h5 : (Variants.cons (.prim .boolean) (.fixed 8192) (.cons (.composite subjectIdType) (.var 255) (.cons (.composite emptyType) .scalar .nil))).tagBits = 8 := by
    decide +kernel
  unfold subjectIdListType at h1 ⊢
  simp only [Message.sizeBits]
  rw [if_neg h1, h5]
  simp only [Val.choice, Variants.sizeBits, fieldSize, elementSizes]
  rw [if_pos h2, h3, h4]
  omega

theorem mask_size (v : Val) : subjectIdListType.sizeBits (.variant 0 v) = 8 + v.len := by
  have h1 : ¬ subjectIdListType.bitLength.minValue = subjectIdListType.bitLength.maxValue := by decide +kernel
  have h2 : (Scalar.prim .boolean).size.minValue = (Scalar.prim .boolean).size.maxValue := by decide +kernel
  have h3 : nextMultipleOf (headerBits (Scalar.prim .boolean).extent + (Scalar.prim .boolean).size.minValue)
    (Scalar.prim .boolean).alignment = 1 := by decide +kernel
  have h5 : (Variants.cons (.prim .boolean) (.fixed 8192) (.cons (.composite subjectIdType) (.var 255) (.cons (.composite emptyType) .scalar .nil))).tagBits = 8 := by
    decide +kernel
  unfold subjectIdListType at h1 ⊢
  simp only [Message.sizeBits]
  rw [if_neg h1, h5]
  simp only [Val.choice, Variants.sizeBits, fieldSize, elementSizes]
  rw [if_pos h2, h3]
  omega

theorem SubjectIdList.val_ok (l : SubjectIdList) (h : l.Ok) :
    subjectIdListType.has l.val = true ∧ subjectIdListType.fits l.val = true ∧ subjectIdListType.safe l.val = true ∧
      subjectIdListType.sizeBits l.val ≤ 8200 := by
  cases l with
  | mask m =>
    obtain ⟨h1, h2⟩ : MaskOk 1024 m := h
    refine ⟨?_, rfl, rfl, ?_⟩
    · simp [SubjectIdList.val, subjectIdListType, Message.has, Variants.has, hasField, Scalar.isBool, h1, h2]
    · simp only [SubjectIdList.val]
      rw [mask_size]
      simp only [Val.len, h1]
      omega
  | sparse l =>
    obtain ⟨h1, h2, h3⟩ : l.Nodup ∧ l.length ≤ 255 ∧ ∀ x ∈ l, x.toNat < 8192 := h
    have one : ∀ x : BitVec 16, x.toNat < 8192 → (Scalar.composite subjectIdType).has (.record [.num x.toNat]) = true ∧
        (Scalar.composite subjectIdType).fits (.record [.num x.toNat]) = true ∧ (Scalar.composite subjectIdType).safe (.record [.num x.toNat]) = true := by
      intro x hx
      have hx' := x.isLt
      refine ⟨?_, ?_, ?_⟩
      · simp [Scalar.has, subjectIdType, Message.has, Fields.has, hasField, Prim.has, roundUpIntegerSize]; omega
      · simp [Scalar.fits, subjectIdType, Message.fits, Fields.fits, fitsField, Prim.fits]; omega
      · simp [Scalar.safe, subjectIdType, Message.safe, Fields.safe, safeField, Prim.safe, Message.extent, Message.bits, Fields.append, appendField, Scalar.append, Prim.bits, padByte, Message.tail, Fields.tail]; omega
    refine ⟨?_, ?_, ?_, ?_⟩
    · simp only [SubjectIdList.val, subjectIdListType, Message.has, Variants.has, hasField, Scalar.isBool, List.length_map, h2, Bool.not_false,
        decide_true, Bool.true_and, List.all_eq_true, List.mem_map]
      rintro v ⟨x, hx, rfl⟩
      exact (one x (h3 x hx)).1
    · simp only [SubjectIdList.val, subjectIdListType, Message.fits, Variants.fits, fitsField, List.all_eq_true, List.mem_map]
      rintro v ⟨x, hx, rfl⟩
      exact (one x (h3 x hx)).2.1
    · simp only [SubjectIdList.val, subjectIdListType, Message.safe, Variants.safe, safeField, List.length_map, Bool.and_eq_true, decide_eq_true_eq,
        List.all_eq_true, List.mem_map]
      refine ⟨by omega, ?_⟩
      rintro v ⟨x, hx, rfl⟩
      exact (one x (h3 x hx)).2.2
    · simp only [SubjectIdList.val]
      rw [subjectId_size]
      simp only [Val.len, List.length_map]
      omega
  | total => exact ⟨rfl, rfl, by decide, by decide +kernel⟩

theorem PortList.val_ok (l : PortList) (h : l.Ok) :
    portListType.has l.val = true ∧ portListType.fits l.val = true ∧ portListType.safe l.val = true ∧ portListType.sizeBits l.val ≤ 20000 ∧
      64 < (portListType.sizeBits l.val + 7) / 8 := by
  obtain ⟨p1, p2, p3, p4⟩ := l.publishers.val_ok h.publishers
  obtain ⟨s1, s2, s3, s4⟩ := l.subscribers.val_ok h.subscribers
  have one : ∀ m : BitArray, MaskOk 64 m → serviceIdListType.has (.record [.bits m]) = true := by
    intro m hm
    simp [serviceIdListType, Message.has, Fields.has, hasField, Scalar.isBool, hm.1, hm.2]
  have e1 : subjectIdListType.extent.isSome = true := rfl
  have e2 : serviceIdListType.extent.isSome = true := rfl
  refine ⟨?_, ?_, ?_, ?_⟩
  · simp only [portListType, PortList.val, Message.has, Fields.has, hasField, Scalar.has, Bool.and_eq_true]
    exact ⟨p1, s1, one _ h.clients, one _ h.servers, trivial⟩
  · simp only [portListType, PortList.val, Message.fits, Fields.fits, fitsField, Scalar.fits, Bool.and_eq_true]
    exact ⟨p2, s2, rfl, rfl, trivial⟩
  · simp only [portListType, PortList.val, Message.safe, Fields.safe, safeField, Scalar.safe, Bool.and_eq_true, e1, e2, Bool.true_or, and_true]
    exact ⟨p3, s3, rfl, rfl⟩
  · have h1 : ¬ portListType.bitLength.minValue = portListType.bitLength.maxValue := by decide +kernel
    have h2 : ∀ v, (Scalar.composite serviceIdListType).sizeBits v = 544 := by
      intro v
      have h3 : serviceIdListType.bitLength.minValue = serviceIdListType.bitLength.maxValue := by decide +kernel
      have h4 : headerBits serviceIdListType.extent + nextMultipleOf serviceIdListType.bitLength.minValue 8 = 544 := by decide +kernel
      simp only [Scalar.sizeBits]
      rw [if_pos h3, h4]
    have h5 : ∀ v, (Scalar.composite subjectIdListType).sizeBits v = 32 + nextMultipleOf (subjectIdListType.sizeBits v) 8 := by
      intro v
      have h3 : ¬ subjectIdListType.bitLength.minValue = subjectIdListType.bitLength.maxValue := by decide +kernel
      simp only [Scalar.sizeBits]
      rw [if_neg h3]
      rfl
    unfold portListType at h1 ⊢
    simp only [Message.sizeBits]
    rw [if_neg h1]
    simp only [PortList.val, Val.fields, Fields.sizeBits, fieldSize, h2, h5, List.headD_cons, List.tail_cons]
    unfold nextMultipleOf
    omega

theorem doSerialize_bytes {p : Payload} {alloc : Bool} {b : List Byte} (h : doSerialize p alloc = .bytes b) :
    ∃ buf c, buf.length = (p.sizeBits + 7) / 8 ∧ p.serialize (WriteCursor.new buf) = some c ∧ c.bytes = b := by
  unfold doSerialize at h
  by_cases hbig : (p.sizeBits + 7) / 8 > 64
  · simp only at h
    rw [if_pos hbig] at h
    cases alloc with
    | true =>
      rw [if_pos rfl] at h
      cases hc : p.serialize (WriteCursor.new (List.replicate ((p.sizeBits + 7) / 8) 0)) with
      | none => rw [hc] at h; cases h
      | some c =>
        rw [hc] at h
        exact ⟨_, c, List.length_replicate, hc, by injection h⟩
    | false => rw [if_neg (by decide)] at h; cases h
  · simp only at h
    rw [if_neg hbig] at h
    cases hc : p.serialize (WriteCursor.new ((List.replicate 64 0).take ((p.sizeBits + 7) / 8))) with
    | none => rw [hc] at h; cases h
    | some c =>
      rw [hc] at h
      exact ⟨_, c, by rw [List.length_take, List.length_replicate]; omega, hc, by injection h⟩

theorem doSerialize_memory {p : Payload} {alloc : Bool} : doSerialize p alloc = .outOfMemory ↔ (p.sizeBits + 7) / 8 > 64 ∧ alloc = false := by
  unfold doSerialize
  by_cases hbig : (p.sizeBits + 7) / 8 > 64
  · simp only
    rw [if_pos hbig]
    cases alloc with
    | true =>
      rw [if_pos rfl]
      cases p.serialize (WriteCursor.new (List.replicate ((p.sizeBits + 7) / 8) 0)) <;> simp
    | false => simp [hbig]
  · simp only
    rw [if_neg hbig]
    cases p.serialize (WriteCursor.new ((List.replicate 64 0).take ((p.sizeBits + 7) / 8))) <;> simp [hbig]

theorem PortList.payload_spec (l : PortList) (h : l.Ok) :
    (∃ b, doSerialize l.payload true = .bytes b ∧ ∃ w r, portListType.deserialize (ReadCursor.new b) = some (.ok w, r) ∧ ∀ p, App.names w p = l.names p) ∧
      doSerialize l.payload false = .outOfMemory := by
  obtain ⟨h1, h2, h3, h4, h5⟩ := l.val_ok h
  have hg : portListType.good = true := by decide +kernel
  have hsize := C67_size_partial portListType l.val hg h1 h2
  have hne := (C67_payload_partial portListType l.val hg h1 h2 (by omega) true).1
  have hp : l.payload.sizeBits = portListType.sizeBits l.val := by simp only [PortList.payload, Payload.of, Message.writer]
  have hbig : (l.payload.sizeBits + 7) / 8 > 64 := by rw [hp]; exact h5
  refine ⟨?_, doSerialize_memory.2 ⟨hbig, rfl⟩⟩
  cases hb : doSerialize l.payload true with
  | panic => exact absurd hb hne
  | outOfMemory => cases (doSerialize_memory.1 hb).2
  | bytes b =>
    refine ⟨b, rfl, ?_⟩
    obtain ⟨buf, c, g1, g2, g3⟩ := doSerialize_bytes hb
    have g1' : buf.length = (portListType.sizeBits l.val + 7) / 8 := by rw [← hp]; exact g1
    have hq : l.payload.serialize = portListType.serialize l.val := by simp only [PortList.payload, Payload.of, Message.writer]
    rw [hq] at g2
    obtain ⟨w, r, g4, g5⟩ := C68_round_trip_partial portListType l.val hg h1 h2 h3 (by omega) buf [] (by omega) c g2
    rw [List.append_nil, g3] at g4
    exact ⟨w, r, g4, fun p => by rw [l.same_names g5, l.val_names h]⟩

/-! ### Heartbeats on the wire -/

theorem bitsOf_byte (x : Nat) : bitsOf 8 (BitVec.ofNat 8 x).toNat = bitsOf 8 x := by
  rw [BitVec.toNat_ofNat, bitsOf_mod 8 8 x (Nat.le_refl _)]

theorem bitsOf_word (x : Nat) :
    bitsOf 32 x = bitsOf 8 x ++ (bitsOf 8 (x / 2 ^ 8) ++ (bitsOf 8 (x / 2 ^ 16) ++ bitsOf 8 (x / 2 ^ 24))) := by
  have e : (32 : Nat) = 8 + (8 + (8 + 8)) := rfl
  rw [e, bitsOf_add, bitsOf_add, bitsOf_add]
  simp only [Nat.shiftRight_eq_div_pow, Nat.div_div_eq_div_mul, ← Nat.pow_add]

theorem bitsOf_small : (∀ x : Fin 4, bitsOf 2 x.val ++ List.replicate 6 false = bitsOf 8 x.val) ∧
    (∀ x : Fin 8, bitsOf 3 x.val ++ List.replicate 5 false = bitsOf 8 x.val) := by decide

theorem Heartbeat.payload_spec (h : Heartbeat) (hh : h.health.toNat < 4) (hm : h.mode.toNat < 8) (alloc : Bool) :
    doSerialize h.payload alloc = .bytes (heartbeatBytes h.uptime.toNat h.health h.mode h.status) := by
  have hg : heartbeatType.good = true := by decide +kernel
  have h1 : heartbeatType.has h.val = true := by
    have := h.uptime.isLt
    have := h.health.isLt
    have := h.mode.isLt
    have := h.status.isLt
    simp [heartbeatType, healthType, modeType, Heartbeat.val, Message.has, Fields.has, hasField, Prim.has, roundUpIntegerSize, Scalar.has]
    omega
  have h2 : heartbeatType.fits h.val = true := by
    have := h.uptime.isLt
    have := h.status.isLt
    simp [heartbeatType, healthType, modeType, Heartbeat.val, Message.fits, Fields.fits, fitsField, Prim.fits, Scalar.fits]
    omega
  have hbits : heartbeatType.bits h.val = (heartbeatBytes h.uptime.toNat h.health h.mode h.status).flatMap fun b => bitsOf 8 b.toNat := by
    have e1 := bitsOf_small.1 ⟨h.health.toNat, hh⟩
    have e2 := bitsOf_small.2 ⟨h.mode.toNat, hm⟩
    simp only at e1 e2
    have m1 : min h.uptime.toNat 4294967295 = h.uptime.toNat := Nat.min_eq_left (by have := h.uptime.isLt; omega)
    have m2 : min h.health.toNat 3 = h.health.toNat := Nat.min_eq_left (by omega)
    have m3 : min h.mode.toNat 7 = h.mode.toNat := Nat.min_eq_left (by omega)
    have m4 : min h.status.toNat 255 = h.status.toNat := Nat.min_eq_left (by have := h.status.isLt; omega)
    have m5 : ∀ x, bitsOf 8 (x % 256) = bitsOf 8 x := fun x => bitsOf_mod 8 8 x (Nat.le_refl _)
    simp [heartbeatType, healthType, modeType, Heartbeat.val, Message.bits, Fields.append, appendField, Scalar.append, Prim.bits, Prim.code, padByte,
      heartbeatBytes, Message.extent, ← e1, ← e2, bitsOf_word, m1, m2, m3, m4, m5]
  obtain ⟨g1, g2⟩ := C67_payload_partial heartbeatType h.val hg h1 h2 (by rw [hbits, length_flatMap_bits]; simp [heartbeatBytes]) alloc
  cases hb : doSerialize h.payload alloc with
  | panic => exact absurd hb g1
  | outOfMemory =>
    have hsize := C67_size_partial heartbeatType h.val hg h1 h2
    rw [hbits, length_flatMap_bits] at hsize
    have hl : (heartbeatBytes h.uptime.toNat h.health h.mode h.status).length = 7 := rfl
    have hbig : (heartbeatType.sizeBits h.val + 7) / 8 > 64 := (doSerialize_memory.1 hb).1
    omega
  | bytes b =>
    obtain ⟨g3, g4⟩ := g2 b hb
    congr 1
    rw [hbits, length_flatMap_bits] at g3
    apply bytes_ext
    · rw [g3]; simp [heartbeatBytes]
    · intro p _
      rw [g4, hbits, flatMap_getD]

end Verif.App
