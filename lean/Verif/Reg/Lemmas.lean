import Verif.Reg.Wire

/-!
Lemmas about registers and the handlers of register requests.
-/

namespace Verif.Reg

open Verif.Dsdl Verif.Enc Verif.Node Verif.App Verif.Pnp

/-! ### Bits -/

theorem setBits_spec : ∀ (l : List Bool) (k : Nat) (a : BitArray), a.bitLength ≤ 8 * a.bytes.length → k + l.length ≤ a.bitLength →
    ∃ a', setBits (l.zipIdx k) a = some a' ∧ a'.bitLength = a.bitLength ∧ a'.bytes.length = a.bytes.length ∧
      ∀ p, bitAt a'.bytes p = if k ≤ p ∧ p < k + l.length then l.getD (p - k) false else bitAt a.bytes p
  | [], k, a, _, _ => ⟨a, rfl, rfl, rfl, fun p => by rw [if_neg (by simp)]⟩
  | b :: l, k, a, h1, h2 => by
    rw [List.length_cons] at h2
    obtain ⟨a1, g1⟩ := set_some h1 (show k < a.bitLength by omega) b
    obtain ⟨-, g2, g3, g4⟩ := set_spec g1
    obtain ⟨a2, e1, e2, e3, e4⟩ := setBits_spec l (k + 1) a1 (by omega) (by omega)
    refine ⟨a2, ?_, by omega, by omega, fun p => ?_⟩
    · rw [List.zipIdx_cons, setBits, g1]
      exact e1
    · rw [e4, g4, List.length_cons]
      by_cases hp : p = k
      · subst hp
        rw [if_neg (by omega), if_pos rfl, if_pos (by omega), Nat.sub_self, List.getD_cons_zero]
      · by_cases hq : k + 1 ≤ p ∧ p < k + 1 + l.length
        · rw [if_pos hq, if_pos (by omega), show p - k = (p - (k + 1)) + 1 by omega, List.getD_cons_succ]
        · rw [if_neg hq, if_neg hp, if_neg (by omega)]

theorem storeBits_spec : ∀ (l : List Bool) (done todo : List Bool), l.length = todo.length →
    storeBits (l.zipIdx done.length) (done ++ todo) = some (done ++ l)
  | [], done, todo, h => by
    rw [List.length_eq_zero_iff.1 h.symm]
    rfl
  | b :: l, done, [], h => by simp at h
  | b :: l, done, x :: todo, h => by
    rw [List.zipIdx_cons, storeBits, if_pos (by simp)]
    have := storeBits_spec l (done ++ [b]) todo (by simpa using h)
    rw [List.length_append, List.length_singleton] at this
    rw [show (done ++ x :: todo).set done.length b = done ++ [b] ++ todo by simp, this]
    simp

/-! ### Values in registers -/

theorem Cell.read_spec (c : Cell) (h : c.fits = true) : ∃ v, c.read = some v ∧ v.content = c.content ∧ v.valid := by
  cases c with
  | number k x =>
    refine ⟨_, rfl, rfl, decide_eq_true ?_⟩
    show 1 ≤ k.limit
    cases k <;> decide
  | numbers k xs =>
    have hk := k.facts.2.2.2.2.2.2.2.2.1
    show ∃ v, (if xs.length ≤ k.capacity then some (Value.numbers k xs) else some (Value.numbers k (xs.take k.capacity))) = some v ∧ _
    split
    · rename_i hl
      refine ⟨_, rfl, ?_, ?_⟩
      · rw [Cell.content, ← hk, List.take_of_length_le hl]
        rfl
      · rw [hk] at hl
        exact decide_eq_true hl
    · refine ⟨_, rfl, ?_, ?_⟩
      · rw [Cell.content, ← hk]
        rfl
      · apply decide_eq_true
        rw [← hk, List.length_take]
        omega
  | string b => exact ⟨_, rfl, rfl, h⟩
  | unstructured b => exact ⟨_, rfl, rfl, h⟩
  | bool b =>
    refine ⟨_, rfl, ?_, ?_⟩
    · cases b <;> decide +kernel
    · exact ⟨by cases b <;> decide +kernel, by cases b <;> decide +kernel⟩
  | bools bs =>
    have hl : bs.length ≤ 2048 := of_decide_eq_true h
    have hn : BitArray.new 256 bs.length = some ⟨List.replicate 256 0, bs.length⟩ := by
      unfold BitArray.new
      rw [if_pos (by omega)]
    obtain ⟨a, g1, g2, g3, g4⟩ := setBits_spec bs 0 ⟨List.replicate 256 0, bs.length⟩ (by rw [List.length_replicate]; show bs.length ≤ _; omega)
      (by show _ ≤ bs.length; omega)
    refine ⟨.bit a, ?_, ?_, ?_, ?_⟩
    · simp only [Cell.read, hn]
      rw [g1]
      rfl
    · have g2' : a.bitLength = bs.length := g2
      simp only [Value.content, Cell.content, bitsA, g2']
      congr 1
      apply List.ext_getElem (by simp)
      intro p h1 h2
      rw [List.getElem_map, List.getElem_range, g4, if_pos (by omega)]
      simp [h2]
    · rw [g3, List.length_replicate]
    · rw [g2]
      exact hl

theorem Cell.write_spec (c : Cell) (v : Value) (h : v.valid) :
    c.write v = match c.holding v.content with
      | some c' => some (true, c')
      | none => some (false, c) := by
  cases c with
  | number k x =>
    cases v with
    | numbers k' vs =>
      simp only [Cell.write, Value.content]
      by_cases hk : k' = k
      · subst hk
        match vs with
        | [] => simp [Cell.holding]
        | [y] => simp [Cell.holding]
        | y :: z :: l => simp [Cell.holding]
      · rw [dif_neg hk]
        match vs with
        | [] => simp [Cell.holding]
        | [y] => simp [Cell.holding, hk]
        | y :: z :: l => simp [Cell.holding]
    | _ => rfl
  | numbers k xs =>
    cases v with
    | numbers k' vs =>
      simp only [Cell.write, Value.content, Cell.holding]
      by_cases hk : k' = k
      · subst hk
        rw [dif_pos rfl, dif_pos rfl]
        split <;> rfl
      · rw [dif_neg hk, dif_neg hk]
    | _ => rfl
  | string b => cases v <;> rfl
  | unstructured b => cases v <;> rfl
  | bool b =>
    cases v with
    | bit a =>
      obtain ⟨h1, h2⟩ := h
      simp only [Cell.write, Value.content]
      split
      · rename_i hl
        rw [get_eq (by omega), if_pos (by omega)]
        have : bitsA a = [bitAt a.bytes 0] := by
          unfold bitsA
          rw [hl]
          rfl
        rw [this]
        rfl
      · rename_i hl
        have hb := length_bitsA a
        match hm : bitsA a with
        | [] => rfl
        | [y] =>
          rw [hm] at hb
          exact absurd hb.symm hl
        | y :: z :: l => rfl
    | _ => rfl
  | bools bs =>
    cases v with
    | bit a =>
      obtain ⟨h1, h2⟩ := h
      simp only [Cell.write, Value.content, Cell.holding, length_bitsA]
      split
      · rename_i hl
        rw [iter_eq (by omega)]
        have := storeBits_spec (bitsA a) [] bs (by rw [length_bitsA, hl])
        simp only [List.length_nil, List.nil_append] at this
        simp only [this, Option.map_some]
      · rfl
    | _ => rfl

theorem Cell.holding_spec {c c' : Cell} {new : Content} (hn : new.fits = true) (h : c.holding new = some c') :
    c'.content = new ∧ (c.fits = true → c'.fits = true) := by
  cases c with
  | number k x =>
    match new with
    | .numbers k' [y] =>
      simp only [Cell.holding] at h
      split at h
      · rename_i hk
        subst hk
        injection h with h
        subst h
        exact ⟨rfl, fun _ => rfl⟩
      · cases h
    | .numbers _ [] => simp [Cell.holding] at h
    | .numbers _ (_ :: _ :: _) => simp [Cell.holding] at h
    | .empty => simp [Cell.holding] at h
    | .string _ => simp [Cell.holding] at h
    | .unstructured _ => simp [Cell.holding] at h
    | .bits _ => simp [Cell.holding] at h
  | numbers k xs =>
    cases new with
    | numbers k' ys =>
      simp only [Cell.holding] at h
      split at h
      · rename_i hk
        subst hk
        split at h
        · injection h with h
          subst h
          refine ⟨?_, fun _ => rfl⟩
          rw [Cell.content, List.take_of_length_le (of_decide_eq_true hn)]
        · cases h
      · cases h
    | _ => simp [Cell.holding] at h
  | string b =>
    cases new with
    | string b' =>
      simp only [Cell.holding] at h
      injection h with h
      subst h
      exact ⟨rfl, fun _ => hn⟩
    | _ => simp [Cell.holding] at h
  | unstructured b =>
    cases new with
    | unstructured b' =>
      simp only [Cell.holding] at h
      injection h with h
      subst h
      exact ⟨rfl, fun _ => hn⟩
    | _ => simp [Cell.holding] at h
  | bool b =>
    match new with
    | .bits [y] =>
      simp only [Cell.holding] at h
      injection h with h
      subst h
      exact ⟨rfl, fun _ => rfl⟩
    | .bits [] => simp [Cell.holding] at h
    | .bits (_ :: _ :: _) => simp [Cell.holding] at h
    | .empty => simp [Cell.holding] at h
    | .string _ => simp [Cell.holding] at h
    | .unstructured _ => simp [Cell.holding] at h
    | .numbers _ _ => simp [Cell.holding] at h
  | bools bs =>
    cases new with
    | bits l =>
      simp only [Cell.holding] at h
      split at h
      · injection h with h
        subst h
        exact ⟨rfl, fun _ => hn⟩
      · cases h
    | _ => simp [Cell.holding] at h

theorem Value.valid_fits {v : Value} (h : v.valid) : v.content.fits = true := by
  cases v with
  | bit a => simp only [Value.content, Content.fits, length_bitsA]; exact decide_eq_true h.2
  | empty => rfl
  | string b => exact h
  | unstructured b => exact h
  | numbers k vs => exact h

/-! ### Registers -/

namespace Register
variable {σ : Type}

theorem read_spec (r : Register σ) (h : r.fits = true) : ∃ v, r.read = some v ∧ v.content = r.content ∧ v.valid := by
  cases r with
  | simple n a c => exact c.read_spec h
  | validated n a c s f => exact c.read_spec h
  | fixed n v =>
    refine ⟨.string v, ?_, rfl, h⟩
    simp only [Register.read]
    rw [if_pos (of_decide_eq_true h)]

/-- Not a `FixedStringRegister`. -/
def writable : Register σ → Bool
  | .fixed _ _ => false
  | _ => true

theorem writable_of_mutable {r : Register σ} (h : r.access.isMutable = true) : r.writable = true := by
  cases r <;> first | rfl | cases h

theorem write_spec (r : Register σ) (hw : r.writable = true) (v : Value) (h : v.valid) :
    ∃ r', r.write v = some (r.accepts v.content, r') ∧ r'.name = r.name ∧ r'.access = r.access ∧ r'.writable = true ∧
      r'.content = (if r.accepts v.content then v.content else r.content) ∧ (r.fits = true → r'.fits = true) ∧
      ∀ P, Guarded P r → Guarded P r' := by
  cases r with
  | fixed => cases hw
  | simple n a c =>
    cases hh : c.holding v.content with
    | none =>
      have e1 : (simple (σ := σ) n a c).accepts v.content = false := by simp only [Register.accepts, hh, Option.isSome_none]
      have e2 : (simple (σ := σ) n a c).write v = some (false, simple n a c) := by simp only [Register.write, c.write_spec v h, hh, Option.map_some]
      rw [e1, e2]
      exact ⟨_, rfl, rfl, rfl, rfl, rfl, fun h => h, fun _ h => h⟩
    | some c' =>
      obtain ⟨h1, h2⟩ := Cell.holding_spec (Value.valid_fits h) hh
      have e1 : (simple (σ := σ) n a c).accepts v.content = true := by simp only [Register.accepts, hh, Option.isSome_some]
      have e2 : (simple (σ := σ) n a c).write v = some (true, simple n a c') := by simp only [Register.write, c.write_spec v h, hh, Option.map_some]
      rw [e1, e2]
      exact ⟨_, rfl, rfl, rfl, rfl, h1, h2, fun _ h => h⟩
  | validated n a c s f =>
    cases hh : c.holding v.content with
    | none =>
      have e1 : (validated n a c s f).accepts v.content = false := by simp only [Register.accepts, hh]
      have e2 : (validated n a c s f).write v = some (false, validated n a c s f) := by simp only [Register.write, c.write_spec v h, hh]
      rw [e1, e2]
      exact ⟨_, rfl, rfl, rfl, rfl, rfl, fun h => h, fun _ h => h⟩
    | some c' =>
      obtain ⟨h1, h2⟩ := Cell.holding_spec (Value.valid_fits h) hh
      have e1 : (validated n a c s f).accepts v.content = (f s c').1 := by simp only [Register.accepts, hh]
      have e2 : (validated n a c s f).write v =
          if (f s c').1 then some (true, validated n a c' (f s c').2 f) else some (false, validated n a c (f s c').2 f) := by
        simp only [Register.write, c.write_spec v h, hh]
      rw [e1, e2]
      cases hf : (f s c').1 with
      | true => exact ⟨_, rfl, rfl, rfl, rfl, h1, h2, fun P h => ⟨h.2 _ _ hf, h.2⟩⟩
      | false => exact ⟨_, rfl, rfl, rfl, rfl, rfl, fun h => h, fun _ h => h⟩

theorem accepts_empty (r : Register σ) : r.accepts .empty = false := by
  have h : ∀ c : Cell, c.holding .empty = none := by intro c; cases c <;> rfl
  cases r <;> simp [Register.accepts, h]

/-- A write of the empty value is refused and does nothing. -/
theorem write_empty (r : Register σ) (hw : r.writable = true) : r.write .empty = some (false, r) := by
  have h : ∀ c : Cell, c.write .empty = some (false, c) := by intro c; cases c <;> rfl
  cases r with
  | fixed => cases hw
  | simple n a c => simp [Register.write, h]
  | validated n a c s f => simp [Register.write, h]

end Register

/-! ### Blocks -/

section
variable {R N Tid Trk E : Type}

theorem firstNamed_eq (ops : RegisterOps R) (name : List Byte) : ∀ block, byName ops block name = firstNamed ops name block
  | [] => rfl
  | r :: rest => by
    have ih := firstNamed_eq ops name rest
    unfold byName at ih ⊢
    rw [List.findIdx?_cons, firstNamed, ← ih]
    by_cases h : ops.name r = name
    · rw [if_pos h, h]
      simp
    · rw [if_neg h]
      have : (name == ops.name r) = false := by simpa using fun e => h e.symm
      rw [this]
      simp

theorem firstNamed_lt {ops : RegisterOps R} {name : List Byte} : ∀ {block : List R} {i : Nat}, firstNamed ops name block = some i →
    ∃ r, block[i]? = some r ∧ ops.name r = name
  | [], i, h => by cases h
  | r :: rest, i, h => by
    rw [firstNamed] at h
    split at h
    · injection h with h
      subst h
      exact ⟨r, rfl, by assumption⟩
    · cases hr : firstNamed ops name rest with
      | none => rw [hr] at h; cases h
      | some j =>
        rw [hr] at h
        injection h with h
        subst h
        obtain ⟨r', h1, h2⟩ := firstNamed_lt hr
        exact ⟨r', by simpa using h1, h2⟩

/-- What a response that is made becomes. -/
theorem respond_of {node : CoreNode N Tid Trk} {id : N} (hid : node.nodeId = some id) (env : Env E) (token : ResponseToken N Tid) (block : List R)
    (payload : Payload) (bytes : List Byte)
    (h : doSerialize payload env.alloc = if bytes.length ≤ 64 ∨ env.alloc = true then .bytes bytes else .outOfMemory) :
    respond node env token block payload = some ⟨true, block, node, answer id env token bytes, []⟩ := by
  unfold respond CoreNode.sendResponse answer
  rw [h]
  by_cases hb : bytes.length ≤ 64 ∨ env.alloc = true
  · rw [if_pos hb, if_pos hb]
    simp only [hid]
    cases env.push <;> rfl
  · rw [if_neg hb, if_neg hb]

theorem Style.access_none (s : Style) (ops : RegisterOps R) (utf8 : List Byte → Bool) (block : List R) (request : AccessRequest)
    (h : utf8 request.name = false ∨ firstNamed ops request.name block = none) :
    s.access ops utf8 block request = some (noRegister, block) := by
  cases s with
  | handler =>
    simp only [Style.access, RegisterHandler.access]
    by_cases hu : utf8 request.name = true
    · rw [if_pos hu, firstNamed_eq, h.resolve_left (by simp [hu])]
    · rw [if_neg hu]
  | service =>
    simp only [Style.access, RegisterServer.access]
    by_cases hu : utf8 request.name = true
    · rw [if_pos hu, firstNamed_eq, h.resolve_left (by simp [hu])]
    · rw [if_neg hu]

end

theorem Style.access_some {σ : Type} (s : Style) (utf8 : List Byte → Bool) (block : List (Register σ)) (request : AccessRequest) (hu : utf8 request.name = true)
    {i : Nat} {r : Register σ} (hi : firstNamed Register.ops request.name block = some i) (hr : block[i]? = some r) (hv : request.value.valid) (hf : r.fits = true) :
    ∃ (r' : Register σ) (v : Value), s.access Register.ops utf8 block request = some (⟨0, r.access.isMutable, r.access.persistent, v⟩, block.set i r') ∧
      r'.name = r.name ∧ r'.access = r.access ∧
      r'.content = (if r.access.isMutable && r.accepts request.value.content then request.value.content else r.content) ∧
      v.content = r'.content ∧ v.valid ∧ r'.fits = true ∧ ∀ P, r.Guarded P → r'.Guarded P := by
  have hset : block.set i r = block := by
    have := List.getElem?_eq_some_iff.1 hr
    obtain ⟨h1, h2⟩ := this
    rw [← h2]
    exact List.set_getElem_self h1
  have o1 : ∀ r : Register σ, Register.ops.access r = r.access := fun _ => rfl
  have o2 : ∀ r : Register σ, Register.ops.read r = r.read := fun _ => rfl
  have o3 : ∀ r : Register σ, Register.ops.write r = r.write := fun _ => rfl
  by_cases hm : r.access.isMutable = true
  · obtain ⟨r', w1, w2, w3, w4, w5, w6, w7⟩ := r.write_spec (Register.writable_of_mutable hm) request.value hv
    obtain ⟨v, v1, v2, v3⟩ := r'.read_spec (w6 hf)
    refine ⟨r', v, ?_, w2, w3, by rw [hm, Bool.true_and]; exact w5, v2, v3, w6 hf, w7⟩
    cases s with
    | handler =>
      simp only [Style.access, RegisterHandler.access, hu, if_true, firstNamed_eq, hi, byIndex, hr, handleAccess, o1, o2, o3, hm]
      cases hval : request.value with
      | empty =>
        simp only [Bool.and_false, Bool.false_eq_true, if_false]
        rw [hval, Register.write_empty r (Register.writable_of_mutable hm)] at w1
        injection w1 with w1
        have e : r = r' := (Prod.mk.inj w1).2
        rw [e, v1]
        rfl
      | _ =>
        simp only [Bool.and_true, if_true]
        rw [← hval, w1, Option.map_some]
        simp only [v1, Option.map_some]
    | service =>
      simp only [Style.access, RegisterServer.access, hu, if_true, firstNamed_eq, hi, byIndex, hr, o1, o2, o3, hm, w1, Option.map_some, v1]
  · obtain ⟨v, v1, v2, v3⟩ := r.read_spec hf
    have hm' : r.access.isMutable = false := by simpa using hm
    refine ⟨r, v, ?_, rfl, rfl, by rw [hm']; rfl, v2, v3, hf, fun _ h => h⟩
    cases s with
    | handler =>
      simp only [Style.access, RegisterHandler.access, hu, if_true, firstNamed_eq, hi, byIndex, hr, handleAccess, o1, o2, o3, hm', Bool.false_and,
        Bool.false_eq_true, if_false, v1, Option.map_some]
    | service =>
      simp only [Style.access, RegisterServer.access, hu, if_true, firstNamed_eq, hi, byIndex, hr, o1, o2, o3, hm', Bool.false_eq_true, if_false, v1,
        Option.map_some]

end Verif.Reg
