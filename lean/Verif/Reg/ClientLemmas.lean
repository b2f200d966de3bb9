import Verif.Reg.Client
import Verif.Reg.Props

/-!
Lemmas about the client that reads all registers.
-/

namespace Verif.Reg

open Verif.Dsdl Verif.Enc Verif.Node Verif.App Verif.Pnp

variable {σ Trk E : Type}

/-! ### Requests and answers -/

theorem listRequest_writes (index : BitVec 16) :
    doSerialize (.of listRequestType.writer (.record [.num index.toNat])) true = .bytes (numberBytes 2 index.toNat) := by
  have h := doSerialize_all listRequestType (.record [.num index.toNat]) (numberBytes 2 index.toNat) (by decide +kernel)
    (by
      have := index.isLt
      have h16 : roundUpIntegerSize 16 = 16 := by decide
      simp only [listRequestType, Message.has, Fields.has, hasField, Scalar.has, Prim.has, h16]
      simpa using this)
    (by
      have := index.isLt
      simp [listRequestType, Message.fits, Fields.fits, fitsField, Scalar.fits, Prim.fits]
      try omega)
    (by
      rw [flat_numberBytes]
      have := index.isLt
      have hmin : min index.toNat 65535 = index.toNat := by omega
      simp [listRequestType, Message.bits, Fields.append, appendField, Scalar.append, Prim.bits, Prim.code, hmin])
    (by rw [length_numberBytes]; omega) true
  rw [if_pos (.inr rfl)] at h
  exact h

theorem askName_eq (index : BitVec 16) : askName index = some ⟨listService, numberBytes 2 index.toNat⟩ := by
  rw [askName, listRequest_writes]

theorem askValue_eq (name : List Byte) (hn : name.length ≤ 255) : askValue name = some ⟨accessService, requestBytes name .empty⟩ := by
  have h := accessRequest_writes name hn .empty rfl true
  rw [if_pos (.inr rfl)] at h
  rw [askValue, h]
  rfl

/-- Reading a register changes nothing. -/
theorem handles_read (s : Style) (utf8 : List Byte → Bool) (block : List (Register σ)) (node : CoreNode (BitVec 7) (BitVec 5) Trk) (id : BitVec 7) (hid : node.nodeId = some id)
    (env : Env E) (token : ResponseToken (BitVec 7) (BitVec 5)) (header : ServiceHeader (BitVec 7) (BitVec 5)) (hs : header.service = accessService) (i : Nat) (r : Register σ)
    (hu : utf8 r.name = true) (hn : r.name.length ≤ 255) (hi : firstNamed Register.ops r.name block = some i) (hr : block[i]? = some r) (hf : r.fits = true) :
    s.handles Register.ops utf8 block node env token header (requestBytes r.name .empty) =
      some ⟨true, block, node, answer id env token (responseBytes r.access r.content), []⟩ := by
  obtain ⟨h1, h2⟩ := requestBytes_read r.name hn .empty rfl []
  rw [List.append_nil] at h1 h2
  have hp := parse_request (requestBytes r.name .empty)
  rw [h2] at hp
  obtain ⟨v, hp, hv, -⟩ := hp
  have hv : v = .empty := by
    cases v with
    | empty => rfl
    | _ => cases hv
  subst hv
  rw [h1] at hp
  obtain ⟨w, r1, r2, r3⟩ := Register.read_spec r hf
  have hset : block.set i r = block := by
    have hlt : i < block.length := (List.getElem?_eq_some_iff.1 hr).1
    have he : block[i] = r := (List.getElem?_eq_some_iff.1 hr).2
    rw [← he]
    exact List.set_getElem_self hlt
  have hacc : s.access Register.ops utf8 block ⟨r.name, .empty⟩ = some (⟨0, r.access.isMutable, r.access.persistent, w⟩, block) := by
    have hb : byName Register.ops block r.name = some i := by rw [firstNamed_eq]; exact hi
    have hread : Register.ops.read r = some w := r1
    have haccess : Register.ops.access r = r.access := rfl
    cases s with
    | handler =>
      simp only [Style.access, RegisterHandler.access, hu, if_true, hb, byIndex, hr, handleAccess, Bool.and_false, Bool.false_eq_true, if_false, hread,
        Option.map_some, haccess, hset]
    | service =>
      simp only [Style.access, RegisterServer.access, hu, if_true, hb, byIndex, hr, haccess]
      cases hm : r.access.isMutable with
      | false => simp only [Bool.false_eq_true, if_false, hread, Option.map_some, hset]
      | true =>
        have hw : Register.ops.write r .empty = some (false, r) := Register.write_empty r (Register.writable_of_mutable hm)
        simp only [if_true, hw, Option.map_some, hread, hset]
  unfold Style.handles handleRequest
  rw [if_pos hs, hp]
  simp only [hacc]
  rw [← r2]
  exact respond_of hid env token _ _ _ (accessResponse_writes r.access w r3 env.alloc)

theorem listResponse_read (name : List Byte) (hn : name.length ≤ 255) : parse listResponseType listResponseOfVal (listResponseBytes name) = .ok name := by
  rw [parse_listResponse]
  have h1 : byte (listResponseBytes name) 0 = BitVec.ofNat 8 name.length := rfl
  have h2 := (at_middle [BitVec.ofNat 8 name.length] name []).slice
  rw [List.append_nil] at h2
  rw [h1, BitVec.toNat_ofNat, Nat.mod_eq_of_lt (by omega)]
  exact congrArg _ h2

theorem accessResponse_read (a : Access) (c : Content) (hc : c.fits = true) :
    ∃ q, parse accessResponseType AccessResponse.ofVal (responseBytes a c) = .ok q ∧ q.value.content = c := by
  have h := parse_response (responseBytes a c)
  have hat := at_middle (List.replicate 7 0 ++ [(if a.isMutable then 1 else 0) + (if a.persistent then 2 else 0)]) c.encode []
  rw [List.append_nil] at hat
  have hcont : contentAt (responseBytes a c) 8 = .content c := contentAt_encode c hc (i := 8) hat
  rw [hcont] at h
  obtain ⟨v, h1, h2, -⟩ := h
  exact ⟨_, h1, h2⟩

theorem content_fits (r : Register σ) (h : r.fits = true) : r.content.fits = true := by
  obtain ⟨w, -, r2, r3⟩ := Register.read_spec r h
  rw [← r2]
  exact Value.valid_fits r3

/-! ### The map -/

/-- The entries are in the order of their names. -/
def Ordered (m : List (List Byte × ReadState)) : Prop := m.Pairwise fun a b => nameLt a.1 b.1 = true

theorem nameLt_irrefl (a : List Byte) : nameLt a a = false := by
  simp only [nameLt, decide_eq_false_iff_not]
  exact List.lt_irrefl _

theorem nameLt_trans {a b c : List Byte} (h1 : nameLt a b = true) (h2 : nameLt b c = true) : nameLt a c = true := by
  simp only [nameLt, decide_eq_true_eq] at *
  exact List.lt_trans h1 h2

theorem nameLt_total {a b : List Byte} (h1 : nameLt a b = false) (h2 : a ≠ b) : nameLt b a = true := by
  simp only [nameLt, decide_eq_true_eq, decide_eq_false_iff_not] at *
  have h3 := List.not_lt.1 h1
  rcases Decidable.em (b.map BitVec.toNat < a.map BitVec.toNat) with h | h
  · exact h
  · have := List.le_antisymm (List.not_lt.1 h) h3
    exact absurd (List.map_injective_iff.2 (fun _ _ => BitVec.eq_of_toNat_eq) this) h2

theorem mem_insert {name : List Byte} {s : ReadState} {m : List (List Byte × ReadState)} (hm : ∀ e ∈ m, e.1 ≠ name) {e : List Byte × ReadState} :
    e ∈ insertRegister name s m ↔ e = (name, s) ∨ e ∈ m := by
  induction m with
  | nil => simp [insertRegister]
  | cons a m ih =>
    rw [insertRegister, if_neg (hm a List.mem_cons_self)]
    split
    · exact List.mem_cons
    · rw [List.mem_cons, ih (fun e he => hm e (List.mem_cons_of_mem _ he)), List.mem_cons]
      tauto

theorem ordered_insert {name : List Byte} {s : ReadState} {m : List (List Byte × ReadState)} (hm : ∀ e ∈ m, e.1 ≠ name) (h : Ordered m) :
    Ordered (insertRegister name s m) := by
  induction m with
  | nil => exact List.pairwise_singleton _ _
  | cons a m ih =>
    have h' := List.pairwise_cons.1 h
    rw [insertRegister, if_neg (hm a List.mem_cons_self)]
    split
    · rename_i hlt
      refine List.pairwise_cons.2 ⟨?_, h⟩
      intro e he
      rcases List.mem_cons.1 he with rfl | he
      · exact hlt
      · exact nameLt_trans hlt (h'.1 e he)
    · rename_i hlt
      have hm' : ∀ e ∈ m, e.1 ≠ name := fun e he => hm e (List.mem_cons_of_mem _ he)
      refine List.pairwise_cons.2 ⟨?_, ih hm' h'.2⟩
      intro e he
      rcases (mem_insert hm').1 he with rfl | he
      · exact nameLt_total (by simpa using hlt) (hm a List.mem_cons_self).symm
      · exact h'.1 e he

theorem finish_spec (t : BitVec 5) (v : Value) : ∀ {m : List (List Byte × ReadState)}, (∃ x, (x, .waiting t) ∈ m) →
    ∃ pre x post, m = pre ++ (x, .waiting t) :: post ∧ finish t v m = some (pre ++ (x, .done v) :: post)
  | [], ⟨_, h⟩ => by cases h
  | e :: m, ⟨x, h⟩ => by
    rw [finish]
    split
    · rename_i he
      exact ⟨[], e.1, m, by rw [← he]; rfl, rfl⟩
    · rename_i he
      have h : (x, ReadState.waiting t) ∈ m := by
        rcases List.mem_cons.1 h with rfl | h
        · exact absurd rfl he
        · exact h
      obtain ⟨pre, y, post, h1, h2⟩ := finish_spec t v ⟨x, h⟩
      exact ⟨e :: pre, y, post, by rw [h1]; rfl, by rw [h2]; rfl⟩

theorem ordered_finish {pre post : List (List Byte × ReadState)} {x : List Byte} {s s' : ReadState} (h : Ordered (pre ++ (x, s) :: post)) :
    Ordered (pre ++ (x, s') :: post) := by
  have e : (pre ++ (x, s') :: post).map Prod.fst = (pre ++ (x, s) :: post).map Prod.fst := by simp
  unfold Ordered at *
  rw [← List.pairwise_map (f := Prod.fst) (R := fun a b => nameLt a b = true)] at h ⊢
  rwa [e]

theorem ordered_ne {pre post : List (List Byte × ReadState)} {x : List Byte} {s : ReadState} (h : Ordered (pre ++ (x, s) :: post)) {e : List Byte × ReadState}
    (he : e ∈ pre ∨ e ∈ post) : e.1 ≠ x := by
  have hirr : ∀ a : List Byte, nameLt a a ≠ true := fun a => by rw [nameLt_irrefl]; nofun
  obtain ⟨h1, h2, h3⟩ := List.pairwise_append.1 h
  rintro rfl
  rcases he with he | he
  · exact hirr _ (h3 e he (e.1, s) List.mem_cons_self)
  · exact hirr _ ((List.pairwise_cons.1 h2).1 e he)

/-! ### The requests -/

/-- The requests after `n` names: for each name one for its value and one for the next name. -/
def asked (names : List (List Byte)) : Nat → List Asked
  | 0 => [⟨listService, 0, numberBytes 2 0⟩]
  | n + 1 => asked names n ++
      [⟨accessService, BitVec.ofNat 5 n, requestBytes (names.getD n []) .empty⟩, ⟨listService, BitVec.ofNat 5 (n + 1), numberBytes 2 (n + 1)⟩]

theorem asked_length (names : List (List Byte)) : ∀ n, (asked names n).length = 2 * n + 1
  | 0 => rfl
  | n + 1 => by rw [asked, List.length_append, asked_length names n]; simp only [List.length_cons, List.length_nil]; omega

theorem asked_access (names : List (List Byte)) : ∀ n, (asked names n).countP (fun q => q.service = accessService) = n
  | 0 => rfl
  | n + 1 => by
    rw [asked, List.countP_append, asked_access names n]
    simp [List.countP_cons, accessService, listService]

theorem asked_list (names : List (List Byte)) : ∀ n, (asked names n).countP (fun q => q.service = listService) = n + 1
  | 0 => rfl
  | n + 1 => by
    rw [asked, List.countP_append, asked_list names n]
    simp [List.countP_cons, accessService, listService]

theorem asked_name (names : List (List Byte)) : ∀ n i, i ≤ n → (asked names n)[2 * i]? = some ⟨listService, BitVec.ofNat 5 i, numberBytes 2 i⟩
  | 0, i, h => by
    obtain rfl : i = 0 := by omega
    rfl
  | n + 1, i, h => by
    rw [asked]
    rcases Nat.lt_or_ge n i with h' | h'
    · obtain rfl : i = n + 1 := by omega
      rw [List.getElem?_append_right (by rw [asked_length]; omega), asked_length, show 2 * (n + 1) - (2 * n + 1) = 1 by omega]
      rfl
    · rw [List.getElem?_append_left (by rw [asked_length]; omega), asked_name names n i h']

theorem asked_value (names : List (List Byte)) : ∀ n i, i < n →
    (asked names n)[2 * i + 1]? = some ⟨accessService, BitVec.ofNat 5 i, requestBytes (names.getD i []) .empty⟩
  | 0, i, h => by omega
  | n + 1, i, h => by
    rw [asked]
    rcases Nat.lt_or_ge i n with h' | h'
    · rw [List.getElem?_append_left (by rw [asked_length]; omega), asked_value names n i h']
    · obtain rfl : i = n := by omega
      rw [List.getElem?_append_right (by rw [asked_length]), asked_length, Nat.sub_self]
      rfl

theorem asked_split (names : List (List Byte)) (i : Nat) : ∀ n, i < n → ∃ q tail, asked names n = asked names i ++ q :: tail ∧ q.service = accessService ∧
    tail.countP (fun q => q.service = accessService) = n - (i + 1)
  | 0, h => by omega
  | n + 1, h => by
    rcases Nat.lt_or_ge i n with h' | h'
    · obtain ⟨q, tail, h1, h2, h3⟩ := asked_split names i n h'
      refine ⟨q, tail ++ _, by rw [asked, h1, List.append_assoc, List.cons_append], h2, ?_⟩
      rw [List.countP_append, h3]
      simp only [List.countP_cons, List.countP_nil, accessService, listService]
      simp
      omega
    · obtain rfl : i = n := by omega
      refine ⟨_, _, rfl, rfl, ?_⟩
      simp [List.countP_cons, accessService, listService]

theorem asked_after (names : List (List Byte)) (i n : Nat) (h : i < n) :
    ((asked names n).drop (2 * i + 1 + 1)).countP (fun q => q.service = accessService) = n - (i + 1) := by
  obtain ⟨q, tail, h1, -, h3⟩ := asked_split names i n h
  rw [h1, show 2 * i + 1 + 1 = (asked names i).length + 1 by rw [asked_length], List.drop_append, List.drop_eq_nil_of_le (by omega)]
  simpa using h3

end Verif.Reg
