import Verif.Reg.ClientLemmas

/-!
The invariant of the exchange between the client that reads all registers and a server.
-/

namespace Verif.Reg

open Verif.Dsdl Verif.Enc Verif.Node Verif.App Verif.Pnp

variable {σ Trk E : Type}

theorem even_odd (k : Nat) : ∃ i, k = 2 * i ∨ k = 2 * i + 1 := ⟨k / 2, by omega⟩

/-- Registers that a client can tell apart and that a server can send: their names are different texts of 1 to 255 bytes, each can be read, and there are fewer
than 65535. -/
structure Readable (utf8 : List Byte → Bool) (block : List (Register σ)) : Prop where
  names : (block.map Register.name).Nodup
  ok : ∀ r ∈ block, r.name ≠ [] ∧ r.name.length ≤ 255 ∧ utf8 r.name = true ∧ r.fits = true
  few : block.length < 65535

/-- After `n` names, with answers to the requests in `d`. -/
structure Reached (block : List (Register σ)) (d : List Nat) (n : Nat) (x : Exchange σ) : Prop where
  same : x.block = block
  le : n ≤ block.length
  sent : x.sent = asked (block.map Register.name) n
  next : x.client.next.toNat = n + 1
  ordered : Ordered x.client.registers
  entry : ∀ e ∈ x.client.registers, ∃ i r, i < n ∧ block[i]? = some r ∧ e.1 = r.name ∧
    ((2 * i + 1 ∈ d ∧ ∃ v, e.2 = .done v ∧ v.content = r.content) ∨ (2 * i + 1 ∉ d ∧ e.2 = .waiting (BitVec.ofNat 5 i)))
  known : ∀ i r, i < n → block[i]? = some r → ∃ s, (r.name, s) ∈ x.client.registers
  evens : ∀ i, i < n → 2 * i ∈ d
  bound : ∀ k ∈ d, k < 2 * n + 1
  listed : x.client.listed = true ↔ 2 * n ∈ d
  all : 2 * n ∈ d → n = block.length
  done : x.client.done = true ↔ (x.client.listed = true ∧ ∀ e ∈ x.client.registers, e.2.isDone = true)

theorem checkIfDone_facts (c : Client) : c.checkIfDone.next = c.next ∧ c.checkIfDone.registers = c.registers ∧ c.checkIfDone.listed = c.listed ∧
    (c.checkIfDone.done = true ↔ c.done = true ∨ (c.listed = true ∧ ∀ e ∈ c.registers, e.2.isDone = true)) := by
  unfold Client.checkIfDone
  split
  · rename_i h
    rw [Bool.and_eq_true, List.all_eq_true] at h
    exact ⟨rfl, rfl, rfl, ⟨fun _ => .inr h, fun _ => rfl⟩⟩
  · rename_i h
    rw [Bool.and_eq_true, List.all_eq_true] at h
    refine ⟨rfl, rfl, rfl, ?_⟩
    constructor
    · exact .inl
    · rintro (h' | h')
      · exact h'
      · exact absurd h' h

theorem reached_start (block : List (Register σ)) : ∃ x, Exchange.start block = some x ∧ Reached block [] 0 x := by
  refine ⟨_, by rw [Exchange.start, askName_eq]; rfl, ?_⟩
  exact ⟨rfl, by omega, rfl, rfl, .nil, nofun, fun i r h => by omega, fun i h => by omega, nofun, by simp, by simp, by simp⟩

theorem firstNamed_index {block : List (Register σ)} (hn : (block.map Register.name).Nodup) : ∀ {i : Nat} {r : Register σ}, block[i]? = some r →
    firstNamed Register.ops r.name block = some i := by
  induction block with
  | nil => intro i r h; cases h
  | cons a rest ih =>
    intro i r h
    rw [List.map_cons, List.nodup_cons] at hn
    rw [firstNamed]
    cases i with
    | zero =>
      cases h
      exact if_pos rfl
    | succ i =>
      rw [List.getElem?_cons_succ] at h
      rw [if_neg, ih hn.2 h]
      · rfl
      · intro e
        exact hn.1 (List.mem_map.2 ⟨r, List.mem_of_getElem? h, e.symm⟩)

theorem name_index {block : List (Register σ)} (hn : (block.map Register.name).Nodup) {i j : Nat} {r r' : Register σ} (h : block[i]? = some r) (h' : block[j]? = some r')
    (e : r.name = r'.name) : i = j := by
  have h1 := firstNamed_index hn h
  have h2 := firstNamed_index hn h'
  rw [e, h2] at h1
  injection h1 with h1
  exact h1.symm

/-- When everything was answered, the client is done. -/
theorem reached_done {block : List (Register σ)} (hn : (block.map Register.name).Nodup) {d : List Nat} {n : Nat} {x : Exchange σ} (h : Reached block d n x) :
    x.client.done = true ↔ ∀ k, k < 2 * n + 1 → k ∈ d := by
  rw [h.done, h.listed]
  constructor
  · rintro ⟨h1, h2⟩ k hk
    rcases even_odd k with ⟨i, rfl | rfl⟩
    · rcases Nat.lt_or_ge i n with hi | hi
      · exact h.evens i hi
      · obtain rfl : i = n := by omega
        exact h1
    · have hi : i < n := by omega
      have hlt : i < block.length := Nat.lt_of_lt_of_le hi h.le
      have hri := List.getElem?_eq_getElem hlt
      obtain ⟨s, hs⟩ := h.known i _ hi hri
      obtain ⟨j, r, hj, hr, he, hs'⟩ := h.entry _ hs
      obtain rfl := name_index hn hri hr he
      rcases hs' with ⟨hd, -⟩ | ⟨-, hv⟩
      · exact hd
      · have := h2 _ hs
        rw [hv] at this
        cases this
  · intro hall
    refine ⟨hall _ (by omega), fun e he => ?_⟩
    obtain ⟨i, r, hi, -, -, ⟨-, v, hv, -⟩ | ⟨hn, -⟩⟩ := h.entry e he
    · rw [hv]; rfl
    · exact absurd (hall _ (by omega)) hn

/-- No two unanswered requests for a value have the same transfer ID. -/
def Apart (d : List Nat) (n : Nat) : Prop := ∀ i j, i < n → j < n → 2 * i + 1 ∉ d → 2 * j + 1 ∉ d → BitVec.ofNat 5 i = BitVec.ofNat 5 j → i = j

theorem reached_answer {utf8 : List Byte → Bool} {block : List (Register σ)} (hb : Readable utf8 block) (checks : Bool) (server : ServerSide Trk E)
    (hid : server.node.nodeId = some server.id) (ha : server.env.alloc = true) (hempty : utf8 [] = true) {d : List Nat} {n : Nat} {x : Exchange σ} (h : Reached block d n x) {k : Nat}
    (hk : k ∉ d) (hlt : k < x.sent.length) (hw : Apart d n) :
    ∃ n' x', x.answer checks utf8 server k = some x' ∧ Reached block (d ++ [k]) n' x' := by
  rw [h.sent, asked_length] at hlt
  have hnd : x.client.done = false := by
    cases hd : x.client.done with
    | false => rfl
    | true => exact absurd ((reached_done hb.names h).1 hd k hlt) hk
  have hnames : ∀ r ∈ block, (Register.ops.name r).length ≤ 255 := fun r hr => (hb.ok r hr).2.1
  unfold Exchange.answer
  rw [hnd, if_neg (by nofun), h.sent]
  rcases even_odd k with ⟨i, rfl | rfl⟩
  · -- a name
    have hi : i = n := by
      rcases Nat.lt_or_ge i n with hi | hi
      · exact absurd (h.evens i hi) hk
      · omega
    subst hi
    have hlisted : x.client.listed = false := by
      cases hl : x.client.listed with
      | false => rfl
      | true => exact absurd (h.listed.1 hl) hk
    have hi16 : i < 65536 := by have := h.le; have := hb.few; omega
    have hnum : numberAt (numberBytes 2 i) 0 2 = i := by
      refine At.number (n := 2) ?_ hi16
      have := at_middle [] (numberBytes 2 i) []
      simpa using this
    rw [asked_name _ i i (Nat.le_refl i)]
    dsimp only
    rw [h.same, C76_list_partial server.style Register.ops utf8 block hnames server.node server.id hid server.env _ _ rfl, hnum]
    dsimp only
    unfold Verif.Reg.answer
    rw [if_pos (.inr ha)]
    dsimp only
    unfold Client.handleResponse
    rw [if_pos rfl]
    rcases Nat.lt_or_ge i block.length with hl | hl
    · have hr : block[i]? = some block[i] := List.getElem?_eq_getElem hl
      obtain ⟨o1, o2, o3, o4⟩ := hb.ok _ (List.getElem_mem hl)
      have hname : (block.map Register.ops.name).getD i [] = (block[i]).name := by
        rw [List.getD_eq_getElem?_getD, List.getElem?_map, hr]; rfl
      have hname' : (block.map Register.name).getD i [] = (block[i]).name := hname
      have hnew : ∀ e ∈ x.client.registers, e.1 ≠ (block[i]).name := by
        intro e he hn
        obtain ⟨j, r, hj, hrj, hej, -⟩ := h.entry e he
        have := name_index hb.names hrj hr (hej ▸ hn)
        omega
      have hne : ¬(x.client.next = 65535) := by
        intro e
        have := h.next
        rw [e] at this
        have h1 : (65535 : BitVec 16).toNat = 65535 := rfl
        have := hb.few
        omega
      rw [hname, listResponse_read _ o2]
      dsimp only
      rw [if_pos o3, if_neg o1, askValue_eq _ o2, askName_eq, h.next]
      dsimp only
      rw [if_neg (by rw [decide_eq_false hne, Bool.and_false]; nofun)]
      refine ⟨i + 1, _, rfl, ?_⟩
      constructor
      · rfl
      · exact hl
      · simp only [addRequests, List.foldl_cons, List.foldl_nil, asked, idFor, asked_access, List.countP_append, asked_list, hname']
        simp [accessService, listService]
      · show (x.client.next + 1).toNat = _
        rw [BitVec.toNat_add, h.next]
        have := hb.few
        have h1 : (1 : BitVec 16).toNat = 1 := rfl
        rw [h1]
        omega
      · exact ordered_insert hnew h.ordered
      · intro e he
        rcases (mem_insert hnew).1 he with rfl | he
        · refine ⟨i, _, by omega, hr, rfl, .inr ⟨?_, ?_⟩⟩
          · rw [List.mem_append, List.mem_singleton]
            rintro (hm | hm)
            · have := h.bound _ hm; omega
            · omega
          · simp only [idFor, asked_access]
        · obtain ⟨j, r, hj, hrj, hej, hs⟩ := h.entry e he
          refine ⟨j, r, by omega, hrj, hej, ?_⟩
          rcases hs with ⟨hd, hv⟩ | ⟨hd, hv⟩
          · exact .inl ⟨List.mem_append_left _ hd, hv⟩
          · refine .inr ⟨?_, hv⟩
            rw [List.mem_append, List.mem_singleton]
            rintro (hm | hm)
            · exact hd hm
            · omega
      · intro j r hj hrj
        rcases Nat.lt_or_ge j i with hji | hji
        · obtain ⟨s, hs⟩ := h.known j r hji hrj
          exact ⟨s, (mem_insert hnew).2 (.inr hs)⟩
        · obtain rfl : j = i := by omega
          rw [hr] at hrj
          cases hrj
          exact ⟨_, (mem_insert hnew).2 (.inl rfl)⟩
      · intro j hj
        rcases Nat.lt_or_ge j i with hji | hji
        · exact List.mem_append_left _ (h.evens j hji)
        · obtain rfl : j = i := by omega
          exact List.mem_append_right _ (List.mem_singleton.2 rfl)
      · intro k hk'
        rcases List.mem_append.1 hk' with hk' | hk'
        · have := h.bound k hk'; omega
        · rw [List.mem_singleton] at hk'; omega
      · have : ¬ 2 * (i + 1) ∈ d ++ [2 * i] := by
          rw [List.mem_append, List.mem_singleton]
          rintro (hm | hm)
          · have := h.bound _ hm; omega
          · omega
        refine ⟨fun hl' => ?_, fun hm => absurd hm this⟩
        rw [show x.client.listed = true from hl'] at hlisted
        cases hlisted
      · intro hm
        rw [List.mem_append, List.mem_singleton] at hm
        rcases hm with hm | hm
        · have := h.bound _ hm; omega
        · omega
      · constructor
        · intro hd'
          rw [show x.client.done = true from hd'] at hnd
          cases hnd
        · rintro ⟨hl', -⟩
          rw [show x.client.listed = true from hl'] at hlisted
          cases hlisted
    · have hil : i = block.length := Nat.le_antisymm h.le hl
      have hname : (block.map Register.ops.name).getD i [] = [] := by
        rw [List.getD_eq_getElem?_getD, List.getElem?_eq_none (by rw [List.length_map]; exact hl)]; rfl
      rw [hname, listResponse_read _ (by decide)]
      dsimp only
      have hue : utf8 [] = true := hempty
      rw [if_pos hue, if_pos rfl]
      obtain ⟨c1, c2, c3, c4⟩ := checkIfDone_facts { x.client with listed := true }
      refine ⟨i, _, rfl, ?_⟩
      constructor
      · rfl
      · exact h.le
      · rfl
      · show (Client.checkIfDone _).next.toNat = _
        rw [c1]
        exact h.next
      · show Ordered (Client.checkIfDone _).registers
        rw [c2]
        exact h.ordered
      · show ∀ e ∈ (Client.checkIfDone _).registers, _
        rw [c2]
        intro e he
        obtain ⟨j, r, hj, hrj, hej, hs⟩ := h.entry e he
        refine ⟨j, r, hj, hrj, hej, ?_⟩
        rcases hs with ⟨hd, hv⟩ | ⟨hd, hv⟩
        · exact .inl ⟨List.mem_append_left _ hd, hv⟩
        · refine .inr ⟨?_, hv⟩
          rw [List.mem_append, List.mem_singleton]
          rintro (hm | hm)
          · exact hd hm
          · omega
      · show ∀ (j : Nat) (r : Register σ), _ → _ → ∃ s, (r.name, s) ∈ (Client.checkIfDone _).registers
        rw [c2]
        exact h.known
      · exact fun j hj => List.mem_append_left _ (h.evens j hj)
      · intro k hk'
        rcases List.mem_append.1 hk' with hk' | hk'
        · exact h.bound k hk'
        · rw [List.mem_singleton] at hk'; omega
      · show (Client.checkIfDone _).listed = true ↔ _
        rw [c3]
        exact ⟨fun _ => List.mem_append_right _ (List.mem_singleton.2 rfl), fun _ => rfl⟩
      · exact fun _ => hil
      · show (Client.checkIfDone _).done = true ↔ (Client.checkIfDone _).listed = true ∧ ∀ e ∈ (Client.checkIfDone _).registers, _
        rw [c2, c3, c4]
        constructor
        · rintro (hd | hd)
          · rw [show x.client.done = true from hd] at hnd
            cases hnd
          · exact hd
        · exact .inr
  · -- a value
    have hi : i < n := by omega
    have hl : i < block.length := Nat.lt_of_lt_of_le hi h.le
    have hr : block[i]? = some block[i] := List.getElem?_eq_getElem hl
    obtain ⟨o1, o2, o3, o4⟩ := hb.ok _ (List.getElem_mem hl)
    have hname : (block.map Register.name).getD i [] = (block[i]).name := by
      rw [List.getD_eq_getElem?_getD, List.getElem?_map, hr]; rfl
    rw [asked_value _ n i hi]
    dsimp only
    rw [h.same, hname, handles_read server.style utf8 block server.node server.id hid server.env _ _ rfl i _ o3 o2 (firstNamed_index hb.names hr) hr o4]
    dsimp only
    unfold Verif.Reg.answer
    rw [if_pos (.inr ha)]
    dsimp only
    unfold Client.handleResponse
    rw [if_neg (show ¬accessService = listService by decide), if_pos rfl]
    obtain ⟨q, q1, q2⟩ := accessResponse_read (block[i]).access (block[i]).content (content_fits _ o4)
    rw [q1]
    dsimp only
    -- the entry of this register waits
    obtain ⟨s, hs⟩ := h.known i _ hi hr
    have hwait : ((block[i]).name, ReadState.waiting (BitVec.ofNat 5 i)) ∈ x.client.registers := by
      obtain ⟨j, r, hj, hrj, hej, hsj⟩ := h.entry _ hs
      obtain rfl := name_index hb.names hr hrj hej
      rcases hsj with ⟨hd, -⟩ | ⟨-, hv⟩
      · exact absurd hd hk
      · rwa [show s = _ from hv] at hs
    obtain ⟨pre, y, post, f1, f2⟩ := finish_spec (BitVec.ofNat 5 i) q.value ⟨_, hwait⟩
    have hord := h.ordered
    rw [f1] at hord
    have hy : y = (block[i]).name := by
      obtain ⟨j, r, hj, hrj, hej, hsj⟩ := h.entry (y, .waiting (BitVec.ofNat 5 i)) (by rw [f1]; exact List.mem_append_right _ List.mem_cons_self)
      rcases hsj with ⟨-, v, hv, -⟩ | ⟨hd, hv⟩
      · cases hv
      · injection hv with hv
        obtain rfl := hw i j hi hj hk hd hv
        rw [hr] at hrj
        cases hrj
        exact hej
    rw [f2, Option.getD_some]
    obtain ⟨c1, c2, c3, c4⟩ := checkIfDone_facts { x.client with registers := pre ++ (y, ReadState.done q.value) :: post }
    refine ⟨n, _, rfl, ?_⟩
    constructor
    · rfl
    · exact h.le
    · rfl
    · show (Client.checkIfDone _).next.toNat = _
      rw [c1]
      exact h.next
    · show Ordered (Client.checkIfDone _).registers
      rw [c2]
      exact ordered_finish hord
    · show ∀ e ∈ (Client.checkIfDone _).registers, _
      rw [c2]
      intro e he
      have he : e = (y, .done q.value) ∨ (e ∈ pre ∨ e ∈ post) := by
        rcases List.mem_append.1 he with he | he
        · exact .inr (.inl he)
        · rcases List.mem_cons.1 he with he | he
          · exact .inl he
          · exact .inr (.inr he)
      rcases he with rfl | he
      · exact ⟨i, _, hi, hr, hy, .inl ⟨List.mem_append_right _ (List.mem_singleton.2 rfl), _, rfl, q2⟩⟩
      · have hne := ordered_ne hord he
        have hmem : e ∈ x.client.registers := by
          rw [f1, List.mem_append, List.mem_cons]
          tauto
        obtain ⟨j, r, hj, hrj, hej, hsj⟩ := h.entry e hmem
        refine ⟨j, r, hj, hrj, hej, ?_⟩
        rcases hsj with ⟨hd, hv⟩ | ⟨hd, hv⟩
        · exact .inl ⟨List.mem_append_left _ hd, hv⟩
        · refine .inr ⟨?_, hv⟩
          rw [List.mem_append, List.mem_singleton]
          rintro (hm | hm)
          · exact hd hm
          · obtain rfl : j = i := by omega
            rw [hr] at hrj
            cases hrj
            exact hne (hej.trans hy.symm)
    · show ∀ (j : Nat) (r : Register σ), _ → _ → ∃ s, (r.name, s) ∈ (Client.checkIfDone _).registers
      rw [c2]
      intro j r hj hrj
      obtain ⟨s', hs'⟩ := h.known j r hj hrj
      rw [f1, List.mem_append, List.mem_cons] at hs'
      rcases hs' with hs' | hs' | hs'
      · exact ⟨s', List.mem_append_left _ hs'⟩
      · injection hs' with e1 e2
        exact ⟨_, by rw [e1]; exact List.mem_append_right _ List.mem_cons_self⟩
      · exact ⟨s', List.mem_append_right _ (List.mem_cons_of_mem _ hs')⟩
    · exact fun j hj => List.mem_append_left _ (h.evens j hj)
    · intro k hk'
      rcases List.mem_append.1 hk' with hk' | hk'
      · exact h.bound k hk'
      · rw [List.mem_singleton] at hk'; omega
    · show (Client.checkIfDone _).listed = true ↔ _
      rw [c3, List.mem_append, List.mem_singleton]
      constructor
      · exact fun hl' => .inl (h.listed.1 hl')
      · rintro (hm | hm)
        · exact h.listed.2 hm
        · omega
    · intro hm
      rw [List.mem_append, List.mem_singleton] at hm
      rcases hm with hm | hm
      · exact h.all hm
      · omega
    · show (Client.checkIfDone _).done = true ↔ (Client.checkIfDone _).listed = true ∧ ∀ e ∈ (Client.checkIfDone _).registers, _
      rw [c2, c3, c4]
      constructor
      · rintro (hd | hd)
        · rw [show x.client.done = true from hd] at hnd
          cases hnd
        · exact hd
      · exact .inr

end Verif.Reg
