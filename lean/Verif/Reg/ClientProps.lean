import Verif.Reg.ClientInv

/-!
Property C137: the program that reads all registers of a node (`canadensis/examples/register_client.rs`) and a register server.
-/

namespace Verif.Reg

open Verif.Dsdl Verif.Enc Verif.Node Verif.App Verif.Pnp

variable {σ Trk E : Type}

/-! ### Specification vocabulary -/

/-- Answers arrive only to requests that were sent, and each at most once. They can come late, in any order, or not at all. -/
def OnceEach (checks : Bool) (utf8 : List Byte → Bool) (server : ServerSide Trk E) (block : List (Register σ)) (ks : List Nat) : Prop :=
  ks.Nodup ∧ ∀ before k after x, ks = before ++ k :: after → Exchange.run checks utf8 server block before = some x → k < x.sent.length

/-- No request for a value is still unanswered when the 32nd such request after it is sent. -/
def InTime (checks : Bool) (utf8 : List Byte → Bool) (server : ServerSide Trk E) (block : List (Register σ)) (ks : List Nat) : Prop :=
  ∀ before after x j q, ks = before ++ after → Exchange.run checks utf8 server block before = some x → x.sent[j]? = some q → q.service = accessService →
    j ∉ before → (x.sent.drop (j + 1)).countP (fun q => q.service = accessService) < 32

/-! ### Runs -/

theorem run_snoc (checks : Bool) (utf8 : List Byte → Bool) (server : ServerSide Trk E) (block : List (Register σ)) (ks : List Nat) (k : Nat) :
    Exchange.run checks utf8 server block (ks ++ [k]) = (Exchange.run checks utf8 server block ks).bind fun x => x.answer checks utf8 server k := by
  unfold Exchange.run
  cases Exchange.start block with
  | none => rfl
  | some x =>
    simp only [Option.bind_some, List.foldlM_append, List.foldlM_cons, List.foldlM_nil]
    cases List.foldlM (fun x k => Exchange.answer checks utf8 server x k) x ks with
    | none => rfl
    | some y => simp

theorem reached_run {utf8 : List Byte → Bool} {block : List (Register σ)} (hb : Readable utf8 block) (checks : Bool) (server : ServerSide Trk E)
    (hid : server.node.nodeId = some server.id) (ha : server.env.alloc = true) (hempty : utf8 [] = true) (ks : List Nat) (ho : OnceEach checks utf8 server block ks)
    (ht : block.length ≤ 32 ∨ InTime checks utf8 server block ks) :
    ∀ before after, ks = before ++ after → ∃ n x, Exchange.run checks utf8 server block before = some x ∧ Reached block before n x := by
  intro before
  induction before using List.reverseRecOn with
  | nil =>
    intro after _
    obtain ⟨x, h1, h2⟩ := reached_start block
    exact ⟨0, x, by rw [Exchange.run, h1]; rfl, h2⟩
  | append_singleton before k ih =>
    intro after e
    have e' : ks = before ++ k :: after := by rw [e, List.append_assoc]; rfl
    obtain ⟨n, x, h1, h2⟩ := ih _ e'
    have hk : k ∉ before := by
      have := ho.1
      rw [e'] at this
      exact fun hm => (List.nodup_append.1 this).2.2 k hm k List.mem_cons_self rfl
    have hw : Apart before n := by
      have key : ∀ i j, i < j → j < n → 2 * i + 1 ∉ before → BitVec.ofNat 5 i = BitVec.ofNat 5 j → False := by
        intro i j hij hj hi e5
        have e5 := congrArg BitVec.toNat e5
        simp only [BitVec.toNat_ofNat] at e5
        rcases ht with ht | ht
        · have := h2.le; omega
        · have := ht before (k :: after) x (2 * i + 1) _ e' h1 (by rw [h2.sent]; exact asked_value _ n i (by omega)) rfl hi
          rw [h2.sent, asked_after _ i n (by omega)] at this
          omega
      intro i j hi hj hi' hj' e5
      rcases Nat.lt_trichotomy i j with h | h | h
      · exact (key i j h hj hi' e5).elim
      · exact h
      · exact (key j i h hi hj' e5.symm).elim
    obtain ⟨n', x', h3, h4⟩ := reached_answer hb checks server hid ha hempty h2 hk (ho.2 before k after x e' h1) hw
    exact ⟨n', x', by rw [run_snoc, h1]; exact h3, h4⟩

/-- What is printed of a map all of whose entries are done. -/
theorem printed_perm {block : List (Register σ)} (hn : (block.map Register.name).Nodup) {d : List Nat} {x : Exchange σ} (h : Reached block d block.length x)
    (hd : ∀ k, k < 2 * block.length + 1 → k ∈ d) :
    (x.client.printed.map fun e => (e.1, e.2.content)).Perm (block.map fun r => (r.name, r.content)) := by
  have hnd : (x.client.registers.map Prod.fst).Nodup := by
    have h1 := h.ordered
    unfold Ordered at h1
    rw [← List.pairwise_map (f := Prod.fst) (R := fun a b => nameLt a b = true)] at h1
    refine h1.imp ?_
    rintro a b hab rfl
    rw [nameLt_irrefl] at hab
    cases hab
  have hp : x.client.printed.map Prod.fst = x.client.registers.map Prod.fst := by
    have hall : ∀ e ∈ x.client.registers, ∃ v, e.2 = .done v := by
      intro e he
      obtain ⟨i, r, hi, -, -, ⟨-, v, hv, -⟩ | ⟨hne, -⟩⟩ := h.entry e he
      · exact ⟨v, hv⟩
      · exact absurd (hd _ (by omega)) hne
    unfold Client.printed
    generalize x.client.registers = m at hall
    induction m with
    | nil => rfl
    | cons e m ih =>
      obtain ⟨v, hv⟩ := hall e List.mem_cons_self
      rw [List.filterMap_cons]
      simp only [hv, List.map_cons]
      rw [ih fun e he => hall e (List.mem_cons_of_mem _ he)]
  have hmem : ∀ e ∈ x.client.printed, (e.1, ReadState.done e.2) ∈ x.client.registers := by
    intro e he
    unfold Client.printed at he
    obtain ⟨a, ha, hae⟩ := List.mem_filterMap.1 he
    obtain ⟨a1, a2⟩ := a
    cases a2 with
    | waiting t => cases hae
    | done v => cases hae; exact ha
  refine (List.perm_ext_iff_of_nodup ?_ ?_).2 ?_
  · apply List.Nodup.of_map Prod.fst
    rw [List.map_map]
    show (x.client.printed.map Prod.fst).Nodup
    rw [hp]
    exact hnd
  · apply List.Nodup.of_map Prod.fst
    rw [List.map_map]
    exact hn
  · rintro ⟨name, c⟩
    constructor
    · intro hm
      obtain ⟨e, he, hec⟩ := List.mem_map.1 hm
      cases hec
      obtain ⟨i, r, hi, hr, hei, ⟨-, v, hv, hc⟩ | ⟨-, hv⟩⟩ := h.entry _ (hmem e he)
      · injection hv with hv
        subst hv
        exact List.mem_map.2 ⟨r, List.mem_of_getElem? hr, by rw [hc]; exact Prod.ext hei.symm rfl⟩
      · cases hv
    · intro hm
      obtain ⟨r, hr, hrc⟩ := List.mem_map.1 hm
      cases hrc
      obtain ⟨i, hi, hri⟩ := List.mem_iff_getElem.1 hr
      have hri' : block[i]? = some r := by rw [List.getElem?_eq_getElem hi, hri]
      obtain ⟨s, hs⟩ := h.known i r hi hri'
      obtain ⟨j, r', hj, hr', he, ⟨-, v, hv, hc⟩ | ⟨hne, -⟩⟩ := h.entry _ hs
      · obtain rfl := name_index hn hri' hr' he
        rw [hri'] at hr'
        cases hr'
        refine List.mem_map.2 ⟨(r.name, v), ?_, by rw [hc]⟩
        unfold Client.printed
        exact List.mem_filterMap.2 ⟨_, hs, by rw [show s = _ from hv]⟩
      · exact absurd (hd _ (by omega)) hne

/-- A test for `OnceEach`. -/
theorem onceEach_of (checks : Bool) (utf8 : List Byte → Bool) (server : ServerSide Trk E) (block : List (Register σ)) (ks : List Nat) (hn : ks.Nodup)
    (h : ∀ i, i < ks.length → (match Exchange.run checks utf8 server block (ks.take i), ks[i]? with | some x, some k => decide (k < x.sent.length) | _, _ => true) = true) :
    OnceEach checks utf8 server block ks := by
  refine ⟨hn, ?_⟩
  rintro before k after x rfl hx
  have := h before.length (by simp)
  rw [List.take_left, hx] at this
  simpa using this

/-- A test for `InTime`. -/
theorem inTime_of (checks : Bool) (utf8 : List Byte → Bool) (server : ServerSide Trk E) (block : List (Register σ)) (ks : List Nat)
    (h : ∀ i, i < ks.length + 1 → (match Exchange.run checks utf8 server block (ks.take i) with
      | some x => (List.range x.sent.length).all fun j => (ks.take i).contains j || decide ((x.sent.drop (j + 1)).countP (fun q => q.service = accessService) < 32)
      | none => true) = true) :
    InTime checks utf8 server block ks := by
  rintro before after x j q rfl hx hj - hm
  have := h before.length (by simp; omega)
  rw [List.take_left, hx] at this
  have := List.all_eq_true.1 this j (List.mem_range.2 (List.getElem?_eq_some_iff.1 hj).1)
  simpa [hm] using this

/-! ### The property -/

/-- **C137.** The program reads the registers of a node that has one of the register servers, with any loss, delay and order of the answers, as long as each answer
comes at most once and, if there are more than 32 registers, no answer is so late that its transfer ID is used again before it. Nothing panics, and the registers keep
their contents. A value that the program has for a name is the content of the register with this name. When it is done, it prints all registers and nothing else, in
the order of their names; and it is done when all its requests have been answered. -/
theorem C137_reads_partial (checks : Bool) (utf8 : List Byte → Bool) (hempty : utf8 [] = true) (server : ServerSide Trk E) (hid : server.node.nodeId = some server.id)
    (ha : server.env.alloc = true) (block : List (Register σ)) (hb : Readable utf8 block) (ks : List Nat) (ho : OnceEach checks utf8 server block ks)
    (ht : block.length ≤ 32 ∨ InTime checks utf8 server block ks) :
    ∃ x, Exchange.run checks utf8 server block ks = some x ∧ x.block = block ∧
      (∀ name v, (name, ReadState.done v) ∈ x.client.registers → ∃ r ∈ block, r.name = name ∧ v.content = r.content) ∧
      (x.client.done = true → (x.client.printed.map fun e => (e.1, e.2.content)).Perm (block.map fun r => (r.name, r.content)) ∧
        x.client.printed.Pairwise fun a b => nameLt a.1 b.1 = true) ∧
      ((∀ k, k < x.sent.length → k ∈ ks) → x.client.done = true) := by
  obtain ⟨n, x, h1, h2⟩ := reached_run hb checks server hid ha hempty ks ho ht ks [] (List.append_nil ks).symm
  refine ⟨x, h1, h2.same, ?_, ?_, ?_⟩
  · intro name v hm
    obtain ⟨i, r, -, hr, he, ⟨-, w, hw, hc⟩ | ⟨-, hw⟩⟩ := h2.entry _ hm
    · injection hw with hw
      subst hw
      exact ⟨r, List.mem_of_getElem? hr, he.symm, hc⟩
    · cases hw
  · intro hd
    have hall := (reached_done hb.names h2).1 hd
    obtain rfl := h2.all (hall _ (by omega))
    refine ⟨printed_perm hb.names h2 hall, ?_⟩
    have h3 := h2.ordered
    unfold Ordered at h3
    unfold Client.printed
    rw [List.pairwise_filterMap]
    refine h3.imp ?_
    rintro ⟨a1, a2⟩ ⟨b1, b2⟩ hab c hc d hd
    cases a2 <;> cases b2 <;> simp at hc hd
    subst hc hd
    exact hab
  · intro hall
    rw [h2.sent, asked_length] at hall
    exact (reached_done hb.names h2).2 hall

/-! ### Examples -/

/-- A server on node 7 for node 9. -/
def demoServer : ServerSide Can.CanTransferIdTracker Unit := ⟨.handler, demoCore, demoEnv .ok, 7, 9, 4⟩

/-- The contents that the program prints. -/
def demoPrinted (block : List (Register Nat)) (ks : List Nat) : Option (Bool × List (List Byte × Content)) :=
  (Exchange.run true (fun _ => true) demoServer block ks).map fun x => (x.client.done, x.client.printed.map fun e => (e.1, e.2.content))

-- Four registers; the last value comes first, and the first value comes last.
example : demoServer.node.nodeId = some demoServer.id ∧ demoServer.env.alloc = true ∧
    demoPrinted demoPlain [0, 2, 4, 6, 7, 3, 8, 5, 1] =
      some (true, [([97], .numbers .natural16 [50]), ([99], .string [1, 2, 3]), ([100], .numbers .real32 [1, 2]), ([101], .unstructured [7])]) ∧
    demoPrinted demoPlain [0, 2, 4, 6, 7, 3] =
      some (false, [([99], .string [1, 2, 3]), ([101], .unstructured [7])]) := by decide +kernel

example : Readable (fun _ => true) demoPlain ∧ OnceEach true (fun _ => true) demoServer demoPlain [0, 2, 4, 6, 7, 3, 8, 5, 1] :=
  ⟨⟨by decide, by decide, by decide⟩, onceEach_of _ _ _ _ _ (by decide) (by decide +kernel)⟩

/-! ### Counterexamples -/

/-- 33 registers, named by one byte from `A` on, whose values are their positions. -/
def demoMany : List (Register Nat) := (List.range 33).map fun i => .simple [BitVec.ofNat 8 (65 + i)] ⟨true, true⟩ (.number .natural16 (BitVec.ofNat 16 i))

/-- The requests for the names of the 33 registers. -/
def demoNames : List Nat := (List.range 33).map (2 * ·)

-- If the answers come in the order of the requests, then all 33 are read.
example : InTime true (fun _ => true) demoServer demoMany (List.range 67) ∧ OnceEach true (fun _ => true) demoServer demoMany (List.range 67) ∧
    (demoPrinted demoMany (List.range 67)).map (fun r => (r.1, r.2.length)) = some (true, 33) :=
  ⟨inTime_of _ _ _ _ _ (by decide +kernel), onceEach_of _ _ _ _ _ (by decide +kernel) (by decide +kernel), by decide +kernel⟩

/-- Without the assumption about late answers the claim is false: if the answer to the first request for a value is lost, then the program takes the value of the
33rd register for that of the first. -/
theorem C137_lost_counterexample : Readable (fun _ => true) demoMany ∧ OnceEach true (fun _ => true) demoServer demoMany (demoNames ++ [65]) ∧
    demoPrinted demoMany (demoNames ++ [65]) = some (false, [([65], .numbers .natural16 [32])]) ∧
    (demoMany.head?.map fun r => (r.name, r.content)) = some ([65], .numbers .natural16 [0]) := by
  refine ⟨⟨by decide +kernel, by decide +kernel, by decide +kernel⟩, onceEach_of _ _ _ _ _ (by decide +kernel) (by decide +kernel),
    by decide +kernel, by decide +kernel⟩

/-- The program does not look at the source of a response: one from any node is taken for the answer of the target node. -/
theorem C137_source_counterexample (checks : Bool) (utf8 : List Byte → Bool) (c : Client) (accessId : BitVec 5) (header : ServiceHeader (BitVec 7) (BitVec 5)) (other : BitVec 7)
    (payload : List Byte) :
    c.handleResponse checks utf8 accessId { header with source := other } payload = c.handleResponse checks utf8 accessId header payload := rfl

-- Node 3 answers for node 7.
example : ((⟨2, [([97], .waiting 0)], true, false⟩ : Client).handleResponse true (fun _ => true) 1 ⟨0, 0, 4, accessService, 3, 9⟩
    (responseBytes ⟨true, true⟩ (.string [1]))).map (fun r => (r.2.1.done, r.2.1.printed.map fun e => (e.1, e.2.content))) =
      some (true, [([97], .string [1])]) := by decide +kernel

/-- A name that is not UTF-8 ends the program as if all registers had been read, even if no value is known. -/
theorem C137_utf8_counterexample (checks : Bool) (utf8 : List Byte → Bool) (c : Client) (accessId : BitVec 5) (header : ServiceHeader (BitVec 7) (BitVec 5))
    (hs : header.service = listService) (name : List Byte) (hn : name.length ≤ 255) (hu : utf8 name = false) :
    c.handleResponse checks utf8 accessId header (listResponseBytes name) = some (true, { c with done := true }, []) := by
  unfold Client.handleResponse
  rw [if_pos hs, listResponse_read name hn]
  dsimp only
  rw [if_neg (by rw [hu]; nofun)]

end Verif.Reg
