import Verif.Core.Equal

/-! # C147: comparing, copying and changing headers -/

namespace Verif

variable {Node Tid : Type}

theorem MessageHeader.same_iff [BEq Node] [LawfulBEq Node] [BEq Tid] [LawfulBEq Tid] (a b : MessageHeader Node Tid) :
    a.same b = true ↔ a = b := by
  cases a; cases b
  simp [MessageHeader.same, and_assoc]

theorem ServiceHeader.same_iff [BEq Node] [LawfulBEq Node] [BEq Tid] [LawfulBEq Tid] (a b : ServiceHeader Node Tid) :
    a.same b = true ↔ a = b := by
  cases a; cases b
  simp [ServiceHeader.same, and_assoc]

theorem Header.same_iff [BEq Node] [LawfulBEq Node] [BEq Tid] [LawfulBEq Tid] (a b : Header Node Tid) :
    a.same b = true ↔ a = b := by
  cases a <;> cases b <;> simp [Header.same, MessageHeader.same_iff, ServiceHeader.same_iff]

/-- C147: if the comparisons of node and transfer IDs tell exactly whether they are the same, so do the comparisons of headers
and transfers. Messages, requests and responses are never the same. -/
theorem C147_equal [BEq Node] [LawfulBEq Node] [BEq Tid] [LawfulBEq Tid] :
    (∀ a b : Header Node Tid, a.same b = true ↔ a = b) ∧ ∀ a b : Transfer Node Tid, a.same b = true ↔ a = b := by
  refine ⟨Header.same_iff, fun a b => ?_⟩
  cases a; cases b
  simp [Transfer.same, Header.same_iff, and_assoc]

/-- C147: the same for transfers that are always messages and for those that are always requests or responses, with payloads
of any type with an exact comparison. -/
theorem C147_equal_of_kind {P : Type} [BEq Node] [LawfulBEq Node] [BEq Tid] [LawfulBEq Tid] [BEq P] [LawfulBEq P] :
    (∀ a b : MessageTransfer Node Tid P, a.same b = true ↔ a = b) ∧ ∀ a b : ServiceTransfer Node Tid P, a.same b = true ↔ a = b := by
  constructor
  · intro a b
    cases a; cases b
    simp [MessageTransfer.same, MessageHeader.same_iff, and_assoc]
  · intro a b
    cases a; cases b
    simp [ServiceTransfer.same, ServiceHeader.same_iff, and_assoc]

/-- C147: a copy of a transfer is the same transfer, if copies of node and transfer IDs are. -/
theorem C147_clone (node : Node → Node) (tid : Tid → Tid) (hn : ∀ x, node x = x) (ht : ∀ x, tid x = x) (t : Transfer Node Tid) :
    t.clone node tid = t := by
  have hn : node = id := funext hn
  have ht : tid = id := funext ht
  obtain ⟨h, l, p⟩ := t
  subst hn ht
  cases h <;> simp [Transfer.clone, Header.clone, MessageHeader.clone, ServiceHeader.clone]

/-- C147: after setting the priority of a header it has this priority; its kind and all other fields are as before, so that
setting the former priority again gives the former header. -/
theorem C147_priority (h : Header Node Tid) (p : Priority) :
    (h.setPriority p).priority = p ∧ (h.setPriority p).kind = h.kind ∧ (h.setPriority p).timestamp = h.timestamp
    ∧ (h.setPriority p).source = h.source ∧ (h.setPriority p).destination = h.destination ∧ (h.setPriority p).port = h.port
    ∧ (h.setPriority p).transferId = h.transferId ∧ (h.setPriority p).setPriority h.priority = h := by
  cases h <;> exact ⟨rfl, rfl, rfl, rfl, rfl, rfl, rfl, rfl⟩

/-! ### Cases -/

/-- A request of node 5 to node 7. -/
def someRequest : ServiceHeader (BitVec 7) (BitVec 5) := ⟨1000#32, 3#5, 4#3, 430#9, 5#7, 7#7⟩

example : (Header.request someRequest).same (.request someRequest) = true := by decide
example : (Header.request someRequest).same (.response someRequest) = false := by decide
example : (Header.request someRequest).same (.request { someRequest with destination := 8#7 }) = false := by decide
example : (Header.request someRequest).setPriority 1#3 = .request { someRequest with priority := 1#3 } := by decide
example : (⟨.request someRequest, true, [1#8]⟩ : Transfer (BitVec 7) (BitVec 5)).clone id id = ⟨.request someRequest, true, [1#8]⟩ := by decide
example : (⟨someRequest, false, "a"⟩ : ServiceTransfer (BitVec 7) (BitVec 5) String).same ⟨someRequest, false, "b"⟩ = false := by decide

end Verif
