import Verif.Shipped.Props
import Verif.Reg.Model
import Verif.App.Types
import Verif.Pnp.Model

/-!
C128 for the types that the library uses itself: the definitions in the models of the services are the ones of the table.
-/

namespace Verif.Dsdl

mutual
/-- The types are equal. -/
def Scalar.eq : Scalar → Scalar → Bool
  | .prim p, .prim q => decide (p = q)
  | .composite m, .composite n => m.eq n
  | _, _ => false
/-- The fields are equal. -/
def Fields.eq : Fields → Fields → Bool
  | .nil, .nil => true
  | .padding b rest, .padding c rest' => decide (b = c) && rest.eq rest'
  | .data s a rest, .data t b rest' => s.eq t && decide (a = b) && rest.eq rest'
  | _, _ => false
/-- The variants are equal. -/
def Variants.eq : Variants → Variants → Bool
  | .nil, .nil => true
  | .cons s a rest, .cons t b rest' => s.eq t && decide (a = b) && rest.eq rest'
  | _, _ => false
/-- The messages are equal. -/
def Message.eq : Message → Message → Bool
  | .struct e r fields, .struct e' r' fields' => decide (e = e') && decide (r = r') && fields.eq fields'
  | .union e r variants, .union e' r' variants' => decide (e = e') && decide (r = r') && variants.eq variants'
  | .enum e r b vs, .enum e' r' b' vs' => decide (e = e') && decide (r = r') && decide (b = b') && decide (vs = vs')
  | _, _ => false
end

mutual
theorem Scalar.eq_of : ∀ (s t : Scalar), s.eq t = true → s = t
  | .prim p, .prim q, h => by simp only [Scalar.eq, decide_eq_true_eq] at h; rw [h]
  | .composite m, .composite n, h => by simp only [Scalar.eq] at h; rw [m.eq_of n h]
  | .prim _, .composite _, h => by simp [Scalar.eq] at h
  | .composite _, .prim _, h => by simp [Scalar.eq] at h
theorem Fields.eq_of : ∀ (s t : Fields), s.eq t = true → s = t
  | .nil, .nil, _ => rfl
  | .padding b rest, .padding c rest', h => by
    simp only [Fields.eq, Bool.and_eq_true, decide_eq_true_eq] at h
    rw [h.1, rest.eq_of rest' h.2]
  | .data s a rest, .data t b rest', h => by
    simp only [Fields.eq, Bool.and_eq_true, decide_eq_true_eq] at h
    rw [s.eq_of t h.1.1, h.1.2, rest.eq_of rest' h.2]
  | .nil, .padding _ _, h => by simp [Fields.eq] at h
  | .nil, .data _ _ _, h => by simp [Fields.eq] at h
  | .padding _ _, .nil, h => by simp [Fields.eq] at h
  | .padding _ _, .data _ _ _, h => by simp [Fields.eq] at h
  | .data _ _ _, .nil, h => by simp [Fields.eq] at h
  | .data _ _ _, .padding _ _, h => by simp [Fields.eq] at h
theorem Variants.eq_of : ∀ (s t : Variants), s.eq t = true → s = t
  | .nil, .nil, _ => rfl
  | .cons s a rest, .cons t b rest', h => by
    simp only [Variants.eq, Bool.and_eq_true, decide_eq_true_eq] at h
    rw [s.eq_of t h.1.1, h.1.2, rest.eq_of rest' h.2]
  | .nil, .cons _ _ _, h => by simp [Variants.eq] at h
  | .cons _ _ _, .nil, h => by simp [Variants.eq] at h
theorem Message.eq_of : ∀ (s t : Message), s.eq t = true → s = t
  | .struct e r fields, .struct e' r' fields', h => by
    simp only [Message.eq, Bool.and_eq_true, decide_eq_true_eq] at h
    rw [h.1.1, h.1.2, fields.eq_of fields' h.2]
  | .union e r variants, .union e' r' variants', h => by
    simp only [Message.eq, Bool.and_eq_true, decide_eq_true_eq] at h
    rw [h.1.1, h.1.2, variants.eq_of variants' h.2]
  | .enum e r b vs, .enum e' r' b' vs', h => by
    simp only [Message.eq, Bool.and_eq_true, decide_eq_true_eq] at h
    rw [h.1.1.1, h.1.1.2, h.1.2, h.2]
  | .struct _ _ _, .union _ _ _, h => by simp [Message.eq] at h
  | .struct _ _ _, .enum _ _ _ _, h => by simp [Message.eq] at h
  | .union _ _ _, .struct _ _ _, h => by simp [Message.eq] at h
  | .union _ _ _, .enum _ _ _ _, h => by simp [Message.eq] at h
  | .enum _ _ _ _, .struct _ _ _, h => by simp [Message.eq] at h
  | .enum _ _ _ _, .union _ _ _, h => by simp [Message.eq] at h
end

end Verif.Dsdl

namespace Verif.Shipped

open Verif.Enc Verif.Dsdl

/-- The types in the models of the library, with their numbers and paths in the table. -/
def used : List (Nat × String × Message) := [
  (159, "uavcan::node::heartbeat_1_0::Heartbeat", App.heartbeatType),
  (170, "uavcan::node::port::list_1_0::List", App.portListType),
  (177, "uavcan::pnp::node_id_allocation_data_1_0::NodeIDAllocationData", Pnp.alloc1Type),
  (178, "uavcan::pnp::node_id_allocation_data_2_0::NodeIDAllocationData", Pnp.alloc2Type),
  (206, "uavcan::register::access_1_0::AccessRequest", Reg.accessRequestType),
  (207, "uavcan::register::access_1_0::AccessResponse", Reg.accessResponseType),
  (208, "uavcan::register::list_1_0::ListRequest", Reg.listRequestType),
  (209, "uavcan::register::list_1_0::ListResponse", Reg.listResponseType)]

/-- Every one of these types is in the table. -/
def inTable (types : List Message) : Bool :=
  used.all fun u => isAt u.1 u.2.1 && (types[u.1]?.any fun m => m.eq u.2.2)

theorem used_inTable : inTable messages = true := by decide +kernel

/-- **C128.** The library's own services use the shipped types, and the models of the services (heartbeats, port lists, node ID allocation, register servers) use the
definitions of these types: what the shipped type does is what the model of the service assumes, for every value and all bytes. -/
theorem C128_used (u : Nat × String × Message) (hu : u ∈ used) :
    ∃ t i, shipped[u.1]? = some t ∧ t.path = u.2.1 ∧ impls[u.1]? = some i ∧ messages[u.1]? = some u.2.2 ∧
      (∀ v, u.2.2.has v = true → i.sizeBits v = u.2.2.sizeBits v ∧ ∀ c, i.serialize v c = u.2.2.serialize v c) ∧
      ∀ c, i.deserialize c = u.2.2.deserialize c := by
  have h := List.all_eq_true.1 used_inTable u hu
  rw [Bool.and_eq_true] at h
  obtain ⟨h1, h2⟩ := h
  have h1' : (shipped[u.1]?.map (·.path)) = some u.2.1 := by simpa [isAt] using h1
  rw [Option.map_eq_some_iff] at h1'
  obtain ⟨t, ht, hp⟩ := h1'
  obtain ⟨i, m, hi, hm, f⟩ := shipped_facts ht
  rw [hm, Option.any_some] at h2
  have e := m.eq_of u.2.2 h2
  rw [e] at hm f
  exact ⟨t, i, ht, hp, hi, hm, fun v hv => ⟨f.implements.size v hv, fun c => f.implements.ser v c hv⟩, f.implements.de⟩

example : (159, "uavcan::node::heartbeat_1_0::Heartbeat", App.heartbeatType) ∈ used := List.mem_cons_self

end Verif.Shipped
