import Verif.Core.Transfer
import Verif.Dsdl.Model

/-!
The list of subjects of fixed capacity, `canadensis_data_types/src/optimized.rs`, and the generated type that it can be used in place of, `uavcan.node.port.SubjectIDList.1.0`.
-/

namespace Verif.Dsdl

open Verif.Enc

/-- `size_bits` of `SubjectIdList` (canadensis_data_types/src/optimized.rs L28-31). -/
def optSizeBits (ids : List SubjectId) : Nat := 8 + 8 + ids.length * 16

/-- `SUBJECT_ID_SPARSE_LIST_DISCRIMINANT` (canadensis_data_types/src/optimized.rs L5). -/
def sparseListTag : Nat := 1

/-- The loop in `serialize` of `SubjectIdList` (canadensis_data_types/src/optimized.rs L38-40). -/
def optWriteIds : List SubjectId → WriteCursor → Option WriteCursor
  | [], c => some c
  | id :: ids, c =>
    match c.writeAlignedU 2 (id.setWidth 64) with
    | none => none
    | some c => optWriteIds ids c

/-- `serialize` of `SubjectIdList` (canadensis_data_types/src/optimized.rs L33-41); the length is cast to `u8`. -/
def optSerialize (ids : List SubjectId) (c : WriteCursor) : Option WriteCursor :=
  match c.writeAlignedU 1 (BitVec.ofNat 64 sparseListTag) with
  | none => none
  | some c =>
    match c.writeAlignedU 1 (BitVec.ofNat 64 (ids.length % 256)) with
    | none => none
    | some c => optWriteIds ids c

/-- The loop in `deserialize` of `SubjectIdList` (canadensis_data_types/src/optimized.rs L58-61) with `SubjectId::from_truncating` (canadensis_core/src/lib.rs). -/
def optReadIds : Nat → ReadCursor → Option (List SubjectId × ReadCursor)
  | 0, c => some ([], c)
  | n + 1, c =>
    match c.readAlignedU16 with
    | none => none
    | some (id, c) => (optReadIds n c).map fun p => (id.setWidth 13 :: p.1, p.2)

/-- `deserialize` of `SubjectIdList<N>` (canadensis_data_types/src/optimized.rs L44-64). -/
def optDeserialize (N : Nat) (c : ReadCursor) : Rd (List SubjectId) :=
  match c.readAlignedU8 with
  | none => none
  | some (tag, c) =>
    if tag.toNat ≠ sparseListTag then some (.error .unionTag, c)
    else
      match c.readAlignedU8 with
      | none => none
      | some (length, c) =>
        if N < length.toNat then some (.error .arrayLength, c)
        else
          match optReadIds length.toNat c with
          | none => none
          | some (ids, c) => some (.ok ids, c)

/-- `uavcan.node.port.SubjectID.1.0` (canadensis_data_types/src/generated.rs L9830-9875). -/
def subjectIDType : Message := .struct none false (.data (.prim (.uint 13 true)) .scalar .nil)

/-- `uavcan.primitive.Empty.1.0` (canadensis_data_types/src/generated.rs). -/
def emptyType : Message := .struct none false .nil

/-- `uavcan.node.port.SubjectIDList.1.0` (canadensis_data_types/src/generated.rs L9986-10088): `bool[8192]`, `SubjectID.1.0[<=255]` or `Empty.1.0`, with an extent of 4097 bytes. -/
def subjectIDListType : Message :=
  .union (some (8 * 4097)) false (.cons (.prim .boolean) (.fixed 8192) (.cons (.composite subjectIDType) (.var 255) (.cons (.composite emptyType) .scalar .nil)))

/-- `SubjectIDList::SparseList` of the generated type with these subjects. -/
def sparseList (ids : List SubjectId) : Val := .variant 1 (.list (ids.map fun id => .record [.num id.toNat]))

end Verif.Dsdl
