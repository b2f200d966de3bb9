import Verif.Basic

/-!
`CanTransferIdTracker` (`canadensis_can/src/lib.rs` L98-127). The storage is a `BitArray<[u32; 20], LocalBits>` of the `bitvec`
crate, which is not in /repo. What is written here is its behaviour on a little-endian target (`LocalBits` is `Lsb0`, `load`
is `load_le`): bit `k` of the array is bit `k % 32` of word `k / 32`, and in a slice the first bit is the least significant
one. A panic is `none`.
-/

namespace Verif.Can

/-- Bit `k` of the array. Not in /repo (`bitvec`). -/
def bitAt (ids : List (BitVec 32)) (k : Nat) : Option Bool := (ids[k / 32]?).map (fun w => w.getLsbD (k % 32))

/-- Write bit `k` of the array. Not in /repo (`bitvec`). -/
def setBit (ids : List (BitVec 32)) (k : Nat) (b : Bool) : Option (List (BitVec 32)) :=
  match ids[k / 32]? with
  | none => none
  | some w => some (ids.set (k / 32) (if b then w ||| (1#32 <<< (k % 32)) else w &&& ~~~ (1#32 <<< (k % 32))))

/-- `load` of the slice of `n` bits that begins at `offset`. Not in /repo (`bitvec`). -/
def loadBits (ids : List (BitVec 32)) (offset : Nat) : Nat → Option Nat
  | 0 => some 0
  | n + 1 =>
    match bitAt ids offset, loadBits ids (offset + 1) n with
    | some b, some rest => some (b.toNat + 2 * rest)
    | _, _ => none

/-- `store` of the low `n` bits of `v` into the slice that begins at `offset`. Not in /repo (`bitvec`). -/
def storeBits (ids : List (BitVec 32)) (offset : Nat) : Nat → Nat → Option (List (BitVec 32))
  | 0, _ => some ids
  | n + 1, v =>
    match setBit ids offset (decide (v % 2 = 1)) with
    | none => none
    | some ids => storeBits ids (offset + 1) n (v / 2)

/-- `CanTransferIdTracker` (`canadensis_can/src/lib.rs` L101-103). -/
structure CanTransferIdTracker where
  ids : List (BitVec 32)

/-- `CanTransferIdTracker::default` (`canadensis_can/src/lib.rs` L105-111). -/
def CanTransferIdTracker.default : CanTransferIdTracker := { ids := List.replicate 20 0#32 }

/-- `next_transfer_id` (`canadensis_can/src/lib.rs` L115-127). `CanTransferId::try_from` fails above 31
(`canadensis_can/src/data.rs`), and the `unwrap` then panics. -/
def CanTransferIdTracker.nextTransferId (t : CanTransferIdTracker) (destination : BitVec 7) :
    Option (CanTransferIdTracker × BitVec 5) :=
  let offset := destination.toNat * 5
  match loadBits t.ids offset 5 with
  | none => none
  | some v =>
    if v ≤ 31 then
      let id := BitVec.ofNat 5 v
      match storeBits t.ids offset 5 (id + 1#5).toNat with
      | none => none
      | some ids => some ({ ids }, id)
    else none

end Verif.Can
