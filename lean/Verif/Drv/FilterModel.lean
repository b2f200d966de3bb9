import Verif.Can.FilterModel
import Verif.Drv.Model

/-!
The hardware filters of the bxCAN and Linux drivers: `canadensis_bxcan/src/lib.rs` L217-250 and `canadensis_linux/src/lib.rs` L119-135. A panic is `none`.
-/

namespace Verif.Drv

open Verif.Can

/-- `bxcan::filter::Mask32` (a dependency, not in /repo): `frames_with_ext_id` and `accept_all`. -/
inductive BankFilter where
  | ext (id mask : BitVec 29)
  | all
deriving DecidableEq, Repr

/-- Whether a bank accepts a frame with this ID, as the manual of the controller says: the IDE bit is compared too, so a filter for extended IDs rejects standard frames. -/
def BankFilter.passes : BankFilter → BxId → Bool
  | .all, _ => true
  | .ext _ _, .standard _ => false
  | .ext id mask, .extended x => x &&& mask == id &&& mask

/-- The loop over the filters in `apply_filters` (`canadensis_bxcan/src/lib.rs` L231-235), from bank `i`: `ExtendedId::new` takes 29 bits, and `enable_bank` panics if there is no such bank. -/
def enableBanks (banks : Nat) : Nat → List FilterConfig.Filter → Option (List BankFilter)
  | _, [] => some []
  | i, f :: fs =>
    if f.id.toNat < 2 ^ 29 ∧ f.mask.toNat < 2 ^ 29 ∧ i % 256 < banks then (enableBanks banks (i + 1) fs).map (.ext (f.id.setWidth 29) (f.mask.setWidth 29) :: ·) else none

/-- `BxCanDriver::apply_filters` (`canadensis_bxcan/src/lib.rs` L217-242): the filters of the enabled banks. `banks` is `num_banks()`; `debug` and `oom` are those of `optimizeFilters`. -/
def bxApplyFilters (debug oom : Bool) (banks : Nat) (call : FilterCall) : Option (List BankFilter) :=
  match optimizeFilters debug oom call banks with
  | none => none
  | some (.ok out) => enableBanks banks 0 out
  | some (.error ()) => if 0 < banks then some [.all] else none

/-- `BxCanDriver::apply_accept_all` (`canadensis_bxcan/src/lib.rs` L244-249). -/
def bxAcceptAll (banks : Nat) : Option (List BankFilter) := if 0 < banks then some [.all] else none

/-- `usize::MAX` on 64-bit systems. -/
def usizeMax : Nat := 2 ^ 64 - 1

/-- `CAN_RAW_FILTER_MAX`: a SocketCAN socket takes at most this number of filters, and fails with `EINVAL` otherwise (`net/can/raw.c` and `include/uapi/linux/can/raw.h` in Linux, not in /repo). -/
def rawFilterMax : Nat := 512

/-- `LinuxCan::apply_filters` (`canadensis_linux/src/lib.rs` L119-131): the IDs and masks given to the socket. `limit` is the number of filters that the socket takes; both results are unwrapped. -/
def linuxApplyFilters (debug oom : Bool) (limit : Nat) (call : FilterCall) : Option (List (BitVec 32 × BitVec 32)) :=
  match optimizeFilters debug oom call usizeMax with
  | none => none
  | some (.ok out) => if out.length ≤ limit then some (out.map fun f => (f.id, f.mask)) else none
  | some (.error ()) => none

/-- The ID of an extended frame as Linux compares it: with the flag `CAN_EFF_FLAG` in bit 31. -/
def effId (id : BitVec 32) : BitVec 32 := id ||| 0x80000000#32

/-- Whether a socket with these filters receives a frame: `<received_can_id> & mask == can_id & mask` for some filter. -/
def socketPasses (filters : List (BitVec 32 × BitVec 32)) (canId : BitVec 32) : Bool := filters.any fun p => canId &&& p.2 == p.1 &&& p.2

end Verif.Drv
