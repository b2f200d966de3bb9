import Verif.Basic

/-!
Instants and durations: `canadensis_core/src/time.rs` L14-24.

`Microseconds32` is `fugit::Instant<u32, 1, 1_000_000>`, a dependency that is not in /repo. What is written here is the
documented behaviour of that crate (wrapping 32-bit comparison); it is part of the trusted base.
-/

namespace Verif

/-- `Microseconds32` (`canadensis_core/src/time.rs` L24): 32-bit microsecond ticks that wrap. -/
abbrev Instant := BitVec 32

/-- `MicrosecondDuration32` (`canadensis_core/src/time.rs` L19). -/
abbrev Duration := BitVec 32

/-- `Instant < Instant` as fugit defines it: `a` is before `b` when the wrapped difference `a - b` exceeds half of the
range. Not in /repo (dependency). -/
def Instant.before (a b : Instant) : Bool := decide ((a - b).toNat > 2147483647)

/-- `Instant > Instant` as fugit defines it: different and not before. Not in /repo (dependency). -/
def Instant.after (a b : Instant) : Bool := a != b && !Instant.before a b

/-- `Instant + Duration` as fugit defines it: wrapping. Not in /repo (dependency). -/
def Instant.plus (a : Instant) (d : Duration) : Instant := a + d

/-- `Instant::checked_duration_since`: `None` when `a` is before `b`, otherwise the wrapped difference. Not in /repo
(dependency). -/
def Instant.checkedDurationSince (a b : Instant) : Option Duration :=
  if Instant.before a b then none else some (a - b)

/-- `Instant - Instant`: panics (`none`) when the left instant is before the right one. Not in /repo (dependency). -/
def Instant.sub? (a b : Instant) : Option Duration := Instant.checkedDurationSince a b

end Verif
