import Verif.Basic

/-!
Model of `canadensis_serial/src/cobs.rs`.
-/

namespace Verif.Cobs

/-- Local variables of `escape_from_iter`, canadensis_serial/src/cobs.rs L18-22, together with the destination slice. -/
structure EscState where
  destCurrent : Nat
  destCode : Nat
  code : Byte
  dest : List Byte
deriving DecidableEq, Repr

/-- `*destination.get_mut(i).ok_or(OutOfMemoryError)? = v`, canadensis_serial/src/cobs.rs L27-28, L36-37, L43-44, L50-51.
`none` is the `OutOfMemoryError` return. -/
def put (dest : List Byte) (i : Nat) (v : Byte) : Option (List Byte) :=
  if i < dest.length then some (dest.set i v) else none

/-- Body of the `for` loop of `escape_from_iter`, canadensis_serial/src/cobs.rs L25-47. -/
def escStep (s : EscState) (byte : Byte) : Option EscState :=
  if byte = 0#8 then do
    let d ← put s.dest s.destCode s.code
    some { dest := d, code := 1#8, destCode := s.destCurrent, destCurrent := s.destCurrent + 1 }
  else do
    let s ← if s.code = 0xff#8 then do
        let d ← put s.dest s.destCode s.code
        some { dest := d, code := 1#8, destCode := s.destCurrent, destCurrent := s.destCurrent + 1 }
      else some s
    let d ← put s.dest s.destCurrent byte
    some { s with dest := d, destCurrent := s.destCurrent + 1, code := s.code + 1#8 }

/-- The `for` loop of `escape_from_iter`, canadensis_serial/src/cobs.rs L24-48. -/
def escLoop (s : EscState) : List Byte → Option EscState
  | [] => some s
  | b :: bs => do
    let s ← escStep s b
    escLoop s bs

/-- `escape_from_iter`, canadensis_serial/src/cobs.rs L14-54.  Returns the number of bytes written and the destination slice
afterwards, or `none` for `Err(OutOfMemoryError)`. -/
def escapeFromIter (source dest : List Byte) : Option (Nat × List Byte) := do
  let s ← escLoop ⟨1, 0, 1#8, dest⟩ source
  let d ← put s.dest s.destCode s.code
  some (s.destCurrent, d)

/-- `struct Unescaper`, canadensis_serial/src/cobs.rs L56-62. -/
structure Unescaper where
  bytesToCopy : Byte
  pendingZero : Bool
deriving DecidableEq, Repr

/-- `Unescaper::new`, canadensis_serial/src/cobs.rs L65-70. -/
def Unescaper.new : Unescaper := ⟨0#8, false⟩

/-- `Unescaper::accept`, canadensis_serial/src/cobs.rs L72-85.  `none` is `Err(DecodeZeroError)`; otherwise the optional byte produced and the
new state. -/
def Unescaper.accept (u : Unescaper) (byte : Byte) : Option (Option Byte × Unescaper) :=
  if byte = 0#8 then none
  else if u.bytesToCopy = 0#8 then
    some (if u.pendingZero then some 0#8 else none, ⟨byte - 1#8, decide (byte < 0xff#8)⟩)
  else some (some byte, { u with bytesToCopy := u.bytesToCopy - 1#8 })

/-- Feeding an `Unescaper` (canadensis_serial/src/cobs.rs L72-85) with all bytes of a list, collecting its output. -/
def Unescaper.run (u : Unescaper) : List Byte → Option (List Byte × Unescaper)
  | [] => some ([], u)
  | b :: bs => do
    let (o, u) ← u.accept b
    let (os, u) ← u.run bs
    some (o.toList ++ os, u)

/-- `escaped_size`, canadensis_serial/src/cobs.rs L89-97. -/
def escapedSize (rawSize : Nat) : Nat :=
  if rawSize = 0 then 1 else rawSize + (rawSize + 253) / 254

end Verif.Cobs
