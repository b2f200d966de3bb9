import Verif.Can.IdModel

/-!
CAN frames and tail bytes: `canadensis_can/src/data.rs` and `canadensis_can/src/rx.rs` L619-635,
`canadensis_can/src/tx/breakdown.rs` L88-90.
-/

namespace Verif.Can

/-- `Frame` (`canadensis_can/src/data.rs` L95-106). `data` holds at most `FRAME_CAPACITY` bytes in the code; the model
puts no bound on it, so the theorems cover both the CAN and the CAN FD build. -/
structure Frame where
  timestamp : Instant
  id : BitVec 32
  loopback : Bool
  data : List Byte
deriving DecidableEq, Repr

/-- `TailByte` (`canadensis_can/src/rx.rs` L619-624). -/
structure TailByte where
  start : Bool
  end_ : Bool
  toggle : Bool
  transferId : Tid
deriving DecidableEq, Repr

/-- `TailByte::parse` (`canadensis_can/src/rx.rs` L627-634). `bits & 0x1f` is always a valid transfer ID, so the `expect`
cannot fire and the low five bits are taken directly. -/
def TailByte.parse (b : Byte) : TailByte :=
  { start := b.getLsbD 7, end_ := b.getLsbD 6, toggle := b.getLsbD 5, transferId := b.setWidth 5 }

/-- `make_tail_byte` (`canadensis_can/src/tx/breakdown.rs` L88-90). -/
def makeTailByte (start end_ toggle : Bool) (tid : Tid) : Byte :=
  ((BitVec.ofBool start).setWidth 8 <<< 7) ||| ((BitVec.ofBool end_).setWidth 8 <<< 6) |||
    ((BitVec.ofBool toggle).setWidth 8 <<< 5) ||| tid.setWidth 8

theorem parse_makeTailByte (s e t : Bool) (tid : Tid) :
    TailByte.parse (makeTailByte s e t tid) = { start := s, end_ := e, toggle := t, transferId := tid } := by
  revert s e t tid
  decide

end Verif.Can
