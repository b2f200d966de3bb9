import Verif.Flex.Filter

/-! # The registers that the FlexCAN driver sets up

That a register holds what was written to it is the behaviour of the peripheral and is taken as given. -/

namespace Verif.Flex

/-- `FieldWriter::bits` (`examples/s32k146_node/src/flexcan/svd_generated/generic.rs` L277-281) with the mask of `WI`
ones. -/
def writeField (w : BitVec 32) (width offset : Nat) (value : BitVec 32) : BitVec 32 :=
  (w &&& ~~~((BitVec.allOnes 32 >>> (32 - width)) <<< offset)) ||| ((value &&& (BitVec.allOnes 32 >>> (32 - width))) <<< offset)

/-- `BitWriter::bit` (`examples/s32k146_node/src/flexcan/svd_generated/generic.rs` L384-388). -/
def writeBit (w : BitVec 32) (offset : Nat) (value : Bool) : BitVec 32 :=
  (w &&& ~~~(1#32 <<< offset)) ||| ((ofBool value &&& 1#32) <<< offset)

/-- `ResyncJumpWidth` (`examples/s32k146_node/src/flexcan/config.rs` L77-82). -/
inductive JumpWidth where
  | width1 | width2 | width3 | width4
deriving DecidableEq

/-- `ResyncJumpWidth::bits` (`examples/s32k146_node/src/flexcan/config.rs` L85-92). -/
def JumpWidth.bits : JumpWidth → BitVec 8
  | .width1 => 0 | .width2 => 1 | .width3 => 2 | .width4 => 3

/-- `SegmentLength` (`examples/s32k146_node/src/flexcan/config.rs` L96-105). -/
inductive SegmentLength where
  | length1 | length2 | length3 | length4 | length5 | length6 | length7 | length8
deriving DecidableEq

/-- `SegmentLength::bits` (`examples/s32k146_node/src/flexcan/config.rs` L108-119). -/
def SegmentLength.bits : SegmentLength → BitVec 8
  | .length1 => 0 | .length2 => 1 | .length3 => 2 | .length4 => 3
  | .length5 => 4 | .length6 => 5 | .length7 => 6 | .length8 => 7

/-- `PhaseSegment2Length` (`examples/s32k146_node/src/flexcan/config.rs` L123-131). -/
inductive Phase2Length where
  | length2 | length3 | length4 | length5 | length6 | length7 | length8
deriving DecidableEq

/-- `PhaseSegment2Length::bits` (`examples/s32k146_node/src/flexcan/config.rs` L134-144). -/
def Phase2Length.bits : Phase2Length → BitVec 8
  | .length2 => 1 | .length3 => 2 | .length4 => 3 | .length5 => 4 | .length6 => 5 | .length7 => 6 | .length8 => 7

/-- `StandardTiming` (`examples/s32k146_node/src/flexcan/config.rs` L62-75). -/
structure Timing where
  prescaler : BitVec 8
  /-- `NonZeroU8` -/
  nonzero : prescaler ≠ 0#8
  jumpWidth : JumpWidth
  propagation : SegmentLength
  phase1 : SegmentLength
  phase2 : Phase2Length

/-- CTRL1 after `init` (`examples/s32k146_node/src/flexcan/mod.rs` L110-116, L156-167): `write` starts from the value of a
reset, 0, and sets CLKSRC; `modify` starts from that. The places of the fields are in
`svd_generated/can/ctrl1.rs` L738-769, L693-694. -/
def ctrl1AfterInit (t : Timing) : BitVec 32 :=
  let w := writeBit 0#32 13 true
  let w := writeField w 8 24 ((t.prescaler - 1#8).setWidth 32)
  let w := writeField w 2 22 (t.jumpWidth.bits.setWidth 32)
  let w := writeField w 3 19 (t.phase1.bits.setWidth 32)
  let w := writeField w 3 16 (t.phase2.bits.setWidth 32)
  writeField w 3 0 (t.propagation.bits.setWidth 32)

/-- `MessageBufferSize::as_bits` (`examples/s32k146_node/src/flexcan/blocks.rs` L163-170) with the values of `Mbdsr`
(`svd_generated/can/fdctrl.rs` L122-128). -/
def BufferSize.asBits : BufferSize → BitVec 32
  | .bytes8 => 0 | .bytes16 => 1 | .bytes32 => 2 | .bytes64 => 3

/-- FDCTRL after `init` (`examples/s32k146_node/src/flexcan/mod.rs` L123-153): `write` starts from the value of a reset
without the bit that is cleared by writing a one (`svd_generated/can/fdctrl.rs` L333-349, L367-372). -/
def fdctrlAfterInit (b : Blocks) : BitVec 32 :=
  let size (i : Nat) := ((b.bufferSizes[i]?).getD .bytes8).asBits
  let w := 0x80000100#32 &&& ~~~0x4000#32
  let w := writeField w 2 16 (size 0)
  let w := writeField w 2 19 (size 1)
  let w := writeField w 2 22 (size 2)
  writeField w 2 25 (size 3)

/-- The memory of the buffer that `send` uses, whatever the configuration: number 8 of block 0 as an array of `Message8`
(`examples/s32k146_node/src/flexcan/mod.rs` L78, L256-263, L347-351; `buffer.rs` L138-145). -/
def sendSpace : Nat × Nat := (0x80 + 16 * 8, 0x80 + 16 * 8 + 16)

end Verif.Flex
