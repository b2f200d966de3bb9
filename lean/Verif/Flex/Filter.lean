import Verif.Flex.Lemmas

/-!
Receive filters and the division of the memory into message buffers of the FlexCAN driver (`examples/s32k146_node/src/flexcan/fifo_legacy/filter.rs` and `blocks.rs`).
-/

namespace Verif.Flex

/-! ### Filters -/

/-- A word converted with `u32::to_be` and stored (`examples/s32k146_node/src/flexcan/fifo_legacy/filter.rs` L18, L23, L39, L70): its bytes in memory, whatever the byte order of the processor. -/
def toBe (w : BitVec 32) : List Byte := [(w >>> 24).setWidth 8, (w >>> 16).setWidth 8, (w >>> 8).setWidth 8, w.setWidth 8]

/-- `FilterA::standard` (`examples/s32k146_node/src/flexcan/fifo_legacy/filter.rs` L16-19). -/
def filterAStandard (id : BitVec 16) (rtr : Bool) : List Byte := toBe ((id.setWidth 32 &&& 0x7ff#32) <<< 19 ||| ofBool rtr <<< 31)

/-- `FilterA::extended` (`examples/s32k146_node/src/flexcan/fifo_legacy/filter.rs` L21-24). -/
def filterAExtended (id : BitVec 32) (rtr : Bool) : List Byte := toBe ((id &&& 0x1fffffff#32) <<< 1 ||| 1#32 <<< 30 ||| ofBool rtr <<< 31)

/-- `IdRtr` (`examples/s32k146_node/src/flexcan/fifo_legacy/filter.rs` L84-86). -/
structure IdRtr where
  id : Id
  rtr : Bool
deriving DecidableEq

/-- `filter_b_part` (`examples/s32k146_node/src/flexcan/fifo_legacy/filter.rs` L44-55). -/
def filterBPart (x : IdRtr) : BitVec 16 :=
  let bits : BitVec 16 := (if x.rtr then 1#16 else 0#16) <<< 15 ||| (if x.id.isExtended then 1#16 else 0#16) <<< 14
  if x.id.isExtended then bits ||| (x.id.bits >>> 15).setWidth 16 else bits ||| x.id.bits.setWidth 16 <<< 3

/-- `FilterB::two_ids` (`examples/s32k146_node/src/flexcan/fifo_legacy/filter.rs` L37-40). -/
def twoIds (a b : IdRtr) : List Byte := toBe ((filterBPart a).setWidth 32 <<< 16 ||| (filterBPart b).setWidth 32)

/-- `filter_c_part` (`examples/s32k146_node/src/flexcan/fifo_legacy/filter.rs` L74-82). -/
def filterCPart (id : Id) : BitVec 8 := if id.isExtended then (id.bits >>> 21).setWidth 8 else (id.bits >>> 3).setWidth 8

/-- `FilterC::four_ids` (`examples/s32k146_node/src/flexcan/fifo_legacy/filter.rs` L65-71). -/
def fourIds (a b c d : Id) : List Byte :=
  toBe ((filterCPart a).setWidth 32 <<< 24 ||| (filterCPart b).setWidth 32 <<< 16 ||| (filterCPart c).setWidth 32 <<< 8 ||| (filterCPart d).setWidth 32)

/-! ### Blocks of memory -/

/-- `MessageBufferSize` (`examples/s32k146_node/src/flexcan/blocks.rs` L118-129). -/
inductive BufferSize where
  | bytes8 | bytes16 | bytes32 | bytes64
deriving DecidableEq, Repr

/-- The configurations of memory (`examples/s32k146_node/src/flexcan/blocks.rs` L4-49): half a block, or one to four blocks, with a size for each. -/
inductive Blocks where
  | half (size : BufferSize)
  | one (size : BufferSize)
  | two (sizes : Vector BufferSize 2)
  | three (sizes : Vector BufferSize 3)
  | four (sizes : Vector BufferSize 4)

/-- `Blocks::BUFFER_BYTES` (`examples/s32k146_node/src/flexcan/blocks.rs` L80, L91, L98, L105, L112). -/
def Blocks.bufferBytes : Blocks → Nat
  | .half _ => 512 / 2
  | .one _ => 512
  | .two _ => 512 * 2
  | .three _ => 512 * 3
  | .four _ => 512 * 4

/-- `Blocks::buffer_sizes` (`examples/s32k146_node/src/flexcan/blocks.rs` L81-83, L92-94, L99-101, L106-108, L113-115). -/
def Blocks.bufferSizes : Blocks → List BufferSize
  | .half s => [s]
  | .one s => [s]
  | .two ss => ss.toList
  | .three ss => ss.toList
  | .four ss => ss.toList

/-- `MessageBufferSize::message_capacity_per_block` (`examples/s32k146_node/src/flexcan/blocks.rs` L142-145, L148-155). -/
def BufferSize.capacityPerBlock : BufferSize → Nat
  | .bytes8 => 32
  | .bytes16 => 21
  | .bytes32 => 12
  | .bytes64 => 7

/-- `Blocks::messages_per_buffer` (`examples/s32k146_node/src/flexcan/blocks.rs` L62-70; L85-87 for half a block). -/
def Blocks.messagesPerBuffer : Blocks → List Nat
  | .half s => [s.capacityPerBlock / 2, 0, 0, 0]
  | b => (b.bufferSizes.map BufferSize.capacityPerBlock ++ List.replicate 4 0).take 4

/-- `Blocks::total_messages` (`examples/s32k146_node/src/flexcan/blocks.rs` L73-75). -/
def Blocks.totalMessages (b : Blocks) : Nat := b.messagesPerBuffer.sum

end Verif.Flex
